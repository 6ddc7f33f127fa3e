import Verif.Model.Dns

/-!
# Names, addresses and own addresses — what is expected
-/

namespace Verif.DnsSpec

open Verif.Dns

variable {A : Type}

/-- `u` is not later than `now` and less than `w` seconds before it. -/
def Within (w now u : Int) : Prop := now - w < u ∧ u ≤ now

/-- The address is one of a name at time `u`, IPv6 asked for or not. -/
def AddressOf (net : Net A) (u : Int) (n : Name) (six : Bool) (a : A) : Prop :=
  a ∈ net.resolve u n false ∨ (six = true ∧ a ∈ net.resolve u n true)

/-- The list is the answer of the resolver at time `u`. -/
def Answer (net : Net A) (u : Int) (n : Name) (six : Bool) (l : List A) : Prop := ∀ a, a ∈ l ↔ AddressOf net u n six a

/-- The address is one of an interface at time `u`, and no interface is without address. -/
def OnInterface (net : Net A) (u : Int) (a : A) : Prop := ∃ l, net.ifaddrs u = some l ∧ .addr a ∈ l ∧ .null ∉ l

/-- Full name of the host at time `u`: a canonical name that begins with the short one and a dot, else the first canonical one; the
one of Python if the resolver fails or the short name is unknown. -/
def FullName (net : Net A) (u : Int) (n : Name) : Prop :=
  (∃ h l, net.hostname u = some h ∧ net.canonical u h = some l ∧
    ((∃ p a q, l = p ++ a :: q ∧ n = some a ∧ (∃ r, a.toList = h.toList ++ '.' :: r) ∧ ∀ x ∈ p, ¬∃ r, x.toList = h.toList ++ '.' :: r) ∨
     ((∀ x ∈ l, ¬∃ r, x.toList = h.toList ++ '.' :: r) ∧ n = l.head?))) ∨
  (∃ h f, net.hostname u = some h ∧ net.canonical u h = none ∧ net.pyFqdn u h = some f ∧ n = some f) ∨
  (∃ f, net.hostname u = none ∧ net.pyFqdn u "" = some f ∧ n = some f)

/-- The name of the host: full or short name, the other one if there is none, empty if there is neither. -/
def OwnName (net : Net A) (u : Int) (fqdn : Bool) (n : Name) : Prop :=
  if fqdn then FullName net u n ∨ ((¬∃ m, FullName net u m) ∧ n = some ((net.hostname u).getD ""))
  else (∃ h, net.hostname u = some h ∧ n = some h) ∨
    (net.hostname u = none ∧ (FullName net u n ∨ ((¬∃ m, FullName net u m) ∧ n = some "")))

/-- The own names, with names of the host not older than `w` seconds. -/
def OwnNames (net : Net A) (w now : Int) (names : List Name) : Prop :=
  ∃ u1 u2 short full, Within w now u1 ∧ Within w now u2 ∧ OwnName net u1 false short ∧ OwnName net u2 true full ∧
    ∀ n, n ∈ names ↔ (n = some "localhost" ∨ n = short ∨ n = full) ∧ n ≠ some ""

/-- The own addresses: those of the interfaces and those of the own names, from times given by the ages `wi`, `wr` (resolver), `wn`
(names). The families asked for satisfy `P`. -/
def OwnAddresses (P : Bool → Prop) (net : Net A) (wi wr wn now : Int) (l : List A) : Prop :=
  ∃ u names, ∃ at_ : Name → Int × Bool, Within wi now u ∧ OwnNames net wn now names ∧
    (∀ n ∈ names, Within wr now (at_ n).1 ∧ P (at_ n).2) ∧
    ∀ a, a ∈ l ↔ OnInterface net u a ∨ ∃ n ∈ names, AddressOf net (at_ n).1 n (at_ n).2 a

/-- IPv6 is allowed or not if there is no setting: what the system said at some time less than five minutes ago; if it said nothing,
whether there was an IPv6 address on the interfaces; if there was no address, whether there was one among the own addresses. -/
def Detected (net : Net A) (now : Int) (b : Bool) : Prop :=
  ∃ u, Within 300 now u ∧
    (net.system6 u = some b ∨
     (net.system6 u = none ∧ ∃ v, Within 300 u v ∧
      (((∃ a, OnInterface net v a) ∧ (b = true ↔ ∃ a, OnInterface net v a ∧ net.six a = true)) ∨
       ((¬∃ a, OnInterface net v a) ∧ ∃ l, OwnAddresses (fun _ => True) net 600 600 900 u l ∧ (b = true ↔ ∃ a ∈ l, net.six a = true)))))

/-- Calls in the order of time, the last one not after `now`. -/
def InOrder (now : Int) : List (Int × Op) → Prop
  | [] => True
  | [c] => c.1 ≤ now
  | c :: d :: l => c.1 ≤ d.1 ∧ InOrder now (d :: l)

end Verif.DnsSpec
