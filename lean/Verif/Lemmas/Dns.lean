import Verif.Spec.Dns
import Verif.Props.Cache

set_option linter.unusedSimpArgs false

/-!
# Names, addresses and own addresses — invariant
-/

namespace Verif.Dns

open Verif Verif.DnsSpec Verif.Cache

variable {A : Type}

/-! ## What is asked -/

theorem within_now (w now : Int) (h : 0 < w) : Within w now now := ⟨by omega, Int.le_refl _⟩

theorem within_trans {a b x y z : Int} (h1 : Within a x y) (h2 : Within b y z) : Within (a + b) x z := by
  unfold Within at *; omega

theorem within_mono {a b x y : Int} (h : a ≤ b) (h1 : Within a x y) : Within b x y := by unfold Within at *; omega

theorem mem_families (net : Net A) (t : Int) (n : Name) (b : Bool) : Answer net t n b (families net t n b) := by
  intro a
  unfold families AddressOf
  cases b <;> simp

theorem mem_addrs (l : List (IfAddr A)) (a : A) : a ∈ (addrs l).getD [] ↔ .addr a ∈ l ∧ .null ∉ l := by
  have key : (IfAddr.null ∈ l → addrs l = none) ∧ (IfAddr.null ∉ l → ∃ m, addrs l = some m ∧ ∀ a, a ∈ m ↔ .addr a ∈ l) := by
    induction l with
    | nil => exact ⟨by simp, fun _ => ⟨[], rfl, by simp⟩⟩
    | cons x l ih =>
      cases x with
      | null => exact ⟨fun _ => rfl, by simp⟩
      | other =>
        refine ⟨fun h => ih.1 (by simpa using h), fun h => ?_⟩
        obtain ⟨m, h1, h2⟩ := ih.2 (by simpa using h)
        exact ⟨m, h1, by simpa using h2⟩
      | addr x =>
        refine ⟨fun h => ?_, fun h => ?_⟩
        · show (addrs l).map _ = none
          rw [ih.1 (by simpa using h)]; rfl
        · obtain ⟨m, h1, h2⟩ := ih.2 (by simpa using h)
          refine ⟨x :: m, ?_, ?_⟩
          · show (addrs l).map _ = _
            rw [h1]; rfl
          · intro a; simp [h2]
  by_cases h : IfAddr.null ∈ l
  · rw [key.1 h]; simp [h]
  · obtain ⟨m, h1, h2⟩ := key.2 h
    rw [h1]; simp [h, h2]

theorem mem_interfaces (net : Net A) (t : Int) (a : A) : a ∈ interfaces net t ↔ OnInterface net t a := by
  unfold interfaces OnInterface
  cases net.ifaddrs t with
  | none => simp
  | some l => simpa using mem_addrs l a

theorem isPrefixOf_dot (h x : List Char) : (h ++ ['.']).isPrefixOf x = true ↔ ∃ r, x = h ++ '.' :: r := by
  rw [List.isPrefixOf_iff_prefix]
  constructor
  · rintro ⟨r, rfl⟩; exact ⟨r, by simp⟩
  · rintro ⟨r, rfl⟩; exact ⟨r, by simp⟩

theorem prefer_spec (h : List Char) (l : List String) (n : Name) :
    prefer (h ++ ['.']) l = n ↔
    ((∃ p a q, l = p ++ a :: q ∧ n = some a ∧ (∃ r, a.toList = h ++ '.' :: r) ∧ ∀ x ∈ p, ¬∃ r, x.toList = h ++ '.' :: r) ∨
     ((∀ x ∈ l, ¬∃ r, x.toList = h ++ '.' :: r) ∧ n = l.head?)) := by
  unfold prefer
  cases e : l.find? (fun a => (h ++ ['.']).isPrefixOf a.toList) with
  | none =>
    have hn : ∀ x ∈ l, ¬∃ r, x.toList = h ++ '.' :: r := by
      intro x hx hr
      have := List.find?_eq_none.1 e x hx
      exact this ((isPrefixOf_dot h x.toList).2 hr)
    constructor
    · intro hh; exact .inr ⟨hn, hh.symm⟩
    · rintro (⟨p, a, q, rfl, _, ha, _⟩ | ⟨_, hh⟩)
      · exact absurd ha (hn a (by simp))
      · exact hh.symm
  | some a =>
    have h1 : (h ++ ['.']).isPrefixOf a.toList = true := by simpa using List.find?_some (p := fun a : String => (h ++ ['.']).isPrefixOf a.toList) e
    obtain ⟨_, p, q, hl, hp⟩ := List.find?_eq_some_iff_append.1 e
    have hp' : ∀ x ∈ p, ¬∃ r, x.toList = h ++ '.' :: r := by
      intro x hx hr
      have := hp x hx
      rw [(isPrefixOf_dot h x.toList).2 hr] at this
      exact absurd this (by decide)
    constructor
    · intro hh
      exact .inl ⟨p, a, q, hl, hh.symm, (isPrefixOf_dot h a.toList).1 h1, hp'⟩
    · rintro (⟨p', a', q', hl', hn, ha', hpp⟩ | ⟨hn, _⟩)
      · have hf : l.find? (fun a => (h ++ ['.']).isPrefixOf a.toList) = some a' := by
          rw [List.find?_eq_some_iff_append]
          refine ⟨(isPrefixOf_dot h a'.toList).2 ha', p', q', hl', fun x hx => ?_⟩
          cases hx' : (h ++ ['.']).isPrefixOf x.toList with
          | false => rfl
          | true => exact absurd ((isPrefixOf_dot h x.toList).1 hx') (hpp x hx)
        rw [e] at hf
        rw [hn]; exact hf
      · exact absurd ((isPrefixOf_dot h a.toList).1 h1) (hn a (by rw [hl]; simp))

theorem getfqdn_spec (net : Net A) (t : Int) (n : Name) : getfqdn net t = some n ↔ FullName net t n := by
  unfold getfqdn FullName
  cases h1 : net.hostname t with
  | none =>
    cases net.pyFqdn t "" <;> simp [eq_comm]
  | some h =>
    cases h2 : net.canonical t h with
    | none =>
      simp only [h2]
      cases h3 : net.pyFqdn t h <;> simp [h2, h3, eq_comm]
    | some l =>
      simp only [h2, Option.some.injEq]
      rw [prefer_spec]
      simp [h2]

theorem getfqdn_none (net : Net A) (t : Int) : getfqdn net t = none ↔ ¬∃ m, FullName net t m := by
  cases h : getfqdn net t with
  | none => simp only [true_iff]; rintro ⟨m, hm⟩; rw [← getfqdn_spec, h] at hm; cases hm
  | some m => simp only [reduceCtorEq, false_iff, Classical.not_not]; exact ⟨m, (getfqdn_spec net t m).1 h⟩

theorem ownName_spec (net : Net A) (t : Int) (f : Bool) : OwnName net t f (ownName net t f) := by
  unfold OwnName ownName
  cases f
  · simp only [Bool.false_eq_true, if_false]
    cases h : net.hostname t with
    | some x => left; exact ⟨x, rfl, rfl⟩
    | none =>
      right
      refine ⟨rfl, ?_⟩
      cases h2 : getfqdn net t with
      | none => right; exact ⟨(getfqdn_none net t).1 h2, rfl⟩
      | some m => left; exact (getfqdn_spec net t m).1 h2
  · simp only [if_true]
    cases h2 : getfqdn net t with
    | none =>
      right; refine ⟨(getfqdn_none net t).1 h2, ?_⟩
      cases net.hostname t <;> rfl
    | some m => left; exact (getfqdn_spec net t m).1 h2

/-! ## Entries of the caches -/

/-- The value of a flag stored at time `u`: what the system said, or what the own addresses look like. -/
def SixAt (P : Bool → Prop) (net : Net A) (u : Int) (b : Bool) : Prop :=
  net.system6 u = some b ∨
  (net.system6 u = none ∧ ∃ l : List A, b = l.any net.six ∧
    ((l ≠ [] ∧ ∃ v, Within 300 u v ∧ l = interfaces net v) ∨
      ((∃ v, Within 300 u v ∧ interfaces net v = []) ∧ OwnAddresses P net 600 600 900 u l)))

/-- What an entry stored at time `u` says. -/
def GoodN (P : Bool → Prop) (net : Net A) (u : Int) : NKey → NVal A → Prop
  | .name n, .ips l => ∃ b, P b ∧ l = families net u n b
  | .interfaces, .ips l => l = interfaces net u
  | .selfIps, .ips l => OwnAddresses P net 300 300 600 u l
  | .ipv6, .flag b => SixAt P net u b
  | _, _ => False

/-- What an entry stored at time `u` says. -/
def GoodH (net : Net A) (u : Int) : HKey → HVal → Prop
  | .ip s, .name n => n = net.reverse u s
  | .host f, .name n => OwnName net u f n
  | .self, .names l => OwnNames net 300 u l ∧ l.Nodup
  | _, _ => False

/-- Entries are right for the time they were stored, the setting is one with `P`. -/
structure Inv (P : Bool → Prop) (net : Net A) (now : Int) (s : St A) : Prop where
  nttl : s.names.maxTime = 300
  httl : s.hosts.maxTime = 300
  names : ∀ k v e, s.names.cache.get? k = some (v, e) → e ≤ now + 300 ∧ GoodN P net (e - 300) k v
  hosts : ∀ k v e, s.hosts.cache.get? k = some (v, e) → e ≤ now + 300 ∧ GoodH net (e - 300) k v
  some_ : ∀ b, s.setting = some b → P b
  none_ : s.setting = none → ∀ b, P b

theorem Inv.later {P : Bool → Prop} {net : Net A} {now now' : Int} {s : St A} (h : Inv P net now s) (hn : now ≤ now') :
    Inv P net now' s :=
  ⟨h.nttl, h.httl, fun k v e he => ⟨by have := (h.names k v e he).1; omega, (h.names k v e he).2⟩,
    fun k v e he => ⟨by have := (h.hosts k v e he).1; omega, (h.hosts k v e he).2⟩, h.some_, h.none_⟩

theorem inv_init (P : Bool → Prop) (net : Net A) (now : Int) (v : Option Bool) (h1 : ∀ b, v = some b → P b) (h2 : v = none → ∀ b, P b) :
    Inv P net now (init v) := ⟨rfl, rfl, (by intro k v e h; cases h), (by intro k v e h; cases h), h1, h2⟩

theorem get_sub {K V : Type} [DecidableEq K] (c : Cache K V) (t : Int) (k : K) :
    (c.get t k).2.maxTime = c.maxTime ∧ ∀ j w, (c.get t k).2.cache.get? j = some w → c.cache.get? j = some w := by
  rcases get_state c t k with h | ⟨h, _⟩
  · rw [h]; exact ⟨rfl, fun _ _ => id⟩
  · rw [h]
    refine ⟨rfl, fun j w hj => ?_⟩
    unfold Cache.unset at hj
    dsimp only at hj
    rw [Dict.get?_erase] at hj
    split at hj
    · cases hj
    · exact hj

theorem lookup_some {K V : Type} [DecidableEq K] (c : Cache K V) (t : Int) (k : K) (v : V) (h : (c.get t k).1 = some v) :
    ∃ e, c.cache.get? k = some (v, e) ∧ t < e := by
  rw [get_fst] at h
  unfold Cache.lookup at h
  cases hg : c.cache.get? k with
  | none => rw [hg] at h; cases h
  | some w =>
    rw [hg] at h
    dsimp only at h
    split at h
    · rename_i hl
      exact ⟨w.2, by cases h; rfl, hl⟩
    · cases h

theorem inv_getN {P : Bool → Prop} {net : Net A} {t : Int} {s : St A} (h : Inv P net t s) (k : NKey) :
    Inv P net t (getN t s k).2 ∧ ∀ v, (getN t s k).1 = some v → ∃ u, Within 300 t u ∧ GoodN P net u k v := by
  refine ⟨⟨(get_sub s.names t k).1.trans h.nttl, h.httl, fun j v e he => h.names j v e ((get_sub s.names t k).2 j _ he), h.hosts, h.some_,
    h.none_⟩, fun v hv => ?_⟩
  obtain ⟨e, he, hl⟩ := lookup_some s.names t k v hv
  obtain ⟨h1, h2⟩ := h.names k v e he
  exact ⟨e - 300, ⟨by omega, by omega⟩, h2⟩

theorem inv_getH {P : Bool → Prop} {net : Net A} {t : Int} {s : St A} (h : Inv P net t s) (k : HKey) :
    Inv P net t (getH t s k).2 ∧ ∀ v, (getH t s k).1 = some v → ∃ u, Within 300 t u ∧ GoodH net u k v := by
  refine ⟨⟨h.nttl, (get_sub s.hosts t k).1.trans h.httl, h.names, fun j v e he => h.hosts j v e ((get_sub s.hosts t k).2 j _ he), h.some_,
    h.none_⟩, fun v hv => ?_⟩
  obtain ⟨e, he, hl⟩ := lookup_some s.hosts t k v hv
  obtain ⟨h1, h2⟩ := h.hosts k v e he
  exact ⟨e - 300, ⟨by omega, by omega⟩, h2⟩

theorem inv_setN {P : Bool → Prop} {net : Net A} {t : Int} {s : St A} (h : Inv P net t s) (k : NKey) (v : NVal A) (hv : GoodN P net t k v) :
    Inv P net t (setN t s k v) := by
  refine ⟨h.nttl, h.httl, fun j w e he => ?_, h.hosts, h.some_, h.none_⟩
  rcases set_get s.names t k j v (w, e) he with ⟨rfl, hw⟩ | ⟨_, hw⟩
  · cases hw
    rw [h.nttl]
    refine ⟨Int.le_refl _, ?_⟩
    rw [show t + 300 - 300 = t by omega]; exact hv
  · exact h.names j w e hw

theorem inv_setH {P : Bool → Prop} {net : Net A} {t : Int} {s : St A} (h : Inv P net t s) (k : HKey) (v : HVal) (hv : GoodH net t k v) :
    Inv P net t (setH t s k v) := by
  refine ⟨h.nttl, h.httl, h.names, fun j w e he => ?_, h.some_, h.none_⟩
  rcases set_get s.hosts t k j v (w, e) he with ⟨rfl, hw⟩ | ⟨_, hw⟩
  · cases hw
    rw [h.httl]
    refine ⟨Int.le_refl _, ?_⟩
    rw [show t + 300 - 300 = t by omega]; exact hv
  · exact h.hosts j w e hw

/-! ## Functions -/

theorem nodup_eraseDups_aux (k : Nat) : ∀ l : List Name, l.length ≤ k → l.eraseDups.Nodup := by
  induction k with
  | zero => intro l h; cases l with
    | nil => exact List.nodup_nil
    | cons _ _ => simp at h
  | succ k ih =>
    intro l h
    cases l with
    | nil => exact List.nodup_nil
    | cons a l =>
      rw [List.eraseDups_cons, List.nodup_cons]
      refine ⟨?_, ih _ ?_⟩
      · rw [List.mem_eraseDups, List.mem_filter]; simp
      · have := List.length_filter_le (fun b => !b == a) l
        simp only [List.length_cons] at h
        omega

theorem nodup_eraseDups (l : List Name) : l.eraseDups.Nodup := nodup_eraseDups_aux l.length l (Nat.le_refl _)

theorem asIps_some {v : Option (NVal A)} {l : List A} (h : asIps v = some l) : v = some (.ips l) := by
  cases v with
  | none => cases h
  | some v => cases v <;> cases h; rfl

theorem asFlag_some {v : Option (NVal A)} {b : Bool} (h : asFlag v = some b) : v = some (.flag b) := by
  cases v with
  | none => cases h
  | some v => cases v <;> cases h; rfl

theorem asName_some {v : Option HVal} {n : Name} (h : asName v = some n) : v = some (.name n) := by
  cases v with
  | none => cases h
  | some v => cases v <;> cases h; rfl

theorem asNames_some {v : Option HVal} {l : List Name} (h : asNames v = some l) : v = some (.names l) := by
  cases v with
  | none => cases h
  | some v => cases v <;> cases h; rfl

/-- `IPv6IsAllowed` keeps the invariant, its result has `P`. -/
def Allows (P : Bool → Prop) (net : Net A) (t : Int) (allowed : St A → Bool × St A) : Prop :=
  ∀ s, Inv P net t s → Inv P net t (allowed s).2 ∧ P (allowed s).1

theorem inv_dnsToIp {P : Bool → Prop} {net : Net A} {t : Int} {allowed : St A → Bool × St A} (ha : Allows P net t allowed) {s : St A}
    (h : Inv P net t s) (n : Name) :
    Inv P net t (dnsToIpWith net allowed t s n).2 ∧ ∃ u b, Within 300 t u ∧ P b ∧ (dnsToIpWith net allowed t s n).1 = families net u n b := by
  unfold dnsToIpWith
  dsimp only
  obtain ⟨i1, i2⟩ := inv_getN h (.name n)
  cases hc : asIps (getN t s (.name n)).1 with
  | some l =>
    obtain ⟨u, hu, hg⟩ := i2 _ (asIps_some hc)
    obtain ⟨b, hb, hl⟩ := hg
    exact ⟨i1, u, b, hu, hb, hl⟩
  | none =>
    obtain ⟨a1, a2⟩ := ha _ i1
    exact ⟨inv_setN a1 _ _ ⟨_, a2, rfl⟩, t, _, within_now 300 t (by decide), a2, rfl⟩

theorem inv_ipToName {P : Bool → Prop} {net : Net A} {t : Int} {s : St A} (h : Inv P net t s) (ip : String) :
    Inv P net t (ipToName net t s ip).2 ∧ ∃ u, Within 300 t u ∧ (ipToName net t s ip).1 = net.reverse u ip := by
  unfold ipToName
  dsimp only
  obtain ⟨i1, i2⟩ := inv_getH h (.ip ip)
  cases hc : asName (getH t s (.ip ip)).1 with
  | some n =>
    obtain ⟨u, hu, hg⟩ := i2 _ (asName_some hc)
    exact ⟨i1, u, hu, hg⟩
  | none => exact ⟨inv_setH i1 _ _ rfl, t, within_now 300 t (by decide), rfl⟩

theorem inv_getHostname {P : Bool → Prop} {net : Net A} {t : Int} {s : St A} (h : Inv P net t s) (f : Bool) :
    Inv P net t (getHostname net t s f).2 ∧ ∃ u, Within 300 t u ∧ OwnName net u f (getHostname net t s f).1 := by
  unfold getHostname
  dsimp only
  obtain ⟨i1, i2⟩ := inv_getH h (.host f)
  have miss : Inv P net t (setH t (getH t s (.host f)).2 (.host f) (.name (ownName net t f))) ∧
      ∃ u, Within 300 t u ∧ OwnName net u f (ownName net t f) :=
    ⟨inv_setH i1 _ _ (ownName_spec net t f), t, within_now 300 t (by decide), ownName_spec net t f⟩
  cases hc : asName (getH t s (.host f)).1 with
  | none => exact miss
  | some n =>
    cases n with
    | none => exact miss
    | some n =>
      obtain ⟨u, hu, hg⟩ := i2 _ (asName_some hc)
      exact ⟨i1, u, hu, hg⟩

theorem inv_getSelfNames {P : Bool → Prop} {net : Net A} {t : Int} {s : St A} (h : Inv P net t s) :
    Inv P net t (getSelfNames net t s).2 ∧ OwnNames net 600 t (getSelfNames net t s).1 ∧ (getSelfNames net t s).1.Nodup := by
  unfold getSelfNames
  dsimp only
  obtain ⟨i1, i2⟩ := inv_getH h .self
  cases hc : asNames (getH t s .self).1 with
  | some l =>
    obtain ⟨u, hu, hg⟩ := i2 _ (asNames_some hc)
    obtain ⟨⟨u1, u2, x, y, h1, h2, h3⟩, h4⟩ := hg
    exact ⟨i1, ⟨u1, u2, x, y, within_trans hu h1, within_trans hu h2, h3⟩, h4⟩
  | none =>
    obtain ⟨a1, u1, a2, a3⟩ := inv_getHostname i1 false
    obtain ⟨b1, u2, b2, b3⟩ := inv_getHostname a1 true
    generalize hx : (getHostname net t (getH t s .self).2 false).1 = x at a3
    generalize hy : (getHostname net t (getHostname net t (getH t s .self).2 false).2 true).1 = y at b3
    have hn : OwnNames net 300 t (([some "localhost", x, y].filter (fun n => decide (n ≠ some ""))).eraseDups) := by
      refine ⟨u1, u2, x, y, a2, b2, a3, b3, fun n => ?_⟩
      rw [List.mem_eraseDups, List.mem_filter]
      simp
    refine ⟨inv_setH b1 _ _ ⟨hn, nodup_eraseDups _⟩, ?_, nodup_eraseDups _⟩
    obtain ⟨u1, u2, x, y, h1, h2, h3⟩ := hn
    exact ⟨u1, u2, x, y, within_mono (by decide) h1, within_mono (by decide) h2, h3⟩

theorem inv_getNetIntrfIPs {P : Bool → Prop} {net : Net A} {t : Int} {s : St A} (h : Inv P net t s) :
    Inv P net t (getNetIntrfIPs net t s).2 ∧ ∃ u, Within 300 t u ∧ (getNetIntrfIPs net t s).1 = interfaces net u := by
  unfold getNetIntrfIPs
  dsimp only
  obtain ⟨i1, i2⟩ := inv_getN h .interfaces
  cases hc : asIps (getN t s .interfaces).1 with
  | some l =>
    obtain ⟨u, hu, hg⟩ := i2 _ (asIps_some hc)
    exact ⟨i1, u, hu, hg⟩
  | none => exact ⟨inv_setN i1 _ _ rfl, t, within_now 300 t (by decide), rfl⟩

theorem inv_selfLoop {P : Bool → Prop} {net : Net A} {t : Int} {allowed : St A → Bool × St A} (ha : Allows P net t allowed)
    (ns : List Name) : ∀ (l : List A) (s : St A), ns.Nodup → Inv P net t s →
    Inv P net t (selfLoop net allowed t ns l s).2 ∧ ∃ at_ : Name → Int × Bool, (∀ n ∈ ns, Within 300 t (at_ n).1 ∧ P (at_ n).2) ∧
      ∀ a, a ∈ (selfLoop net allowed t ns l s).1 ↔ a ∈ l ∨ ∃ n ∈ ns, AddressOf net (at_ n).1 n (at_ n).2 a := by
  induction ns with
  | nil => exact fun l s _ h => ⟨h, fun _ => (0, true), by simp, by simp [selfLoop]⟩
  | cons n ns ih =>
    intro l s hd h
    obtain ⟨hd1, hd2⟩ := List.nodup_cons.1 hd
    obtain ⟨i1, u, b, hu, hb, he⟩ := inv_dnsToIp ha h n
    obtain ⟨j1, at_, j2, j3⟩ := ih (l ++ (dnsToIpWith net allowed t s n).1) (dnsToIpWith net allowed t s n).2 hd2 i1
    refine ⟨j1, fun m => if m = n then (u, b) else at_ m, ?_, ?_⟩
    · intro m hm
      by_cases e : m = n
      · simp only [e, if_true]; exact ⟨hu, hb⟩
      · simp only [e, if_false]
        exact j2 m ((List.mem_cons.1 hm).resolve_left e)
    · intro a
      have hs : selfLoop net allowed t (n :: ns) l s =
        selfLoop net allowed t ns (l ++ (dnsToIpWith net allowed t s n).1) (dnsToIpWith net allowed t s n).2 := rfl
      rw [hs, j3 a, List.mem_append, he, mem_families net u n b a]
      constructor
      · rintro ((h1 | h1) | ⟨m, hm, h1⟩)
        · exact .inl h1
        · exact .inr ⟨n, List.mem_cons_self, by simpa using h1⟩
        · have e : m ≠ n := by rintro rfl; exact hd1 hm
          exact .inr ⟨m, List.mem_cons_of_mem _ hm, by simpa [e] using h1⟩
      · rintro (h1 | ⟨m, hm, h1⟩)
        · exact .inl (.inl h1)
        · by_cases e : m = n
          · subst e; exact .inl (.inr (by simpa using h1))
          · exact .inr ⟨m, (List.mem_cons.1 hm).resolve_left e, by simpa [e] using h1⟩

theorem own_older {P : Bool → Prop} {net : Net A} {a b c t u : Int} {l : List A} (hu : Within 300 t u) (h : OwnAddresses P net a b c u l) :
    OwnAddresses P net (300 + a) (300 + b) (300 + c) t l := by
  obtain ⟨v, names, at_, h1, ⟨u1, u2, x, y, n1, n2, n3⟩, h3, h4⟩ := h
  exact ⟨v, names, at_, within_trans hu h1, ⟨u1, u2, x, y, within_trans hu n1, within_trans hu n2, n3⟩,
    fun n hn => ⟨within_trans hu (h3 n hn).1, (h3 n hn).2⟩, h4⟩

theorem own_mono {P : Bool → Prop} {net : Net A} {a b c a' b' c' t : Int} {l : List A} (ha : a ≤ a') (hb : b ≤ b') (hc : c ≤ c')
    (h : OwnAddresses P net a b c t l) : OwnAddresses P net a' b' c' t l := by
  obtain ⟨v, names, at_, h1, ⟨u1, u2, x, y, n1, n2, n3⟩, h3, h4⟩ := h
  exact ⟨v, names, at_, within_mono ha h1, ⟨u1, u2, x, y, within_mono hc n1, within_mono hc n2, n3⟩,
    fun n hn => ⟨within_mono hb (h3 n hn).1, (h3 n hn).2⟩, h4⟩

theorem inv_selfIps {P : Bool → Prop} {net : Net A} {t : Int} {allowed : St A → Bool × St A} (ha : Allows P net t allowed) {s : St A}
    (h : Inv P net t s) :
    Inv P net t (selfIpsWith net allowed t s).2 ∧ OwnAddresses P net 600 600 900 t (selfIpsWith net allowed t s).1 := by
  unfold selfIpsWith
  dsimp only
  obtain ⟨i1, i2⟩ := inv_getN h .selfIps
  cases hc : asIps (getN t s .selfIps).1 with
  | some l =>
    obtain ⟨u, hu, hg⟩ := i2 _ (asIps_some hc)
    exact ⟨i1, own_older hu hg⟩
  | none =>
    dsimp only
    obtain ⟨a1, u, a2, a3⟩ := inv_getNetIntrfIPs i1
    obtain ⟨b1, b2, b3⟩ := inv_getSelfNames a1
    obtain ⟨c1, at_, c2, c3⟩ := inv_selfLoop ha _ (getNetIntrfIPs net t (getN t s .selfIps).2).1 _ b3 b1
    have ho : OwnAddresses P net 300 300 600 t (selfLoop net allowed t (getSelfNames net t (getNetIntrfIPs net t (getN t s .selfIps).2).2).1
        (getNetIntrfIPs net t (getN t s .selfIps).2).1 (getSelfNames net t (getNetIntrfIPs net t (getN t s .selfIps).2).2).2).1 := by
      refine ⟨u, _, at_, a2, b2, c2, fun a => ?_⟩
      rw [c3 a, a3, mem_interfaces]
    exact ⟨inv_setN c1 _ _ ho, own_mono (by decide) (by decide) (by decide) ho⟩

theorem allows_setOnly (P : Bool → Prop) (net : Net A) (t : Int) : Allows P net t setOnly := by
  intro s h
  refine ⟨h, ?_⟩
  unfold setOnly
  cases hs : s.setting with
  | none => exact h.none_ hs _
  | some b => exact h.some_ b hs

theorem inv_detect {P : Bool → Prop} {net : Net A} {t : Int} {s : St A} (hp : ∀ b, P b) (h : Inv P net t s) :
    Inv P net t (detect net t id s).2 ∧ OwnAddresses P net 600 600 900 t (detect net t id s).1 := by
  have h' : Inv P net t { s with setting := some true } := ⟨h.nttl, h.httl, h.names, h.hosts, fun b _ => hp b, fun _ => hp⟩
  obtain ⟨i1, i2⟩ := inv_selfIps (allows_setOnly P net t) h'
  exact ⟨⟨i1.nttl, i1.httl, i1.names, i1.hosts, fun b _ => hp b, fun _ => hp⟩, i2⟩

theorem inv_guess {P : Bool → Prop} {net : Net A} {t : Int} {s : St A} (hp : ∀ b, P b) (h : Inv P net t s) (hs : net.system6 t = none) :
    Inv P net t (guess net t s).2 ∧ SixAt P net t (guess net t s).1 := by
  unfold guess
  dsimp only
  obtain ⟨i1, u, i2, i3⟩ := inv_getNetIntrfIPs h
  by_cases he : (getNetIntrfIPs net t s).1.isEmpty = true
  · rw [if_pos he]
    obtain ⟨j1, j2⟩ := inv_detect hp i1
    exact ⟨j1, .inr ⟨hs, _, rfl, .inr ⟨⟨u, i2, by rw [← i3]; exact List.isEmpty_iff.1 he⟩, j2⟩⟩⟩
  · rw [if_neg he]
    exact ⟨i1, .inr ⟨hs, _, rfl, .inl ⟨fun e => he (by rw [e]; rfl), u, i2, i3⟩⟩⟩

theorem inv_ipv6 {P : Bool → Prop} {net : Net A} {t : Int} {s : St A} (h : Inv P net t s) :
    Inv P net t (ipv6IsAllowed net t s).2 ∧ P (ipv6IsAllowed net t s).1 ∧
    (∀ b, s.setting = some b → (ipv6IsAllowed net t s).1 = b) ∧
    (s.setting = none → ∃ u, Within 300 t u ∧ SixAt P net u (ipv6IsAllowed net t s).1) := by
  unfold ipv6IsAllowed
  cases hs : s.setting with
  | some b => exact ⟨h, h.some_ b hs, fun c hc => Option.some.inj hc, (by intro e; cases e)⟩
  | none =>
    have hp := h.none_ hs
    dsimp only
    obtain ⟨i1, i2⟩ := inv_getN h .ipv6
    cases hc : asFlag (getN t s .ipv6).1 with
    | some b =>
      obtain ⟨u, hu, hg⟩ := i2 _ (asFlag_some hc)
      exact ⟨i1, hp _, (by intro c hc; cases hc), fun _ => ⟨u, hu, hg⟩⟩
    | none =>
      dsimp only
      cases h6 : net.system6 t with
      | some b => exact ⟨inv_setN i1 _ _ (.inl h6), hp _, (by intro c hc; cases hc), fun _ => ⟨t, within_now 300 t (by decide), .inl h6⟩⟩
      | none =>
        obtain ⟨j1, j2⟩ := inv_guess hp i1 h6
        exact ⟨inv_setN j1 _ _ j2, hp _, (by intro c hc; cases hc), fun _ => ⟨t, within_now 300 t (by decide), j2⟩⟩

theorem allows_ipv6 (P : Bool → Prop) (net : Net A) (t : Int) : Allows P net t (ipv6IsAllowed net t) :=
  fun _ h => ⟨(inv_ipv6 h).1, (inv_ipv6 h).2.1⟩

/-- Whether a call changes the setting to one without `P`. -/
def Keeps (P : Bool → Prop) : Op → Prop
  | .allow (some b) => P b
  | .allow none => ∀ b, P b
  | _ => True

theorem inv_step {P : Bool → Prop} {net : Net A} {t : Int} {s : St A} (h : Inv P net t s) (o : Op) (ho : Keeps P o) :
    Inv P net t (step net t s o) := by
  cases o with
  | dnsToIp n => exact (inv_dnsToIp (allows_ipv6 P net t) h n).1
  | ipToName ip => exact (inv_ipToName h ip).1
  | getHostname f => exact (inv_getHostname h f).1
  | getSelfNames => exact (inv_getSelfNames h).1
  | getNetIntrfIPs => exact (inv_getNetIntrfIPs h).1
  | getSelfIPs => exact (inv_selfIps (allows_ipv6 P net t) h).1
  | ipv6IsAllowed => exact (inv_ipv6 h).1
  | allow v =>
    refine ⟨h.nttl, h.httl, h.names, h.hosts, ?_, ?_⟩
    · intro b hb; change v = some b at hb; subst hb; exact ho
    · intro hb; change v = none at hb; subst hb; exact ho
  | clear => exact ⟨h.nttl, h.httl, (by intro k v e h; cases h), (by intro k v e h; cases h), h.some_, h.none_⟩

theorem inv_run {P : Bool → Prop} {net : Net A} (now : Int) (l : List (Int × Op)) : ∀ (t : Int) (s : St A), InOrder now l →
    (∀ c ∈ l, Keeps P c.2) → (∀ c ∈ l.head?, t ≤ c.1) → t ≤ now → Inv P net t s → Inv P net now (run net l s) := by
  induction l with
  | nil => exact fun t s _ _ _ hn h => h.later hn
  | cons c l ih =>
    intro t s ho hk ht hn h
    have hle : c.1 ≤ now ∧ InOrder now l ∧ ∀ d ∈ l.head?, c.1 ≤ d.1 := by
      clear ih h hk ht
      induction l generalizing c with
      | nil => exact ⟨ho, trivial, by simp⟩
      | cons d l ih => exact ⟨Int.le_trans ho.1 (ih d ho.2).1, ho.2, by simpa using ho.1⟩
    exact ih c.1 _ hle.2.1 (fun d hd => hk d (List.mem_cons_of_mem _ hd)) hle.2.2 hle.1
      (inv_step (h.later (ht c (by simp))) c.2 (hk c (by simp)))

theorem inv_history {P : Bool → Prop} (net : Net A) (now : Int) (l : List (Int × Op)) (v : Option Bool) (ho : InOrder now l)
    (hk : ∀ c ∈ l, Keeps P c.2) (hv : Keeps P (.allow v)) : Inv P net now (run net l (init v)) := by
  have h1 : ∀ b, v = some b → P b := by rintro b rfl; exact hv
  have h2 : v = none → ∀ b, P b := by rintro rfl; exact hv
  cases l with
  | nil => exact inv_init P net now v h1 h2
  | cons c l =>
    exact inv_run now (c :: l) (min c.1 now) _ ho hk (by simp; omega) (by omega) (inv_init P net _ v h1 h2)

end Verif.Dns
