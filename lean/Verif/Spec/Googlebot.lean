import Verif.Model.Googlebot

/-! # Which addresses are those of a crawler -/

namespace Verif.GooglebotSpec

open Verif Verif.Googlebot

/-- A host of google.com or googlebot.com (a newline at the end is possible, `$`). -/
def Google (h : Str) : Prop :=
  ∃ p d nl, h = p ++ d ++ nl ∧ '\n' ∉ p ∧ (d = ".google.com".toList ∨ d = ".googlebot.com".toList) ∧ (nl = [] ∨ nl = ['\n'])

/-- The name service confirms: the address has a name of Google, and this name has the address. -/
def Confirmed (a : Answers) (ip : Str) : Prop :=
  ∃ h x y, a.reverse ip = .name h ∧ Google h ∧ IPAddr.new a.lib ip = some x ∧ y ∈ a.forward h ∧ y.ntoa a.lib = ip ∧ y.eq x = true

/-- The arguments are an address and possibly a time limit; is there a limit. -/
inductive Arguments (a : Answers) : List Str → Str → Bool → Prop where
  | one (ip : Str) (x : IPAddr) : IPAddr.new a.lib ip = some x → x.isValid = true → Arguments a [ip] ip true
  | empty (ip : Str) (x : IPAddr) : IPAddr.new a.lib ip = some x → x.isValid = true → Arguments a [ip, []] ip false
  | two (ip t : Str) (l : Bool) (x : IPAddr) : IPAddr.new a.lib ip = some x → x.isValid = true → t ≠ [] → a.number t = some l → Arguments a [ip, t] ip l

end Verif.GooglebotSpec
