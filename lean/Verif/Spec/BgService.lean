import Verif.Model.BgService

/-! # Background service: histories -/

namespace Verif.BgServiceSpec

open BgService

/-- The clock does not go back -/
def Clock : Int → List (Int × Ev) → Prop
  | _, [] => True
  | t, (u, _) :: es => t ≤ u ∧ Clock u es

/-- No jail is created -/
def NoNew (es : List (Int × Ev)) : Prop := ∀ e ∈ es, e.2 ≠ .initTime ∧ e.2 ≠ .initCount

/-- How many steps a thread is given -/
def given (t : Nat) (es : List (Int × Ev)) : Nat := (es.filter (fun e => e.2 = .step t)).length

/-- In the part that the mutex protects -/
def Inside (p : Pc) : Prop := p = .again ∨ p = .collect ∨ p = .setTime ∨ p = .setCount ∨ ∃ r, p = .release r

/-- The thread is in no call -/
def Out (p : Pc) : Prop := ∃ r, p = .out r

/-- Nobody is in a call -/
structure Quiet (s : St) : Prop where
  out : ∀ t, Out (s.pc t)
  free : s.holder = none

end Verif.BgServiceSpec
