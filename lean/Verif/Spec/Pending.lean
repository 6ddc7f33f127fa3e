import Verif.Model.Pending

/-!
# Specification for C130: saving of log positions by two threads
-/

namespace Verif.PendingSpec

open Pending

/-- The log is on its way to the database: pending, or in the hands of a thread. -/
def OnWay (s : State) (l : Nat) : Prop :=
  l ∈ s.pend ∨ s.thread = .mark l ∨ (∃ last, s.thread = .hold l last) ∨ s.caller = .hold l

/-- The thread does not die with a log in its hands. -/
def Orderly : State → List Ev → Prop
  | _, [] => True
  | s, e :: es => (∀ l, e = .die → s.thread ≠ .mark l ∧ ∀ last, s.thread ≠ .hold l last) ∧ Orderly (step s e) es

/-- Positions that logs were set to. -/
def readTo : List Ev → List (Nat × Nat)
  | [] => []
  | .read l p :: es => (l, p) :: readTo es
  | _ :: es => readTo es

end Verif.PendingSpec
