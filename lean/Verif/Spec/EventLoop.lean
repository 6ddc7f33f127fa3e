/-! # Excess of errors -/

namespace Verif.Spec.EventLoop

/-- Number of errors in a history (`true` is an error) -/
def errors (l : List Bool) : Nat := (l.filter (· == true)).length

/-- Number of successes -/
def successes (l : List Bool) : Nat := (l.filter (· == false)).length

/-- `k` is the largest number by which errors exceeded successes in a recent part of the history -/
def Excess (l : List Bool) (k : Nat) : Prop :=
  (∃ recent, recent <:+ l ∧ errors recent = successes recent + k) ∧ ∀ recent, recent <:+ l → errors recent ≤ successes recent + k

end Verif.Spec.EventLoop
