import Verif.Model.Years

/-!
# Years and fractions as numbers
-/

namespace Verif.Years.Spec

open Verif.Years

/-- Four digits that are the year `y` -/
def Writes (t : Text) (y : Nat) : Prop := ∃ a b c d : Nat, a < 10 ∧ b < 10 ∧ c < 10 ∧ d < 10 ∧
  t = [Nat.digitChar a, Nat.digitChar b, Nat.digitChar c, Nat.digitChar d] ∧ y = 1000 * a + 100 * b + 10 * c + d

/-- Only digits -/
def Digits (t : Text) : Prop := ∀ c ∈ t, isDigit c = true

/-- Fractions of the same value -/
def Same (a b : Nat × Nat) : Prop := a.2 ≠ 0 ∧ b.2 ≠ 0 ∧ a.1 * b.2 = b.1 * a.2

end Verif.Years.Spec
