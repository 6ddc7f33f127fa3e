import Verif.Model.FailGroups
import Verif.Spec.FailTags

/-!
# Groups of a match — what is expected
-/

namespace Verif.FailGroupsSpec

open Verif.FailTags Verif.FailTagsSpec Verif.FailGroups

/-- `_` and a number. -/
def Number (s : Str) : Prop := ∃ d, d ≠ [] ∧ (∀ c ∈ d, c.isDigit = true) ∧ s = "_".toList ++ d

/-- The name `m` with a prefix, and perhaps with a number; at least one character is after `alt_`. -/
def Named (pre : Str) (m k : Str) : Prop := ((∃ d, Number d ∧ k = pre ++ m ++ d) ∨ (k = pre ++ m ∧ ¬ ∃ a d, Number d ∧ m = a ++ d)) ∧ 4 < k.length

/-- Another name of the group `n`. -/
def Alternative (n k : Str) : Prop := ∃ m, Named "alt_".toList m k ∧ n = groupName m

/-- A part of the value of the group `n`. -/
def Part (n k : Str) : Prop := ∃ m, Named "tuple_".toList m k ∧ n = groupName m

/-- The group has text. -/
def Filled (v : Val) : Prop := ∃ s, v = .str s ∧ s ≠ []

/-- Order of texts by codes of their characters. -/
def Before (a b : Str) : Prop := (∃ c s, b = a ++ c :: s) ∨ ∃ p c d s t, a = p ++ c :: s ∧ b = p ++ d :: t ∧ c.toNat < d.toNat

/-- The value of `n` after merging: its own text; if it has none, that of the first other name that has text; otherwise it stays. -/
def Merged (names : List Str) (f : Dict) (n : Str) (v : Val) : Prop :=
  (Filled (f n) ∧ v = f n) ∨
  (¬ Filled (f n) ∧ ∃ k ∈ names, Alternative n k ∧ Filled (f k) ∧ (∀ k' ∈ names, Alternative n k' → Filled (f k') → k' = k ∨ Before k k') ∧ v = f k) ∨
  (¬ Filled (f n) ∧ (∀ k ∈ names, Alternative n k → ¬ Filled (f k)) ∧ v = f n)

/-- Sorted, and each element once. -/
def Increasing : List Str → Prop
  | [] => True
  | a :: l => (∀ b ∈ l, Before a b) ∧ Increasing l

/-- Values of a match: text, or nothing. -/
def Plain (f : Dict) : Prop := ∀ n, f n = .none ∨ ∃ s, f n = .str s

/-- Other names and parts do not belong to other names or parts. -/
def Simple (names : List Str) : Prop := ∀ n k, k ∈ names → Alternative n k ∨ Part n k → ∀ k' ∈ names, ∀ m, (Alternative m k' ∨ Part m k') → n ≠ k'

end Verif.FailGroupsSpec
