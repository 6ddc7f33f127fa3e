import Verif.Model.WordBounds

/-!
# Bounds of dates: what the user expects
-/

namespace Verif.WordBounds.Spec

/-- A position lies inside of a word: word characters on both sides -/
def Inside (w : Char → Bool) (line : List Char) (i : Nat) : Prop :=
  ∃ a b k, i = k + 1 ∧ line[k]? = some a ∧ line[i]? = some b ∧ w a = true ∧ w b = true

/-- The expression has no flags of its own and no spaces around it -/
structure Clean (space : Char → Bool) (s : List Char) : Prop where
  noFlags : ∀ u v f, s ≠ u ++ '(' :: '?' :: f :: v ∨ f.isLower = false
  head : ∀ c, s.head? = some c → space c = false
  last : ∀ c, s.getLast? = some c → space c = false

/-- Text that ends with `e`, where the character before (if any) is none of `no` -/
def Ends (no : List Char) (e s : List Char) : Prop := ∃ u, s = u ++ e ∧ ∀ c, u.getLast? = some c → c ∉ no

/-- The user closed the expression: `$`, `$)`, `\b`, `\s` or `**` with brackets behind, not escaped -/
def Closed (s : List Char) : Prop :=
  (∃ e, e ∈ ["$", "$)", "\\b", "\\s"].map String.toList ∧ Ends ['\\'] e s) ∨ ∃ n, Ends ['\\'] ("**".toList ++ List.replicate n ')') s

/-- Flags like `(?iu)` or nothing -/
def Flags (f : List Char) : Prop := f = [] ∨ ∃ w, w ≠ [] ∧ (∀ c ∈ w, (c.isAlphanum || c = '_') = true) ∧ f = "(?".toList ++ w ++ ")".toList

/-- The user opened the expression: brackets, flags and then `^`, `(^`, `(?:^` or brackets and `**` -/
def Opened (s : List Char) : Prop :=
  ∃ n f t, s = List.replicate n '(' ++ f ++ t ∧ Flags f ∧
    ((∃ a, a ∈ ["^", "(^", "(?:^"].map String.toList ∧ a <+: t) ∨ ∃ k, List.replicate k '(' ++ "**".toList <+: t)

/-- Bracket of a group: not escaped, not after `(?` and not before `?` -/
def Grouped (s : List Char) : Prop :=
  ∃ u v, s = u ++ '(' :: v ∧ u.getLast? ≠ some '\\' ∧ ¬ (∃ x, u = x ++ "(?".toList) ∧ v.head? ≠ some '?'

end Verif.WordBounds.Spec
