import Verif.Model.RegexName

/-! # Names of filters -/

namespace Verif.RegexNameSpec

abbrev Str := List Char

/-- The end of a line follows -/
def AtEnd (s : Str) : Prop := s = [] ∨ ∃ t, s = '\n' :: t

/-- A line begins with a name that goes on to the end of the line, but for options in brackets -/
structure HasName (name : Char → Prop) (s : Str) : Prop where
  parts : ∃ before n after, s = before ++ n ++ after ∧
    (before = [] ∨ ∃ t, before = t ++ ['\n']) ∧ n ≠ [] ∧ (∀ c ∈ n, name c) ∧
    (AtEnd after ∨ ∃ o t, after = '[' :: o ++ ']' :: t ∧ AtEnd t)

/-- A directory as it is usually written -/
structure Dir (d : Str) : Prop where
  nonempty : d ≠ []
  noSlash : d.getLast? ≠ some '/'

/-- It is not named `filter.d` -/
def NotFilterD (d : Str) : Prop := d ≠ "filter.d".toList ∧ ∀ a, d ≠ a ++ "/filter.d".toList

/-- The name of a file without its extension: there is something else than dots -/
structure Stem (n : Str) : Prop where
  noSlash : '/' ∉ n
  visible : ∃ c ∈ n, c ≠ '.'

/-- An extension without dot -/
structure Ext (e : Str) : Prop where
  noDot : '.' ∉ e
  noSlash : '/' ∉ e

/-- The names that are tried -/
def Tried (n f : Str) : Prop :=
  f = n ∨ ((¬∃ a b, n = a ++ '.' :: b ∧ b.length < 6) ∧ (f = n ++ ".conf".toList ∨ f = n ++ ".local".toList))

/-- `d/filter.d/f` -/
def inFilterD (d f : Str) : Str := d ++ "/filter.d/".toList ++ f

end Verif.RegexNameSpec
