import Verif.Model.DatePattern

/-! # What date patterns mean (C101) -/

namespace Verif.Spec.DatePattern

open Verif.DatePattern

/-- A text is part of another -/
def Part (a b : Text) : Prop := ∃ u v, b = u ++ a ++ v

/-- The pattern contains `{EPOCH}` or `{LEPOCH}` in any case, not after a backslash -/
def Epoch (p : Text) : Prop :=
  ∃ u w v, p = u ++ w ++ v ∧ (w.map Char.toLower = "{epoch}".toList ∨ w.map Char.toLower = "{lepoch}".toList) ∧ ∀ u', u ≠ u' ++ ['\\']

/-- The words that stand for a template as a whole: alone, or to be found at the begin of a line only -/
def Word (w : String) (begin' : Bool) (key : Text) : Prop :=
  if begin' then key = ("{^LN-BEG}" ++ w).toList ∨ key = ("^" ++ w).toList else key = w.toList

/-- The pattern in use: `{NONE}` is a pattern that never is found in a line -/
def used (p key : Text) : Text := if key = "{NONE}".toList then "{UNB}^".toList else p

/-- What a pattern `p`, known as `key`, is if nothing is known from before -/
inductive Means (lib : Lib) (p key : Text) : Added → Prop
  | default : key = "{DEFAULT}".toList → Means lib p key (.defaults false)
  | lineBegin : key = "{^LN-BEG}".toList → Means lib p key (.defaults true)
  | date : Part "{DATE}".toList key → Means lib p key (.within p)
  | epochIn (long : Bool) : ¬ Part "{DATE}".toList key → Part "EPOCH".toList key → Epoch p → (long = true ↔ Part "LEPOCH".toList key) →
      Means lib p key (.template (.epochIn p long))
  | epoch (b : Bool) : ¬ Epoch p → Word "EPOCH" b key → Means lib p key (.template (.epoch b false))
  | lepoch (b : Bool) : ¬ Epoch p → Word "LEPOCH" b key → Means lib p key (.template (.epoch b true))
  | tai (b : Bool) : Word "TAI64N" b key → Means lib p key (.template (.tai64n b))
  | format (ok : Bool) : key ≠ "{DEFAULT}".toList → key ≠ "{^LN-BEG}".toList → ¬ Part "{DATE}".toList key →
      (Part "EPOCH".toList key → ¬ Epoch p ∧ ∀ b, ¬ Word "EPOCH" b key ∧ ¬ Word "LEPOCH" b key) → (∀ b, ¬ Word "TAI64N" b key) →
      lib.valid (used p key) = ok → Means lib p key (if ok then .template (.regex (used p key)) else .invalid)

end Verif.Spec.DatePattern
