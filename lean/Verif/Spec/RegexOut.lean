import Verif.Model.RegexOut
import Verif.Spec.Tags

/-!
# Spec: what `fail2ban-regex --out` prints

Independent of regular expressions, of the two loops and of the mark put in place of a message.
-/

namespace Verif.Spec.RegexOut
open Verif.RegexOut Verif.Command

/-- A tag begins the text. -/
def Begins (s : Text) : Prop := ∃ n b, Spec.Tags.Name n ∧ s = '<' :: (n ++ '>' :: b)

/-- `w` is `v` with each tag, from left to right, replaced by its value; all other text, also a `<` that begins no tag, is kept. -/
inductive Subst (val : Text → Text) : Text → Text → Prop
  | nil : Subst val [] []
  | chr (c : Char) {v w : Text} : ¬ Begins (c :: v) → Subst val v w → Subst val (c :: v) (c :: w)
  | tag (n : Text) {v w : Text} : Spec.Tags.Name n → Subst val v w → Subst val ('<' :: (n ++ '>' :: v)) (val n ++ w)

/-- a value as it is shown: a NUL is written as `\x00` -/
def clean (v : Text) : Text := v.flatMap (fun c => if c = '\x00' then ['\\', 'x', '0', '0'] else [c])

/-- `<n>` stands for: the message, information on the failure, a fixed text, what the filter captured, or itself. -/
def meaning (h : Hosts) (f : Fail) (msg : Text) (n : Text) : Text :=
  if n = "msg".toList then msg
  else match f.tag n with
    | some v => clean v
    | none =>
      match addRepl h n with
      | some x => x
      | none =>
        match fTag n with
        | some m => ((f.data (mapTag2Opt m)).map clean).getD []
        | none => '<' :: (n ++ ['>'])

/-- the meaning of tags that are not captured by the filter -/
def first (h : Hosts) (f : Fail) (msg : Text) (n : Text) : Text :=
  if n = "msg".toList then msg
  else match f.tag n with
    | some v => clean v
    | none => (addRepl h n).getD ('<' :: (n ++ ['>']))

/-- the meaning of tags captured by the filter only -/
def captured (f : Fail) (n : Text) : Text :=
  match fTag n with
  | some m => ((f.data (mapTag2Opt m)).map clean).getD []
  | none => '<' :: (n ++ ['>'])

/-- The lines for all failures in order: one for each matched line if the format has the tag `<msg>`, else one for each failure. -/
inductive Printed (h : Hosts) (fmt : Text) : List Fail → List Text → Prop
  | nil : Printed h fmt [] []
  | one (f : Fail) {fs : List Fail} {w : Text} {ws : List Text} : ¬ Spec.Tags.Occurs "msg".toList fmt → Subst (meaning h f []) fmt w →
      Printed h fmt fs ws → Printed h fmt (f :: fs) (w :: ws)
  | each (f : Fail) {fs : List Fail} {us ws : List Text} : Spec.Tags.Occurs "msg".toList fmt → us.length = f.matches_.length →
      (∀ (i : Nat) m w, f.matches_[i]? = some m → us[i]? = some w → Subst (meaning h f m.text) fmt w) →
      Printed h fmt fs ws → Printed h fmt (f :: fs) (us ++ ws)

/-- No information on the failure that is asked for contains a `<`, nor does its matched line if there is only one. -/
def NoLess (fmt : Text) (f : Fail) : Prop :=
  (∀ n v, Spec.Tags.Occurs n fmt → n ≠ "msg".toList → f.tag n = some v → '<' ∉ v) ∧
  (Spec.Tags.Occurs "msg".toList fmt → ∀ m, f.matches_ = [m] → '<' ∉ m.text)

/-- The line is a comment or empty. -/
def Skipped (s : Text) : Prop := (∃ r, s = '#' :: r) ∨ ∀ c ∈ s, c = '\r' ∨ c = '\n'

end Verif.Spec.RegexOut
