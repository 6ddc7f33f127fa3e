import Verif.Py.Dict

/-!
# Spec: tags in texts and what they stand for

Independent of the regular expression and of the loops: a tag is a piece of text `<name>`; in a text where each `<` begins a tag, the
expansion of a text is described by rules.
-/

namespace Verif.Spec.Tags

/-- A name of a tag: not empty, without space and angle brackets. -/
def Name (n : List Char) : Prop := n ≠ [] ∧ ∀ c ∈ n, c ≠ ' ' ∧ c ≠ '<' ∧ c ≠ '>'

/-- The tag `<n>` occurs in `s`. -/
def Occurs (n s : List Char) : Prop := Name n ∧ ∃ a b, s = a ++ '<' :: (n ++ '>' :: b)

/-- Each `<` of the text begins a tag. -/
def Plain (s : List Char) : Prop := ∀ a b, s = a ++ '<' :: b → ∃ n b', Name n ∧ b = n ++ '>' :: b'

/-- What `<n>` stands for: nothing if it is to be ignored, else its definition under the condition, else its definition, else what
`extra` knows. -/
def meaning (ignore : List Char → Bool) (d : Dict (List Char) (List Char)) (cond : List Char) (extra : List Char → Option (List Char))
    (n : List Char) : Option (List Char) :=
  if ignore n then none
  else ((if cond = [] then none else d.get? (n ++ ('?' :: cond))).or (d.get? n)).or (extra n)

/-- `w` is the complete expansion of `v`: each tag that stands for something is replaced by the complete expansion of that, all other
text is kept. -/
inductive Expands (f : List Char → Option (List Char)) : List Char → List Char → Prop
  | nil : Expands f [] []
  | chr (c : Char) {v w : List Char} : c ≠ '<' → Expands f v w → Expands f (c :: v) (c :: w)
  | keep (n : List Char) {v w : List Char} : Name n → f n = none → Expands f v w →
      Expands f ('<' :: (n ++ '>' :: v)) ('<' :: (n ++ '>' :: w))
  | repl (n : List Char) {r x v w : List Char} : Name n → f n = some r → Expands f r x → Expands f v w →
      Expands f ('<' :: (n ++ '>' :: v)) (x ++ w)

/-- `m` occurs in the definition of `n`, and both stand for something. -/
def Uses (f : List Char → Option (List Char)) (n m : List Char) : Prop := ∃ r, f n = some r ∧ Occurs m r ∧ (f m).isSome

/-- `m` is used by `n` directly or through other tags. -/
inductive UsesTrans (f : List Char → Option (List Char)) : List Char → List Char → Prop
  | one {n m : List Char} : Uses f n m → UsesTrans f n m
  | step {n k m : List Char} : Uses f n k → UsesTrans f k m → UsesTrans f n m

/-- `<n>` shows up at some point if the text `v` is expanded step by step. -/
inductive Reaches (f : List Char → Option (List Char)) : List Char → List Char → Prop
  | here {v n : List Char} : Occurs n v → Reaches f v n
  | through {v m r n : List Char} : Occurs m v → f m = some r → Reaches f r n → Reaches f v n

end Verif.Spec.Tags
