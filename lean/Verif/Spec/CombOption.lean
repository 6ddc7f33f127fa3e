import Verif.Model.CombOption

/-!
# Specification for C129: values of tags from other sections
-/

namespace Verif.CombOptionSpec

open CombOption

/-- The name is of an option `b` in a section `a`. -/
def Named {ω : Type} (env : Env ω) (name a b : Str) : Prop :=
  (name = a ++ '/' :: b ∨ name = a ++ '/' :: b ++ ['\n']) ∧ a ≠ [] ∧ b ≠ [] ∧
  (∀ c ∈ a, env.word c = true ∨ c = '-') ∧ ∀ c ∈ b, env.space c = false ∧ c ≠ '>'

/-- Where an option named with section `a` is looked up, from the section `s`. -/
inductive Places {ω : Type} (env : Env ω) (s a : Str) : List Str → Prop
  | known : env.lower a = "known".toList → Places env s a ["KNOWN/".toList ++ s, s]
  | default : env.lower a = "default".toList → Places env s a ["DEFAULT".toList]
  | other : env.lower a ≠ "known".toList → env.lower a ≠ "default".toList → Places env s a [a]

/-- The answer for what was found. -/
inductive Answers : Got → Answer → Prop
  | value (v : Str) : Answers (.value v) (.is (some v))
  | absent : Answers .absent (.is none)
  | wrong : Answers .wrong (.is none)
  | failed : Answers .failed .raised

end Verif.CombOptionSpec
