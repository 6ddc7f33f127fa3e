import Verif.Model.Cymru

/-!
# Specification for C125: status with information on networks
-/

namespace Verif.CymruSpec

open Cymru

/-- The text is split at the bars into exactly these parts. -/
def Parts (row : List Char) (ps : List (List Char)) : Prop :=
  (∀ p ∈ ps, '|' ∉ p) ∧ ps ≠ [] ∧ row = (ps.intersperse ['|']).flatten

/-- A value of a field: without quotes and blanks around it, `unknown` if nothing is left. -/
def Value (p : List Char) (v : String) : Prop :=
  ∃ a m b, p = a ++ m ++ b ∧ (∀ c ∈ a ++ b, c = '\'' ∨ c = '"' ∨ c = ' ') ∧
    (m = [] ∧ v = "unknown" ∨
     m ≠ [] ∧ v = String.ofList m ∧ (∀ c ∈ m.head?, c ≠ '\'' ∧ c ≠ '"' ∧ c ≠ ' ') ∧ ∀ c ∈ m.getLast?, c ≠ '\'' ∧ c ≠ '"' ∧ c ≠ ' ')

/-- Strictly ascending. -/
def Ascending (l : List String) : Prop := l.Pairwise (· < ·)

end Verif.CymruSpec
