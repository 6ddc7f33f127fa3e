import Verif.Model.Interactive

/-!
# Specification for C124: interactive mode
-/

namespace Verif.InteractiveSpec

open Verif.Client

variable {σ : Type}

/-- The lines before the first `exit` or `quit`. -/
def before (input : List String) : List String := input.takeWhile (fun l => !(l == "exit" || l == "quit"))

/-- The commands of lines: all lines but empty ones, `help`, and those that cannot be split. -/
def commands (split : String → Option (List String)) (lines : List String) : List (List String) :=
  (lines.filter (fun l => !(l == "" || l == "help"))).filterMap split

/-- Commands one after another, each in the state that the previous one left. -/
inductive Executed (w : World σ) (conf : Conf) : List (List String) → σ → σ → List Ev → Prop where
  | none (s : σ) : Executed w conf [] s s []
  | one {c : List String} {cs : List (List String)} {s u : σ} {evs : List Ev} :
      Executed w conf cs (processCommand w conf c s).2.1 u evs →
      Executed w conf (c :: cs) s u ((processCommand w conf c s).2.2 ++ evs)

end Verif.InteractiveSpec
