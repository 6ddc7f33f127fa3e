import Verif.Model.SafeLog

/-!
# Specification for C126: safe logging
-/

namespace Verif.SafeLogSpec

open SafeLog

/-- How many records of the logger met a broken pipe, in calls from number `n` on. -/
def broken (env : Env) (logger : String) : Nat → List Call → Nat
  | _, [] => 0
  | n, .log l r :: cs => (if l = logger ∧ env.log n l r = .io 32 then 1 else 0) + broken env logger (n + 1) cs
  | n, .flush _ :: cs => broken env logger (n + 1) cs

/-- Some call met a broken pipe. -/
def Broken (env : Env) (n : Nat) (cs : List Call) : Prop :=
  ∃ j, (∃ l r, cs[j]? = some (.log l r) ∧ env.log (n + j) l r = .io 32) ∨ ∃ h, cs[j]? = some (.flush h) ∧ env.flush (n + j) h = .io 32

end Verif.SafeLogSpec
