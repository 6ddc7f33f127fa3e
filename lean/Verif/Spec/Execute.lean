import Verif.Model.Execute

/-!
# Execution of commands — what is expected
-/

namespace Verif.ExecuteSpec

open Verif.Execute

/-- The process ends by itself, with this code, at this time. -/
def Ends (e : Env) (at_ : Nat) (c : Int) : Prop := (∀ t, t < at_ → e.poll [] t = none) ∧ ∀ t, at_ ≤ t → e.poll [] t = some c

/-- The process does not end by itself before this time. -/
def Runs (e : Env) (until_ : Nat) : Prop := ∀ t, t ≤ until_ → e.poll [] t = none

/-- The process dies of the signals: later it has a negative code. -/
def Dies (e : Env) : Prop := ∀ s t c, s ≠ [] → e.poll s t = some c → c < 0

/-- When the process is looked at: pauses of 10 µs, 20 µs, 30 µs and so on, at most two seconds. -/
def looks : Nat → Nat
  | 0 => 0
  | k + 1 => looks k + min (k + 1) 200000

/-- No sleep takes longer than this. -/
def Late (e : Env) (d : Nat) : Prop := ∀ k, e.late k ≤ d

end Verif.ExecuteSpec
