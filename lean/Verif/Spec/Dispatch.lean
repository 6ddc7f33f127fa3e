import Verif.Model.Dispatch

/-!
# Specification for C123: events of connections
-/

namespace Verif.DispatchSpec

open Dispatch

variable {C : Type}

/-- No handler ends the program, and handling of errors does not fail. -/
def Calm (env : Env C) : Prop :=
  (∀ c, (env.read c).out ≠ .exit ∧ (env.write c).out ≠ .exit ∧ (env.expt c).out ≠ .exit ∧ (env.close c).out = .ok) ∧
  ∀ c, (env.error c).out = .ok

/-- Nobody opens a connection with number `fd`. -/
def Free (env : Env C) (fd : Nat) : Prop :=
  ∀ c, ∀ p, p ∈ (env.read c).new ++ (env.write c).new ++ (env.expt c).new ++ (env.close c).new ++ (env.error c).new → p.1 ≠ fd

/-- What becomes of a connection by one event: closed, or another state. An exception leads to `handle_error` of this connection. -/
def event (env : Env C) (h : C → Res C) (ready : Bool) : Option C → Option C
  | none => none
  | some c =>
    if ready then
      if (h c).out = .ok then
        if (h c).isOpen then some (h c).obj else none
      else if (h c).isOpen && (env.error (h c).obj).isOpen then some (env.error (h c).obj).obj else none
    else some c

/-- What becomes of a connection in a pass: reading, then writing, then exceptional conditions. -/
def alone (env : Env C) (r w e : Bool) (c : C) : Option C :=
  event env env.expt e (event env env.write w (event env env.read r (some c)))

/-- Handlers called one after another for a connection, until one raises an exception: the state, whether it is still open, and how
the last one ended. -/
def series : List (C → Res C) → C → Bool → C × Bool × Out
  | [], c, o => (c, o, .ok)
  | h :: hs, c, o => if (h c).out = .ok then series hs (h c).obj (o && (h c).isOpen) else ((h c).obj, o && (h c).isOpen, (h c).out)

/-- What becomes of a connection by the events that `poll` reports: reading, writing, priority, end. A lost connection is
closed, other exceptions lead to `handle_error`. -/
def reported (env : Env C) (f : Flags) (c : C) : Option C :=
  let x := series (([(f.inn, env.read), (f.out, env.write), (f.pri, env.expt), (f.bad, env.close)].filter Prod.fst).map Prod.snd) c true
  let last : Res C := match x.2.2 with
    | .os e => if e = 104 ∨ e = 107 ∨ e = 108 ∨ e = 103 ∨ e = 32 ∨ e = 9 then env.close x.1 else env.error x.1
    | .other => env.error x.1
    | _ => { obj := x.1 }
  if x.2.1 && last.isOpen then some last.obj else none

/-- A well-behaved connection: its handlers raise nothing and keep it open. -/
def Fine (env : Env C) : Prop :=
  ∀ c, ((env.read c).out = .ok ∧ (env.read c).isOpen = true) ∧ ((env.write c).out = .ok ∧ (env.write c).isOpen = true) ∧
    ((env.expt c).out = .ok ∧ (env.expt c).isOpen = true)

end Verif.DispatchSpec
