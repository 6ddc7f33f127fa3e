/-!
# Safe logging — `fail2ban/helpers.py` (179-237)

`Logger._log` and `StreamHandler.flush` of the logging package are replaced. What the original functions do is arbitrary and may
change from call to call. Loggers and handlers are numbers or names; texts are strings.
-/

namespace Verif.SafeLog

/-- What a call of an original function ends with. -/
inductive Outcome where
  | done
  /-- `OSError` (which is `IOError`, and `BrokenPipeError` is one) with its `errno` -/
  | io (errno : Nat)
  /-- another `Exception` -/
  | error
  /-- an exception that is not an `Exception`, as `KeyboardInterrupt` -/
  | other
deriving DecidableEq

/-- What the call of a safe function ends with. -/
inductive Result where
  | returned
  | io (errno : Nat)
  | error
  | other
  /-- `SystemExit` of `sys.exit(0)` -/
  | exit
deriving DecidableEq

/-- A record: text and arguments. -/
structure Record where
  msg : String
  args : List String
deriving DecidableEq

structure State where
  /-- handlers of each logger -/
  handlers : String → List Nat
  /-- handlers with `close` replaced -/
  unclosed : List Nat
  /-- `StreamHandler.flush` does nothing -/
  quiet : Bool
  /-- `logging.exitOnIOError` -/
  exitOn : Bool
  /-- `sys.stderr` is closed -/
  stderrClosed : Bool

/-- `__stopOnIOError(logSys, logHndlr)` (lines 180-192); says whether it exits. `sys.stderr.close()` may fail, which is ignored. -/
def stopOn (s : State) (logger : Option String) (handler : Option Nat) : State × Bool :=
  let s := match logger with
    | some l => { s with handlers := fun k => if k = l then (s.handlers k).drop 1 else s.handlers k }
    | none => s
  let s := match handler with
    | some h => { s with unclosed := h :: s.unclosed }
    | none => s
  let s := { s with quiet := true }
  if s.exitOn then ({ s with stderrClosed := true }, true) else (s, false)

/-- Functions outside: the original `_log` and `flush` (by number of the call), and conversions to text, `none` if they fail. -/
structure Env where
  log : Nat → String → Record → Outcome
  flush : Nat → Nat → Outcome
  text : String → Option String
  /-- `%r` of the exception -/
  repr : String

/-- All texts of arguments (line 217), `none` if one fails. -/
def texts (env : Env) : List String → Option (List String)
  | [] => some []
  | a :: l =>
    match env.text a, texts env l with
    | some t, some ts => some (t :: ts)
    | _, _ => none

/-- The records about a failure (lines 215-218): both are made before the first is logged. -/
def about (env : Env) (r : Record) : List Record :=
  match env.text r.msg, texts env r.args with
  | some m, some as => [⟨"logging failed: %r on %s", [env.repr, m]⟩, ⟨"  args: %r", as⟩]
  | _, _ => []

/-- `__safeLog` (lines 195-224) in call number `n`: the state, how it ends, and the records given to the original function. -/
def safeLog (env : Env) (n : Nat) (s : State) (logger : String) (r : Record) : State × Result × List Record :=
  match env.log n logger r with
  | .done => (s, .returned, [r])
  | .other => (s, .other, [r])
  | .error => (s, .returned, r :: about env r)
  | .io e =>
    if e = 32 then
      if (stopOn s (some logger) none).2 then ((stopOn s (some logger) none).1, .exit, [r])
      else ((stopOn s (some logger) none).1, .io e, [r])
    else (s, .io e, [r])

/-- `handler.flush()` (lines 227-237): the last value says whether the stream was used. -/
def safeFlush (env : Env) (n : Nat) (s : State) (h : Nat) : State × Result × Bool :=
  if s.quiet then (s, .returned, false)
  else match env.flush n h with
    | .done => (s, .returned, true)
    | .other => (s, .other, true)
    | .error => (s, .error, true)
    | .io e =>
      if e = 32 then
        if (stopOn s none (some h)).2 then ((stopOn s none (some h)).1, .exit, true)
        else ((stopOn s none (some h)).1, .io e, true)
      else (s, .io e, true)

/-- A call. -/
inductive Call where
  | log (logger : String) (r : Record)
  | flush (h : Nat)

/-- Calls one after the other, from number `n` on; exceptions are caught by callers. -/
def run (env : Env) : Nat → State → List Call → State
  | _, s, [] => s
  | n, s, .log l r :: cs => run env (n + 1) (safeLog env n s l r).1 cs
  | n, s, .flush h :: cs => run env (n + 1) (safeFlush env n s h).1 cs

end Verif.SafeLog
