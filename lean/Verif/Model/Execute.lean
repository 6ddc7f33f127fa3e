/-!
# Execution of commands — `fail2ban/server/utils.py`, `Utils.executeCmd`, `Utils.wait_for`

Time is counted in units of `DEFAULT_SHORTEST_INTERVAL` (10 microseconds) from the start of the process. The process is environment: what `poll()` says at a time, depending on the signals it got.
-/

namespace Verif.Execute

/-- `DEFAULT_SLEEP_TIME` (utils.py 59), two seconds -/
def sleepTime : Nat := 200000

/-- `DEFAULT_SLEEP_INTERVAL` (utils.py 60), 0.2 seconds -/
def sleepInterval : Nat := 20000

inductive Signal
  | term
  | kill
  deriving DecidableEq

/-- The process and the machine. -/
structure Env where
  /-- `Popen(...)` does not raise `OSError` -/
  starts : Bool
  /-- `poll()` at a time, after signals to the group -/
  poll : List (Nat × Signal) → Nat → Option Int
  /-- a sleep takes longer -/
  late : Nat → Nat
  /-- `os.getpgid` or the first `os.killpg` raise `OSError` -/
  refused : Bool
  /-- the second `os.killpg` raises `OSError` (no process is left in the group) -/
  empty : Bool
  /-- `pid_exists(pgid)` at the end -/
  left : Bool
  /-- another process still holds the pipe of the output -/
  held : Bool

/-- `wait_for(cond, timeout, interval)` (utils.py 282-320) with a number as time out: value, time and number of sleeps. `none` if the fuel is not enough. -/
def waitFor {α : Type} (cond : Nat → Option α) (late : Nat → Nat) (interval last : Nat) : Nat → Nat → Nat → Nat → Option (Option α × Nat × Nat)
  | 0, _, _, _ => none
  | fuel + 1, now, k, stm => match cond now with
    | some r => some (some r, now, k)
    | none =>
      if now > last then some (none, now, k)
      else
        let stm := min (stm + interval) sleepTime
        waitFor cond late interval last fuel (now + stm + late k) (k + 1) stm

/-- What is left after waiting. -/
structure Ended where
  code : Option Int
  signals : List (Nat × Signal)
  now : Nat
  deriving DecidableEq

/-- After the time out (utils.py 205-223); `tree` is `tout_kill_tree`. -/
def killed (e : Env) (tree : Bool) (now k : Nat) : Ended :=
  if e.refused then ⟨none, [], now⟩
  else
    let s1 := [(now, Signal.term)]
    let t1 := now + sleepInterval + e.late k
    let code := e.poll s1 t1
    if code = none || tree then
      if e.empty then ⟨code, s1, t1⟩
      else
        let s2 := s1 ++ [(t1, .kill)]
        let t2 := t1 + sleepInterval + e.late (k + 1)
        let code := if code = none then e.poll s2 t2 else code
        ⟨if code = none && !e.left then some 9 else code, s2, t2⟩
    else ⟨code, s1, t1⟩

/-- The process is started and ends, or is killed (utils.py 190-227). -/
def ended (e : Env) (tree : Bool) (timeout : Nat) : Ended :=
  match e.poll [] 0 with
  | some c => ⟨some c, [], 0⟩
  | none => match waitFor (e.poll []) e.late 1 timeout (timeout + 2) 0 0 0 with
    | some (some c, now, _) => ⟨some c, [], now⟩
    | some (none, now, k) => killed e tree now k
    | none => ⟨none, [], 0⟩

/-- The result; `blocked` if reading the output does not return. -/
structure Result where
  success : Bool
  code : Option Int
  signals : List (Nat × Signal)
  now : Nat
  blocked : Bool
  deriving DecidableEq

/-- Reading of output waits for the end of the pipe unless the process is not dead or died of a signal (utils.py 237-262). -/
def reads (e : Env) (wanted : Bool) (code : Option Int) : Bool :=
  wanted && e.held && (match code with
    | none => false
    | some c => decide (0 ≤ c))

/-- `std_level` (utils.py 231): DEBUG or ERROR -/
def stdLevel (success : Bool) : Nat := if success then 10 else 40

/-- `executeCmd(realCmd, timeout, tout_kill_tree, success_codes)` (utils.py 148-280); `level` is the effective level of the log, `output` whether the output is returned. -/
def executeCmd (e : Env) (tree : Bool) (timeout : Nat) (codes : List Int) (output : Bool) (level : Nat) : Result :=
  if e.starts then
    let r := ended e tree timeout
    let success := match r.code with
      | some c => codes.contains c
      | none => false
    ⟨success, r.code, r.signals, r.now, reads e (output || decide (stdLevel success ≥ level)) r.code⟩
  else ⟨false, none, [], 0, false⟩

end Verif.Execute
