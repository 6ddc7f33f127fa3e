import Verif.Py.Dict

/-!
# An action that executes commands — `fail2ban/server/action.py`, `CommandAction` (274-1045)

What an action object remembers between calls: which families (`inet4`, `inet6`, or the empty one) are started and contain bans, and which
commands of operations were executed already, and which commands a call executes in which order.

The texts of commands come from arbitrary functions of the configuration (`Tags` and `Command` model the interpolation); the failure of an
interpolation (`ValueError`) is `none`. Whether a command succeeds is decided by an arbitrary environment, a function of everything that
happened before. `executeCmd` returns a truth value only (utils.py 148-315 turns errors and timeouts into `False`). `callable` parameters,
logging, `_cmd_lock` and the cache of interpolations are left out; the record of executed commands, kept in that cache, is not.
-/

namespace Verif

namespace CmdAction

/-- A family: `inet4`, `inet6`, or empty. -/
abbrev Fam := String

/-- A command. -/
abbrev Cmd := List Char

/-- The parameters of an action with commands (lines 321-341). -/
inductive Tag where
  | start | stop | flush | reload | check | repair | ban | reban | unban | prolong
deriving DecidableEq, Repr

/-- The parameters of an action, as far as they matter here. -/
structure Config where
  /-- `_getOperation(tag, family)` (lines 406-416) -/
  op : Tag → Fam → Option Cmd
  /-- the command of `_processCmd(tag, aInfo)` (lines 996-1004), for a family and (a key of) the ticket -/
  proc : Tag → Fam → Nat → Option Cmd
  /-- `_families` (lines 495-509) -/
  families : List Fam
  /-- `_startOnDemand` (lines 511-520) -/
  onDemand : Bool
  /-- `self.actioncheck` is not empty -/
  check : Bool
  /-- `self.actionreban` is not empty -/
  reban : Bool
  /-- `actionrepair_on_unban` -/
  repairOnUnban : Bool

/-- Calls of the methods of an action. -/
inductive Call where
  | start
  | ban (fam : Fam) (ticket : Nat)
  | reban (fam : Fam) (ticket : Nat)
  | unban (fam : Fam) (ticket : Nat)
  | prolong (fam : Fam) (ticket : Nat)
  | flush
  | stop
  | reload
  /-- `consistencyCheck(beforeRepair)`, with the result of that function -/
  | check (before : Option Bool)
  /-- parameters are changed -/
  | set
deriving DecidableEq, Repr

/-- What happened: a method was called, a command was executed, a method returned (or raised an exception). -/
inductive Event where
  | call (c : Call)
  | cmd (tag : Tag) (fam : Fam) (text : Cmd) (ok : Bool)
  | done (c : Call) (ok : Bool)
deriving DecidableEq, Repr

/-- Environment. -/
structure Env where
  /-- exit of a command -/
  run : List Event → Tag → Fam → Cmd → Bool
  /-- `replaceDynamicTags` for an "empty" ticket (lines 462-471) -/
  dyn : List Event → Fam → Cmd → Cmd

/-- Value in `__started`: bit 1 and bit 2. -/
structure Flags where
  on : Bool
  items : Bool
deriving DecidableEq, Repr

/-- State of an action (lines 344-350), with the events so far. -/
structure State where
  cfg : Config
  /-- `__started` -/
  started : Dict Fam Flags
  /-- entries `('__eOpCmd', tag)` of `__substCache` -/
  executed : Tag → Dict Fam Cmd
  /-- `banEpoch` (lines 898-907) -/
  epoch : Nat
  trace : List Event

/-- `CommandAction(jail, name)` with parameters -/
def init (cfg : Config) : State := ⟨cfg, Dict.empty, fun _ => Dict.empty, 0, []⟩

/-- truth of `self.__started.get(family)` -/
def isStarted (s : State) (f : Fam) : Bool :=
  match s.started.get? f with
  | some v => v.on || v.items
  | none => false

/-- `self.__started[family] = v` -/
def setStarted (s : State) (f : Fam) (v : Flags) : State := { s with started := s.started.insert f v }

/-- `executeCmd(realCmd)` (lines 1012-1045) -/
def exec (env : Env) (s : State) (tag : Tag) (f : Fam) (cmd : Cmd) : Bool × State :=
  if cmd = [] then (true, s)
  else (env.run s.trace tag f cmd, { s with trace := s.trace ++ [.cmd tag f cmd (env.run s.trace tag f cmd)] })

/-- `_operationExecuted(tag, lambda f: f != family)` (lines 421-425): commands executed for other families -/
def executedOthers (s : State) (tag : Tag) (f : Fam) : List Cmd :=
  ((s.executed tag).items.filter (fun p => decide (p.1 ≠ f))).map (·.2)

def setTag (s : State) (tag : Tag) (d : Dict Fam Cmd) : State :=
  { s with executed := fun t => if t = tag then d else s.executed t }

/-- `_operationExecuted(tag, family, None)` (lines 433-441): forgets the family and all others with the same command -/
def forget (s : State) (tag : Tag) (f : Fam) : State :=
  match (s.executed tag).get? f with
  | none => s
  | some c => setTag s tag (((s.executed tag).erase f).filter (fun _ v => decide (v ≠ c)))

/-- `_operationExecuted(tag, family, cmd if ret else None)` (lines 426-441) -/
def record (s : State) (tag : Tag) (f : Fam) (cmd : Cmd) (ret : Bool) : State :=
  if ret = true ∧ cmd ≠ [] then setTag s tag ((s.executed tag).insert f cmd) else forget s tag f

/-- one family in the loop of `_executeOperation` (lines 455-474) for a command -/
def operate (env : Env) (tag : Tag) (after : Fam → Bool → State → State) (s : State) (f : Fam) (cmd : Cmd) : Bool × State :=
  let r := if cmd ≠ [] ∧ cmd ∉ executedOthers s tag f then exec env s tag f (env.dyn s.trace f cmd) else (true, s)
  (r.1, record (after f r.1 r.2) tag f cmd r.1)

/-- `_executeOperation(tag, .., family, afterExec)` (lines 443-480); `false`: `RuntimeError` -/
def operation (env : Env) (tag : Tag) (after : Fam → Bool → State → State) : List Fam → Bool → State → Bool × State
  | [], res, s => (res, s)
  | f :: fs, res, s =>
    match s.cfg.op tag f with
    | none => operation env tag after fs false s
    | some cmd => operation env tag after fs (res && (operate env tag after s f cmd).1) (operate env tag after s f cmd).2

/-- `_started` in `_start` (lines 542-545) -/
def afterStart (f : Fam) (ret : Bool) (s : State) : State :=
  if ret then setStarted (forget s .stop f) f ⟨true, false⟩ else s

/-- `_start(family, forceStart)` (lines 529-547); `false`: `RuntimeError` -/
def start (env : Env) (fam : Option Fam) (force : Bool) (s : State) : Bool × State :=
  if s.cfg.onDemand && !force then (true, s)
  else if !s.cfg.onDemand && !force && (match fam with | some f => isStarted s f | none => false) then (true, s)
  else operation env .start afterStart (match fam with | some f => [f] | none => s.cfg.families) true s

/-- `_stopped` in `_stop` (lines 668-670) -/
def afterStop (f : Fam) (ret : Bool) (s : State) : State := if ret then forget s .start f else s

/-- families with a true value in `__started` -/
def startedFams (s : State) : List Fam := (s.started.items.filter (fun p => p.2.on || p.2.items)).map (·.1)

/-- `_stop()` (lines 656-661 and 671) -/
def stopAll (env : Env) (s : State) : Bool × State :=
  if startedFams s = [] then (true, s)
  else operation env .stop afterStop (startedFams s) true { s with started := Dict.empty }

/-- `_stop(family)` (lines 662-671) -/
def stopFam (env : Env) (f : Fam) (s : State) : Bool × State :=
  match s.started.get? f with
  | none => (true, s)
  | some _ => operation env .stop afterStop [f] true (setStarted s f ⟨false, false⟩)

/-- Result of `_invariantCheck`: 1, 0, -1 or an exception. -/
inductive Sane where
  | sane | broken | declined | raised
deriving DecidableEq, Repr

/-- the second check (lines 944-947) -/
def recheck (env : Env) (f : Fam) (checkCmd : Cmd) (s : State) : Sane × State :=
  if isStarted s f then
    if (exec env s .check f checkCmd).1 then (.sane, (exec env s .check f checkCmd).2) else (.broken, (exec env s .check f checkCmd).2)
  else (.sane, s)

/-- restart without a repair command (lines 934-943) -/
def restart (env : Env) (f : Fam) (force : Bool) (s : State) : Bool × State :=
  start env (some f) (force || !s.cfg.onDemand) (stopFam env f s).2

/-- `_invariantCheck` after a failed check (lines 918-947) -/
def repair (env : Env) (f : Fam) (force : Bool) (checkCmd : Cmd) (s : State) : Sane × State :=
  match s.cfg.op .repair f with
  | none => (.raised, { s with epoch := s.epoch + 1 })
  | some r =>
    let s := { s with epoch := s.epoch + 1 }
    if r ≠ [] then
      let x := exec env s .repair f r
      if x.1 then recheck env f checkCmd (setStarted x.2 f ⟨true, false⟩) else (.broken, setStarted x.2 f ⟨false, false⟩)
    else
      let x := restart env f force s
      if x.1 then recheck env f checkCmd x.2 else (.raised, x.2)

/-- `_invariantCheck(family, beforeRepair, forceStart)` (lines 909-947) -/
def invariantCheck (env : Env) (f : Fam) (before : Option Bool) (force : Bool) (s : State) : Sane × State :=
  if !force && (s.started.get? f).isNone then (.sane, s)
  else
    match s.cfg.op .check f with
    | none => (.raised, s)
    | some c =>
      if c = [] then (.sane, s)
      else if (exec env s .check f c).1 then (.sane, (exec env s .check f c).2)
      else if before = some false then (.declined, (exec env s .check f c).2)
      else repair env f force c (exec env s .check f c).2

/-- the second execution in `_processCmd` -/
def again (env : Env) (tag : Tag) (f : Fam) (cmd : Cmd) (s : State) : Bool × State := exec env s tag f cmd

/-- `_processCmd(tag, aInfo)` (lines 949-1010); `false` also for an exception (all callers then raise one) -/
def process (env : Env) (tag : Tag) (f : Fam) (ticket : Nat) (s : State) : Bool × State :=
  match s.cfg.proc tag f ticket with
  | none => (false, s)
  | some cmd =>
    let x := exec env s tag f cmd
    if x.1 then (true, x.2)
    else if s.cfg.check then
      let y := invariantCheck env f (some (!(decide (tag = .unban) && !s.cfg.repairOnUnban))) (decide (tag ≠ .unban)) x.2
      if y.1 = .sane then again env tag f cmd y.2 else (false, y.2)
    else again env tag f cmd x.2

/-- `ban(aInfo, cmd)` (lines 549-569) -/
def ban (env : Env) (tag : Tag) (f : Fam) (ticket : Nat) (s : State) : Bool × State :=
  let x := if s.cfg.onDemand && !isStarted s f then start env (some f) true s else (true, s)
  if x.1 then
    let y := process env tag f ticket x.2
    if y.1 then (true, setStarted y.2 f ⟨true, true⟩) else (false, y.2)
  else (false, x.2)

/-- `unban(aInfo)` (lines 594-608) -/
def unban (env : Env) (f : Fam) (ticket : Nat) (s : State) : Bool × State :=
  match s.started.get? f with
  | some v => if v.items then process env .unban f ticket s else (true, s)
  | none => (true, s)

/-- `_afterFlush` in `flush` (lines 638-640) -/
def afterFlush (f : Fam) (ret : Bool) (s : State) : State :=
  if ret then
    match s.started.get? f with
    | some v => if v.on || v.items then setStarted s f { v with items := false } else s
    | none => s
  else s

/-- `flush()` (lines 624-641) -/
def flush (env : Env) (s : State) : Bool × State :=
  operation env .flush afterFlush ((s.started.items.filter (fun p => p.2.on && p.2.items)).map (·.1)) true s

/-- `reload()` (lines 673-684) -/
def reload (env : Env) (s : State) : Bool × State := operation env .reload (fun _ _ s => s) (startedFams s) true s

/-- the loop of `consistencyCheck` (lines 691-697); `none`: an exception -/
def checkLoop (env : Env) (before : Option Bool) : List (Fam × Flags) → Bool → State → Option Bool × State
  | [], ret, s => (some ret, s)
  | (f, v) :: rest, ret, s =>
    if v.on || v.items then
      let x := invariantCheck env f before true s
      match x.1 with
      | .raised => (none, x.2)
      | .broken => checkLoop env before rest false (forget (setStarted x.2 f ⟨false, false⟩) .start f)
      | _ => checkLoop env before rest ret x.2
    else checkLoop env before rest ret s

/-- `consistencyCheck(beforeRepair)` (lines 686-698); an exception is `false`, too -/
def consistencyCheck (env : Env) (before : Option Bool) (s : State) : Bool × State :=
  if s.cfg.check then
    let x := checkLoop env before s.started.items true s
    (x.1 == some true, x.2)
  else (true, s)

/-- The methods. Setting a parameter (`__setattr__`, lines 357-371) clears the cache. -/
def method (env : Env) (cfg : Config) (s : State) : Call → Bool × State
  | .start => start env none false s
  | .ban f t => ban env .ban f t s
  | .reban f t => ban env (if s.cfg.reban then .reban else .ban) f t s
  | .unban f t => unban env f t s
  | .prolong f t => process env .prolong f t s
  | .flush => flush env s
  | .stop => stopAll env s
  | .reload => reload env s
  | .check before => consistencyCheck env before s
  | .set => (true, { s with cfg := cfg, executed := fun _ => Dict.empty })

/-- A call, with what is seen of it; `cfg`: the new parameters of `.set`. -/
def step (env : Env) (s : State) (c : Call) (cfg : Config) : State :=
  let x := method env cfg { s with trace := s.trace ++ [.call c] } c
  { x.2 with trace := x.2.trace ++ [.done c x.1] }

/-- A history of calls. -/
def run (env : Env) : State → List (Call × Config) → State
  | s, [] => s
  | s, (c, cfg) :: cs => run env (step env s c cfg) cs

end CmdAction

end Verif
