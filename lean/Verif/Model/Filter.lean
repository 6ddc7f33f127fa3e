import Verif.Model.Ignore
import Verif.Model.FailManager

/-!
# Processing of log lines — `fail2ban/server/filter.py` 449-489, 632-760

The date detector and `findFailure` are parameters of a line: what they return for this line. Logging, sleeping and the attributes
that only serve logging are not modelled. Time is in whole seconds.
-/

namespace Verif

open IPAddr

/-- What the date detector found in a line (lines 644-677). -/
inductive Detect where
  /-- no date pattern matched -/
  | none
  /-- a pattern matched an empty text -/
  | empty
  /-- a pattern matched, but the text could not be converted -/
  | failed
  /-- the date -/
  | found (d : Int)
deriving DecidableEq, Repr

/-- One failure found in a line (`failList` of `findFailure`, lines 983-985): failure-id and matched lines. -/
structure Found where
  ip : IPAddr
  lines : List String

/-- A log line as seen by the filter. -/
structure Line where
  /-- date supplied by the backend (journal) -/
  given : Option Int := Option.none
  /-- result of the date detector -/
  detect : Detect := .none
  /-- result of `findFailure`, `none` if it raises an exception -/
  find : Option (List Found) := some []

/-- Things the filter tells others. -/
inductive FEvent where
  /-- `jail.putFailTicket(ticket)` -/
  | put (t : Ticket)
  /-- `Observers.Main.add('failureFound', jail, ticket)` -/
  | failureFound (t : Ticket)
deriving DecidableEq, Repr

/-- State of a filter (lines 60-130). -/
structure Filter where
  /-- `failManager` -/
  fm : FailManager
  /-- ignore configuration -/
  ign : Ignore := {}
  /-- `__findTime` -/
  findTime : Int := 600
  /-- `checkFindTime` -/
  checkFindTime : Bool := true
  /-- `inOperation` -/
  inOperation : Bool := true
  /-- `__lastDate` -/
  lastDate : Option Int := none
  /-- `__nextSvcTime` -/
  nextSvcTime : Int := -(2 ^ 63)
  /-- `_errors` -/
  errors : Nat := 0
  /-- `jail.idle` (set by `self.idle = True`) -/
  idle : Bool := false
  /-- `procLines` -/
  procLines : Nat := 0
  /-- `Observers.Main is not None` -/
  observer : Bool := true
  /-- what was told so far -/
  out : List FEvent := []

namespace Filter

/-- `self.__lastDate and self.__lastDate > MyTime.time() - 60` (lines 664, 676) -/
def freshLast (s : Filter) (now : Int) : Option Int :=
  match s.lastDate with
  | some d => if d ≠ 0 ∧ now - 60 < d then some d else none
  | none => none

/-- The date of a line as found by the date detector (lines 644-680): the date (if any), `noDate`, and the new state. -/
def detectDate (s : Filter) (now : Int) : Detect → Option Int × Bool × Filter
  | .found d => (some d, false, { s with lastDate := some d })
  | .empty =>
    match s.freshLast now with
    | some d => (some d, false, s)
    | none => (some now, false, s)
  | _ =>
    match s.freshLast now with
    | some d => (some d, true, s)
    | none => if s.checkFindTime && s.inOperation then (some now, true, s) else (none, true, s)

/-- The date of a line (lines 638-680): the one given by the backend (if not zero) or the detected one. -/
def lineDate (s : Filter) (now : Int) (l : Line) : Option Int × Bool × Filter :=
  match l.given with
  | some d => if d ≠ 0 then (some d, false, { s with lastDate := some d }) else s.detectDate now l.detect
  | none => s.detectDate now l.detect

/-- The rest of `processLine` (lines 682-713): the date to use, or `none` if the line is too old and skipped. -/
def checkDate (s : Filter) (now : Int) (date : Option Int) : Option (Option Int) × Filter :=
  match date with
  | none => (some none, s)
  | some d =>
    if s.checkFindTime then
      if s.inOperation then
        if 60 < (d - now).natAbs then (some (some now), { s with lastDate := some now }) else (some (some d), s)
      else if d < now - s.findTime then (none, s) else (some (some d), s)
    else (some (some d), s)

/-- `processLine(line, date)` (lines 632-713): the failures with the date, `none` if an exception is raised. A match without any date is
dropped by `findFailure` (lines 924-930) while dates are checked. -/
def processLine (s : Filter) (now : Int) (l : Line) : Option (List (Found × Option Int)) × Filter :=
  let (date, _, s) := s.lineDate now l
  match s.checkDate now date with
  | (none, s) => (some [], s)
  | (some date, s) =>
    match l.find with
    | none => (none, s)
    | some fs => if date = none ∧ s.checkFindTime = true then (some [], s) else (some (fs.map (fun f => (f, date))), s)

/-- `performSvc(force)` (lines 460-467) -/
def performSvc (s : Filter) (now : Int) (force : Bool := false) : Filter :=
  if force || decide (s.nextSvcTime ≤ now) then { s with nextSvcTime := now + 5, fm := s.fm.cleanup now } else s

/-- `performBan(ip)` for a given address (lines 449-458) -/
def performBan (s : Filter) (now : Int) (ip : Fid) : Filter :=
  match s.fm.toBan (some ip) with
  | (some t, fm) => { s with fm, out := s.out ++ [FEvent.put t] }.performSvc now
  | (none, _) => s.performSvc now

/-- the loop of `performBan()` without address (lines 449-458): every failure that reached the limit; `fuel` bounds the number of
iterations, the number of tracked addresses suffices -/
def performBanLoop (s : Filter) : Nat → Filter
  | 0 => s
  | fuel + 1 =>
    match s.fm.toBan none with
    | (some t, fm) => performBanLoop { s with fm, out := s.out ++ [FEvent.put t] } fuel
    | (none, _) => s

/-- `performBan()` -/
def performBanAll (s : Filter) (now : Int) : Filter := (s.performBanLoop s.fm.failList.size).performSvc now

/-- text of the failure-id -/
def fid (env : IgnoreEnv) (f : Found) : Fid := String.ofList (f.ip.ntoa env.lib)

/-- One failure of the loop in `processLineAndAdd` (lines 719-739); the flag is `false` if an exception was raised. -/
def addFound (env : IgnoreEnv) (now : Int) (s : Filter) (f : Found) (date : Option Int) : Bool × Filter :=
  let time := date.getD now
  let time := if s.checkFindTime && decide (now < time) then now else time
  let tick := Ticket.new (fid env f) time f.lines
  match s.ign.inIgnoreIPList env now f.ip with
  | (none, g) => (false, { s with ign := g })
  | (some true, g) => (true, { s with ign := g })
  | (some false, g) =>
    let s := { s with ign := g }
    let (attempts, fm) := s.fm.addFailure tick
    let s := { s with fm }
    let s := if s.fm.maxRetry ≤ attempts then s.performBan now (fid env f) else s
    (true, if s.observer then { s with out := s.out ++ [FEvent.failureFound tick] } else s)

/-- The loop of `processLineAndAdd` (line 719); the flag is `false` if an exception was raised. -/
def addLoop (env : IgnoreEnv) (now : Int) (s : Filter) : List (Found × Option Int) → Bool × Filter
  | [] => (true, s)
  | (f, d) :: rest =>
    match addFound env now s f d with
    | (true, s) => addLoop env now s rest
    | (false, s) => (false, s)

/-- `commonError()` (lines 752-760) -/
def commonError (s : Filter) : Filter :=
  let s := { s with errors := s.errors + 1 }
  if 100 ≤ s.errors then { s with errors := s.errors / 2, idle := true } else s

/-- After the loop without exception (lines 740-746) -/
def lineDone (s : Filter) (now : Int) : Filter :=
  let s := { s with procLines := s.procLines + 1 }
  let s := if s.procLines % 100 = 0 then s.performSvc now else s
  { s with errors := s.errors / 2 }

/-- `processLineAndAdd(line, date)` (lines 715-750) -/
def processLineAndAdd (env : IgnoreEnv) (now : Int) (s : Filter) (l : Line) : Filter :=
  match s.processLine now l with
  | (none, s) => s.commonError
  | (some fs, s) =>
    match addLoop env now s fs with
    | (true, s) => s.lineDone now
    | (false, s) => s.commonError

/-- `addAttempt(ip, *matches)` (lines 469-489) -/
def addAttempt (now : Int) (s : Filter) (ip : Fid) (lines : List String) : Filter :=
  let tick := Ticket.new ip now lines
  let (attempts, fm) := s.fm.addFailure tick (if lines = [] then 1 else lines.length)
  let s := { s with fm }
  let s := if s.fm.maxRetry ≤ attempts then s.performBan now ip else s
  if s.observer then { s with out := s.out ++ [FEvent.failureFound tick] } else s

end Filter

end Verif
