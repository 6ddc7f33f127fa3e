/-!
# Saving of log positions by two threads — `fail2ban/server/filter.py` (1164-1178, 1280-1308), `fail2ban/server/jailthread.py` (67-79)

The thread of a filter reads logs and notes those to be saved in a dictionary; it saves them from time to time, and after its main loop
(`onStop`). Who stops the filter calls `onStop` too, at the same time. An event is one step of one of both threads; events that cannot
happen in a state change nothing. Taking an entry (`popitem`) and writing a position (under the lock of the database, which reads the
position then, database.py 513-533) are steps. The reading of lines itself, that a log cannot be opened after its position was
changed, and the removal of logs by `onStop` (which both threads may do, 1046-1048) are left out. Files are numbers, `die` is an exception that leaves `run` or `onStop` (logged, jailthread.py 72-78).
-/

namespace Verif.Pending

/-- Where the thread of the filter is. -/
inductive Phase where
  /-- main loop -/
  | run
  /-- the position of a log was changed, by `open()` after a rotation (line 1428) or by `close()` (1167, 1544), and it is not yet noted (1169) -/
  | mark (l : Nat)
  /-- in `_updateDBPending`; `last` if called by `onStop` after the main loop -/
  | flush (last : Bool)
  /-- took an entry, before it is written (1286-1289) -/
  | hold (l : Nat) (last : Bool)
  /-- `onStop` returned -/
  | done
  /-- left by an exception -/
  | dead
deriving DecidableEq

/-- Where the thread that calls `stop()` is. -/
inductive Caller where
  | idle
  | flush
  | hold (l : Nat)
  /-- after `onStop` -/
  | stopped
deriving DecidableEq

structure State where
  /-- `getPos()` of each log -/
  pos : Nat → Nat
  /-- positions in the database -/
  db : Nat → Nat
  /-- `_pendDBUpdates`, newest entry first -/
  pend : List Nat
  thread : Phase
  caller : Caller

inductive Ev where
  /-- the position of a log is changed, as it was rotated or read -/
  | read (l p : Nat)
  /-- `self._pendDBUpdates[log] = 1` -/
  | note
  /-- positions are to be saved (1170-1175) -/
  | save
  /-- `popitem()`, or its `KeyError` -/
  | pop
  /-- `db.updateLog` -/
  | write
  /-- the main loop ends, `onStop` begins -/
  | finish
  | die
  /-- the caller begins `stop()` -/
  | stop
  | callerPop
  | callerWrite

/-- Insertion into the dictionary: a key that is there keeps its place. -/
def note (l : Nat) (pend : List Nat) : List Nat := if l ∈ pend then pend else l :: pend

/-- A value changed at one place. -/
def set (f : Nat → Nat) (l p : Nat) : Nat → Nat := fun k => if k = l then p else f k

/-- One step. -/
def step (s : State) : Ev → State
  | .read l p => match s.thread with
    | .run => { s with pos := set s.pos l p, thread := .mark l }
    | .mark k => if k = l then { s with pos := set s.pos l p } else s
    | _ => s
  | .note => match s.thread with
    | .mark l => { s with pend := note l s.pend, thread := .run }
    | _ => s
  | .save => match s.thread with
    | .run => { s with thread := .flush false }
    | _ => s
  | .pop => match s.thread with
    | .flush last => match s.pend with
      | [] => { s with thread := if last then .done else .run }
      | l :: r => { s with pend := r, thread := .hold l last }
    | _ => s
  | .write => match s.thread with
    | .hold l last => { s with db := set s.db l (s.pos l), thread := .flush last }
    | _ => s
  | .finish => match s.thread with
    | .run => { s with thread := .flush true }
    | _ => s
  | .die => match s.thread with
    | .done => s
    | _ => { s with thread := .dead }
  | .stop => match s.caller with
    | .idle => { s with caller := .flush }
    | _ => s
  | .callerPop => match s.caller with
    | .flush => match s.pend with
      | [] => { s with caller := .stopped }
      | l :: r => { s with pend := r, caller := .hold l }
    | _ => s
  | .callerWrite => match s.caller with
    | .hold l => { s with db := set s.db l (s.pos l), caller := .flush }
    | _ => s

/-- Steps in order. -/
def run (s : State) (evs : List Ev) : State := evs.foldl step s

/-- A filter that was started: positions are those of the database. -/
def start (pos : Nat → Nat) : State := ⟨pos, pos, [], .run, .idle⟩

end Verif.Pending
