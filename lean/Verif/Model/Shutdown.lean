/-!
# Start and end of the server — `fail2ban/server/server.py` (154-235, 257-289), `fail2ban/server/jail.py` (329-350), `fail2ban/server/jailthread.py` (88-121), `fail2ban/server/filter.py` (1280-1308), `fail2ban/server/asyncserver.py` (246-315)

What the thread of `quit` does is a list of events. Other threads appear by the end of the loop of a thread: a thread that is to stop
(`active` is false) ends, what it does meanwhile is not part of this model (see `Model/Actions` for the end of the actions). A thread that is
`active` does not end.
-/

namespace Verif.Shutdown

/-- A thread of a jail: `start` was called (`active` is not `None`), `active`, and whether it runs -/
structure Thread where
  started : Bool
  active : Bool
  alive : Bool
deriving DecidableEq

/-- A jail: its threads, whether the filter reads files (`FileFilter`), and the positions in logs that are not in the database yet
(`_pendDBUpdates`), each with whether the database will take it -/
structure Jail where
  filter : Thread
  actions : Thread
  files : Bool
  pending : List Bool
deriving DecidableEq

inductive Part where
  | filter
  | actions
deriving DecidableEq

inductive Ev where
  /-- `stop_communication()` -/
  | stopComm
  /-- `signal.signal(s, sh)` -/
  | signals
  /-- `obsMain.stop(forceQuit)` -/
  | observer (force : Bool)
  /-- `active = False` -/
  | signal (n : String) (p : Part)
  /-- `join` of a started thread has returned -/
  | joined (n : String) (p : Part)
  /-- `db.updateLog` was called -/
  | position (n : String)
  /-- `db.delJail` was called -/
  | dbDel (n : String)
  /-- `db.close` was called -/
  | dbClose
  /-- `asyncServer.stop()` -/
  | asyncStop
deriving DecidableEq

inductive Res where
  | ok
  /-- an exception -/
  | raised
  /-- a wait without end -/
  | hang
deriving DecidableEq

/-- The server, as far as `quit` uses it. `delOk` says for which jails `db.delJail` will succeed; `obsEnds` is what
`obsMain.stop(forceQuit=False)` will return -/
structure Server where
  jails : List (String × Jail)
  /-- `__db` is set and open -/
  db : Bool
  /-- `Observers.Main is not None` -/
  obs : Bool
  /-- `__asyncServer is not None` -/
  async : Bool
  /-- `self.quit` is still the method -/
  canQuit : Bool
  delOk : String → Bool
  obsEnds : Bool

/-- `_updateDBPending()` (filter.py 1280-1289): whether an exception is raised, what remains, number of calls -/
def updatePending : List Bool → Bool × List Bool × Nat
  | [] => (false, [], 0)
  | true :: l => let r := updatePending l; (r.1, r.2.1, r.2.2 + 1)
  | false :: l => (true, l, 1)

/-- `stop()` of a thread (jailthread.py 103-106) -/
def Thread.stop (t : Thread) : Thread := { t with active := false }

/-- `join()` (jailthread.py 114-121): `none` if it does not return -/
def Thread.join (t : Thread) : Option Thread :=
  if t.started then
    if t.alive then if t.active then none else some { t with alive := false }
    else some t
  else some t

/-- Event of a `join` that returned -/
def joinedEv (n : String) (p : Part) (t : Thread) : List Ev := if t.started then [.joined n p] else []

/-- `filter.stop()`: of files (filter.py 1291-1308), else as of any thread; whether an exception is raised. Removal of the paths is not
modelled. -/
def stopFilter (db : Bool) (n : String) (j : Jail) : Bool × Jail × List Ev :=
  if j.files && db && !j.pending.isEmpty then
    let r := updatePending j.pending
    let evs := List.replicate r.2.2 (Ev.position n)
    if r.1 then (true, { j with pending := r.2.1 }, evs)
    else (false, { j with pending := r.2.1, filter := j.filter.stop }, evs ++ [.signal n .filter])
  else (false, { j with filter := j.filter.stop }, [.signal n .filter])

/-- First pass of the loop of `Jail.stop` (jail.py 334-344), for the filter -/
def passFilter (db : Bool) (n : String) (stop join : Bool) (j : Jail) : Res × Jail × List Ev :=
  let s := if stop then stopFilter db n j else (false, j, [])
  if s.1 then (.ok, s.2.1, s.2.2)
  else if join then
    match s.2.1.filter.join with
    | none => (.hang, s.2.1, s.2.2)
    | some t => (.ok, { s.2.1 with filter := t }, s.2.2 ++ joinedEv n .filter t)
  else (.ok, s.2.1, s.2.2)

/-- Second pass of the loop, for the actions -/
def passActions (n : String) (stop join : Bool) (j : Jail) : Res × Jail × List Ev :=
  let j1 := if stop then { j with actions := j.actions.stop } else j
  let evs := if stop then [Ev.signal n .actions] else []
  if join then
    match j1.actions.join with
    | none => (.hang, j1, evs)
    | some t => (.ok, { j1 with actions := t }, evs ++ joinedEv n .actions t)
  else (.ok, j1, evs)

/-- `Jail.stop(stop, join)` (jail.py 329-347): exceptions are caught -/
def jailStop (db : Bool) (n : String) (stop join : Bool) (j : Jail) : Res × Jail × List Ev :=
  let f := passFilter db n stop join j
  match f.1 with
  | .hang => f
  | _ =>
    let a := passActions n stop join f.2.1
    (a.1, a.2.1, f.2.2 ++ a.2.2)

/-- `Jail.isAlive()` (jail.py 348-351) -/
def Jail.isAlive (j : Jail) : Bool := j.filter.alive || j.actions.alive

/-- `delJail(name, stop, join)` (server.py 257-264) of the jail: `none` is a deleted one -/
def delJail (db : Bool) (delOk : String → Bool) (n : String) (stop join : Bool) (j : Jail) : Res × Option Jail × List Ev :=
  let s := if join || j.isAlive then jailStop db n stop join j else (.ok, j, [])
  match s.1 with
  | .ok =>
    if join then
      if db then
        if delOk n then (.ok, none, s.2.2 ++ [.dbDel n]) else (.raised, some s.2.1, s.2.2 ++ [.dbDel n])
      else (.ok, none, s.2.2)
    else (.ok, some s.2.1, s.2.2)
  | r => (r, some s.2.1, s.2.2)

/-- Loop of `delJail` over all jails (server.py 284-289) -/
def delLoop (db : Bool) (delOk : String → Bool) (stop join : Bool) : List (String × Jail) → Res × List (String × Jail) × List Ev
  | [] => (.ok, [], [])
  | (n, j) :: rest =>
    let d := delJail db delOk n stop join j
    let keep := (d.2.1.map (fun j' => (n, j'))).toList
    match d.1 with
    | .ok => let r := delLoop db delOk stop join rest; (r.1, keep ++ r.2.1, d.2.2 ++ r.2.2)
    | e => (e, keep ++ rest, d.2.2)

/-- `stopAllJail()` (server.py 281-289) -/
def stopAllJail (s : Server) : Res × Server × List Ev :=
  let a := delLoop s.db s.delOk true false s.jails
  match a.1 with
  | .ok =>
    let b := delLoop s.db s.delOk false true a.2.1
    (b.1, { s with jails := b.2.1 }, a.2.2 ++ b.2.2)
  | r => (r, { s with jails := a.2.1 }, a.2.2)

/-- `stopJail(name)` (server.py 277-279) of a jail that exists -/
def stopJail (s : Server) (n : String) : Res × Server × List Ev :=
  match s.jails.find? (fun j => j.1 == n) with
  | none => (.raised, s, [])
  | some j =>
    let d := delJail s.db s.delOk n true true j.2
    (d.1, { s with jails := s.jails.flatMap (fun k => if k.1 == n then (d.2.1.map (fun j' => (n, j'))).toList else [k]) }, d.2.2)

/-- `quit()` (server.py 190-234) in the main thread -/
def quit (s : Server) : Res × Server × List Ev :=
  if !s.canQuit then (.ok, s, [])
  else
    let e1 := (if s.async then [Ev.stopComm] else []) ++ [.signals] ++ (if s.obs then [.observer false] else [])
    let again := s.obs && !s.obsEnds
    let a := stopAllJail { s with canQuit := false, obs := false }
    match a.1 with
    | .ok =>
      ( .ok, { a.2.1 with db := false, async := false },
        e1 ++ a.2.2 ++ (if again then [.observer true] else []) ++ (if s.db then [.dbClose] else []) ++ (if s.async then [.asyncStop] else []) )
    | r => (r, a.2.1, e1 ++ a.2.2)

/-! ## Files of the server -/

/-- PID file (its content) and socket (the process that has bound it) -/
structure Files where
  pid : Option Nat
  socket : Option Nat
deriving DecidableEq

/-- `start` up to the event loop (server.py 154-177, asyncserver.py 246-268): files and whether the socket was bound (`__init`) -/
def startUp (f : Files) (me : Nat) (force : Bool) : Files × Bool :=
  let f1 := { f with pid := some me }
  if f.socket.isSome && !force then (f1, false) else ({ f1 with socket := some me }, true)

/-- `close()` of the socket (asyncserver.py 294-297) and removal of the PID file (server.py 180-188) -/
def finish (f : Files) (init : Bool) : Files := { pid := none, socket := if init then none else f.socket }

end Verif.Shutdown
