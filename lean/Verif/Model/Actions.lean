import Verif.Model.BanManager

/-!
# Actions of a jail — `fail2ban/server/actions.py`

The ban/unban machinery of one jail: `add`, `reload`, `getBanned`, `addBannedIP`, `removeBannedIP`, `stopActions`, the main
loop `run`, `__checkBan`, `__reBan`, `_prolongBan`, `__checkUnBan`, `__flushBan`, `__unBan`, `status`.

Every call of a method of an action object (and every request to the observer or the database) is appended to a trace.
What such a call does — succeed, raise an exception, return false, or find its environment broken and invalidate the ban
epoch — is decided by an arbitrary environment `Env`, a function of the whole trace so far including the call itself. So a
statement "for every environment" covers every pattern of failing commands, depending on anything that happened before.

Not modelled: `ActionInfo` (the tag values of a call; the ticket is identified by its id), logging, and interleavings of
the thread of the actions with commands of the server thread inside one of these methods (each method is one step).
-/

namespace Verif

/-- The properties of an action object the jail looks at. -/
structure Action where
  /-- `norestored` (actions.py 510) -/
  norestored : Bool := false
  /-- `_prolongable` (actions.py 608) -/
  prolongable : Bool := false
  /-- `hasattr(action, 'flush') and (not isinstance(action, CommandAction) or action.actionflush)` (actions.py 655) -/
  canFlush : Bool := false
  /-- `hasattr(action, 'consistencyCheck')` (actions.py 547, 664) -/
  canCheck : Bool := false
  /-- `hasattr(action, 'reload')` (actions.py 137) -/
  hasReload : Bool := true
  /-- `hasattr(action, 'clearAllParams')` (actions.py 139) -/
  hasClear : Bool := true
  /-- `banEpoch` of the action (action.py 899-900) -/
  banEpoch : Nat := 0
deriving DecidableEq, Repr

/-- Calls made by the jail. -/
inductive Call where
  /-- `action.start()` -/
  | start (action : String)
  /-- `action.ban(aInfo)` -/
  | ban (action : String) (fid : Fid)
  /-- `action.reban(aInfo)` -/
  | reban (action : String) (fid : Fid)
  /-- `action.prolong(aInfo)` -/
  | prolong (action : String) (fid : Fid)
  /-- `action.unban(aInfo)` -/
  | unban (action : String) (fid : Fid)
  /-- `action.flush()` -/
  | flush (action : String)
  /-- `action.stop()` -/
  | stop (action : String)
  /-- `action.consistencyCheck()` -/
  | check (action : String)
  /-- `action.reload()` -/
  | reload (action : String)
  /-- `Observers.Main.add('banFound', ticket, ...)` -/
  | banFound (fid : Fid)
  /-- `database.delBan(jail, ip)`, `none` for the whole jail -/
  | dbDel (fid : Option Fid)
  /-- the notice `[jail] Ban ip` / `[jail] Restore Ban ip` in the log (actions.py 506) -/
  | logBan (fid : Fid) (restored : Bool)
  /-- `banManager.unBanList(now, maxCount)`, an expiry check (actions.py 626) -/
  | expiry (maxCount : Nat)
deriving DecidableEq, Repr

/-- Result of a call. -/
structure Outcome where
  /-- an exception was raised -/
  raised : Bool := false
  /-- truth of the returned value -/
  ret : Bool := true
  /-- how often the action invalidated the ban epoch (action.py 901-907) -/
  bumps : Nat := 0
deriving DecidableEq, Repr

/-- Environment: what a call results in, given all calls made so far, the last one being the call in question. -/
abbrev Env := List Call → Outcome

/-- State of `Actions` (actions.py 78-90). -/
structure Actions where
  /-- `_actions` -/
  actions : Dict String Action
  /-- `banManager` -/
  bm : BanManager
  /-- `banEpoch` -/
  banEpoch : Nat
  /-- `__lastConsistencyCheckTM` -/
  lastCheck : Int
  /-- `Observers.Main is not None` -/
  observer : Bool
  /-- `self._jail.database is not None` -/
  hasDb : Bool
  /-- `_reload_actions` (absent or the recorded names) -/
  reloading : Option (List String)
  /-- calls made so far -/
  trace : List Call

namespace Actions

/-- `Actions(jail)` (actions.py 78-90) -/
def init (observer hasDb : Bool) : Actions :=
  { actions := Dict.empty, bm := BanManager.init, banEpoch := 0, lastCheck := 0, observer, hasDb, reloading := none,
    trace := [] }

/-- Make a call for an action (a method invocation in actions.py). `invalidateBanEpoch` (action.py 901-907), if the action
executes it, increments the epoch of the jail and stores it in the action. -/
def call (env : Env) (s : Actions) (name : String) (c : Call) : Outcome × Actions :=
  let o := env (s.trace ++ [c])
  let s := { s with trace := s.trace ++ [c] }
  if o.bumps = 0 then (o, s)
  else
    let e := s.banEpoch + o.bumps
    (o, { s with
      banEpoch := e
      actions := match s.actions.get? name with
        | some a => s.actions.insert name { a with banEpoch := e }
        | none => s.actions })

/-- The loop over actions in `__checkBan` (actions.py 508-519): exceptions are logged only. -/
def banLoop (env : Env) (fid : Fid) (restored : Bool) : List (String × Action) → Actions → Actions
  | [], s => s
  | (name, a) :: rest, s =>
    if restored && a.norestored then banLoop env fid restored rest s
    else banLoop env fid restored rest (s.call env name (.ban name fid)).2

/-- The loop of `__unBan` (actions.py 708-718). -/
def unbanLoop (env : Env) (fid : Fid) : List String → Actions → Actions
  | [], s => s
  | name :: rest, s => unbanLoop env fid rest (s.call env name (.unban name fid)).2

/-- `__unBan(ticket, actions)` (actions.py 689-718) -/
def unBan (env : Env) (s : Actions) (fid : Fid) (actions : Option (List String)) : Actions :=
  unbanLoop env fid (actions.getD s.actions.keys) s

/-- Change the ticket object stored in the ban list. -/
def updTicket (s : Actions) (fid : Fid) (f : Ticket → Ticket) : Actions :=
  match s.bm.banList.get? fid with
  | some t => { s with bm := { s.bm with banList := s.bm.banList.insert fid (f t) } }
  | none => s

/-- Set the banned flag and the epoch (actions.py 521-523, 593-595). -/
def markBanned (s : Actions) (fid : Fid) : Actions :=
  s.updTicket fid (fun t => { t with banned := true, banEpoch := if s.banEpoch ≠ 0 then s.banEpoch else t.banEpoch })

/-- The loop of `__reBan` (actions.py 580-591): `false` if an exception stopped it. -/
def rebanLoop (env : Env) (fid : Fid) : List String → Actions → Bool × Actions
  | [], s => (true, s)
  | name :: rest, s =>
    let (o, s) := s.call env name (.reban name fid)
    if o.raised then (false, s) else rebanLoop env fid rest s

/-- `__reBan(ticket, actions)` (actions.py 564-596); an empty selection means all actions (575). -/
def reBan (env : Env) (s : Actions) (fid : Fid) (actions : List String) : Nat × Actions :=
  let actions := if actions = [] then s.actions.keys else actions
  match rebanLoop env fid actions s with
  | (true, s) => (1, s.markBanned fid)
  | (false, s) => (0, s)

/-- Consistency check of all actions (actions.py 546-548): `true` if a check raised an exception (not caught here). -/
def checkLoop (env : Env) : List (String × Action) → Actions → Bool × Actions
  | [], s => (false, s)
  | (name, a) :: rest, s =>
    if a.canCheck then
      let (o, s) := s.call env name (.check name)
      if o.raised then (true, s) else checkLoop env rest s
    else checkLoop env rest s

/-- Result of processing a ticket in `__checkBan`. -/
structure BanRes where
  /-- `cnt` increment -/
  cnt : Nat
  /-- an exception left `__checkBan` -/
  raised : Bool
  /-- `rebanacts` -/
  rebanacts : List String
  /-- state -/
  s : Actions

/-- The already-banned branch (actions.py 528-556); `old` is the running ban. -/
def alreadyBanned (env : Env) (now : Int) (s : Actions) (rebanacts : List String) (ticket old : Ticket) : BanRes :=
  if old.banned then
    let diftm := ticket.time - old.time
    let r :=
      if old.banEpoch = s.banEpoch ∧ 3 < diftm ∧ rebanacts = [] ∧ s.lastCheck + 3 < now then
        checkLoop env s.actions.items { s with lastCheck := now }
      else (false, s)
    let s := r.2
    if r.1 then ⟨0, true, rebanacts, s⟩
    else if old.banEpoch < s.banEpoch then
      let ra :=
        if rebanacts = [] then
          (s.actions.items.filter (fun kv => decide (old.banEpoch < kv.2.banEpoch))).map Prod.fst
        else rebanacts
      let r := s.reBan env ticket.id ra
      ⟨r.1, false, ra, r.2⟩
    else ⟨0, false, rebanacts, s⟩
  else
    let r := s.reBan env ticket.id []
    ⟨r.1, false, rebanacts, r.2⟩

/-- The newly banned branch (actions.py 502-523). -/
def newBan (env : Env) (s : Actions) (ticket : Ticket) : Actions :=
  let s := if s.observer && !ticket.restored then { s with trace := s.trace ++ [.banFound ticket.id] } else s
  let s := { s with trace := s.trace ++ [.logBan ticket.id ticket.restored] }
  (banLoop env ticket.id ticket.restored s.actions.items s).markBanned ticket.id

/-- One ticket of `__checkBan` (actions.py 494-556). -/
def checkBanOne (env : Env) (now : Int) (s : Actions) (rebanacts : List String) (ticket : Ticket) : BanRes :=
  let r := s.bm.addBanTicket now { ticket with isBan := true }
  let s := { s with bm := r.2 }
  match r.1 with
  | .banned => ⟨1, false, rebanacts, newBan env s ticket⟩
  | .expired => ⟨0, false, rebanacts, s⟩
  | .already old _ => alreadyBanned env now s rebanacts ticket old

/-- The loop of `__checkBan` (actions.py 490-562): number of bans (of no meaning if an exception was raised), whether an
exception was raised, the tickets not taken, the state. -/
def checkBanLoop (env : Env) (now : Int) : List Ticket → List String → Nat → Actions → Nat × Bool × List Ticket × Actions
  | [], _, cnt, s => (cnt, false, [], s)
  | t :: rest, rebanacts, cnt, s =>
    let r := s.checkBanOne env now rebanacts t
    if r.raised then (cnt, true, rest, r.s) else checkBanLoop env now rest r.rebanacts (cnt + r.cnt) r.s

/-- `addBannedIP(ips)` (actions.py 232-243): the tickets are new. -/
def addBannedIP (env : Env) (now : Int) (s : Actions) (ips : List Fid) : Nat × Bool × List Ticket × Actions :=
  checkBanLoop env now (ips.map (fun ip => { Ticket.new ip now [] with isBan := true })) [] 0 s

/-- Loop over released tickets in `__checkUnBan` (actions.py 627-628). -/
def unbanTickets (env : Env) (actions : Option (List String)) : List Ticket → Actions → Actions
  | [], s => s
  | t :: rest, s => unbanTickets env actions rest (s.unBan env t.id actions)

/-- `__checkUnBan(maxCount)` (actions.py 621-633) -/
def checkUnBan (env : Env) (now : Int) (s : Actions) (maxCount : Nat) : Nat × Actions :=
  let r := s.bm.unBanList now maxCount
  (r.1.length, unbanTickets env none r.1 { s with bm := r.2, trace := s.trace ++ [.expiry maxCount] })

/-- The flush loop of `__flushBan` (actions.py 652-674): the actions left for single unbans, and whether an exception of a
consistency check was raised. -/
def flushLoop (env : Env) : List (String × Action) → List String → Actions → List String × Bool × Actions
  | [], left, s => (left, false, s)
  | (name, a) :: rest, left, s =>
    if a.canFlush then
      let (o, s) := s.call env name (.flush name)
      if o.raised then
        if a.canCheck then
          let (o, s) := s.call env name (.check name)
          if o.raised then (left, true, s) else flushLoop env rest left s
        else flushLoop env rest (left ++ [name]) s
      else if o.ret then flushLoop env rest left s
      else flushLoop env rest (left ++ [name]) s
    else flushLoop env rest (left ++ [name]) s

/-- `__flushBan(db, actions)` (actions.py 635-687): `none` actions is the flush of the whole jail (the ban list is
emptied), `some` the removal of some actions (the ban list stays). Count, exception flag, state. -/
def flushBan (env : Env) (s : Actions) (db : Bool) (actions : Option (List (String × Action))) : Nat × Bool × Actions :=
  let (lst, bm) := match actions with
    | none => s.bm.flushBanList
    | some _ => (s.bm.banList.values, s.bm)
  let s := { s with bm := bm }
  match flushLoop env (actions.getD s.actions.items) [] s with
  | (_, true, s) => (0, true, s)
  | (left, false, s) =>
    let s := if db && s.hasDb then { s with trace := s.trace ++ [.dbDel none] } else s
    (lst.length, false, unbanTickets env (some left) lst s)

/-- Stop in the given order (actions.py 308-316), removing each action. -/
def stopLoop (env : Env) : List String → Actions → Actions
  | [], s => s
  | name :: rest, s =>
    let s := (s.call env name (.stop name)).2
    stopLoop env rest { s with actions := s.actions.erase name }

/-- `stopActions(actions)` (actions.py 303-316) -/
def stopActions (env : Env) (s : Actions) (actions : Option (List String)) : Actions :=
  stopLoop env (actions.getD s.actions.keys).reverse s

/-- Delete from the database (actions.py 279-280). -/
def dbDelete (s : Actions) (db : Bool) (ip : Fid) : Actions :=
  if db && s.hasDb then { s with trace := s.trace ++ [.dbDel (some ip)] } else s

/-- `removeBannedIP` of a banned or unknown address object (actions.py 279-300 without 288-293): `none` is `ValueError`. -/
def removeObj (env : Env) (s : Actions) (db ifexists : Bool) (ip : Fid) : Option Nat × Actions :=
  let s := s.dbDelete db ip
  let r := s.bm.getTicketByID ip
  let s := { s with bm := r.2 }
  match r.1 with
  | some t => (some 1, s.unBan env t.id none)
  | none => (if ifexists then some 0 else none, s)

/-- The loop over several addresses (actions.py 266-276), each removed by `rm`: sum and missed ones. -/
def removeLoop (rm : Actions → Fid → Option Nat × Actions) (ifexists : Bool) :
    List Fid → Nat → List Fid → Actions → Nat × List Fid × Actions
  | [], cnt, missed, s => (cnt, missed, s)
  | ip :: rest, cnt, missed, s =>
    match rm s ip with
    | (some n, s) => removeLoop rm ifexists rest (cnt + n) missed s
    | (none, s) => removeLoop rm ifexists rest cnt (if ifexists then missed else missed ++ [ip]) s

/-- `removeBannedIP` of a text (actions.py 279-300). `net ip` is the membership test of the subnet or host name the text
denotes, `none` if it denotes a single address. Addresses of the ban list selected by it are address objects, so they are
not expanded again. -/
def removeStr (env : Env) (net : Fid → Option (Fid → Bool)) (db ifexists : Bool) (s : Actions) (ip : Fid) :
    Option Nat × Actions :=
  let s := s.dbDelete db ip
  let r := s.bm.getTicketByID ip
  let s := { s with bm := r.2 }
  match r.1 with
  | some t => (some 1, s.unBan env t.id none)
  | none =>
    let ips := match net ip with
      | some contains => (s.bm.getBanList false).filter contains
      | none => []
    if ips ≠ [] then
      let (cnt, missed, s) := removeLoop (fun s ip => s.removeObj env db ifexists ip) ifexists ips 0 [] s
      (if missed = [] then some cnt else none, s)
    else (if ifexists then some 0 else none, s)

/-- `removeBannedIP(list)` (actions.py 265-276): count and missed addresses (`ValueError` if there are any). -/
def removeBannedIPs (env : Env) (net : Fid → Option (Fid → Bool)) (s : Actions) (db ifexists : Bool) (ips : List Fid) :
    Nat × List Fid × Actions :=
  removeLoop (removeStr env net db ifexists) ifexists ips 0 [] s

/-- `getBanned(ids)` for several ids (actions.py 214-220) -/
def getBanned (s : Actions) (ids : List Fid) : List Nat :=
  ids.map (fun ip => if (s.bm.getBanList false).contains ip then 1 else 0)

/-- The loop of `_prolongBan` (actions.py 604-619). -/
def prolongLoop (env : Env) (fid : Fid) (restored : Bool) : List (String × Action) → Actions → Actions
  | [], s => s
  | (name, a) :: rest, s =>
    if restored && a.norestored then prolongLoop env fid restored rest s
    else if !a.prolongable then prolongLoop env fid restored rest s
    else prolongLoop env fid restored rest (s.call env name (.prolong name fid)).2

/-- `_prolongBan(ticket)` (actions.py 598-619) -/
def prolongBan (env : Env) (s : Actions) (ticket : Ticket) : Actions :=
  if s.bm.inBanList ticket.id then prolongLoop env ticket.id ticket.restored s.actions.items s else s

/-- `add(name, reload=reload)` (actions.py 105-149) of an action `a`: `none` is `ValueError`. -/
def add (s : Actions) (name : String) (a : Action) (reload : Bool) : Option Actions :=
  match s.actions.get? name with
  | some old =>
    if !reload then none
    else if old.hasReload then
      if old.hasClear then
        some { s with reloading := s.reloading.map (fun l => if l.contains name then l else l ++ [name]) }
      else some s
    else some { s with actions := s.actions.insert name a }
  | none => some { s with actions := s.actions.insert name a }

/-- Reload each recorded action that still exists (actions.py 159-161); `true` if one raised an exception. -/
def reloadLoop (env : Env) : List String → Actions → Bool × Actions
  | [], s => (false, s)
  | name :: rest, s =>
    if s.actions.contains name then
      let (o, s) := s.call env name (.reload name)
      if o.raised then (true, s) else reloadLoop env rest s
    else reloadLoop env rest s

/-- `reload(begin=True)` (actions.py 154-155) -/
def reloadBegin (s : Actions) : Actions := { s with reloading := some [] }

/-- `reload(begin=False)` (actions.py 156-170); the flag is an exception that left it. -/
def reloadEnd (env : Env) (s : Actions) : Bool × Actions :=
  match s.reloading with
  | none => (false, s)
  | some names =>
    match reloadLoop env names s with
    | (true, s) => (true, s)
    | (false, s) =>
      let delacts := s.actions.items.filter (fun kv => !(names.contains kv.1))
      if delacts ≠ [] then
        match s.flushBan env false (some delacts) with
        | (_, true, s) => (true, s)
        | (_, false, s) =>
          let s := s.stopActions env (some (delacts.map Prod.fst))
          (false, { s with reloading := none })
      else (false, { s with reloading := none })

/-- Start all actions (actions.py 331-337). -/
def startLoop (env : Env) : List String → Actions → Actions
  | [], s => s
  | name :: rest, s => startLoop env rest (s.call env name (.start name)).2

/-- End of the thread (actions.py 366-367): flush, then stop all actions. An exception of the flush skips the stop. -/
def shutdown (env : Env) (s : Actions) : Bool × Actions :=
  match s.flushBan env false none with
  | (_, true, s) => (true, s)
  | (_, false, s) => (false, s.stopActions env none)

/-- State of the main loop: `cnt` of the loop, queue of the jail. -/
structure Loop where
  /-- `cnt` (actions.py 330) -/
  cnt : Nat
  /-- queue of tickets of the jail (jail.py 205-223) -/
  queue : List Ticket
  /-- actions -/
  s : Actions

/-- `banPrecedence` (actions.py 88) -/
def banPrecedence : Nat := 10

/-- `unbanMaxCount` (actions.py 90) -/
def unbanMaxCount : Nat := banPrecedence * 2

/-- Limit of the expiry check after `bancnt` bans (actions.py 357-359). -/
def unbanLimit (bancnt : Nat) : Nat :=
  let bancnt := bancnt * 2
  if bancnt ≠ 0 ∧ bancnt < unbanMaxCount then bancnt else unbanMaxCount

/-- One iteration of the main loop of an active, not idle thread (actions.py 339-364). `now` is the time, the waiting
ended because of tickets or because of the time. -/
def iter (env : Env) (now : Int) (l : Loop) : Loop :=
  let r : Nat × Bool × List Ticket × Actions :=
    if l.queue ≠ [] then checkBanLoop env now (l.queue.take banPrecedence) [] 0 l.s else (0, false, [], l.s)
  let queue := r.2.2.1 ++ l.queue.drop banPrecedence
  if r.2.1 then { l with queue := queue, s := r.2.2.2 }
  else
    let cnt := l.cnt + r.1
    if r.1 = 0 ∨ banPrecedence ≤ cnt then
      { cnt := 0, queue := queue, s := (r.2.2.2.checkUnBan env now (unbanLimit r.1)).2 }
    else { cnt := cnt, queue := queue, s := r.2.2.2 }

/-- `status("basic")` (actions.py 720-738): current number, total number, list. -/
def status (s : Actions) : Nat × Nat × List Fid :=
  let banned := s.bm.getBanList false
  (banned.length, s.bm.banTotal, banned)

end Actions

end Verif
