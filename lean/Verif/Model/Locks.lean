/-
Locks and waiting of the threads of the server.

Scope: every `Lock`/`RLock` of fail2ban/server (server.py 77-78, jails.py 45, banmanager.py 52,
failmanager.py 41, database.py 168, observer.py 69, datedetector.py 93, utils.py 72, action.py 49),
the locks of the standard library used implicitly (`queue.Queue` of a jail, handlers of `logging`),
and the waiting for the end of the threads of a jail (jail.py 336-341).

Simplifications: a function is described by the sections it may enter and the functions it may
call; any order and any number of these is a possible run (this covers branches, loops and
exceptions: `with` and `try/finally` release on every way out).  Waiting with a time limit
(`Utils.wait_for`, `Event.wait`, commands of actions: `timeout`) is `work`.  The mutex of
`BgService` (helpers.py 518) is never waited for.  Actions written in Python are user code and
not described.
-/

namespace Verif.Locks

/-- Kinds of locks. -/
inductive Kind where
  /-- `Server.__lock`, server.py 78 (RLock). -/
  | server
  /-- `Jails.__lock`, jails.py 45 (Lock). -/
  | jails
  /-- `DateDetectorCache.__lock`, datedetector.py 93 (Lock; the cache is an attribute of a class,
  229). -/
  | dates
  /-- `_cmd_lock`, action.py 49 (Lock, one for the process). -/
  | cmd
  /-- `Server.__loggingLock`, server.py 77 (Lock). -/
  | logging
  /-- Mutex of `queue.Queue` of a jail, jail.py 79. -/
  | queue
  /-- `FailManager.__lock`, failmanager.py 41 (Lock, one for each jail). -/
  | fail
  /-- `BanManager.__lock`, banmanager.py 52 (Lock, one for each jail). -/
  | ban
  /-- `ObserverThread._queue_lock`, observer.py 69 (RLock). -/
  | obs
  /-- `Fail2BanDb._lock`, database.py 168 (RLock). -/
  | db
  /-- `Utils.Cache.__lock`, utils.py 72 (Lock, one for each cache). -/
  | cache
  /-- Lock of a handler of `logging` (RLock). -/
  | log
deriving DecidableEq, Repr

/-- May the owner of a lock of this kind take it again? (`threading.RLock`) -/
def Kind.reentrant : Kind → Bool
  | .server | .obs | .db | .log => true
  | _ => false

/-- There is one lock of this kind at a time. -/
def Kind.single : Kind → Bool
  | .queue | .fail | .ban | .cache => false
  | _ => true

/-- A lock: its kind, and which one of them (of which jail, of which cache). -/
structure Lock where
  kind : Kind
  idx : Nat
deriving DecidableEq, Repr

/-- Functions of the server which take locks, or wait for threads.  The names ending in `In` stand
for the code inside of the section of the function. -/
inductive Fn where
  | nothing | log
  | cacheOp | failOp | failIn | banOp | queueOp
  | obsAdd | obsStop | obsStopIn | obsStart
  | dbCall | dbIn
  | executeCmd | cmdIn
  | templates | templatesIn
  | dns | actionCall
  | checkBan | unBan | flushBan | checkUnBan | removeBannedIP | stopActions | actionsReload
  | actionsRun
  | performBan | addAttempt | ignoreIP | processLine | getFailures | filterStop | filterRun
  | filterReload | filterSet
  | jailsGet | jailsAdd | jailInit
  | restoreBans | jailStart | jailStop | jailStatus
  | addJail | delJail | startJail | startJailIn | stopJail | stopJailIn | stopAllJail | stopAllJailIn
  | setUnbanIP | reloadJails | reloadJailsIn | status | statusIn
  | setLogTarget | setLogTargetIn | setSyslogSocket | getLogOption
  | setDatabase | command | quit | serverMain
  | failureFound | banFound | prolongBan | observerRun | timer
deriving DecidableEq, Repr

/-- What a function may do. -/
inductive Item where
  /-- Run a function. -/
  | call (g : Fn)
  /-- Take a lock of the kind, run a function, release the lock. -/
  | sec (k : Kind) (g : Fn)
  /-- Wait for the end of a thread of a jail. -/
  | join
deriving DecidableEq, Repr

open Fn Item in
/-- What the functions may do. -/
def items : Fn → List Item
  | nothing => []
  -- any message of `logSys`: `Handler.handle` takes the lock of the handler.  The arguments of
  -- messages are plain values: the repr of `CallingMap` (action.py 109-120) calls nothing.
  | log => [sec .log nothing]
  -- utils.py 82-112 (`get` removes an expired entry by `unset`)
  | cacheOp => [sec .cache nothing]
  -- failmanager.py 56-58, 73-127, 130-148, 150-155, 157-165; messages inside of `addFailure`
  | failOp => [sec .fail failIn]
  | failIn => [call log]
  -- banmanager.py 103-108, 163-164, 272-301, 326-358, 368-372, 378-386
  | banOp => [sec .ban nothing]
  -- jail.py 179-204
  | queueOp => [sec .queue nothing]
  -- observer.py 155-168 (`add`, `add_wn`), 212-214 (taking an event), 248, 291-294 (`is_full`)
  | obsAdd => [sec .obs nothing]
  -- observer.py 268-288: `add_wn` is called inside; then waiting by `is_full`
  | obsStop => [call log, sec .obs obsStopIn, call obsAdd]
  | obsStopIn => [call obsAdd]
  -- observer.py 263-266
  | obsStart => [sec .obs nothing]
  -- database.py 71-82 (all functions with `@commitandrollback`), 700-745, 814-817
  | dbCall => [sec .db dbIn, call cacheOp, call log]
  -- inside: other functions of the database (`_getBans` in `getBansMerged`, 709), tickets
  -- (`FailTicket` makes an `IPAddr`, ipdns.py 346-371, kept in a cache), messages
  | dbIn => [call dbCall, call cacheOp, call log]
  -- action.py 1012-1042
  | executeCmd => [call log, sec .cmd cmdIn]
  | cmdIn => [call log]
  -- datedetector.py 40-84, 96-106, 184-197, 257-330 (templates of patterns, default templates)
  | templates => [call cacheOp, sec .dates templatesIn, call log]
  | templatesIn => [call cacheOp, call log]
  -- ipdns.py 86-311, 346-371
  | dns => [call cacheOp, call log]
  -- action.py 521-673 (`start`, `ban`, `prolong`, `unban`, `flush`, `stop`, `reload`) with the
  -- information of the ticket (actions.py 377-467)
  | actionCall => [call executeCmd, call dns, call dbCall, call log]
  -- actions.py 232-243, 469-569
  | checkBan => [call queueOp, call banOp, call obsAdd, call actionCall, call dns, call log]
  -- actions.py 693-720
  | unBan => [call actionCall, call log]
  -- actions.py 635-691
  | flushBan => [call banOp, call dbCall, call actionCall, call unBan, call log]
  -- actions.py 621-633
  | checkUnBan => [call banOp, call unBan, call log]
  -- actions.py 245-300
  | removeBannedIP => [call flushBan, call dbCall, call banOp, call unBan, call dns, call log]
  -- actions.py 303-316
  | stopActions => [call actionCall, call log]
  -- actions.py 151-182
  | actionsReload => [call flushBan, call stopActions, call log]
  -- actions.py 319-373
  | actionsRun => [call actionCall, call checkBan, call checkUnBan, call flushBan,
      call stopActions, call log]
  -- filter.py 449-467
  | performBan => [call failOp, call queueOp]
  -- filter.py 469-489
  | addAttempt => [call dns, call failOp, call performBan, call obsAdd, call log]
  -- filter.py 560-632
  | ignoreIP => [call dns, call executeCmd, call cacheOp, call log]
  -- filter.py 634-760, 840-985
  | processLine => [call templates, call dns, call ignoreIP, call failOp, call performBan,
      call obsAdd, call log]
  -- filter.py 1111-1273
  | getFailures => [call processLine, call templates, call dbCall, call log]
  -- filter.py 1280-1307, filtersystemd.py 435-461
  | filterStop => [call dbCall, call log]
  -- filterpoll.py 95-127, filterpyinotify.py 319-372, filtersystemd.py 267-425
  | filterRun => [call getFailures, call processLine, call failOp, call dbCall, call filterStop,
      call log]
  -- filter.py 141-160, 1046-1053
  | filterReload => [call log]
  -- filter.py: setters (date patterns 299-313, ignored addresses 505-545, log files 1016-1034)
  | filterSet => [call templates, call dns, call dbCall, call log]
  -- jails.py 76-107
  | jailsGet => [sec .jails nothing]
  -- jails.py 48-72: the jail is made inside of the section
  | jailsAdd => [sec .jails jailInit]
  -- jail.py 71-152, filter.py 60-132
  | jailInit => [call log]
  -- jail.py 283-315
  | restoreBans => [call dbCall, call dns, call ignoreIP, call queueOp, call log]
  -- jail.py 317-327
  | jailStart => [call restoreBans, call log]
  -- jail.py 329-347, jailthread.py 115-121
  | jailStop => [call filterStop, join, call log]
  -- jail.py 161-174, filter.py 991-1004, actions.py 722-746
  | jailStatus => [call banOp, call log]
  -- server.py 237-255
  | addJail => [call jailsGet, call delJail, call jailsAdd, call dbCall, call log]
  -- server.py 257-264
  | delJail => [call jailsGet, call jailStop, call dbCall]
  -- server.py 266-275
  | startJail => [sec .server startJailIn]
  | startJailIn => [call jailsGet, call jailStart, call log]
  -- server.py 277-279
  | stopJail => [sec .server stopJailIn]
  | stopJailIn => [call delJail]
  -- server.py 281-289
  | stopAllJail => [call log, sec .server stopAllJailIn]
  | stopAllJailIn => [call jailsGet, call delJail]
  -- server.py 531-543
  | setUnbanIP => [call jailsGet, call removeBannedIP]
  -- server.py 296-349
  | reloadJails => [call log, sec .server reloadJailsIn]
  | reloadJailsIn => [call jailsGet, call setUnbanIP, call stopJail, call stopAllJail,
      call cacheOp, call filterReload, call actionsReload, call delJail, call log]
  -- server.py 607-626
  | status => [sec .server statusIn]
  | statusIn => [call jailsGet, call jailStatus]
  -- server.py 670-767
  | setLogTarget => [sec .logging setLogTargetIn]
  | setLogTargetIn => [call log]
  -- server.py 774-787: the lock is released before the target is set again
  | setSyslogSocket => [sec .logging nothing, call setLogTarget]
  -- server.py 644-663, 789-795
  | getLogOption => [sec .logging nothing]
  -- server.py 828-849
  | setDatabase => [call jailsGet, call dbCall, call log]
  -- transmitter.py 91-490: any command of a client
  | command => [call addJail, call startJail, call stopJail, call stopAllJail, call reloadJails,
      call setUnbanIP, call status, call jailStatus, call jailsGet, call setLogTarget,
      call setSyslogSocket, call getLogOption, call setDatabase, call filterSet, call addAttempt,
      call checkBan, call actionCall, call stopActions, call banOp, call dbCall, call cacheOp,
      call quit, call log]
  -- server.py 190-234
  | quit => [call log, call obsStop, call stopAllJail]
  -- server.py 110-188
  | serverMain => [call setSyslogSocket, call getLogOption, call setLogTarget, call log,
      call obsStart, call command, call quit]
  -- observer.py 366-413
  | failureFound => [call dbCall, call failOp, call performBan, call log]
  -- observer.py 421-508
  | banFound => [call dbCall, call log]
  -- observer.py 510-524, actions.py 595-619
  | prolongBan => [call actionCall, call log]
  -- observer.py 173-251, 353-361
  | observerRun => [call log, call obsAdd, call dbCall, call failureFound, call banFound,
      call prolongBan, call obsStart, call obsStop]
  -- observer.py 96-142
  | timer => [call obsAdd]

/-- A run of a function. -/
inductive Prog where
  | done
  | work (rest : Prog)
  | sec (l : Lock) (body rest : Prog)
  | join (n : Nat) (rest : Prog)

/-- One run after another. -/
def Prog.append : Prog → Prog → Prog
  | .done, q => q
  | .work r, q => .work (r.append q)
  | .sec l b r, q => .sec l b (r.append q)
  | .join n r, q => .join n (r.append q)

/-- The runs of a function. -/
inductive Gen : Fn → Prog → Prop
  | done : Gen f .done
  | work : Gen f p → Gen f (.work p)
  | call : .call g ∈ items f → Gen g q → Gen f p → Gen f (q.append p)
  | sec : .sec k g ∈ items f → (k.single = true → n = 0) → Gen g b → Gen f p →
      Gen f (.sec ⟨k, n⟩ b p)
  | join : .join ∈ items f → Gen f p → Gen f (.join n p)

/-- Steps of a thread. -/
inductive Op where
  | work
  | acq (l : Lock)
  | rel (l : Lock)
  | join (n : Nat)
deriving DecidableEq, Repr

/-- The steps of a run. -/
def Prog.ops : Prog → List Op
  | .done => []
  | .work r => .work :: r.ops
  | .sec l b r => .acq l :: (b.ops ++ .rel l :: r.ops)
  | .join n r => .join n :: r.ops

/-- A thread: its number if it is a thread of a jail (filter or actions), the steps it has still
to do, the locks it holds (a lock taken twice occurs twice). -/
structure Th where
  name : Option Nat
  todo : List Op
  held : List Lock
deriving DecidableEq, Repr

/-- What a thread is after its next step; `none`: it waits, or has nothing to do.  `o` are the
other threads. -/
def next (o : List Th) (t : Th) : Option Th :=
  match t.todo with
  | [] => none
  | .work :: r => some { t with todo := r }
  | .acq l :: r =>
    if o.all (fun u => !u.held.contains l) && (!t.held.contains l || l.kind.reentrant) then
      some { t with todo := r, held := l :: t.held }
    else none
  | .rel l :: r => some { t with todo := r, held := t.held.erase l }
  | .join n :: r =>
    if o.all (fun u => u.name != some n || u.todo.isEmpty) then some { t with todo := r } else none

/-- What the threads run: threads of jails (jail.py 322-323: filter and actions), the main thread
(commands are handled in it, asyncserver.py 246-303), the observer and its timers. -/
def runs : Option Nat → Fn → Bool
  | some _, f => f == .filterRun || f == .actionsRun
  | none, f => f == .serverMain || f == .observerRun || f == .timer

/-- Steps of the process. -/
inductive Step : List Th → List Th → Prop
  /-- A thread makes its next step. -/
  | run : next (a ++ b) t = some t' → Step (a ++ t :: b) (a ++ t' :: b)
  /-- A thread is started. -/
  | spawn : runs name f = true → Gen f p → Step c (c ++ [⟨name, p.ops, []⟩])
  /-- SIGTERM or SIGINT (server.py 96-98): `quit` is run by the main thread between any two of its
  steps.  Here: only while it holds at most the lock of the server. -/
  | signal : t.name = none → (∀ h ∈ t.held, h = ⟨.server, 0⟩) → Gen .quit p →
      Step (a ++ t :: b) (a ++ { t with todo := p.ops ++ t.todo } :: b)

/-- Any number of steps. -/
inductive Steps : List Th → List Th → Prop
  | refl : Steps c c
  | tail : Steps c d → Step d e → Steps c e

end Verif.Locks
