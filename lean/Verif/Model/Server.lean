import Verif.Model.Actions
import Verif.Model.Database

/-!
# Jails of the server and reload — `fail2ban/server/server.py` 237-349, `transmitter.py` 72-120, `jails.py`

The commands of a configuration stream (`add`, `set`, `start`, `config-error`) and the command `reload`. Exceptions are a flag next to the state.

Parameters of a jail are: the lists cleared by `Filter.clearAllParams`, the log files, the actions (`Model/Actions`), and all others as a
dictionary of values that are never cleared. Whether a value is valid (a regular expression compiles and so on) is decided by the environment.
A jail that runs is one with `alive`; that its threads may end by themselves is not modelled.
-/

namespace Verif

/-- A jail (jail.py 73-86) with its filter (filter.py 67-133, 1007) and actions. -/
structure SJail where
  /-- number of jails of this name before it -/
  gen : Nat
  /-- `backend` -/
  backend : String
  /-- `isAlive()` -/
  alive : Bool
  /-- `idle` -/
  idle : Bool
  /-- `__failRegex` -/
  failRegex : List String
  /-- `__ignoreRegex` -/
  ignoreRegex : List String
  /-- `__ignoreIpSet`, `__ignoreIpList` -/
  ignoreIPs : List String
  /-- keys of `__logs` -/
  logs : List String
  /-- `_reload_logs` -/
  reloadLogs : Option (List String)
  /-- all other parameters -/
  options : Dict String String
  /-- `actions` -/
  actions : Actions

/-- Parameters set by commands `set <jail> ...`. -/
inductive Setting where
  | failRegex (r : String)
  | ignoreRegex (r : String)
  | ignoreIP (ip : String)
  | logPath (p : String)
  | option (key value : String)
  | action (name : String) (a : Action)
deriving DecidableEq

/-- Commands of a stream. -/
inductive SCmd where
  | add (name backend : String)
  | set (name : String) (x : Setting)
  | start (name : String)
  | configError
  /-- any other command that raises an exception -/
  | invalid
deriving DecidableEq

/-- What is decided outside. -/
structure World where
  /-- results of calls of actions of a jail -/
  env : String → Nat → Env
  /-- `Jail(name, backend, db)` raises no exception (jail.py 93-128) -/
  backendOk : String → Bool
  /-- setting the parameter raises no exception -/
  settingOk : String → Setting → Bool
  /-- `Observers.Main is not None` -/
  observer : Bool

/-- State of `Server` (server.py 65-80). -/
structure Server where
  /-- `__jails` -/
  jails : Dict String SJail
  /-- `__reload_state`; `true`: the jail, `false`: `None` -/
  reloadState : Dict String Bool
  /-- `__db` -/
  db : Option Db
  /-- jails stopped and deleted, as they were left -/
  gone : List (String × SJail)

namespace SJail

/-- `Jail(name, backend, db)` (jail.py 73-91) -/
def new (w : World) (gen : Nat) (backend : String) (hasDb : Bool) : SJail :=
  { gen, backend, alive := false, idle := false, failRegex := [], ignoreRegex := [], ignoreIPs := [], logs := [], reloadLogs := none,
    options := Dict.empty, actions := Actions.init w.observer hasDb }

/-- `stop(stop=True, join=True)` (jail.py 329-346): the thread of the actions ends, if it was started. -/
def stop (w : World) (name : String) (j : SJail) : SJail :=
  if j.alive then { j with alive := false, actions := (j.actions.shutdown (w.env name j.gen)).2 } else j

/-- `start()` (jail.py 317-327): the thread of the actions starts all actions (actions.py 331-337). -/
def start (w : World) (name : String) (j : SJail) : SJail :=
  { j with alive := true, actions := Actions.startLoop (w.env name j.gen) j.actions.actions.keys j.actions }

/-- `filter.reload(begin=True)`, `actions.reload(begin=True)` (server.py 324-327, filter.py 142-154, actions.py 154) -/
def reloadBegin (j : SJail) : SJail :=
  { j with idle := true, failRegex := [], ignoreRegex := [], ignoreIPs := [], reloadLogs := some j.logs, actions := j.actions.reloadBegin }

/-- `filter.reload(begin=False)` (filter.py 155-160) -/
def filterEnd (j : SJail) : SJail :=
  match j.reloadLogs with
  | none => j
  | some l => { j with logs := j.logs.filter (fun p => !(l.contains p)), reloadLogs := none }

/-- `filter.reload(begin=False)`, `actions.reload(begin=False)` (server.py 340-342) -/
def reloadEnd (w : World) (name : String) (j : SJail) : Bool × SJail :=
  let j := j.filterEnd
  let x := j.actions.reloadEnd (w.env name j.gen)
  (x.1, { j with actions := x.2 })

/-- Set a parameter: `addFailRegex`, `addIgnoreRegex`, `addIgnoreIP` (filter.py 186-240, 509-531), `addLogPath` (filter.py 1015-1034), `actions.add`
(server.py 508-511); `reload`: the name is in the reload state; `none` is an exception. -/
def set (w : World) (name : String) (reload : Bool) (j : SJail) (x : Setting) : Option SJail :=
  if w.settingOk name x then
    match x with
    | .failRegex r => some { j with failRegex := j.failRegex ++ [r] }
    | .ignoreRegex r => some { j with ignoreRegex := j.ignoreRegex ++ [r] }
    | .ignoreIP ip => some (if j.ignoreIPs.contains ip then j else { j with ignoreIPs := j.ignoreIPs ++ [ip] })
    | .logPath p =>
      some (if j.logs.contains p then { j with reloadLogs := j.reloadLogs.map (fun l => l.filter (· ≠ p)) } else { j with logs := j.logs ++ [p] })
    | .option k v => some { j with options := j.options.insert k v }
    | .action n a => (j.actions.add n a reload).map (fun acts => { j with actions := acts })
  else none

end SJail

namespace Server

/-- no jails -/
def init (db : Option Db) : Server := ⟨Dict.empty, Dict.empty, db, []⟩

/-- `delJail(name, stop=True, join=True)` (server.py 257-264) -/
def delJail (w : World) (s : Server) (name : String) : Bool × Server :=
  match s.jails.get? name with
  | none => (true, s)
  | some j => (false, { s with jails := s.jails.erase name, db := s.db.map (·.delJail name), gone := s.gone ++ [(name, j.stop w name)] })

/-- `__jails.add(name, backend, db)` and `db.addJail` (server.py 252-255, jails.py 47-69) -/
def newJail (w : World) (s : Server) (name backend : String) : Bool × Server :=
  if s.jails.contains name then (true, s)
  else if w.backendOk backend then
    (false, { s with jails := s.jails.insert name (SJail.new w (s.gone.filter (fun g => g.1 = name)).length backend s.db.isSome), db := s.db.map (·.addJail name) })
  else (true, s)

/-- `addJail(name, backend)` (server.py 237-255) -/
def addJail (w : World) (s : Server) (name backend : String) : Bool × Server :=
  match s.reloadState.get? name, s.jails.get? name with
  | some true, some j =>
    if j.backend = backend then (false, { s with reloadState := s.reloadState.insert name false, db := s.db.map (·.addJail name) })
    else
      let x := s.delJail w name
      newJail w { x.2 with reloadState := x.2.reloadState.erase name } name backend
  | _, _ => newJail w s name backend

/-- `startJail(name)` (server.py 266-275) -/
def startJail (w : World) (s : Server) (name : String) : Bool × Server :=
  match s.jails.get? name with
  | none => (true, s)
  | some j =>
    if j.alive then (false, { s with reloadState := s.reloadState.erase name, jails := s.jails.insert name { j with idle := false } })
    else (false, { s with jails := s.jails.insert name { j.start w name with idle := false } })

/-- `set <jail> ...` (transmitter.py 214-) -/
def setJail (w : World) (s : Server) (name : String) (x : Setting) : Bool × Server :=
  match s.jails.get? name with
  | none => (true, s)
  | some j =>
    match j.set w name (s.reloadState.contains name) x with
    | none => (true, s)
    | some j => (false, { s with jails := s.jails.insert name j })

/-- A command (transmitter.py 72-153). -/
def exec (w : World) (s : Server) : SCmd → Bool × Server
  | .add n b => s.addJail w n b
  | .set n x => s.setJail w n x
  | .start n => s.startJail w n
  | .configError => (false, s)
  | .invalid => (true, s)

/-- Commands up to the first one that raises an exception (transmitter.py 111-112, 136-137). -/
def run (w : World) : List SCmd → Server → Bool × Server
  | [], s => (false, s)
  | c :: cs, s =>
    let x := s.exec w c
    if x.1 then x else run w cs x.2

/-- Options of a reload. -/
structure ReloadOpts where
  ifExists : Bool := false
  unban : Bool := false
  restart : Bool := false

/-- `actions.removeBannedIP(None)` for jails in order (server.py 531-543, actions.py 262-264) -/
def unbanAll (w : World) : List String → Server → Bool × Server
  | [], s => (false, s)
  | n :: ns, s =>
    match s.jails.get? n with
    | none => unbanAll w ns s
    | some j =>
      let x := j.actions.flushBan (w.env n j.gen) true none
      let s := { s with jails := s.jails.insert n { j with actions := x.2.2 } }
      if x.2.1 then (true, s) else unbanAll w ns s

/-- `stopAllJail()` (server.py 281-289), `delJail` for each (server.py 346-347) -/
def delJails (w : World) (names : List String) (s : Server) : Server := names.foldl (fun s n => (s.delJail w n).2) s

/-- All affected jails are put into the reload state (server.py 322-327). -/
def markLoop (name : Option String) : List (String × SJail) → Server → Server
  | [], s => s
  | (n, j) :: rest, s =>
    if name = none ∨ name = some n then
      markLoop name rest { s with jails := s.jails.insert n j.reloadBegin, reloadState := s.reloadState.insert n true }
    else markLoop name rest s

/-- `reloadJails(name, opts, begin=True)` (server.py 296-328); `none` is `--all` -/
def reloadBegin (w : World) (s : Server) (name : Option String) (o : ReloadOpts) : Bool × Server :=
  if s.reloadState.items ≠ [] ∧ (name = none ∨ name.bind s.reloadState.get? = some true) then (true, s)
  else
    let affected : List String := match name with
      | none => s.jails.keys
      | some n => if s.jails.contains n then [n] else []
    if name ≠ none ∧ affected = [] ∧ ¬ o.ifExists then (true, s)
    else
      let x := if o.unban then unbanAll w affected s else (false, s)
      if x.1 then x
      else
        let s := if o.restart then x.2.delJails w affected else x.2
        (false, markLoop name s.jails.items s)

/-- The loop at the end of a reload (server.py 333-342): jails still in the reload state, the others are committed. -/
def commitLoop (w : World) : List (String × SJail) → List String → Server → Bool × List String × Server
  | [], del, s => (false, del, s)
  | (n, j) :: rest, del, s =>
    if s.reloadState.contains n then commitLoop w rest (del ++ [n]) s
    else
      let x := j.reloadEnd w n
      let s := { s with jails := s.jails.insert n x.2 }
      if x.1 then (true, del, s) else commitLoop w rest del s

/-- `reloadJails(name, opts, begin=False)` (server.py 329-349) -/
def reloadEnd (w : World) (s : Server) : Bool × Server :=
  let x := commitLoop w s.jails.items [] s
  if x.1 then (true, x.2.2) else (false, { x.2.2.delJails w x.2.1 with reloadState := Dict.empty })

/-- The command `reload` (transmitter.py 106-117). -/
def reload (w : World) (s : Server) (name : Option String) (o : ReloadOpts) (stream : List SCmd) : Bool × Server :=
  let x := s.reloadBegin w name o
  let y := if x.1 then x else run w stream x.2
  let z := y.2.reloadEnd w
  (y.1 || z.1, z.2)

end Server

/-- Configuration of an enabled jail, as read. -/
structure JailConf where
  name : String
  backend : String
  settings : List Setting

/-- `JailsReader.convert()` (jailsreader.py 91-112, jailreader.py 242-301): all jails are set up, then started. -/
def confStream (conf : List JailConf) : List SCmd :=
  conf.flatMap (fun c => .add c.name c.backend :: c.settings.map (.set c.name)) ++ conf.map (fun c => .start c.name)

end Verif
