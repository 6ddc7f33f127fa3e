import Verif.Model.Options

/-!
# Choice of the backend of a jail — `fail2ban/server/jail.py` (66, 92-145), and of the database — `fail2ban/server/server.py` (828-853)

`str.lower` is a parameter. Which modules can be imported and what constructors raise is outside. Messages to the log are modelled by their level.
-/

namespace Verif.Backend

open Verif.Options Verif.Regex

inductive Backend where
  | pyinotify
  | polling
  | systemd
deriving DecidableEq

/-- `_BACKENDS` (jail.py 69) -/
def backends : List Backend := [.pyinotify, .polling, .systemd]

/-- Name of a backend -/
def Backend.name : Backend → Str
  | .pyinotify => "pyinotify".toList
  | .polling => "polling".toList
  | .systemd => "systemd".toList

/-- What `_initPolling(**kwargs)` etc. do (jail.py 129-145) -/
inductive Init where
  | ok
  /-- `ImportError` -/
  | importError
  /-- any other exception -/
  | raised
deriving DecidableEq

/-- What is outside: modules that can be imported, and whether constructors return (those of files take no arguments, else it is a `TypeError`) -/
structure Host where
  lower : Str → Str
  imports : Backend → Bool
  creates : Backend → Dict Str Str → Bool

/-- `initmethod(**beArgs)` (jail.py 129-145, filterpoll.py 54, filterpyinotify.py 72, filtersystemd.py 54) -/
def init (h : Host) (b : Backend) (opts : Dict Str Str) : Init :=
  if h.imports b then
    match b with
    | .systemd => if h.creates b opts then .ok else .raised
    | _ => if opts.items.isEmpty then (if h.creates b opts then .ok else .raised) else .raised
  else .importError

inductive Level where
  | debug
  | info
  | warning
  | error
deriving DecidableEq

inductive Res where
  | uses (b : Backend)
  /-- `ValueError` -/
  | unknown
  /-- `RuntimeError` -/
  | nothing
  /-- exception of the backend -/
  | raised
deriving DecidableEq

/-- Messages: level and the backend -/
abbrev Msgs := List (Level × Option Backend)

/-- The loop over backends (jail.py 108-123); `asked` is `none` for `auto` -/
def loop (h : Host) (opts : Dict Str Str) (asked : Option Backend) : List Backend → Res × Msgs
  | [] => (.nothing, [(.error, none)])
  | b :: l =>
    match init h b opts with
    | .ok => (.uses b, [(if asked ≠ none ∧ asked ≠ some b then .warning else .info, some b)])
    | .raised => (.raised, [])
    | .importError =>
      let r := loop h opts asked l
      (r.1, (if asked = none then .debug else .error, some b) :: r.2)

/-- `backends[backends.index(backend):]` -/
def fromIndex (b : Backend) : List Backend → List Backend
  | [] => []
  | c :: l => if c = b then c :: l else fromIndex b l

/-- `_setBackend(backend)` (jail.py 92-128) -/
def setBackend (cc : Chars) (h : Host) (text : Str) : Res × Msgs :=
  match extractOptions cc text with
  | none => (.unknown, [])
  | some (name, opts) =>
    if h.lower name = "auto".toList then loop h opts none backends
    else
      match backends.find? (fun b => decide (b.name = h.lower name)) with
      | none => (.unknown, [(.error, none)])
      | some b => loop h opts (some b) (fromIndex b backends)

/-! ## Database of the server -/

/-- The server, as far as `setDatabase` uses it: name of the file of its database and that of the observer (`none` without observer) -/
structure Server where
  db : Option Str
  observer : Option (Option Str)
  jails : Nat
deriving DecidableEq

inductive Done where
  | ok
  /-- `RuntimeError`: there are jails -/
  | refused
  /-- exception of the file system or of the database -/
  | raised
deriving DecidableEq

/-- What happens with a file: its directory cannot be made or it cannot be opened, or its jails cannot be disabled -/
inductive File where
  | opens
  | broken
  | readOnly
deriving DecidableEq

/-- `setDatabase(filename)` (server.py 828-850); `sqlite` is whether the module was imported -/
def setDatabase (lower : Str → Str) (sqlite : Bool) (file : Str → File) (s : Server) (filename : Str) : Done × Server :=
  let observed (s : Server) : Server := { s with observer := s.observer.map (fun _ => s.db) }
  if s.db = some filename then (.ok, s)
  else if s.db = none ∧ lower filename = "none".toList then (.ok, s)
  else if s.jails ≠ 0 then (.refused, s)
  else if lower filename = "none".toList then (.ok, observed { s with db := none })
  else if sqlite then
    match file filename with
    | .broken => (.raised, s)
    | .readOnly => (.raised, { s with db := some filename })
    | .opens => (.ok, observed { s with db := some filename })
  else (.ok, observed s)

/-- What happens to the server: `set dbfile`, with what files are then; jails come and go -/
inductive Op where
  | set' (file : Str → File) (filename : Str)
  | jails (n : Nat)

/-- A history -/
def runDb (lower : Str → Str) (sqlite : Bool) : Server → List Op → List Done × Server
  | s, [] => ([], s)
  | s, .set' file f :: l =>
    let r := setDatabase lower sqlite file s f
    let q := runDb lower sqlite r.2 l
    (r.1 :: q.1, q.2)
  | s, .jails n :: l => runDb lower sqlite { s with jails := n } l

end Verif.Backend
