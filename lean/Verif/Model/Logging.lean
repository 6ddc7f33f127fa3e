import Verif.Py.Dict

/-!
# Log of the server — `fail2ban/server/server.py` (640-808), `fail2ban/helpers.py` (88-90, 246-275)

Names are lists of characters, upper case is that of ASCII. The value of `logtarget` is given after `extractOptions` (see the model of
options in brackets): name and options. Files, sockets etc. are parameters at each call. The lock of logging is not modelled: calls happen
one after another.
-/

namespace Verif.Logging

abbrev Str := List Char

/-- `str.upper` (ASCII) -/
def upper (s : Str) : Str := s.map Char.toUpper

/-- `str.lower` (ASCII) -/
def lower (s : Str) : Str := s.map Char.toLower

/-- Destination of a handler -/
inductive Dest where
  | journal
  | syslog (socket facility : Str)
  | stdout
  | stderr
  | file (path : Str)
deriving DecidableEq

/-- Format of messages: given by the user, or by `getVerbosityFormat(verbosity, addtime, padding)` -/
inductive Fmt where
  | custom (s : Str)
  | std (verbosity : Int) (addtime padding : Bool)
deriving DecidableEq

/-- A handler of the logger: `stream` is the file it has opened (`None` if it is no file or could not be opened again), `fmt` is `none` if
no formatter was set -/
structure Handler where
  dest : Dest
  fmt : Option Fmt
  stream : Option Nat
deriving DecidableEq

/-- What is around at a call -/
structure World where
  /-- the file at a path after `open(path, "a")`; `none` if it cannot be opened -/
  file : Str → Option Nat
  /-- whether a path exists and is a socket -/
  isSocket : Str → Bool
  /-- whether the socket accepts the connection (`SysLogHandler` raises otherwise) -/
  connects : Str → Bool
  /-- whether the module `systemd.journal` can be imported -/
  journal : Bool
  /-- `__autoSyslogSocketPaths.get(platform.system())` -/
  system : Option Str
  /-- whether `SysLogHandler` has the attribute `LOG_…` -/
  facility : Str → Bool
  /-- level of the root logger -/
  root : Int

/-- Value of `logtarget` after `extractOptions` -/
structure Target where
  name : Str
  facility : Option Str := none
  padding : Option Str := none
  datetime : Option Str := none
  format : Option Str := none
deriving DecidableEq

/-- How a call ends: returns true, returns false, raises -/
inductive Res where
  | ok
  | failed
  | raised
deriving DecidableEq

/-- State of logging in the server -/
structure State where
  /-- `__logLevel` -/
  level : Option Str := none
  /-- level of the logger -/
  real : Int := 0
  /-- `__logTarget` -/
  target : Option Str := none
  /-- `__verbose` -/
  verbose : Option Int := none
  /-- `__syslogSocket` -/
  socket : Option Str := none
  /-- handlers of the logger -/
  handlers : List Handler := []

/-- `_as_bool` of a text (helpers.py 88-90) -/
def asBool (s : Str) : Bool := ["1".toList, "on".toList, "true".toList, "yes".toList].contains (lower s)

/-- Value of digits -/
def number (s : Str) : Nat := s.foldl (fun n c => 10 * n + (c.toNat - '0'.toNat)) 0

/-- `str2LogLevel` (helpers.py 246-254) of a text in upper case: digits (ASCII), or attribute of `logging` (with those added by
fail2ban/__init__.py 29-42); `none` if it raises. Attributes of `logging` that are no numbers are taken as unknown (`setLevel` raises). -/
def levelOf (s : Str) : Option Int :=
  if !s.isEmpty && s.all Char.isDigit then some (number s)
  else
    ([("CRITICAL", 50), ("FATAL", 50), ("ERROR", 40), ("WARNING", 30), ("WARN", 30), ("NOTICE", 25), ("INFO", 20), ("MSG", 18), ("DEBUG", 10),
      ("TRACEDEBUG", 7), ("HEAVYDEBUG", 5), ("NOTSET", 0)].find? (fun p => p.1.toList == s)).map (·.2)

/-- `setLogLevel(value)` (server.py 646-655), not as part of tests -/
def setLogLevel (v : Str) (s : State) : Res × State :=
  let v := upper v
  if s.level = some v then (.ok, s)
  else
    match levelOf v with
    | none => (.raised, s)
    | some l => (.ok, { s with real := l, level := some v })

/-- `getEffectiveLevel()` -/
def effective (w : World) (s : State) : Int := if s.real = 0 then w.root else s.real

/-- Creation of the handler (server.py 685-730): the socket afterwards, and destination with file opened -/
def connect (w : World) (t : Target) (socket : Option Str) : Option Str × Except Res (Dest × Option Nat) :=
  let sys := upper t.name
  if sys = "SYSTEMD-JOURNAL".toList then (socket, if w.journal then .ok (.journal, none) else .error .raised)
  else if sys = "SYSLOG".toList then
    let facility := upper (t.facility.getD "DAEMON".toList)
    let facility := if w.facility facility then facility else "DAEMON".toList
    let socket := if socket = some "auto".toList then w.system else socket
    (socket,
      match socket with
      | none => .error .failed
      | some p => if w.isSocket p then (if w.connects p then .ok (.syslog p facility, none) else .error .raised) else .error .failed)
  else if sys = "STDOUT".toList ∨ sys = "SYSOUT".toList then (socket, .ok (.stdout, none))
  else if sys = "STDERR".toList then (socket, .ok (.stderr, none))
  else (socket, match w.file t.name with
    | none => .error .failed
    | some n => .ok (.file t.name, some n))

/-- Verbosity after a change of the target (server.py 741-743) -/
def verbosity (w : World) (s : State) : Option Int :=
  if effective w s ≤ 10 then (match s.verbose with | none => some (10 - effective w s + 1) | v => v) else s.verbose

/-- `addtime` (server.py 745-749) -/
def withTime (t : Target) : Bool :=
  match t.datetime with
  | some v => asBool v
  | none => !(upper t.name == "SYSLOG".toList || upper t.name == "SYSOUT".toList)

/-- `padding` (server.py 684, 691, 750-753) -/
def padded (t : Target) : Bool :=
  match (if upper t.name = "SYSLOG".toList then some (t.padding.getD ['0']) else t.padding) with
  | some v => asBool v
  | none => true

/-- `verbose` of the format (server.py 759-761) -/
def formatNo (verbose : Option Int) : Int :=
  match verbose with
  | some v => if 2 < v then v - 1 else 0
  | none => 0

/-- The format (server.py 754-766) -/
def format (t : Target) (verbose : Option Int) : Option Fmt :=
  let fmt := match t.format with
    | some (c :: f) => .custom (c :: f)
    | _ => .std (formatNo verbose) (withTime t) (padded t)
  if t.name = "SYSTEMD-JOURNAL".toList then none else some fmt

/-- `setLogTarget(target)` (server.py 672-781) -/
def setLogTarget (w : World) (t : Target) (s : State) : Res × State :=
  if s.target = some t.name then (.ok, s)
  else if upper t.name = "INHERITED".toList then (.ok, { s with target := some t.name })
  else
    let c := connect w t s.socket
    let s := { s with socket := c.1 }
    match c.2 with
    | .error r => (r, s)
    | .ok d =>
      let v := verbosity w s
      (.ok, { s with handlers := [⟨d.1, format t v, d.2⟩], verbose := v, target := some t.name })

/-- `setSyslogSocket(syslogsocket)` (server.py 788-796); the target shown has no options -/
def setSyslogSocket (w : World) (p : Str) (s : State) : Res × State :=
  if s.socket = some p then (.ok, s)
  else
    let s := { s with socket := some p }
    if s.target = some "SYSLOG".toList then setLogTarget w { name := "SYSLOG".toList } s else (.ok, s)

/-- `handler.doRollover()` of a `RotatingFileHandler` without size: the file is opened again -/
def Handler.roll (w : World) (h : Handler) : Handler :=
  match h.dest with
  | .file p => { h with stream := w.file p }
  | _ => h

/-- `flushLogs()` (server.py 806-819): text returned (`rolled over`, `flushed`); handlers that are no files have no `doRollover` and are
flushed. An error of opening a file is not modelled as exception: the file is opened with the next message then. -/
def flushLogs (w : World) (s : State) : String × State :=
  match s.target with
  | some t =>
    if ["STDERR".toList, "STDOUT".toList, "SYSLOG".toList, "SYSTEMD-JOURNAL".toList].contains t then ("flushed", s)
    else ("rolled over", { s with handlers := s.handlers.map (Handler.roll w) })
  | none => ("rolled over", { s with handlers := s.handlers.map (Handler.roll w) })

/-- Where a message of a level is written: destination, and the file if it is one (one that is not open is opened) -/
def logged (w : World) (s : State) (l : Int) : List (Dest × Option Nat) :=
  if effective w s ≤ l then
    s.handlers.map (fun h =>
      (h.dest, match h.dest with
        | .file p => (match h.stream with | some n => some n | none => w.file p)
        | _ => none))
  else []

/-- Commands -/
inductive Cmd where
  | level (v : Str)
  | target (t : Target)
  | socket (p : Str)
  | flush

/-- A command in the world at its time -/
def step (s : State) (c : World × Cmd) : State :=
  match c.2 with
  | .level v => (setLogLevel v s).2
  | .target t => (setLogTarget c.1 t s).2
  | .socket p => (setSyslogSocket c.1 p s).2
  | .flush => (flushLogs c.1 s).2

/-- Commands one after another -/
def run (s : State) (cs : List (World × Cmd)) : State := cs.foldl step s

/-- Logging at the start of the server (server.py 124-130): parameters of the configuration if given; the exception for a level -/
def start (w : World) (socket level : Option Str) (target : Option Target) (s : State) : Res × State :=
  let s := (setSyslogSocket w (socket.getD (s.socket.getD "auto".toList)) s).2
  let r := setLogLevel (level.getD (s.level.getD "INFO".toList)) s
  match r.1 with
  | .ok =>
    let t := match target with
      | some t => t
      | none => match r.2.target with
        | some n => { name := n }
        | none => { name := "STDOUT".toList }
    match (setLogTarget w t r.2) with
    | (.raised, s) => (.raised, s)
    | (_, s) => (.ok, s)
  | _ => (.raised, r.2)

end Verif.Logging
