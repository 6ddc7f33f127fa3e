/-!
# Command line of client and server — `fail2ban/client/fail2bancmdline.py` (58-68, 133-281)

`getopt.getopt` (Python 3.12, `Lib/getopt.py`) is modelled as it is; the other things outside (the configuration, `MyTime.str2seconds`, the
names of log levels) are parameters.

Simplifications: the logger (205-227) is left out. Texts of usage, versions and error messages are tags. Numbers of seconds are whole.
`_conf` is a record; the entries `socket`, `pidfile`, `loglevel`, `logtarget`, `syslogsocket`, `pname` are in the function `params`.
-/

namespace Verif.CmdLine

abbrev Text := List Char

/-- Name of an option with its dashes, and its value -/
abbrev Opt := Text × Text

/-! ## `getopt` -/

/-- `cmdOpts` (192): letters and whether a value follows -/
def shorts : List (Char × Bool) :=
  [('h', false), ('c', true), ('s', true), ('p', true), ('x', false), ('f', false), ('b', false), ('d', false), ('t', false), ('v', false),
   ('i', false), ('q', false), ('V', false)]

/-- `cmdLongOpts` (193-195) -/
def longs : List (Text × Bool) :=
  [("loglevel".toList, true), ("logtarget".toList, true), ("syslogsocket".toList, true), ("test".toList, false), ("async".toList, false),
   ("conf".toList, true), ("pidfile".toList, true), ("pname".toList, true), ("socket".toList, true), ("timeout".toList, true),
   ("str2sec".toList, true), ("help".toList, false), ("version".toList, false), ("dp".toList, false), ("dump-pretty".toList, false)]

/-- `short_has_arg`; `none` is `GetoptError` -/
def shortHasArg (c : Char) : Option Bool := shorts.lookup c

/-- `s.startswith(p)` -/
def starts : Text → Text → Bool
  | [], _ => true
  | _ :: _, [] => false
  | a :: p, b :: s => a == b && starts p s

/-- `long_has_args`: the full name and whether it takes a value -/
def longHasArg (n : Text) : Option (Text × Bool) :=
  match longs.find? (fun o => o.1 == n) with
  | some o => some o
  | none =>
    match longs.filter (fun o => starts n o.1) with
    | [o] => some o
    | _ => none

/-- `opt.index('=')` and the parts -/
def splitEq : Text → Text × Option Text
  | [] => ([], none)
  | c :: t => if c == '=' then ([], some t) else (c :: (splitEq t).1, (splitEq t).2)

/-- `do_longs`; `w` is the word without the dashes. The option and the words left -/
def doLong (w : Text) (args : List Text) : Option (Opt × List Text) :=
  match longHasArg (splitEq w).1 with
  | none => none
  | some (n, true) =>
    match (splitEq w).2, args with
    | some v, args => some (('-' :: '-' :: n, v), args)
    | none, v :: args => some (('-' :: '-' :: n, v), args)
    | none, [] => none
  | some (n, false) =>
    match (splitEq w).2 with
    | some _ => none
    | none => some (('-' :: '-' :: n, []), args)

/-- `do_shorts` -/
def doShorts : Text → List Text → Option (List Opt × List Text)
  | [], args => some ([], args)
  | c :: t, args =>
    match shortHasArg c with
    | none => none
    | some true =>
      match t, args with
      | [], [] => none
      | [], v :: args => some ([(['-', c], v)], args)
      | t, args => some ([(['-', c], t)], args)
    | some false => (doShorts t args).map (fun r => ((['-', c], []) :: r.1, r.2))

/-- `getopt`; each round takes a word at least, so the number of words is enough fuel -/
def getoptGo : Nat → List Text → Option (List Opt × List Text)
  | 0, args => some ([], args)
  | _ + 1, [] => some ([], [])
  | n + 1, w :: args =>
    match w with
    | ['-'] => some ([], w :: args)
    | ['-', '-'] => some ([], args)
    | '-' :: '-' :: l =>
      match doLong l args with
      | none => none
      | some (o, args) => (getoptGo n args).map (fun r => (o :: r.1, r.2))
    | '-' :: l =>
      match doShorts l args with
      | none => none
      | some (os, args) => (getoptGo n args).map (fun r => (os ++ r.1, r.2))
    | w => some ([], w :: args)

def getopt (args : List Text) : Option (List Opt × List Text) := getoptGo args.length args

/-! ## `__getCmdLineOptions` -/

inductive Dump where
  | no
  | plain
  | pretty
deriving DecidableEq

inductive Param where
  | socket | pidfile | loglevel | logtarget | syslogsocket | pname
deriving DecidableEq

/-- `_conf` (58-68) and `cleanConfOnly` -/
structure Conf where
  async : Bool := false
  conf : Text := "/etc/fail2ban".toList
  force : Bool := false
  background : Bool := true
  verbose : Int := 1
  timeout : Int := 30
  dump : Dump := .no
  test : Bool := false
  interactive : Bool := false
  cleanConfOnly : Bool := false
  params : Param → Option Text := fun _ => none

inductive Out where
  | usage
  | version (short : Bool)
  | seconds (n : Int)
  | dumped (dir : Text) (pretty : Bool)
  | streamFailed
  | testOk
  | testFailed
  | error
deriving DecidableEq

def Conf.set (c : Conf) (p : Param) (v : Text) : Conf := { c with params := fun q => if q = p then some v else c.params q }

/-- What one option does -/
inductive Step where
  | next (c : Conf)
  /-- `return True` -/
  | stop (o : Out)
  /-- an exception -/
  | raise

/-- 138-177; `secs` is `MyTime.str2seconds`, `none` if it raises. Texts are compared in the order of the code. -/
def step (secs : Text → Option Int) (c : Conf) (o : Opt) : Step :=
  if o.1 ∈ ["-c".toList, "--conf".toList] then .next { c with conf := o.2 }
  else if o.1 ∈ ["-s".toList, "--socket".toList] then .next (c.set .socket o.2)
  else if o.1 ∈ ["-p".toList, "--pidfile".toList] then .next (c.set .pidfile o.2)
  else if o.1 ∈ ["-d".toList, "--dp".toList, "--dump-pretty".toList] then
    .next { c with dump := if o.1 = "-d".toList then .plain else .pretty }
  else if o.1 ∈ ["-t".toList, "--test".toList] then .next { c with cleanConfOnly := true, test := true }
  else if o.1 = "-v".toList then .next { c with verbose := c.verbose + 1 }
  else if o.1 = "-q".toList then .next { c with verbose := c.verbose - 1 }
  else if o.1 = "-x".toList then .next { c with force := true }
  else if o.1 = "-i".toList then .next { c with interactive := true }
  else if o.1 = "-b".toList then .next { c with background := true }
  else if o.1 = "-f".toList then .next { c with background := false }
  else if o.1 = "--async".toList then .next { c with async := true }
  else if o.1 = "--timeout".toList then
    match secs o.2 with
    | some n => .next { c with timeout := n }
    | none => .raise
  else if o.1 = "--str2sec".toList then
    match secs o.2 with
    | some n => .stop (.seconds n)
    | none => .raise
  else if o.1 ∈ ["-h".toList, "--help".toList] then .stop .usage
  else if o.1 ∈ ["-V".toList, "--version".toList] then .stop (.version (o.1 = "-V".toList))
  else if o.1 = "--loglevel".toList then .next (c.set .loglevel o.2)
  else if o.1 = "--logtarget".toList then .next (c.set .logtarget o.2)
  else if o.1 = "--syslogsocket".toList then .next (c.set .syslogsocket o.2)
  else if o.1 = "--pname".toList then .next (c.set .pname o.2)
  else .next c

/-- 136-178 -/
def options (secs : Text → Option Int) : Conf → List Opt → Step
  | c, [] => .next c
  | c, o :: os =>
    match step secs c o with
    | .next c => options secs c os
    | r => r

/-! ## `initCmdLine` -/

structure Env where
  secs : Text → Option Int
  /-- `readEarly`, `getEarlyOptions` for the directory; `none` if an exception is raised -/
  early : Text → Option (Param → Option Text)
  /-- is the text a log level (`str2LogLevel`) -/
  level : Text → Bool
  /-- `readConfig` (283-299): `ret`, and whether there is a stream -/
  read : Conf → Bool × Bool

/-- `CONFIG_PARAMS` (43) -/
def configParams : List Param := [.socket, .pidfile, .logtarget, .loglevel, .syslogsocket]

/-- 231-238; the configuration is read at the first parameter that is missing -/
def fill (e : Env) : Conf → List Param → Option Conf
  | c, [] => some c
  | c, p :: ps =>
    match c.params p with
    | some _ => fill e c ps
    | none =>
      match e.early c.conf with
      | none => none
      | some v =>
        match v p with
        | some t => fill e (c.set p t) ps
        | none => fill e c ps

inductive Ret where
  /-- `None`: the client or server goes on -/
  | go (c : Conf) (args : List Text)
  /-- `True` or `False` -/
  | code (b : Bool)
  /-- `ServerExecutionException` -/
  | raise

/-- 247-274 -/
def finish (e : Env) (c : Conf) (args : List Text) : List Out × Ret :=
  let r := e.read c
  let d := if c.dump = .no then [] else if r.2 then [Out.dumped c.conf (c.dump = .pretty)] else [Out.streamFailed]
  if c.dump ≠ .no ∧ c.test = false then (d, .code r.1)
  else if c.test then
    if args = [] then (d ++ [if r.1 then .testOk else .testFailed], .code r.1)
    else if r.1 then (d, .go c args) else (d, .raise)
  else ([], .go c args)

/-- 180-281; `c` is `_conf` before; `argv` without the name of the program -/
def initCmdLine (e : Env) (c : Conf) (argv : List Text) : List Out × Ret :=
  match getopt argv with
  | none => ([.usage], .code false)
  | some (os, args) =>
    match options e.secs c os with
    | .raise => ([.error], .code false)
    | .stop o => ([o], .code true)
    | .next c =>
      match fill e c configParams with
      | none => ([.error], .code false)
      | some c =>
        match c.params .loglevel, c.params .logtarget with
        | some l, some _ => if e.level l then finish e c args else ([.error], .code false)
        | _, _ => ([.error], .code false)

end Verif.CmdLine
