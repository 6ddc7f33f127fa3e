import Verif.Model.Reader

/-!
# The settings of the server — `fail2ban/client/fail2banreader.py` (52-84), `configurator.py` (69-91), `jailsreader.py` (57-89),
`fail2bancmdline.py` (283-299), `server/transmitter.py` (129-136, 156-213), `server/server.py` (828-849)

From fail2ban.conf and the command line to commands, and what they do to a server that has just started.

Simplifications: as in `Model/Reader.lean`; the log level is checked by a parameter. Effects of the commands for logging, IPv6 and threads are
left out; a parameter says whether the logging and IPv6 ones are accepted. The server is the database and its two settings (`setDatabase` without jails, see C103).
-/

namespace Verif.General

open Verif Verif.Reader

/-- Values in `__opts`: that of `thread` is a dictionary -/
inductive GVal where
  | val (v : Option Val)
  | thread (o : Opts)
deriving DecidableEq

abbrev GOpts := Dict String GVal

/-- fail2banreader.py 53-59 -/
def mainTemplates : List Template :=
  [{ name := "loglevel", kind := .string, default := some (.str "INFO".toList) },
   { name := "logtarget", kind := .string, default := some (.str "STDERR".toList) },
   { name := "syslogsocket", kind := .string, default := some (.str "auto".toList) },
   { name := "allowipv6", kind := .string, default := some (.str "auto".toList) },
   { name := "dbfile", kind := .string, default := some (.str "/var/lib/fail2ban/fail2ban.sqlite3".toList) },
   { name := "dbmaxmatches", kind := .int },
   { name := "dbpurgeage", kind := .string, default := some (.str "1d".toList) }]

/-- fail2banreader.py 66 -/
def threadTemplates : List Template := [{ name := "stacksize", kind := .int }]

/-- fail2ban.conf: `[Definition]`, and `[Thread]` if there is one -/
structure Src where
  get : String → Got
  thread : Option (String → Got)

/-- All values of a dictionary of options -/
def lift (o : Opts) : GOpts := ⟨o.items.map (fun kv => (kv.1, .val kv.2)), by
  have h := o.nodup
  rw [List.map_map]
  exact h⟩

/-- `Fail2banReader.getOptions(updateMainOpt)` (52-71); `level` is whether `str2LogLevel` takes the value. `none` is an exception. -/
def getMain (env : Reader.Env) (level : Option (Option Val) → Bool) (src : Src) (update : Opts) : Option GOpts :=
  match Reader.getOptions env src.get (fun _ => false) false true mainTemplates Dict.empty with
  | none => none
  | some o =>
    let o := merge o update
    if level (o.get? "loglevel") then
      match src.thread with
      | none => some (lift o)
      | some get =>
        match Reader.getOptions env get (fun _ => false) false true threadTemplates Dict.empty with
        | none => none
        | some t => some (if t.items.isEmpty then lift o else (lift o).insert "thread" (.thread t))
    else none

/-- `order` (fail2banreader.py 77-79) -/
def order (n : String) : Option Nat :=
  if n = "thread" then some 0
  else if n = "syslogsocket" then some 11
  else if n = "loglevel" then some 12
  else if n = "logtarget" then some 13
  else if n = "allowipv6" then some 14
  else if n = "dbfile" then some 50
  else if n = "dbmaxmatches" then some 51
  else if n = "dbpurgeage" then some 51
  else none

/-- `["set", opt, value]` -/
abbrev Cmd := String × GVal

/-- `<` of texts -/
def textLt : List Char → List Char → Bool
  | _, [] => false
  | [], _ :: _ => true
  | a :: s, b :: t => if a = b then textLt s t else decide (a.toNat < b.toNat)

/-- `<` of the entries of `stream`; names are different, so values are not compared -/
def before (a b : Nat × Cmd) : Bool := decide (a.1 < b.1) || (decide (a.1 = b.1) && textLt a.2.1.toList b.2.1.toList)

def insertSorted (x : Nat × Cmd) : List (Nat × Cmd) → List (Nat × Cmd)
  | [] => [x]
  | y :: l => if before x y then x :: y :: l else y :: insertSorted x l

/-- `sorted(stream)` -/
def sort (l : List (Nat × Cmd)) : List (Nat × Cmd) := l.foldl (fun acc x => insertSorted x acc) []

/-- `Fail2banReader.convert()` (73-84) -/
def convert (o : GOpts) : List Cmd := (sort (o.items.filterMap (fun kv => (order kv.1).map (fun n => (n, kv))))).map (·.2)

/-! ## `JailsReader.getOptions` -/

/-- Result of one section (`JailReader.getOptions`) -/
inductive Sec where
  | disabled
  | good
  | wrong
deriving DecidableEq

/-- `parse_status` and `__jails` after the loop (jailsreader.py 69-88); `sections` never has names `KNOWN/…` (configreader.py 135-139) -/
def jailsLoop : Nat → List (String × Sec) → Nat × List (String × Sec)
  | st, [] => (st, [])
  | st, (n, r) :: l =>
    if n = "INCLUDES" then jailsLoop st l
    else match r with
      | .disabled => jailsLoop st l
      | .good => let x := jailsLoop (st ||| 1) l; (x.1, (n, r) :: x.2)
      | .wrong => let x := jailsLoop (st ||| 2) l; (x.1, (n, r) :: x.2)

/-- `getOptions` (57-89): the result and the jails -/
def getJails (ignoreWrong : Bool) (secs : List (String × Sec)) : Bool × List (String × Sec) :=
  let x := jailsLoop 0 secs
  ((ignoreWrong && decide (x.1 &&& 1 ≠ 0)) || decide (x.1 &&& 2 = 0), x.2)

/-! ## `readConfig` -/

/-- `getConfigStream()` (configurator.py 85-91) -/
def configStream {α : Type} (general : List Cmd) (jails : List α) : List (Cmd ⊕ α) := general.map .inl ++ jails.map .inr

/-- `readConfig` (fail2bancmdline.py 283-299, configurator.py 69-83). The two files can be read; settings of the server (`none` is an exception);
result and stream of the jails (`none` is an exception, when options are read or converted) -/
def readConfig {α : Type} (readMain readJails : Bool) (main : Option GOpts) (jails : Option (Bool × Option (List α))) : Bool × Option (List (Cmd ⊕ α)) :=
  if readMain then
    if readJails then
      match main with
      | none => (false, none)
      | some o =>
        match jails with
        | none => (false, none)
        | some (_, none) => (false, none)
        | some (ret, some j) => (ret, some (configStream (convert o) j))
    else (false, none)
  else (false, none)

/-! ## The server -/

/-- The database: `filename`, `maxMatches`, `purgeage` in seconds -/
structure Db where
  file : Str
  maxMatches : Int
  purgeage : Int
deriving DecidableEq

/-- What is decided outside -/
structure SrvEnv where
  /-- the command for logging or IPv6 raises no exception -/
  accepts : String → GVal → Bool
  /-- `threading.stack_size(n)` takes the value -/
  stack : Int → Bool
  /-- `int(v)` of a text -/
  toInt : Str → Option Int
  /-- `filename.lower()` -/
  lower : Str → Str
  /-- the database can be opened -/
  opens : Str → Bool
  /-- `MyTime.str2seconds` (mytime.py 150-176) of a text; `none` is an exception -/
  seconds : Str → Option Int

/-- `Fail2BanDb(filename)` (database.py 166-172) -/
def freshDb (f : Str) : Db := ⟨f, 10, 86400⟩

/-- `int(v)` of a value of an option; `int(None)` raises a TypeError -/
def toInt (e : SrvEnv) : Option Val → Option Int
  | some (.int i) => some i
  | some (.str s) => e.toInt s
  | some (.bool b) => some (if b then 1 else 0)
  | none => none

/-- `setThreadOptions` (server.py 818-823) raises no exception -/
def threadOk (e : SrvEnv) : List (String × Option Val) → Bool
  | [] => true
  | (o, v) :: l =>
    if o = "stacksize" then
      match toInt e v with
      | some i => e.stack (i * 1024) && threadOk e l
      | none => false
    else false

/-- `setDatabase` (server.py 828-849) on a server without jails; `filename.lower()` of something that is no text raises an exception -/
def setDatabase (e : SrvEnv) (db : Option Db) : GVal → Option (Option Db)
  | .val (some (.str f)) =>
    if db.map (·.file) = some f then some db
    else if e.lower f = "none".toList then some none
    else if e.opens f then some (some (freshDb f)) else none
  | _ => none

/-- `__commandSet` (transmitter.py 156-213) for the server; `none` is an exception -/
def apply (e : SrvEnv) (db : Option Db) (c : Cmd) : Option (Option Db) :=
  if c.1 = "dbfile" then setDatabase e db c.2
  else if c.1 = "dbmaxmatches" then
    match db, c.2 with
    | none, _ => some none
    | some d, .val v => (toInt e v).map (fun i => some { d with maxMatches := i })
    | some _, .thread _ => none
  else if c.1 = "dbpurgeage" then
    match db, c.2 with
    | none, _ => some none
    | some d, .val (some (.str s)) => (e.seconds s).map (fun i => some { d with purgeage := i })
    | some d, .val (some (.int i)) => some (some { d with purgeage := i })
    | some d, .val (some (.bool b)) => some (some { d with purgeage := if b then 1 else 0 })
    | some _, _ => none
  else if c.1 = "thread" then
    match c.2 with
    | .thread o => if threadOk e o.items then some db else none
    | .val _ => none
  else if e.accepts c.1 c.2 then some db else none

/-- `server-stream` (transmitter.py 129-136): an exception ends it. The database after it, and the number of commands processed if one has failed -/
def stream (e : SrvEnv) : Option Db → List Cmd → Option Db × Option Nat
  | db, [] => (db, none)
  | db, c :: l =>
    match apply e db c with
    | none => (db, some 0)
    | some db => let r := stream e db l; (r.1, r.2.map (· + 1))

end Verif.General
