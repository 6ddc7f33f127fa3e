import Verif.Model.CmdLine

/-!
# Start of the server process — `fail2ban/client/fail2banserver.py` (82-146, 165-198)

The command line that the client gives to the server, the file that is executed, and what the server does with a command line.
Reading of the command line by the server is `CmdLine.initCmdLine`.

Simplifications: `os.fork` (the child executes what is modelled here) and logging are left out. Paths are texts; `os.path` is a parameter.
-/

namespace Verif.StartArgs

open Verif.CmdLine

/-- `SERVER` (29) -/
def server : Text := "fail2ban-server".toList

/-- Entries that are passed with their names (108) -/
def logParams : List (Text × Param) :=
  [("loglevel".toList, .loglevel), ("logtarget".toList, .logtarget), ("syslogsocket".toList, .syslogsocket)]

/-- 108-110; `none` is `KeyError` -/
def logArgs (c : Conf) : List (Text × Param) → Option (List Text)
  | [] => some []
  | (n, p) :: r =>
    match c.params p, logArgs c r with
    | some v, some a => some (('-' :: '-' :: n) :: v :: a)
    | _, _ => none

/-- 105-106: `"v"*n` is empty for numbers below one, but then the word is not given -/
def verboseArgs (v : Int) : List Text := if v > 1 then ['-' :: List.replicate (v - 1).toNat 'v'] else []

/-- 91-110: the command line with the name of the program; `none` if an exception is raised. `socket` and `pidfile` are `None` only if the
configuration had none; then `os.execv` raises. -/
def asyncArgs (c : Conf) : Option (List Text) :=
  match c.params .socket, c.params .pidfile, logArgs c logParams with
  | some s, some p, some l =>
    some ([server, "--async".toList, "-b".toList, "-s".toList, s, "-p".toList, p] ++ (if c.force then ["-x".toList] else []) ++ verboseArgs c.verbose ++ l)
  | _, _, _ => none

/-- Files, and the directories where the server is looked for -/
structure Paths where
  /-- `os.path.isfile` -/
  isFile : Text → Bool
  /-- `abspath(join(sys.path[0], SERVER))` -/
  own : Text
  /-- the same with the directory of `sys.argv[0]` -/
  caller : Text
  /-- the same with `bin` beside the package -/
  bin : Text
  /-- `sys.executable` -/
  python : Text
  /-- does `os.execv` raise `OSError` for the file -/
  fails : Text → Bool

/-- `getServerPath` (136-146) -/
def serverPath (p : Paths) : Text := if p.isFile p.own then p.own else if p.isFile p.caller then p.caller else p.bin

/-- An attempt to execute -/
structure Exec where
  file : Text
  /-- is the file looked for in `PATH` -/
  search : Bool
  args : List Text
deriving DecidableEq

/-- 111-133 with the command line `args`: what is executed, in order. `frk` (86) is not for `async`. -/
def launch (p : Paths) (frk : Bool) (args : List Text) : List Exec :=
  if frk then
    ⟨serverPath p, false, args⟩ :: (if p.fails (serverPath p) then [⟨server, true, args⟩] else [])
  else [⟨p.python, false, p.python :: serverPath p :: args.tail⟩]

/-- `startServerAsync` (83-133), in the child if there is a fork (`PRODUCTION`) -/
def startAsync (p : Paths) (c : Conf) : Option (List Exec) := (asyncArgs c).map (launch p (!c.async))

/-! ## `Fail2banServer.start` (154-198) -/

inductive Role where
  /-- `return ret` after the command line (159-160) -/
  | over (b : Bool)
  /-- an exception while the command line is read (215-222) -/
  | failed
  /-- the whole command line is for the client (171-173) -/
  | client
  /-- `startServerDirect`: in the background or not; is the configuration read and sent by a thread (184-193) -/
  | serve (c : Conf) (daemon configure : Bool)

/-- 165-198 -/
def role : Ret → Role
  | .code b => .over b
  | .raise => .failed
  | .go c args =>
    if args.length = 1 ∧ args.head? = some "start".toList ∧ c.interactive = false then .serve c c.background (!c.async)
    else if args.length ≠ 0 ∨ c.interactive then .client
    else .serve c c.background (!c.async)

/-- A server that gets the command line `argv` (with the name of the program) -/
def main (e : Env) (argv : List Text) : Role := role (initCmdLine e {} argv.tail).2

end Verif.StartArgs
