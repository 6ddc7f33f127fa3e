/-!
# The server as a daemon — `fail2ban/server/server.py`: `start` (110-124), `__get_fdlist` (854-872), `__createDaemon` (874-953)

Simplifications: a process is its number, session, terminal, working directory, mask for files, what SIGHUP does and its descriptors. `fork` gives numbers of the environment. Closing
a descriptor always takes it away (that `close` raises is ignored by the code). What comes after line 124 of `start` is `serves`. Process groups are left out.
-/

namespace Verif.Daemon

/-- What a descriptor is open for -/
inductive File where
  /-- `/dev/null`, for reading only or also for writing -/
  | null (write : Bool)
  | pipe
  | other (n : Nat)
deriving DecidableEq

/-- A descriptor; `inherit` is whether it stays open in a program that is started -/
structure Fd where
  num : Nat
  file : File
  inherit : Bool
deriving DecidableEq

structure Proc where
  id : Nat
  /-- number of the process that leads the session -/
  session : Nat
  /-- the session has a controlling terminal -/
  terminal : Bool
  /-- the working directory is `/` -/
  root : Bool
  /-- SIGHUP is ignored -/
  hup : Bool
  umask : Nat
  fds : List Fd
deriving DecidableEq

/-- Result of `os.sysconf("SC_OPEN_MAX")` -/
inductive Max where
  | value (i : Int)
  /-- AttributeError, ValueError -/
  | unknown
  /-- another exception -/
  | raises
deriving DecidableEq

/-- What is decided outside. -/
structure Env where
  /-- `os.fork()`: number of the child, or `errno` -/
  fork1 : Except Int Nat
  fork2 : Except Int Nat
  /-- `os.path.exists` of `/proc/self/fd` and `/proc/fd` -/
  exists1 : Bool
  exists2 : Bool
  /-- `os.listdir` of the one that is there, numbers of names that are digits and `none` for other names; an exception is `none` -/
  listing : Option (List (Option Nat))
  maxfd : Max
  /-- `/dev/null` can be opened -/
  hasNull : Bool

/-- How a process goes on after `start` -/
inductive End where
  /-- `return False` (server.py 118-119) -/
  | returns
  /-- `ServerInitializationError` with `errno` (server.py 121-124) -/
  | error (errno : Int)
  /-- another exception -/
  | raises
  /-- `os._exit(0)` (server.py 926) -/
  | exits
  /-- goes on as server -/
  | serves
deriving DecidableEq

/-- `os.setsid()` -/
def setsid (p : Proc) : Proc := { p with session := p.id, terminal := false }

/-- The lowest number from `n` on that is not in use; `fuel` is at least the count of numbers -/
def lowestFrom (used : List Nat) : Nat → Nat → Nat
  | 0, n => n
  | fuel + 1, n => if n ∈ used then lowestFrom used fuel (n + 1) else n

/-- The lowest number that is free -/
def lowest (fds : List Fd) : Nat := lowestFrom (fds.map Fd.num) fds.length 0

/-- `os.open("/dev/null", flags)`: descriptors opened by Python are not inherited -/
def openNull (write : Bool) (p : Proc) : Proc := { p with fds := p.fds ++ [⟨lowest p.fds, .null write, false⟩] }

/-- `os.close(fd)` -/
def close (n : Nat) (p : Proc) : Proc := { p with fds := p.fds.filter (fun f => f.num ≠ n) }

/-- `os.closerange(0, max)` -/
def closeRange (max : Int) (p : Proc) : Proc := { p with fds := p.fds.filter (fun f => ¬((f.num : Int) < max)) }

/-- `__get_fdlist()` with its loop (server.py 855-872, 936-937); `none` is an exception -/
def fdlist (env : Env) : Option (List Nat) :=
  if env.exists1 || env.exists2 then env.listing.map (fun l => l.filterMap id) else none

/-- Closing of all open files (server.py 935-947); `none` is an exception -/
def closeAll (env : Env) (p : Proc) : Option Proc :=
  match fdlist env with
  | some l => some (l.foldl (fun p n => close n p) p)
  | none =>
    match env.maxfd with
    | .value i => some (closeRange i p)
    | .unknown => some (closeRange 256 p)
    | .raises => none

/-- The second child (server.py 924, 931-953) -/
def daemon (env : Env) (p : Proc) : Proc × End :=
  match closeAll env { p with root := true } with
  | none => ({ p with root := true }, .raises)
  | some p => if env.hasNull then (openNull true (openNull true (openNull false p)), .serves) else (p, .raises)

/-- `__createDaemon()` (server.py 874-953) with what `start` does with its result (110-124): all processes there are then, the one that called it first -/
def createDaemon (env : Env) (p : Proc) : List (Proc × End) :=
  let p := { p with hup := true }
  match env.fork1 with
  | .error e => [(p, .error e)]
  | .ok pid1 =>
    let c := setsid { p with id := pid1 }
    match env.fork2 with
    | .error e => [(p, .returns), (c, .error e)]
    | .ok pid2 => [(p, .returns), (c, .exits), daemon env { c with id := pid2 }]

/-- `Server.start` (server.py 110-124); `background` is `__daemon` -/
def start (env : Env) (background : Bool) (p : Proc) : List (Proc × End) :=
  let p := { p with umask := 0o077 }
  if background then createDaemon env p else [(p, .serves)]

/-- Descriptors of a command of an action: `Popen(realCmd, stdout=PIPE, stderr=PIPE, ...)` (utils.py 191-194) closes all others but 0, which stays if it is inherited -/
def command (p : Proc) : List Fd := p.fds.filter (fun f => f.num = 0 && f.inherit) ++ [⟨1, .pipe, true⟩, ⟨2, .pipe, true⟩]

end Verif.Daemon
