/-!
# Client — `fail2ban/client/fail2banclient.py` (74-133, 160-215, 273-437), `fail2ban/client/fail2bancmdline.py` (259-271)

Everything outside is a world with a state of any type: what the server answers, files, the clock, the configuration that is read. What the
client does is a list of events. Times are in units of 1/100 ms. Interactive mode and start in the foreground are not modelled.
-/

namespace Verif.Client

/-- A configuration stream (contents do not matter here) -/
abbrev Stream := String

/-- Commands sent to the server -/
inductive Cmd where
  | words (l : List String)
  /-- `ping` of the client itself, with its timeout -/
  | ping (timeout : Option Nat)
  | reload (jail : String) (opts : List String) (stream : Stream)
  | serverStream (stream : Stream)
  | serverStatus
deriving DecidableEq

/-- Answer of the server -/
inductive Reply where
  | ok (v : String)
  | nok (e : String)
  /-- no connection, no answer, or one that is not understood (`SHUTDOWN`) -/
  | fail
deriving DecidableEq

inductive Ev where
  | send (c : Cmd)
  /-- an answer is shown -/
  | out (c : Cmd) (v : String)
  /-- an error of the server is shown -/
  | outErr (c : Cmd) (e : String)
  /-- a server is started -/
  | start
  | readConfig (jail : Option String)
  | sleep (n : Nat)
deriving DecidableEq

/-- The world -/
structure World (σ : Type) where
  send : σ → Cmd → Reply × σ
  /-- `os.path.exists(socket)` -/
  socket : σ → Bool
  /-- `startServerAsync`: whether it raises -/
  start : σ → Bool × σ
  /-- `readConfig(jail)`: `none` if not valid -/
  config : σ → Option String → Option Stream × σ
  now : σ → Nat
  sleep : σ → Nat → σ
  /-- `float(s)` succeeds -/
  isFloat : String → Bool

/-- Settings from the command line -/
structure Conf where
  force : Bool
  timeout : Nat
deriving DecidableEq

/-- `c[0] in ('echo', 'server-status')` -/
def Cmd.always : Cmd → Bool
  | .words (w :: _) => w == "echo" || w == "server-status"
  | .serverStatus => true
  | _ => false

variable {σ : Type}

/-- `__processCmd(cmd, showRet)` (fail2banclient.py 85-133): result, state, events -/
def processCmd (w : World σ) (showRet : Bool) : List Cmd → σ → Bool × σ × List Ev
  | [], s => (true, s, [])
  | c :: cs, s =>
    let a := w.send s c
    match a.1 with
    | .ok v =>
      let r := processCmd w showRet cs a.2
      (r.1, r.2.1, .send c :: ((if showRet || c.always then [.out c v] else []) ++ r.2.2))
    | .nok e =>
      let r := processCmd w showRet cs a.2
      (false, r.2.1, .send c :: ((if showRet then [.outErr c e] else []) ++ r.2.2))
    | .fail => (false, a.2, [.send c])

/-- `__ping(timeout)` (fail2banclient.py 74-76) -/
def ping (w : World σ) (timeout : Option Nat) (s : σ) : Bool × σ × List Ev := processCmd w false [.ping timeout] s

/-- How `__waitOnServer` ends -/
inductive Wait where
  | reached
  /-- `ServerExecutionException` -/
  | raised
  | fuel
deriving DecidableEq

/-- `test()` (fail2banclient.py 376) -/
def test (w : World σ) (sltime : Nat) (s : σ) : Bool × σ × List Ev := if w.socket s then ping w (some sltime) s else (false, s, [])

/-- `__waitOnServer(alive, maxtime)` (fail2banclient.py 369-393); `fuel` bounds the turns -/
def waitOnServer (w : World σ) (alive : Bool) (maxtime starttime : Nat) : Nat → Nat → σ → Wait × σ × List Ev
  | 0, _, s => (.fuel, s, [])
  | fuel + 1, sltime, s =>
    let t := test w sltime s
    if t.1 = alive then (.reached, t.2.1, t.2.2)
    else
      let waittime := w.now t.2.1 - starttime
      if waittime ≥ maxtime then (.raised, t.2.1, t.2.2)
      else
        let sl := min (sltime * 2) (if waittime > 20000 then 50000 else 10000)
        let r := waitOnServer w alive maxtime starttime fuel sl (w.sleep t.2.1 sl)
        (r.1, r.2.1, t.2.2 ++ [.sleep sl] ++ r.2.2)

/-- The first `sltime` -/
def sltime0 : Nat := 625

/-- Turns that are enough (see `C99_wait_ends`) -/
def turns (maxtime : Nat) : Nat := maxtime / 625 + 2

/-- `__prepareStartServer()` (fail2banclient.py 160-176): the stream -/
def prepareStart (w : World σ) (conf : Conf) (s : σ) : Option Stream × σ × List Ev :=
  let p := ping w (some 10000) s
  if p.1 then (none, p.2.1, p.2.2)
  else
    let c := w.config p.2.1 none
    match c.1 with
    | none => (none, c.2, p.2.2 ++ [.readConfig none])
    | some st => (if !conf.force && w.socket c.2 then none else some st, c.2, p.2.2 ++ [.readConfig none])

/-- `__startServer(background=True)` (fail2banclient.py 182-221) with `__processStartStreamAfterWait` (346-367) -/
def startServer (w : World σ) (conf : Conf) (s : σ) : Bool × σ × List Ev :=
  let p := prepareStart w conf s
  match p.1 with
  | none => (false, p.2.1, p.2.2)
  | some st =>
    let r := w.start p.2.1
    if r.1 then (false, r.2, p.2.2 ++ [.start])
    else
      let q := waitOnServer w true conf.timeout (w.now r.2) (turns conf.timeout) sltime0 r.2
      match q.1 with
      | .reached =>
        let x := processCmd w false [.serverStream st, .serverStatus] q.2.1
        (x.1, x.2.1, p.2.2 ++ [.start] ++ q.2.2 ++ x.2.2)
      | _ => (false, q.2.1, p.2.2 ++ [.start] ++ q.2.2)

/-- `('--restart', "--unban", "--if-exists")` -/
def isOpt (s : String) : Bool := s == "--restart" || s == "--unban" || s == "--if-exists"

/-- The loop over arguments of `reload` (fail2banclient.py 307-318): options and rest, `none` if there are unexpected ones -/
def reloadArgs : List String → Option (List String × List String)
  | [] => some ([], [])
  | a :: l => if isOpt a then (reloadArgs l).map (fun r => (a :: r.1, r.2)) else if l ≠ [] then none else some ([], [a])

/-- `reload` (fail2banclient.py 305-336) -/
def reload (w : World σ) (args : List String) (s : σ) : Bool × σ × List Ev :=
  match reloadArgs args with
  | none => (false, s, [])
  | some (opts, rest) =>
    let p := ping w none s
    if p.1 then
      let jail : Option String := match rest with
        | [] => none
        | j :: _ => if j = "--all" then none else some j
      let c := w.config p.2.1 jail
      match c.1 with
      | none => (false, c.2, p.2.2 ++ [.readConfig jail])
      | some st =>
        let x := processCmd w true [.reload (jail.getD "--all") opts st] c.2
        (x.1, x.2.1, p.2.2 ++ [.readConfig jail] ++ x.2.2)
    else (false, p.2.1, p.2.2)

/-- `restart` of the server (fail2banclient.py 284-303) -/
def restart (w : World σ) (conf : Conf) (s : σ) : Bool × σ × List Ev :=
  let p := processCmd w true [.words ["stop"]] s
  let q := waitOnServer w false conf.timeout (w.now p.2.1) (turns conf.timeout) sltime0 p.2.1
  match q.1 with
  | .reached =>
    let r := startServer w conf q.2.1
    (r.1, r.2.1, p.2.2 ++ q.2.2 ++ r.2.2)
  | _ => (false, q.2.1, p.2.2 ++ q.2.2)

/-- `__processCommand(cmd)` (fail2banclient.py 273-342) -/
def processCommand (w : World σ) (conf : Conf) (cmd : List String) (s : σ) : Bool × σ × List Ev :=
  match cmd with
  | ["start"] => startServer w conf s
  | "restart" :: l => if l ≠ [] then reload w ("--restart" :: l) s else restart w conf s
  | "reload" :: l => reload w l s
  | "ping" :: t :: l => if w.isFloat t then processCmd w true [.words ("ping" :: t :: l)] s else (false, s, [])
  | cmd => processCmd w true [.words cmd] s

/-- The client (fail2banclient.py 395-455, 510-516, fail2bancmdline.py 259-271): exit code. With `-t` the configuration is tested first. -/
def main (w : World σ) (conf : Conf) (tst : Bool) (args : List String) (s : σ) : Nat × σ × List Ev :=
  let go (s : σ) (evs : List Ev) : Nat × σ × List Ev :=
    if args = [] then (255, s, evs)
    else
      let r := processCommand w conf args s
      (if r.1 then 0 else 255, r.2.1, evs ++ r.2.2)
  if tst then
    let c := w.config s none
    if args = [] then (if c.1.isSome then 0 else 255, c.2, [.readConfig none])
    else if c.1.isSome then go c.2 [.readConfig none] else (255, c.2, [.readConfig none])
  else go s []

end Verif.Client
