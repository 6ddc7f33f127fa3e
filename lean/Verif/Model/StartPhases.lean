/-!
# Start of the server together with its configuration — `fail2banserver.py` (175-224), `fail2banclient.py` (181-265, 346-367)

Two threads: the main thread starts the server, the other one reads the configuration and sends it (`configureServer`). They share the
dictionary `phase`. Steps of both are interleaved by a list of events; an event that cannot happen changes nothing.

Simplifications: reading of the configuration (`__prepareStartServer`) and the answer to the stream (`__processStartStreamAfterWait`, see
`Model/Client.lean`) are given by the environment, the second is positive only if a server is up. Waiting (`Utils.wait_for`, see
`Model/Execute.lean`) ends if the condition holds or by the event `timeOut`. The wait for `start-ready` (258) is at most half a second whatever
happens, so this entry is left out. An exception in the other thread is a thread that makes no step any more. After `exit` of the main thread the
other one (`daemon`) makes no step.
-/

namespace Verif.StartPhases

/-- How the server is started -/
structure Mode where
  /-- `fail2ban-client -f start` (198-209): the configuration was read before; else `fail2ban-server` -/
  client : Bool
  /-- `background`; a client starts another process then, see `Model/StartArgs.lean` -/
  daemon : Bool
  /-- is there a configuration to send: `ret` of `__prepareStartServer` -/
  valid : Bool
deriving DecidableEq

/-- Where the other thread is (245-265) -/
inductive Conf where
  | begin
  /-- `start` was set (247) -/
  | read
  /-- the configuration was read (250); `ready` is next. The order of assignments in 252 is from left to right. -/
  | setReady
  | setStart
  /-- 254, 258 -/
  | wait
  /-- `configure` was set (259), 262 -/
  | send
  /-- 364-367: `quit` if the answer was not positive -/
  | answered (ok : Bool)
  /-- 264 -/
  | setDone (ok : Bool)
  | ended
deriving DecidableEq

/-- Where the main thread is -/
inductive Main where
  /-- 240 of fail2banclient.py -/
  | waitReady
  /-- 242 -/
  | lookStart
  /-- `startServerDirect` begins (fail2banserver.py 197) -/
  | create
  /-- `Server` was created and is known to the other thread (54-57) -/
  | created
  /-- in `server.start`, in the foreground -/
  | serving
  /-- 207 -/
  | waitDone
  /-- 208 -/
  | lookDone
  /-- 224: `True` is `exit(0)`; `False` is `exit(255)` -/
  | exit (ok : Bool)
deriving DecidableEq

structure St where
  conf : Conf := .begin
  main : Main := .waitReady
  /-- `phase` -/
  start : Option Bool := none
  ready : Option Bool := none
  configure : Option Bool := none
  done : Option Bool := none
  /-- does a server answer: that of this process, or the daemon -/
  up : Bool := false
  /-- `quit` of the object `server` of this process was called (server.py 192) -/
  quit : Bool := false
deriving DecidableEq

/-- `server.quit()` (server.py 190-234): only once; does not reach a daemon -/
def St.stop (m : Mode) (s : St) : St := if s.quit then s else { s with quit := true, up := s.up && m.daemon }

/-- `cli._server` is set -/
def St.known (s : St) : Bool :=
  match s.main with
  | .waitReady | .lookStart | .create => false
  | _ => true

inductive Ev where
  /-- the main thread goes on -/
  | main
  /-- the time to wait is over for it -/
  | timeOut
  /-- `startServerDirect` raises (62-69) -/
  | fail
  /-- the other thread goes on -/
  | conf
  /-- it gets the answer (262) -/
  | answer (ok : Bool)
  /-- a running server is stopped by a command: `quit` in its process -/
  | stop
  /-- a running server ends by itself (server.py 177-181) -/
  | down
deriving DecidableEq

def stepMain (m : Mode) (s : St) : St :=
  match s.main with
  | .waitReady => if s.ready.isSome then { s with main := .lookStart } else s
  | .lookStart => { s with main := if s.start.getD false then .create else .exit false }
  | .create => { s with main := .created }
  | .created => if m.daemon then { s with main := .waitDone, up := true } else { s with main := .serving, up := true }
  | .serving => if s.up then s else { s with main := if m.client then .lookDone else .waitDone }
  | .waitDone => if s.done.isSome then { s with main := .lookDone } else s
  | .lookDone => if s.done.getD false then { s with main := .exit true } else { s.stop m with main := .exit false }
  | .exit _ => s

def stepConf (m : Mode) (s : St) : St :=
  match s.conf with
  | .begin => { s with conf := .read, start := some true }
  | .read => { s with conf := .setReady }
  | .setReady => { s with conf := .setStart, ready := some m.valid }
  | .setStart => { s with conf := if m.valid then .wait else .ended, start := some m.valid }
  | .wait => { s with conf := .send, configure := some true }
  | .send => s
  | .answered ok => if !ok && s.known then { s.stop m with conf := .setDone ok } else { s with conf := .setDone ok }
  | .setDone ok => { s with conf := .ended, done := some ok }
  | .ended => s

/-- One event; after `exit` the other thread is gone -/
def step (m : Mode) (s : St) : Ev → St
  | .main => stepMain m s
  | .timeOut =>
    match s.main with
    | .waitReady => { s with main := .lookStart }
    | .waitDone => { s with main := .lookDone }
    | _ => s
  | .fail => if s.main = .created ∨ s.main = .serving then { s.stop m with main := .exit false, up := false } else s
  | .conf =>
    match s.main with
    | .exit _ => s
    | _ => stepConf m s
  | .answer ok =>
    match s.main, s.conf with
    | .exit _, _ => s
    | _, .send => if ok && !s.up then s else { s with conf := .answered ok }
    | _, _ => s
  | .stop => if m.daemon then { s with up := false } else if s.up then s.stop m else s
  | .down => if m.daemon then { s with up := false } else if s.up then { s with up := false, quit := true } else s

def init (m : Mode) : St := { main := if m.client then .create else .waitReady }

def run (m : Mode) (evs : List Ev) : St := evs.foldl (step m) (init m)

end Verif.StartPhases
