/-!
# Event loop of the server — `fail2ban/server/asyncserver.py` (144-238)

What happens in a turn (connections to accept, result of `poll`, whether the loop is still active afterwards) is arbitrary.
-/

namespace Verif.EventLoop

/-- `errno.EMFILE` -/
def emfile : Int := 24

/-- An attempt to accept a connection; an error with its code, if it is a `socket.error` -/
inductive Acc where
  | ok
  | err (code : Option Int)
deriving DecidableEq

/-- Result of `poll`: an error with `e.args[0]`, `none` if there are no arguments -/
inductive Poll where
  | ok
  | err (code : Option Int)
deriving DecidableEq

structure Turn where
  accepts : List Acc
  poll : Poll
  /-- `active()` after the turn, if no `handle_accept` stopped the server -/
  active : Bool
deriving DecidableEq

/-- `err_count` and the number of messages in the log -/
structure St where
  listen : Nat
  accept : Nat
  messages : Nat
deriving DecidableEq

inductive End where
  | running
  /-- `active()` is false -/
  | stopped
  /-- "Too many errors" -/
  | critical
  /-- exception of the loop itself -/
  | crashed
deriving DecidableEq

/-- `handle_accept()` (asyncserver.py 215-238): state and whether `stop()` was called -/
def handleAccept (s : St) (a : Acc) : St × Bool :=
  match a with
  | .ok => ({ s with accept := if s.accept ≠ 0 then s.accept - 1 else s.accept }, false)
  | .err code =>
    let n := s.accept + 1
    if n < 20 then ({ s with accept := n, messages := s.messages + 1 }, false)
    else if n = 20 then ({ s with accept := n, messages := s.messages + 1 }, false)
    else if n > 100 then
      if code = some emfile ∨ s.listen + n > 1000 then ({ s with accept := n, messages := s.messages + 1 }, true) else ({ s with accept := n }, false)
    else ({ s with accept := n }, false)

/-- Connections of a turn -/
def handleAccepts : List Acc → St → St × Bool
  | [], s => (s, false)
  | a :: l, s =>
    let r := handleAccept s a
    let q := handleAccepts l r.1
    (q.1, r.2 || q.2)

/-- The exception branch of `loop` (asyncserver.py 169-189), if still active -/
def onError (s : St) (code : Option Int) : End × St :=
  let n := s.listen + 1
  if n < 20 then
    match code with
    | none => (.crashed, { s with listen := n })
    | some _ => (.running, { s with listen := n, messages := s.messages + 1 })
  else if n = 20 then (.running, { s with listen := n, messages := s.messages + 2 })
  else if n > 100 then
    match code with
    | none => (.crashed, { s with listen := n })
    | some c =>
      if c = emfile ∨ n + s.accept > 1000 then (.critical, { s with listen := n, messages := s.messages + 1 }) else (.running, { s with listen := n })
  else (.running, { s with listen := n })

/-- One turn of `loop` (asyncserver.py 164-189) -/
def turn (s : St) (t : Turn) : End × St :=
  let a := handleAccepts t.accepts s
  let active := t.active && !a.2
  match t.poll with
  | .ok =>
    let s1 := { a.1 with listen := if a.1.listen ≠ 0 then a.1.listen - 1 else a.1.listen }
    (if active then .running else .stopped, s1)
  | .err code =>
    if active then onError a.1 code else (.stopped, a.1)

/-- `loop` over the turns -/
def run : List Turn → St → End × St
  | [], s => (.running, s)
  | t :: l, s =>
    let r := turn s t
    match r.1 with
    | .running => run l r.2
    | e => (e, r.2)

/-- State at the beginning (asyncserver.py 152, 206) -/
def init : St := ⟨0, 0, 0⟩

end Verif.EventLoop
