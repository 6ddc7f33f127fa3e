import Verif.Py.Dict
import Verif.Model.Ticket

/-!
# Failure manager — `fail2ban/server/failmanager.py`

The whole class except logging, the background service (garbage collection) and `getFailCount`'s test-only sum.
Every method runs under the lock of the manager, hence is one atomic step.
-/

namespace Verif

/-- State of `FailManager` (failmanager.py 40-47). `maxRetry`, `maxTime` (findtime), `maxMatches` are non-negative. -/
structure FailManager where
  /-- `__failList` -/
  failList : Dict Fid Ticket
  /-- `__maxRetry` -/
  maxRetry : Nat
  /-- `__maxTime` -/
  maxTime : Nat
  /-- `__failTotal` -/
  failTotal : Nat
  /-- `maxMatches` -/
  maxMatches : Nat

namespace FailManager

/-- `FailManager()` (failmanager.py 40-47) -/
def init : FailManager :=
  { failList := Dict.empty, maxRetry := 3, maxTime := 600, failTotal := 0, maxMatches := 5 }

/-- `l[-n:]` for `n > 0` (failmanager.py 95) -/
def lastN (n : Nat) (l : List String) : List String := l.drop (l.length - n)

/-- Body of the `try` block for a tracked address (failmanager.py 78-97). `same` says that the reported ticket is the
stored object itself. The flag is `false` if a `KeyError` was raised by `inc`. -/
def updateTracked (s : FailManager) (fData ticket : Ticket) (count : Nat) (same : Bool) : Ticket × Bool :=
  let ms := if same then [] else if s.maxMatches ≠ 0 then ticket.getMatches else []
  let attempt := if same then 1 else if ticket.failures = 0 then 1 else ticket.failures
  let unixTime := if same then fData.time else ticket.time
  let fData := fData.adjustTime unixTime s.maxTime
  match fData.inc ms attempt count with
  | (fData, false) => (fData, false)
  | (fData, true) =>
    if s.maxMatches ≠ 0 then
      let ms := fData.getMatches
      if s.maxMatches < ms.length then (fData.setMatches (lastN s.maxMatches ms), true) else (fData, true)
    else (fData.setMatches [], true)

/-- The `except KeyError` block for an untracked address (failmanager.py 98-112), on state `s`. -/
def addNew (s : FailManager) (ticket : Ticket) (count : Nat) (observed : Bool) : Nat × FailManager :=
  if observed || ticket.isBan then (ticket.retry, s)
  else
    let fData := if ticket.failures < count then ticket.setRetry count else ticket
    (fData.retry, { s with failList := s.failList.insert ticket.id fData, failTotal := s.failTotal + 1 })

/-- `addFailure(ticket, count, observed)` (failmanager.py 72-124). -/
def addFailure (s : FailManager) (ticket : Ticket) (count : Nat := 1) (observed : Bool := false)
    (same : Bool := false) : Nat × FailManager :=
  match s.failList.get? ticket.id with
  | some fData =>
    match s.updateTracked fData ticket count same with
    | (fData, true) =>
      (fData.retry, { s with failList := s.failList.insert ticket.id fData, failTotal := s.failTotal + 1 })
    | (fData, false) =>
      -- the stored object was already changed when the exception was raised
      { s with failList := s.failList.insert ticket.id fData }.addNew ticket count observed
  | none => s.addNew ticket count observed

/-- `cleanup(time)` (failmanager.py 129-148); `a / 2.0 <= b / 3.0` is `3a <= 2b`. -/
def cleanup (s : FailManager) (time : Int) : FailManager :=
  let time := time - s.maxTime
  let todelete := (s.failList.items.filter (fun kv => decide (kv.2.time ≤ time))).map Prod.fst
  let n := todelete.length
  if n ≠ s.failList.size ∧ n = 0 then s
  else
    let fl := if n = s.failList.size then Dict.empty else s.failList
    let fl :=
      if 3 * n ≤ 2 * fl.size then todelete.foldl (fun d fid => d.erase fid) fl
      else fl.filter (fun _ item => decide (time < item.time))
    { s with failList := fl }

/-- `delFailure(fid)` (failmanager.py 150-155) -/
def delFailure (s : FailManager) (fid : Fid) : FailManager := { s with failList := s.failList.erase fid }

/-- Loop of `toBan` over candidate keys (failmanager.py 159-163). -/
def toBanLoop (s : FailManager) : List Fid → Option (Fid × Ticket)
  | [] => none
  | fid :: rest =>
    match s.failList.get? fid with
    | some data => if s.maxRetry ≤ data.retry then some (fid, data) else toBanLoop s rest
    | none => toBanLoop s rest

/-- Keys `toBan` iterates over (failmanager.py 159). -/
def toBanCands (s : FailManager) (fid : Option Fid) : List Fid :=
  match fid with
  | some f => if s.failList.contains f then [f] else s.failList.keys
  | none => s.failList.keys

/-- `toBan(fid)` (failmanager.py 157-165); `none` is the exception `FailManagerEmpty`. -/
def toBan (s : FailManager) (fid : Option Fid) : Option Ticket × FailManager :=
  match s.toBanLoop (s.toBanCands fid) with
  | some (f, data) => (some data, { s with failList := s.failList.erase f })
  | none => (none, s)

/-- `getFailCount()` (failmanager.py 55-58) -/
def getFailCount (s : FailManager) : Nat × Nat := (s.failList.size, (s.failList.values.map Ticket.retry).sum)

/-- Operations on a failure manager (any caller, any time, any order). -/
inductive Op where
  /-- `addFailure` with a ticket object that is not the stored one -/
  | add (ticket : Ticket) (count : Nat) (observed : Bool)
  /-- `addFailure` with the very ticket object stored for an address -/
  | addSame (fid : Fid) (count : Nat) (observed : Bool)
  /-- `cleanup` -/
  | cleanup (time : Int)
  /-- `delFailure` -/
  | del (fid : Fid)
  /-- `toBan` -/
  | toBan (fid : Option Fid)
  /-- `setMaxRetry` (failmanager.py 60-61) -/
  | setMaxRetry (n : Nat)
  /-- `setMaxTime` (failmanager.py 66-67) -/
  | setMaxTime (n : Nat)
  /-- assignment of `maxMatches` -/
  | setMaxMatches (n : Nat)

/-- State change of one operation. -/
def step (s : FailManager) : Op → FailManager
  | .add t c o => (s.addFailure t c o false).2
  | .addSame fid c o =>
    match s.failList.get? fid with
    | some t => (s.addFailure t c o true).2
    | none => s
  | .cleanup time => s.cleanup time
  | .del fid => s.delFailure fid
  | .toBan fid => (s.toBan fid).2
  | .setMaxRetry n => { s with maxRetry := n }
  | .setMaxTime n => { s with maxTime := n }
  | .setMaxMatches n => { s with maxMatches := n }

/-- State after a sequence of operations. -/
def run (s : FailManager) (ops : List Op) : FailManager := ops.foldl step s

end FailManager

end Verif
