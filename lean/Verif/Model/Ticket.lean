import Verif.Py.Round

/-!
# Tickets — `fail2ban/server/ticket.py`

One record for `Ticket`, `FailTicket` and `BanTicket` (the classes share all attributes, `wrap` only changes the class).
Not modelled: `getData`/`setData` for keys other than `failures` and `matches`, `__eq__`, `__str__`.
Times and ban times are integers. A line of `matches` that is a tuple is represented by its concatenation
(`getMatches`, lines 154-156).
-/

namespace Verif

/-- Identifier of a ticket (an `IPAddr` or other failure-id), represented by its text (ticket.py 89-96). -/
abbrev Fid := String

/-- `Ticket` / `FailTicket` / `BanTicket` (ticket.py 35-64, 217-236, 288). -/
structure Ticket where
  /-- `_id` -/
  id : Fid
  /-- `_time` -/
  time : Int
  /-- `_firstTime` (FailTicket) -/
  firstTime : Int
  /-- `_retry` (FailTicket) -/
  retry : Nat
  /-- `_data['failures']` -/
  failures : Nat
  /-- `_data['matches']`, `none` if the key is absent -/
  matches' : Option (List String)
  /-- `_banTime` -/
  banTime : Option Int := none
  /-- `_banCount` -/
  banCount : Nat := 0
  /-- flag `RESTORED` -/
  restored : Bool := false
  /-- flag `BANNED` -/
  banned : Bool := false
  /-- `_banEpoch` -/
  banEpoch : Nat := 0
  /-- the class is `BanTicket` -/
  isBan : Bool := false
deriving DecidableEq, Repr, Inhabited

namespace Ticket

/-- `Ticket.MAX_TIME` (ticket.py 38) -/
def MAX_TIME : Int := 0x7FFFFFFFFFFF

/-- `FailTicket(ip, time, matches)` (ticket.py 43-64, 227-236): `retry` is taken from `data['failures']`, which is 0. -/
def new (id : Fid) (time : Int) (lines : List String) : Ticket :=
  { id, time, firstTime := time, retry := 0, failures := 0, matches' := some lines }

/-- `getBanTime(defaultBT)` (ticket.py 110-111) -/
def getBanTime (t : Ticket) (default : Int) : Int :=
  match t.banTime with
  | some b => b
  | none => default

/-- `setBanTime` (ticket.py 107-108) -/
def setBanTime (t : Ticket) (b : Int) : Ticket := { t with banTime := some b }

/-- `setBanCount(value, always)` (ticket.py 113-115) -/
def setBanCount (t : Ticket) (value : Nat) (always : Bool := false) : Ticket :=
  if always || decide (t.banCount < value) then { t with banCount := value } else t

/-- `incrBanCount()` (ticket.py 117-118) -/
def incrBanCount (t : Ticket) : Ticket := { t with banCount := t.banCount + 1 }

/-- `getEndOfBanTime(defaultBT)` (ticket.py 123-129) -/
def getEndOfBanTime (t : Ticket) (default : Int) : Int :=
  let bantime := t.getBanTime default
  if bantime = -1 then MAX_TIME else t.time + bantime

/-- `isTimedOut(time, defaultBT)` (ticket.py 131-137) -/
def isTimedOut (t : Ticket) (time : Int) (default : Int) : Bool :=
  let bantime := t.getBanTime default
  if bantime = -1 then false else decide (t.time + bantime < time)

/-- `setMatches(matches)` (ticket.py 145-152): an empty list (or `None`) deletes the key. -/
def setMatches (t : Ticket) (ms : List String) : Ticket :=
  if ms = [] then { t with matches' := none } else { t with matches' := some ms }

/-- `getMatches()` (ticket.py 154-156) -/
def getMatches (t : Ticket) : List String := t.matches'.getD []

/-- `setRetry(value)` (ticket.py 238-247) -/
def setRetry (t : Ticket) (value : Nat) : Ticket :=
  let t := { t with retry := value }
  let t := if t.failures = 0 then { t with failures := 1 } else t
  if value = 0 then { t with failures := 0, matches' := some [] } else t

/-- `adjustTime(time, maxTime)` (ticket.py 255-266). `maxTime` (findtime) is non-negative; the float expression
`round(retry / float(time - firstTime) * maxTime)` is the exact rational one. -/
def adjustTime (t : Ticket) (time : Int) (maxTime : Nat) : Ticket :=
  if t.time < time then
    let t :=
      if t.firstTime < time - maxTime then
        { t with retry := roundHalfEven (t.retry * maxTime) (time - t.firstTime).toNat,
                 firstTime := time - maxTime }
      else t
    { t with time := time }
  else t

/-- `inc(matches, attempt, count)` (ticket.py 268-276). The flag is `false` if `self._data['matches']` raises
`KeyError` (after both counters were already increased). -/
def inc (t : Ticket) (ms : List String) (attempt count : Nat) : Ticket × Bool :=
  let t := { t with retry := t.retry + count, failures := t.failures + attempt }
  if ms = [] then (t, true)
  else
    match t.matches' with
    | none => (t, false)
    | some [] => ({ t with matches' := some ms }, true)
    | some (l :: ls) => ({ t with matches' := some ((l :: ls) ++ ms) }, true)

end Ticket

end Verif
