import Verif.Py.Dict
import Verif.Model.Ticket

/-!
# Ban manager — `fail2ban/server/banmanager.py`

The ban list with its 'next unban time' cache. Not modelled: the Cymru (ASN/country) look-ups (144-259) and the text
formatting of times in `getBanList(withTime=True)`. Methods run under the lock of the manager (one atomic step); the
current time is a parameter.
-/

namespace Verif

/-- State of `BanManager` (banmanager.py 50-60). -/
structure BanManager where
  /-- `__banList` -/
  banList : Dict Fid Ticket
  /-- `__banTime`, the jail-wide default ban time -/
  banTime : Int
  /-- `__banTotal` -/
  banTotal : Nat
  /-- `_nextUnbanTime` -/
  nextUnban : Int

namespace BanManager

/-- `BanManager()` (banmanager.py 50-60) -/
def init : BanManager := { banList := Dict.empty, banTime := 600, banTotal := 0, nextUnban := Ticket.MAX_TIME }

/-- Outcome of `addBanTicket`: the returned boolean and the `reason` dictionary. -/
inductive AddRes where
  /-- returned `True` -/
  | banned
  /-- `reason['expired']` -/
  | expired
  /-- `reason['ticket']` (the running ban, after a possible prolongation) and `reason['prolong']` -/
  | already (running : Ticket) (prolong : Bool)
deriving DecidableEq

/-- `addBanTicket(ticket, reason)` (banmanager.py 268-298), `now` is `MyTime.time()`. -/
def addBanTicket (s : BanManager) (now : Int) (ticket : Ticket) : AddRes × BanManager :=
  let eob := ticket.getEndOfBanTime s.banTime
  if eob < now then (.expired, s)
  else
    match s.banList.get? ticket.id with
    | some old =>
      if old.getEndOfBanTime s.banTime < eob then
        let btm := ticket.getBanTime s.banTime
        let btm :=
          if btm ≠ -1 then
            let diftm := ticket.time - old.time
            if 0 < diftm then btm + diftm else btm
          else btm
        let old := old.setBanTime btm
        (.already old true, { s with banList := s.banList.insert ticket.id old })
      else (.already old false, s)
    | none =>
      (.banned,
        { s with
          banList := s.banList.insert ticket.id ticket.incrBanCount
          banTotal := s.banTotal + 1
          nextUnban := if eob < s.nextUnban then eob else s.nextUnban })

/-- `size()` (banmanager.py 305-306) -/
def size (s : BanManager) : Nat := s.banList.size

/-- `_inBanList(ticket)` (banmanager.py 316-317) -/
def inBanList (s : BanManager) (fid : Fid) : Bool := s.banList.contains fid

/-- The search loop of `unBanList` (banmanager.py 336-345): `acc` are the tickets found so far, `nxt` the next unban time
computed so far; the loop stops when `maxCount` tickets are found and then restores `oldNext`. -/
def unBanLoop (time banTime oldNext : Int) (maxCount : Nat) :
    List (Fid × Ticket) → List (Fid × Ticket) → Int → List (Fid × Ticket) × Int
  | [], acc, nxt => (acc, nxt)
  | (fid, t) :: rest, acc, nxt =>
    let eob := t.getEndOfBanTime banTime
    if eob < time then
      if maxCount ≤ (acc ++ [(fid, t)]).length then (acc ++ [(fid, t)], oldNext)
      else unBanLoop time banTime oldNext maxCount rest (acc ++ [(fid, t)]) nxt
    else if eob < nxt then unBanLoop time banTime oldNext maxCount rest acc eob
    else unBanLoop time banTime oldNext maxCount rest acc nxt

/-- `unBanList(time, maxCount)` (banmanager.py 326-360); `a / 2.0 <= b / 3.0` is `3a <= 2b`. -/
def unBanList (s : BanManager) (time : Int) (maxCount : Nat := 0x7fffffff) : List Ticket × BanManager :=
  if time < s.nextUnban then ([], s)
  else
    let (found, nxt) := unBanLoop time s.banTime s.nextUnban maxCount s.banList.items [] Ticket.MAX_TIME
    let bl :=
      if found.length ≠ 0 then
        if 3 * found.length ≤ 2 * s.banList.size then (found.map Prod.fst).foldl (fun d fid => d.erase fid) s.banList
        else s.banList.filter (fun fid _ => !((found.map Prod.fst).contains fid))
      else s.banList
    (found.map Prod.snd, { s with banList := bl, nextUnban := nxt })

/-- `flushBanList()` (banmanager.py 368-372); the next unban time is not reset. -/
def flushBanList (s : BanManager) : List Ticket × BanManager := (s.banList.values, { s with banList := Dict.empty })

/-- `getTicketByID(fid)` (banmanager.py 378-386): removes the ticket. -/
def getTicketByID (s : BanManager) (fid : Fid) : Option Ticket × BanManager :=
  (s.banList.get? fid, { s with banList := s.banList.erase fid })

/-- insertion into a list sorted by the second component, before equal keys -/
def insertByEnd (p : Ticket × Int) : List (Ticket × Int) → List (Ticket × Int)
  | [] => [p]
  | q :: l => if p.2 ≤ q.2 then p :: q :: l else q :: insertByEnd p l

/-- `lst.sort(key=lambda t: t[1])` (banmanager.py 109): a stable sort. -/
def sortByEnd (l : List (Ticket × Int)) : List (Ticket × Int) := l.foldr insertByEnd []

/-- `getBanList(ordered)` (banmanager.py 101-116) without text formatting. -/
def getBanList (s : BanManager) (ordered : Bool) : List Fid :=
  if ordered then
    (sortByEnd (s.banList.values.map (fun t => (t, t.getEndOfBanTime s.banTime)))).map (fun p => p.1.id)
  else s.banList.keys

/-- Operations. -/
inductive Op where
  /-- `addBanTicket` at a time -/
  | add (now : Int) (ticket : Ticket)
  /-- `unBanList` -/
  | unban (time : Int) (maxCount : Nat)
  /-- `getTicketByID` -/
  | pop (fid : Fid)
  /-- `flushBanList` -/
  | flush
  /-- `setBanTime` (banmanager.py 68-69) -/
  | setBanTime (value : Int)
  /-- `ticket.setBanTime(value)` on a stored ticket object by another thread (observer.py 454, 484) -/
  | setTicketBanTime (fid : Fid) (value : Int)

/-- Addresses accepted / released by an operation. -/
structure Events where
  /-- address newly banned -/
  accepted : List Fid
  /-- addresses whose tickets left the list and were returned to the caller -/
  released : List Fid

/-- One operation with its observable events. -/
def step (s : BanManager) : Op → Events × BanManager
  | .add now t =>
    let r := s.addBanTicket now t
    (⟨if r.1 = .banned then [t.id] else [], []⟩, r.2)
  | .unban time n => let r := s.unBanList time n; (⟨[], r.1.map Ticket.id⟩, r.2)
  | .pop fid => let r := s.getTicketByID fid; (⟨[], r.1.toList.map Ticket.id⟩, r.2)
  | .flush => let r := s.flushBanList; (⟨[], r.1.map Ticket.id⟩, r.2)
  | .setBanTime v => (⟨[], []⟩, { s with banTime := v })
  | .setTicketBanTime fid v =>
    (⟨[], []⟩,
      match s.banList.get? fid with
      | some t => { s with banList := s.banList.insert fid (t.setBanTime v) }
      | none => s)

/-- A run: all accepted addresses, all released addresses, and the final state. -/
def run (s : BanManager) : List Op → Events × BanManager
  | [] => (⟨[], []⟩, s)
  | op :: ops =>
    let (e, s1) := s.step op
    let (es, s2) := run s1 ops
    (⟨e.accepted ++ es.accepted, e.released ++ es.released⟩, s2)

end BanManager

end Verif
