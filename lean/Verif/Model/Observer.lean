import Verif.Model.Database
import Verif.Model.Filter

/-!
# Observer — `fail2ban/server/observer.py` 363-507

The three methods behind incremental ban times. The event queue, the timers and the thread of the observer are not modelled: each event is one
step. The ban time formula is an arbitrary function of ban time and count (its values rounded to integers, see `BanExtra` for the formula).
-/

namespace Verif

/-- What the observer reads from a jail. -/
structure ObsJail where
  /-- name -/
  name : String
  /-- `isAlive()` -/
  alive : Bool
  /-- `getBanTimeExtra('increment')` -/
  increment : Bool
  /-- `getBanTimeExtra('overalljails')` -/
  overall : Bool
  /-- `evformula` -/
  evformula : Int → Nat → Int
  /-- `actions.getBanTime()` -/
  banTime : Int

namespace Observer

/-- How many failures one failure of an address banned `n` times counts as (observer.py 388-393). The float expression
`(1 << min(n, 20)) / 2 + 1` is exact for `n > 0` (recorded counts are positive); for 0 it is 1.5 and here 1. -/
def weight (n maxRetry : Nat) : Nat := min (2 ^ (if n < 20 then n else 20) / 2 + 1) maxRetry

/-- `ticket.setBanCount(banCount)` on the reported ticket, which is the stored object if `same` -/
def setStoredCount (fm : FailManager) (ip : Fid) (n : Nat) (same : Bool) : FailManager :=
  match fm.failList.get? ip with
  | some d => if same then { fm with failList := fm.failList.insert ip (d.setBanCount n) } else fm
  | none => fm

/-- `failureFound(jail, ticket)` (observer.py 367-414). `same` says that the reported ticket is the object stored in the failure manager. -/
def failureFound (j : ObsJail) (db : Option Db) (now : Int) (s : Filter) (t : Ticket) (same : Bool) : Filter :=
  if !j.alive || !j.increment then s
  else
    match db.bind (fun db => db.getBan t.id j.name false) with
    | none => s
    | some (n, timeOfBan, _) =>
      let n := max n t.banCount
      let w := weight n s.fm.maxRetry
      if t.time ≤ timeOfBan then s
      else if w ≤ 1 then s
      else
        let r := s.fm.addFailure t (w - 1) true same
        let s := { s with fm := setStoredCount r.2 t.id n same }
        if s.fm.maxRetry ≤ r.1 then s.performBan now t.id else s

/-- `incrBanTime(jail, banTime, ticket)` (observer.py 426-465): the ban time and the changed ticket. -/
def incrBanTime (j : ObsJail) (db : Option Db) (banTime : Int) (t : Ticket) : Int × Ticket :=
  match db with
  | none => (banTime, t)
  | some db =>
    if !j.alive then (banTime, t)
    else if 0 < banTime ∧ j.increment then
      match db.getBan t.id j.name j.overall with
      | none => (banTime, t)
      | some (n, timeOfBan, _) =>
        let t := if t.banCount ≤ n then t.setBanCount (n + 1) else t
        let banTime := if 0 < n then j.evformula banTime n else banTime
        let t := t.setBanTime banTime
        (banTime, if timeOfBan < t.time then t else { t with restored := true })
    else (banTime, t)

/-- Result of `banFound`. -/
structure BanFound where
  /-- the changed ticket (the object stored in the ban list) -/
  ticket : Ticket
  /-- delay of the prolongation, if one is scheduled -/
  prolongIn : Option Int
  /-- database -/
  db : Option Db

/-- `banFound(ticket, jail, btime)` (observer.py 467-507) -/
def banFound (j : ObsJail) (db : Option Db) (now : Int) (t : Ticket) (btime : Int) : BanFound :=
  if t.restored then ⟨t, none, db⟩
  else
    let r := if btime ≠ -1 ∧ t.banTime = none then incrBanTime j db btime t else (btime, t)
    let btime' := r.1
    let t := if btime ≠ -1 ∧ t.banTime = none ∧ (btime' = -1 ∨ btime < btime') then r.2.setBanTime btime' else r.2
    if btime' ≠ -1 ∧ t.time + btime' < now then ⟨t, none, db⟩
    else
      let p := if btime' ≠ btime then some (min 10 (max 0 (btime' - btime - 5))) else none
      ⟨t, p, if t.restored then db else db.map (fun db => (db.addBan j.name j.banTime t).2)⟩

end Observer

end Verif
