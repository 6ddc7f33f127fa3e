import Verif.Py.Dict
import Verif.Model.Ticket

/-!
# Persistent database — `fail2ban/server/database.py`

The tables as values, each method as one transaction (`commitandrollback`, lines 72-82: under a lock, rolled back if an exception is
raised). Not modelled: creation, upgrade and repair of the file, the JSON conversion of `data` (assumed to give back what was stored),
`getBans` and queries over all jails other than `getBan(overalljails)`. Times and ban times are integers.
-/

namespace Verif

/-- JSON column `data`: the keys `failures` and `matches` -/
structure BanData where
  failures : Option Nat
  lines : Option (List String)
deriving DecidableEq, Repr

/-- Row of table `bans` (lines 129-140) -/
structure BanRow where
  jail : String
  ip : Fid
  time : Int
  banTime : Int
  count : Nat
  data : BanData
deriving DecidableEq, Repr

/-- The tables (lines 114-155) and the attributes of `Fail2BanDb`. -/
structure Db where
  /-- `jails`: name and `enabled` -/
  jails : Dict String Bool
  /-- `logs`: (jail, path) to (`firstlinemd5`, `lastfilepos`); unique by (jail, path) -/
  logs : Dict (String × String) (Option String × Int)
  /-- `bans`, in order of insertion -/
  bans : List BanRow
  /-- `bips`: primary key (ip, jail) -/
  bips : Dict (Fid × String) BanRow
  /-- `maxMatches` (line 161) -/
  maxMatches : Nat := 10
  /-- `_purgeAge` -/
  purgeAge : Int := 86400
  /-- `_outDatedFactor` -/
  outDatedFactor : Int := 3
  /-- `_bansMergedCache` for a given address and jail -/
  merged : Dict (Fid × String) (Option Ticket) := Dict.empty

namespace Db

/-- new database -/
def init : Db := { jails := Dict.empty, logs := Dict.empty, bans := [], bips := Dict.empty }

/-- `addJail(jail)` (lines 396-410) -/
def addJail (s : Db) (name : String) : Db := { s with jails := s.jails.insert name true }

/-- `delJail(jail)` (lines 413-423) -/
def delJail (s : Db) (name : String) : Db :=
  if s.jails.contains name then { s with jails := s.jails.insert name false } else s

/-- The lines stored with a ban (lines 580-588). -/
def storedData (maxMatches : Nat) (t : Ticket) : BanData :=
  let lines :=
    match t.matches' with
    | none => none
    | some ms =>
      if ms = [] then some []
      else if maxMatches ≠ 0 then
        if maxMatches < ms.length then some (ms.drop (ms.length - maxMatches)) else some ms
      else none
  { failures := some t.failures, lines }

/-- the row written for a ban; `defaultBT` is `jail.actions.getBanTime()` (lines 589-598) -/
def row (s : Db) (jail : String) (defaultBT : Int) (t : Ticket) : BanRow :=
  { jail, ip := t.id, time := t.time, banTime := t.getBanTime defaultBT, count := t.banCount, data := storedData s.maxMatches t }

/-- `addBan(jail, ticket)` (lines 567-603); `none` if the jail is not in the database (foreign key, lines 138, 149).
The merged cache is dropped first (lines 578-585), also if the transaction fails. -/
def addBan (s : Db) (jail : String) (defaultBT : Int) (t : Ticket) : Bool × Db :=
  let s := { s with merged := s.merged.erase (t.id, jail) }
  if s.jails.contains jail then
    (true, { s with bans := s.bans ++ [s.row jail defaultBT t], bips := s.bips.insert (t.id, jail) (s.row jail defaultBT t) })
  else (false, s)

/-- one address of `delBan` (lines 625-629) -/
def delBan1 (s : Db) (jail : String) (ip : Fid) : Db :=
  { s with
    bans := s.bans.filter (fun r => !(decide (r.jail = jail) && decide (r.ip = ip)))
    bips := s.bips.filter (fun k _ => !(decide (k.2 = jail) && decide (k.1 = ip))) }

/-- `delBan(jail, *args)` (lines 606-629) -/
def delBan (s : Db) (jail : String) (ips : List Fid) : Db :=
  if ips = [] then
    { s with
      bans := s.bans.filter (fun r => !decide (r.jail = jail))
      bips := s.bips.filter (fun k _ => !decide (k.2 = jail)) }
  else ips.foldl (fun s ip => s.delBan1 jail ip) s

/-- `getBan(ip, jail, overalljails)` (lines 748-768) as called by the observer: `bancount, timeofban, bantime`, at most one row. -/
def getBan (s : Db) (ip : Fid) (jail : String) (overall : Bool) : Option (Nat × Int × Int) :=
  if overall then
    match s.bips.items.filter (fun kv => decide (kv.1.1 = ip)) with
    | [] => none
    | r :: rs =>
      some (((r :: rs).map (fun kv => kv.2.count)).sum, rs.foldl (fun m kv => max m kv.2.time) r.2.time,
        ((r :: rs).map (fun kv => kv.2.banTime)).sum)
  else (s.bips.get? (ip, jail)).map (fun r => (r.count, r.time, r.banTime))

/-- insertion into a list ordered by address (`ORDER BY ip`) -/
def ins (r : BanRow) : List BanRow → List BanRow
  | [] => [r]
  | a :: l => if a.ip < r.ip then a :: ins r l else r :: a :: l

/-- `ORDER BY ip` -/
def sortIp : List BanRow → List BanRow
  | [] => []
  | r :: l => ins r (sortIp l)

/-- `_getCurrentBans(jail, forbantime, fromtime)` for a given jail and all addresses (lines 770-789) -/
def currentRows (s : Db) (jail : String) (forbantime : Option Int) (fromtime : Int) : List BanRow :=
  sortIp ((s.bips.items.filter (fun kv => decide (kv.1.2 = jail) &&
    (decide (fromtime < kv.2.time + kv.2.banTime) || decide (kv.2.banTime ≤ -1)) &&
    (match forbantime with
      | none => true
      | some f => decide (f = -1) || decide (fromtime - f < kv.2.time)))).map Prod.snd)

/-- Correction of the ban time of a row (lines 815-822); `defaultBT` is `jail.actions.getBanTime()`. -/
def corrected (defaultBT : Int) (correct : Option Int) (bt : Int) : Int :=
  if bt = -2 then defaultBT
  else
    match correct with
    | some c => if 0 < c ∧ (bt = -1 ∨ c < bt) then c else bt
    | none => bt

/-- Ticket of a row (lines 833-846): `FailTicket(ip, time, data)`, matches limited, ban time and count set. -/
def toTicket (maxmatches : Nat) (r : BanRow) (bt : Int) : Ticket :=
  let ms := r.data.lines.getD []
  let n := r.data.failures.getD 0
  let ms' := if maxmatches = 0 then none else if maxmatches < ms.length then some (ms.drop (ms.length - maxmatches)) else some ms
  { id := r.ip, time := r.time, firstTime := r.time, retry := n, failures := n, matches' := ms', banTime := some bt, banCount := r.count }

/-- `getCurrentBans(jail, forbantime, fromtime, correctBanTime, maxmatches)` for a given jail (lines 791-861). `correct` is `none` if not
to be corrected. -/
def getCurrentBans (s : Db) (jail : String) (defaultBT : Int) (forbantime : Option Int) (fromtime : Int) (correct : Option Int)
    (maxmatches : Nat) : List Ticket :=
  (s.currentRows jail forbantime fromtime).filterMap (fun r =>
    if r.ip = "" then none
    else
      let bt := corrected defaultBT correct r.banTime
      if bt ≠ -1 ∧ r.time + bt ≤ fromtime then none else some (toTicket maxmatches r bt))

/-- rows of `_getBans(ip, jail)` (lines 632-651): newest first (`ORDER BY ip, timeofban desc`); equal times in order of insertion -/
def insDesc (r : BanRow) : List BanRow → List BanRow
  | [] => [r]
  | a :: l => if a.time < r.time then r :: a :: l else a :: insDesc r l

/-- rows of an address in a jail, newest first -/
def bansOf (s : Db) (ip : Fid) (jail : String) : List BanRow :=
  (s.bans.filter (fun r => decide (r.jail = jail) && decide (r.ip = ip))).foldl (fun l r => insDesc r l) []

/-- one row of the loop in `getBansMerged` (lines 722-738): lines and failures so far -/
def mergeRow (maxMatches : Nat) (acc : List String × Nat) (r : BanRow) : List String × Nat :=
  let m := r.data.lines.getD []
  let maxadd := maxMatches - acc.1.length
  let ms :=
    if 0 < maxadd then (if m.length ≤ maxadd then m ++ acc.1 else m.drop (m.length - maxadd) ++ acc.1) else acc.1
  (ms, acc.2 + r.data.failures.getD 1)

/-- `getBansMerged(ip, jail)` without the cache (lines 708-741): the ticket of an address in a jail; its time is that of the last row -/
def mergedOf (s : Db) (ip : Fid) (jail : String) : Option Ticket :=
  match (s.bansOf ip jail).getLast? with
  | none => none
  | some last =>
    let acc := (s.bansOf ip jail).foldl (mergeRow s.maxMatches) ([], 0)
    some { id := ip, time := last.time, firstTime := last.time, retry := acc.2, failures := acc.2, matches' := some acc.1 }

/-- `getBansMerged(ip, jail)` with its cache (lines 702-745) -/
def getBansMerged (s : Db) (ip : Fid) (jail : String) : Option Ticket × Db :=
  match s.merged.get? (ip, jail) with
  | some t => (t, s)
  | none =>
    let t := s.mergedOf ip jail
    (t, { s with merged := s.merged.insert (ip, jail) t })

/-- `_purge_bips` (lines 871-878) -/
def purgeBips (s : Db) (now : Int) : Db :=
  { s with bips := s.bips.filter (fun _ r => !(decide (r.time < now - s.purgeAge) && decide (r.banTime ≠ -1) &&
      decide (r.time + r.banTime * s.outDatedFactor < now - s.purgeAge))) }

/-- `_cleanjails` (lines 863-869); log positions of removed jails are removed with them (`ON DELETE CASCADE`, line 124) -/
def cleanJails (s : Db) : Db :=
  let gone := fun (name : String) => s.jails.get? name == some false && !(s.bans.any (fun r => decide (r.jail = name))) &&
    !(s.bips.items.any (fun kv => decide (kv.1.2 = name)))
  { s with jails := s.jails.filter (fun n _ => !gone n), logs := s.logs.filter (fun k _ => !gone k.1) }

/-- `purge()` (lines 880-889) -/
def purge (s : Db) (now : Int) : Db :=
  let s := { s with merged := Dict.empty, bans := s.bans.filter (fun r => !decide (r.time < now - s.purgeAge)) }
  (s.purgeBips now).cleanJails

/-- `_addLog(jail, name, pos, md5)` (lines 469-486): the position to continue at, `none` in the first component if the jail is unknown
(foreign key). -/
def addLog (s : Db) (jail path : String) (pos : Int) (md5 : Option String) : Option (Option Int) × Db :=
  let stored := s.logs.get? (jail, path)
  let md5' := stored.bind Prod.fst
  let last := if md5 ≠ none ∧ md5 ≠ md5' then none else stored.map Prod.snd
  if md5' = none ∧ (pos ≠ 0 ∨ md5 ≠ none) then
    if s.jails.contains jail then (some last, { s with logs := s.logs.insert (jail, path) (md5, pos) }) else (none, s)
  else (some last, s)

/-- `_updateLog(jail, name, pos, md5)` (lines 525-533) -/
def updateLog (s : Db) (jail path : String) (pos : Int) (md5 : Option String) : Option Db :=
  if s.logs.contains (jail, path) ∨ s.jails.contains jail then some { s with logs := s.logs.insert (jail, path) (md5, pos) } else none

/-- Operations on the database. -/
inductive Op where
  | addJail (name : String)
  | delJail (name : String)
  | addBan (jail : String) (defaultBT : Int) (t : Ticket)
  | delBan (jail : String) (ips : List Fid)
  | merged (ip : Fid) (jail : String)
  | purge (now : Int)
  | addLog (jail path : String) (pos : Int) (md5 : Option String)
  | updateLog (jail path : String) (pos : Int) (md5 : Option String)

/-- State after an operation. -/
def step (s : Db) : Op → Db
  | .addJail n => s.addJail n
  | .delJail n => s.delJail n
  | .addBan j d t => (s.addBan j d t).2
  | .delBan j ips => s.delBan j ips
  | .merged ip j => (s.getBansMerged ip j).2
  | .purge now => s.purge now
  | .addLog j p pos md5 => (s.addLog j p pos md5).2
  | .updateLog j p pos md5 => (s.updateLog j p pos md5).getD s

/-- State after a history. -/
def run (s : Db) (ops : List Op) : Db := ops.foldl step s

/-- `delAllJails()` (lines 426-430), called when the server opens the database (server.py 843) -/
def delAllJails (s : Db) : Db := s.run (s.jails.keys.map .delJail)

end Db

end Verif
