import Verif.Model.Database

/-!
# Opening, upgrade and repair of the database — `fail2ban/server/database.py` 166-393

Tables as values; each SQL script between `BEGIN` and `COMMIT`, and each statement outside, is one transaction, so a crash leaves the effect of the first ones. Whether the tool `sqlite3` can restore a
broken file, and whether a statement of the upgrade raises an exception, is environment. The table `jails` (which the upgrade does not touch), indices, and the digest of log rows are left out.
-/

namespace Verif.Upgrade

/-- Row of table `bans` before version 3 -/
structure OldBan where
  jail : String
  ip : Fid
  time : Int
  data : BanData
  deriving DecidableEq

/-- Table `bans` with the columns of the old or the new version -/
inductive Bans
  | old (l : List OldBan)
  | new (l : List BanRow)
  deriving DecidableEq

/-- Row of table `logs`: jail, path, position -/
abbrev LogRow := String × String × Int

/-- The file (lines 116-162); `none` is a table that does not exist. -/
structure Tables where
  /-- rows of table `fail2banDb` -/
  version : Option (List Nat)
  logs : Option (List LogRow)
  bans : Option Bans
  /-- primary key (ip, jail) -/
  bips : Option (Dict (Fid × String) BanRow)

/-- `__version__` (line 114) -/
def current : Nat := 4

/-- `SELECT jail, ip, timeofban, -2 as bantime, 1 as bancount, data FROM bans` (line 370) -/
def convert : Bans → List BanRow
  | .old l => l.map fun b => ⟨b.jail, b.ip, b.time, -2, 1, b.data⟩
  | .new l => l.map fun b => ⟨b.jail, b.ip, b.time, -2, 1, b.data⟩

/-- insertion into a list ordered by time -/
def insTime (r : BanRow) : List BanRow → List BanRow
  | [] => [r]
  | a :: l => if a.time < r.time then a :: insTime r l else r :: a :: l

/-- `order by timeofban` (line 384); rows of the same time in order of insertion -/
def sortTime : List BanRow → List BanRow
  | [] => []
  | r :: l => insTime r (sortTime l)

/-- `INSERT OR REPLACE INTO bips` (line 383), primary key (ip, jail) -/
def replaceInto (d : Dict (Fid × String) BanRow) (r : BanRow) : Dict (Fid × String) BanRow := d.insert (r.ip, r.jail) r

/-- `UPDATE fail2banDb SET version = ?` -/
def setVersion (n : Nat) (v : Option (List Nat)) : Option (List Nat) := v.map fun l => l.map fun _ => n

/-- rows of table `bans` with the columns of version 3 -/
def newRows : Option Bans → List BanRow
  | some (.new l) => l
  | _ => []

/-- Upgrade to version 2: `logs` gets new constraints, rows are the same (lines 357-365). -/
def toV2 (v : Nat) (t : Tables) : Tables :=
  if v < 2 && t.logs.isSome then { t with version := setVersion 2 t.version } else t

/-- Upgrade to version 3 (lines 367-375); the version is not written. -/
def toV3 (v : Nat) (t : Tables) : Tables :=
  if v < 3 then { t with bans := t.bans.map fun b => .new (convert b) } else t

/-- Upgrade to version 4, first transaction (lines 376-380); `fresh` is that there was no table `bips`. -/
def toV4 (v : Nat) (fresh : Bool) (t : Tables) : Tables :=
  if v < 4 && fresh then { t with bips := some Dict.empty, version := setVersion 4 t.version } else t

/-- Upgrade to version 4, second transaction (lines 381-384, with the commit of the decorator). -/
def fill (v : Nat) (fresh : Bool) (t : Tables) : Tables :=
  if v < 4 && fresh then { t with bips := t.bips.map fun d => (sortTime (newRows t.bans)).foldl replaceInto d } else t

/-- The transactions of `updateDb(version)` (lines 342-387) -/
def transactions (v : Nat) (fresh : Bool) : List (Tables → Tables) := [toV2 v, toV3 v, toV4 v fresh, fill v fresh]

/-- The first `k` of them -/
def upgrade (k v : Nat) (t : Tables) : Tables := ((transactions v t.bips.isNone).take k).foldl (fun t f => f t) t

/-- The transactions of `_createDb` (lines 319-330): tables that do not exist are created, then the version is written if there is none. -/
def creations : List (Tables → Tables) :=
  [ fun t => { t with version := some (t.version.getD []) },
    fun t => { t with logs := some (t.logs.getD []) },
    fun t => { t with bans := some (t.bans.getD (.new [])) },
    fun t => { t with bips := some (t.bips.getD Dict.empty) },
    fun t => { t with version := t.version.map fun l => if l.isEmpty then [current] else l } ]

/-- The first `k` of them -/
def createUpTo (k : Nat) (t : Tables) : Tables := (creations.take k).foldl (fun t f => f t) t

/-- `_createDb` -/
def create (t : Tables) : Tables := createUpTo 5 t

/-- first row of `fail2banDb` -/
def versionOf (t : Tables) : Option Nat := t.version.bind List.head?

/-- `_connectDB` for a file that can be read (lines 212-238): whether no exception is raised, and the tables. -/
def openDb (t : Tables) : Bool × Tables :=
  if t.version.isNone then (true, create t)
  else match versionOf t with
    | none => (false, t)
    | some v =>
      if v = current then (true, t)
      else if v > current then (false, t)
      else (decide (versionOf (upgrade 4 v t) = some current), upgrade 4 v t)

/-- Content of a file -/
inductive Content
  | good (t : Tables)
  /-- something SQLite cannot read -/
  | corrupt (n : Nat)

/-- an empty file -/
def emptyTables : Tables := ⟨none, none, none, none⟩

/-- `st_size` is 0 (line 285) -/
def isEmpty : Content → Bool
  | .good ⟨none, none, none, none⟩ => true
  | _ => false

/-- The files: the database and its backups. Two backups have different names (line 265: the time in seconds). -/
structure Files where
  main : Option Content
  backups : List Content

/-- The version is older (lines 229, 348). -/
def isOld (t : Tables) : Bool := match versionOf t with
  | some v => decide (v < current)
  | none => false

/-- What is outside -/
structure Outside where
  /-- what `sqlite3 .dump | sqlite3` makes of the backup: no file, or a file (line 283) -/
  restore : Content → Option Content
  /-- a statement of the upgrade raises an exception -/
  fails : Tables → Bool

/-- `_connectDB(checkIntegrity=True)` while `repairDB` is `None` (lines 174-253, 273) -/
def connectAgain (e : Outside) (f : Files) : Bool × Files :=
  match f.main with
  | none => (true, { f with main := some (.good (create emptyTables)) })
  | some (.corrupt n) => (false, { f with main := some (.corrupt n) })
  | some (.good t) =>
    if isOld t && e.fails t then (false, f)
    else ((openDb t).1, { f with main := some (.good (create (openDb t).2)) })

/-- `repairDB` after the backup `c` was made (lines 282-299): without the tool there is no file, so `os.stat` and `os.remove` raise exceptions. -/
def rebuild (e : Outside) (c : Content) (f : Files) : Bool × Files :=
  match e.restore c with
  | none => (false, f)
  | some c' =>
    if isEmpty c' then connectAgain e f
    else
      let r := connectAgain e { f with main := some c' }
      if r.1 then r else connectAgain e { r.2 with main := none }

/-- `_connectDB()` (lines 174-253). After a failed upgrade `updateDb` returns `None`, so an exception is raised anyway (lines 230-238, 393). -/
def connect (e : Outside) (f : Files) : Bool × Files :=
  match f.main with
  | none => (true, { f with main := some (.good (create emptyTables)) })
  | some (.corrupt n) => rebuild e (.corrupt n) ⟨none, f.backups ++ [.corrupt n]⟩
  | some (.good t) =>
    let backups := if isOld t then f.backups ++ [.good t] else f.backups
    if isOld t && e.fails t then (false, (rebuild e (.good t) ⟨none, backups⟩).2)
    else ((openDb t).1, ⟨some (.good (openDb t).2), backups⟩)

/-- The opened database as model `Db` -/
def toDb (t : Tables) : Db :=
  { Db.init with bans := newRows t.bans, bips := t.bips.getD Dict.empty }

end Verif.Upgrade
