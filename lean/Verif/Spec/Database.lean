import Verif.Model.Database

/-! # Vocabulary for the properties of the database -/

namespace Verif.Spec.Database

open Verif

/-- The last `n` elements. -/
def lastN {α : Type} (n : Nat) (l : List α) : List α := (l.reverse.take n).reverse

/-- `r` is the record of a ban with ticket `t` in `jail` whose default ban time is `d`. At most `maxMatches` lines are kept, the newest. -/
def IsRecordOf (maxMatches : Nat) (jail : String) (d : Int) (t : Ticket) (r : BanRow) : Prop :=
  r.jail = jail ∧ r.ip = t.id ∧ r.time = t.time ∧ r.banTime = t.banTime.getD d ∧ r.count = t.banCount ∧
    r.data.failures = some t.failures ∧ r.data.lines.getD [] = lastN maxMatches (t.matches'.getD [])

/-- The operation removes the bans of an address in a jail. -/
def Removes (op : Db.Op) (ip : Fid) (jail : String) : Prop := ∃ ips, op = .delBan jail ips ∧ (ips = [] ∨ ip ∈ ips)

/-- The operation is a further record of a ban of the address in the jail. -/
def Replaces (op : Db.Op) (ip : Fid) (jail : String) : Prop := ∃ d t, op = .addBan jail d t ∧ t.id = ip

/-- A current record is purged at `now`. -/
def Outdated (s : Db) (r : BanRow) (now : Int) : Prop :=
  r.time < now - s.purgeAge ∧ r.banTime ≠ -1 ∧ r.time + r.banTime * s.outDatedFactor < now - s.purgeAge

/-- Nothing in the history touches the current record `r`. -/
def Kept (s : Db) (r : BanRow) (ip : Fid) (jail : String) (ops : List Db.Op) : Prop :=
  ∀ op ∈ ops, ¬ Removes op ip jail ∧ ¬ Replaces op ip jail ∧ ∀ now, op = .purge now → ¬ Outdated s r now

/-- A record of the history table survives the operations: not removed by address or jail, not older than the purge age at a purge. -/
def survives (s : Db) (r : BanRow) (ops : List Db.Op) : Bool :=
  ops.all (fun op =>
    match op with
    | .delBan j ips => !(decide (j = r.jail) && (ips.isEmpty || ips.contains r.ip))
    | .purge now => decide (now - s.purgeAge ≤ r.time)
    | _ => true)

/-- The ban is in force at `now`: it is permanent or its end is in the future. -/
def InForce (r : BanRow) (now : Int) : Prop := r.banTime = -1 ∨ now < r.time + r.banTime

end Verif.Spec.Database
