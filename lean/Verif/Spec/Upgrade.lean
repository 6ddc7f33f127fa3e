import Verif.Model.Upgrade

/-!
# Opening, upgrade and repair of the database — what is expected
-/

namespace Verif.UpgradeSpec

open Verif.Upgrade

/-- A database as an older fail2ban left it: one version number; the new columns of `bans` since version 3; no table `bips`. -/
structure Older (v : Nat) (t : Tables) : Prop where
  version : t.version = some [v]
  old : v < 4
  bans : (v < 3 ∧ ∃ l, t.bans = some (.old l)) ∨ (v = 3 ∧ ∃ l, t.bans = some (.new l))
  bips : t.bips = none
  logs : ∃ l, t.logs = some l

/-- A ban of an old database in the new table: nobody knows its ban time (−2), it is the first one. -/
def Same (o : OldBan) (r : BanRow) : Prop := r.jail = o.jail ∧ r.ip = o.ip ∧ r.time = o.time ∧ r.data = o.data ∧ r.banTime = -2 ∧ r.count = 1

/-- Lists of the same length that correspond. -/
inductive All₂ {α β : Type} (R : α → β → Prop) : List α → List β → Prop
  | nil : All₂ R [] []
  | cons {a b l m} : R a b → All₂ R l m → All₂ R (a :: l) (b :: m)

/-- The newest ban of an address in a jail; among those of the same time, the one recorded last. -/
def Newest (rows : List BanRow) (ip : Fid) (jail : String) (r : BanRow) : Prop :=
  ∃ a b, rows = a ++ r :: b ∧ r.ip = ip ∧ r.jail = jail ∧ (∀ x ∈ a, x.ip = ip → x.jail = jail → x.time ≤ r.time) ∧ ∀ x ∈ b, x.ip = ip → x.jail = jail → x.time < r.time

/-- What is in the file, ready for use: version 4, all tables. -/
structure Ready (t : Tables) : Prop where
  version : versionOf t = some 4
  logs : t.logs.isSome
  bans : t.bans.isSome
  bips : t.bips.isSome

/-- Ready and empty. -/
structure Fresh (t : Tables) : Prop where
  version : t.version = some [4]
  logs : t.logs = some []
  bans : t.bans = some (.new [])
  bips : t.bips = some Dict.empty

end Verif.UpgradeSpec
