import Verif.Model.Jail

/-! # Vocabulary for restarts -/

namespace Verif.Spec.Restart

open Verif

/-- The largest ban time of a jail for bans put back: `maxtime` with increments, else the ban time of the jail; none if not positive. -/
def cap (j : JailCfg) : Option Int :=
  if j.increment then j.maxtime.filter (fun m => decide (0 < m)) else if 0 < j.banTime then some j.banTime else none

/-- The ban time a recorded ban continues with: unknown ones (-2, records of an old version) get that of the jail, others are limited. -/
def newBanTime (j : JailCfg) (bt : Int) : Int :=
  if bt = -2 then j.banTime
  else
    match cap j with
    | none => bt
    | some c => if bt = -1 then c else min bt c

/-- The ban is still to be in force at `now`: permanent, or its end is in the future. -/
def Runs (time bt now : Int) : Prop := bt = -1 ∨ (0 < bt ∧ now < time + bt)

/-- The jail has a usable ban time: permanent or positive. -/
def SaneJail (j : JailCfg) : Prop := j.banTime = -1 ∨ 0 < j.banTime

/-- What is put back for record `r`: same address, start, number of bans and failures; the newest lines. -/
def IsRestored (j : JailCfg) (r : BanRow) (t : Ticket) : Prop :=
  t.id = r.ip ∧ t.time = r.time ∧ t.banTime = some (newBanTime j r.banTime) ∧ t.banCount = r.count ∧ t.restored = true ∧
    t.failures = r.data.failures.getD 0 ∧
    t.matches' = if j.maxMatches = 0 then none else some ((r.data.lines.getD []).drop ((r.data.lines.getD []).length - j.maxMatches))

end Verif.Spec.Restart
