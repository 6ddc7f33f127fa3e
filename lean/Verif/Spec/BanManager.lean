import Verif.Model.BanManager

/-! # Vocabulary for the properties of the ban manager -/

namespace Verif.Spec.Ban

open Verif

/-- The ban time that applies to a ticket: its own one, else the default of the jail. -/
def effective (t : Ticket) (default : Int) : Int := t.banTime.getD default

/-- A ban with ban time `-1` is permanent. -/
def Permanent (t : Ticket) (default : Int) : Prop := effective t default = -1

/-- The moment a ban ends; a permanent one ends at the largest representable time 2^47-1. -/
def ends (t : Ticket) (default : Int) : Int :=
  if effective t default = -1 then 2 ^ 47 - 1 else t.time + effective t default

/-- The address is banned. -/
def Banned (s : BanManager) (x : Fid) : Prop := ∃ t, s.banList.get? x = some t

/-- The cached 'next unban time' does not lag behind: it is not later than the end of any ban. -/
def NextOk (s : BanManager) : Prop := ∀ x t, s.banList.get? x = some t → s.nextUnban ≤ ends t s.banTime

/-- The bans due at `time`, in order. -/
def due (s : BanManager) (time : Int) : List (Fid × Ticket) :=
  s.banList.items.filter (fun kv => decide (ends kv.2 s.banTime < time))

end Verif.Spec.Ban
