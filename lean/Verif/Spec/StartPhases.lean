import Verif.Model.StartPhases

/-!
# What the phases mean
-/

namespace Verif.StartPhases.Spec

open Verif.StartPhases

/-- Something is sent to the server or was -/
def Sending : Conf → Prop
  | .begin | .read | .setReady | .setStart | .wait | .ended => False
  | _ => True

/-- `phase['start']` in terms of the place of the thread -/
def start (valid : Bool) : Conf → Option Bool
  | .begin => none
  | .read | .setReady | .setStart => some true
  | _ => some valid

/-- `phase['ready']` -/
def ready (valid : Bool) : Conf → Option Bool
  | .begin | .read | .setReady => none
  | _ => some valid

/-- `phase['configure']` -/
def configure (valid : Bool) : Conf → Option Bool
  | .begin | .read | .setReady | .setStart | .wait => none
  | .ended => if valid then some true else none
  | _ => some true

/-- The event `e` was at a time when `P` held -/
def Was (m : Mode) (evs : List Ev) (e : Ev) (P : St → Prop) : Prop := ∃ pre post, evs = pre ++ e :: post ∧ P (run m pre)

end Verif.StartPhases.Spec
