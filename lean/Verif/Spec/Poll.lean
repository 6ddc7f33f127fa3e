import Verif.Model.Poll

/-! # What is expected of polling -/

namespace Verif.PollSpec

open Poll

/-- Modifications of a file can be told from another by its `stat`; `seen` are the earlier ones. -/
def Distinct (p : String) : List Stat → List Step → Prop
  | _, [] => True
  | seen, .write q st :: l => if q = p then st ∉ seen ∧ Distinct p (st :: seen) l else Distinct p seen l
  | seen, .vanish _ :: l | seen, .add _ :: l | seen, .del _ :: l | seen, .begin :: l | seen, .check :: l | seen, .read :: l | seen, .fail :: l | seen, .raise :: l => Distinct p seen l

/-- A step in which a file found as modified is not read. -/
def Missed (p : String) (w : World) : Step → Prop
  | .fail => w.todo = [] ∧ w.mods.head? = some p
  | .raise => w.todo = [] ∧ p ∈ w.mods
  | .read => w.todo = [] ∧ w.mods.head? = some p ∧ w.filter.idle = true
  | _ => False

/-- Nothing is missed of a file. -/
def Reads (p : String) : World → List Step → Prop
  | _, [] => True
  | w, s :: l => ¬Missed p w s ∧ Reads p (step w s) l

/-- A pass of the main loop. -/
def pass (n m : Nat) : List Step := .begin :: (List.replicate n .check ++ List.replicate m .read)

/-- A file is looked for several times without success. -/
def absent (s : Poll) (p : String) : Nat → Poll
  | 0 => s
  | n + 1 => ((absent s p n).isModified p none).2

/-- Several errors in a row. -/
def manyErrors (s : Poll) : Nat → Poll
  | 0 => s
  | n + 1 => (manyErrors s n).commonError

end Verif.PollSpec
