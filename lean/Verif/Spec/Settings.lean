import Verif.Model.Settings

/-!
# Settings of jails at run time — what is expected
-/

namespace Verif.SettingsSpec

open Verif.Settings

/-- Options that `get` shows and a `set` of the option may change. -/
def changes (opt : String) : List String :=
  if opt = "addignoreip" ∨ opt = "delignoreip" then ["ignoreip"]
  else if opt = "addfailregex" ∨ opt = "delfailregex" then ["failregex"]
  else if opt = "addignoreregex" ∨ opt = "delignoreregex" then ["ignoreregex"]
  else if opt = "idle" then []
  else [opt, "bantime.evformula", "bantime.evmultipliers"]

/-- The command may change what `get <name> <g>` shows. -/
def Touches (name g : String) : Cmd → Prop
  | .set _ n (opt :: _) => n = name ∧ g ∈ changes opt
  | .set _ _ [] => False
  | .multiSet n f _ => n = name ∧ g = (if f then "failregex" else "ignoreregex")
  | .get _ _ => False

/-- Removing the element with a Python index. -/
def PyDel (l : List String) (i : Int) (l' : List String) : Prop :=
  (∃ a x b, l = a ++ x :: b ∧ l' = a ++ b ∧ (i = a.length ∨ i = (a.length : Int) - l.length)) ∨ ((i < -(l.length : Int) ∨ (l.length : Int) ≤ i) ∧ l' = l)

/-- What the filter works with is what is shown. -/
def Consistent (j : Jail) : Prop := j.maxTime = j.findTime ∧ j.detectorZone = j.timeZone ∧ 1 ≤ j.maxLines ∧ (j.filterIdle = j.actionsIdle) ∧
  j.useDns ∈ ["yes", "warn", "no", "raw"]

/-- Text of an option that is shown. -/
def Text (be : String → Option Val) (k default : String) (s : String) : Prop := be k = some (.str s) ∨ (be k = none ∧ s = default)

/-- The list of multipliers shown as text is this one. -/
def Multipliers (env : Env) (be : String → Option Val) (l : List Int) : Prop :=
  (be "multipliers" = none ∧ l = []) ∨ ∃ s, be "multipliers" = some (.str s) ∧ (env.words s).map env.int = l.map some

/-- The formula in use is that of the options shown. -/
def Effective (env : Env) (be : String → Option Val) : Prop :=
  ∃ ms fa fo, be "evformula" = some (.formula ms fa fo (be "maxtime") (be "rndtime")) ∧ Multipliers env be ms ∧
    Text be "factor" "1" fa ∧ Text be "formula" "ban.Time * (1<<(ban.Count if ban.Count<20 else 20)) * banFactor" fo

end Verif.SettingsSpec
