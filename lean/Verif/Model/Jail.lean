import Verif.Model.Database

/-!
# Incremental ban time and restoring of bans — `fail2ban/server/jail.py` 225-315

Numbers of the ban time formula are exact rational numbers instead of floats. A formula of the configuration is an arbitrary function of
`ban.Time`, `ban.Count` and `banFactor`; values of options are given already evaluated (`eval` of the factor, `str2seconds`, splitting of
the multipliers), so failing evaluations are not modelled.
-/

namespace Verif

/-- `evformula`: the drawn `random.random()`, `ban.Time`, `ban.Count` to the ban time -/
abbrev BanFormula := Rat → Rat → Nat → Rat

/-- `_banExtra` (jail.py 84) -/
structure BanExtra where
  increment : Bool := false
  overalljails : Bool := false
  factor : Option Rat := none
  /-- arguments: time, count, factor -/
  formula : Option (Rat → Nat → Rat → Rat) := none
  maxtime : Option Rat := none
  rndtime : Option Rat := none
  evmultipliers : List Int := []
  evformula : Option BanFormula := none

/-- An option with its value, `none` for an empty one. -/
inductive ExtraOpt where
  | increment (v : Bool)
  | overalljails (v : Bool)
  | factor (v : Option Rat)
  | formula (v : Option (Rat → Nat → Rat → Rat))
  | maxtime (v : Option Rat)
  | rndtime (v : Option Rat)
  | multipliers (v : List Int)

namespace BanExtra

/-- the default formula (jail.py 254) -/
def defaultFormula (time : Rat) (count : Nat) (factor : Rat) : Rat := time * (2 ^ (if count < 20 then count else 20) : Nat) * factor

/-- `multipliers[ban.Count if ban.Count < len(multipliers) else -1]` (jail.py 251) -/
def pick (ms : List Int) (count : Nat) : Int := if count < ms.length then ms.getD count 0 else ms.getLastD 0

/-- the lambda built from the options (jail.py 246-266) -/
def build (be : BanExtra) : BanFormula :=
  let banFactor := be.factor.getD 1
  let f : BanFormula :=
    if be.evmultipliers.length ≠ 0 then fun _ time count => time * banFactor * (pick be.evmultipliers count : Int)
    else fun _ time count => max time ((be.formula.getD defaultFormula) time count banFactor)
  let f : BanFormula :=
    match be.maxtime with
    | some m => fun r time count => min (f r time count) m
    | none => f
  match be.rndtime with
  | some rt => fun r time count => f r time count + r * rt
  | none => f

/-- assignment of the value (jail.py 227-242) -/
def assign (be : BanExtra) : ExtraOpt → BanExtra
  | .increment v => { be with increment := v }
  | .overalljails v => { be with overalljails := v }
  | .factor v => { be with factor := v }
  | .formula v => { be with formula := v }
  | .maxtime v => { be with maxtime := v }
  | .rndtime v => { be with rndtime := v }
  | .multipliers v => { be with evmultipliers := v }

/-- `opt in ['formula', 'factor', 'maxtime', 'rndtime', 'multipliers']` (jail.py 244) -/
def rebuilds : ExtraOpt → Bool
  | .increment _ => false
  | .overalljails _ => false
  | _ => true

/-- `setBanTimeExtra(opt, value)` (jail.py 225-268) -/
def set (be : BanExtra) (o : ExtraOpt) : BanExtra :=
  let be := be.assign o
  if rebuilds o || be.evformula.isNone then { be with evformula := some be.build } else be

end BanExtra

/-- What `restoreCurrentBans` reads from the jail. -/
structure JailCfg where
  /-- name -/
  name : String
  /-- `_banExtra.get('increment')` -/
  increment : Bool
  /-- `_banExtra.get('maxtime')` -/
  maxtime : Option Int
  /-- `actions.getBanTime()` -/
  banTime : Int
  /-- `filter.failManager.maxMatches` -/
  maxMatches : Nat

namespace JailCfg

/-- `getMaxBanTime()` (jail.py 275-279) -/
def getMaxBanTime (j : JailCfg) : Int := if j.increment then j.maxtime.getD (-1) else j.banTime

/-- One ticket of the loop in `restoreCurrentBans` (jail.py 294-309): the ticket handed over, if any. `ignored` is the answer of
`_inIgnoreIPList`, `none` if it raises an exception. -/
def restoreOne (j : JailCfg) (now : Int) (ignored : Ticket → Option Bool) (t : Ticket) : Option Ticket :=
  let t := { t with restored := true }
  match ignored t with
  | none => none
  | some true => none
  | some false =>
    -- `ticket.getBanTime(forbantime)`, the ban time of the ticket is set
    let btm := t.getBanTime j.banTime
    let diftm := now - t.time
    let btm := if btm ≠ -1 ∧ 0 < diftm then btm - diftm else btm
    if btm ≠ -1 ∧ btm ≤ 0 then none else some t

/-- `restoreCurrentBans()` with a database (jail.py 281-315): the tickets put into the queue of the jail. -/
def restoreCurrentBans (j : JailCfg) (db : Db) (now : Int) (ignored : Ticket → Option Bool) : List Ticket :=
  let forbantime := if j.increment then none else some j.banTime
  (db.getCurrentBans j.name j.banTime forbantime now (some j.getMaxBanTime) j.maxMatches).filterMap (j.restoreOne now ignored)

end JailCfg

end Verif
