import Verif.Model.ActionReader

/-!
# What is expected of actions of a jail

Tables of settings are written again here; nothing of the readers is used but their types.
-/

namespace Verif.ActionReaderSpec

open Reader (Str Val Opts Got)
open ActionReader

/-- Settings of an action that are commands. -/
def commands : List String :=
  ["actionban", "actionunban", "actionstart", "actionstop", "actioncheck", "actionrepair", "actionflush", "actionreload", "actionprolong", "actionreban"]

/-- Settings of an action that are yes or no. -/
def switches : List String := ["norestored", "actionstart_on_demand", "actionrepair_on_unban"]

def IsSetting (k : String) : Prop := k ∈ commands ∨ k ∈ switches

/-- Values of a file included before. -/
def Known (k : String) : Prop := ∃ r : String, k = "known/" ++ r

/-- What distinguishes an action with parameter `name` from another one with the same file. -/
inductive Suffix (jail : Str) : Str → Str → Prop where
  | same : Suffix jail jail []
  | longer (r : Str) : r ≠ [] → Suffix jail (jail ++ r) r
  | other (n : Str) : (∀ r, n ≠ jail ++ r) → Suffix jail n ('-' :: n)

/-- Name and parameters of an action with options `d`. -/
structure Params (jail file : Str) (d : Dict Str Str) (name : Str) (p : Opts) : Prop where
  chosen : ∀ a, d.get? "actname".toList = some a → name = a
  derived : d.get? "actname".toList = none → ∃ s, Suffix jail ((d.get? "name".toList).getD jail) s ∧ name = file ++ s
  given : ∀ k v, d.get? k = some v → p.get? (String.ofList k) = some (some (.str v))
  jail : d.get? "name".toList = none → p.get? "name" = some (some (.str jail))
  actname : p.get? "actname" = some (some (.str name))
  other : ∀ k : String, d.get? k.toList = none → k ≠ "name" → k ≠ "actname" → p.get? k = none

/-- Where the value of a setting comes from: parameter, `[Init]`, `[Definition]`. -/
inductive ActionValue (a : ActionSrc) (params jail : Opts) (vars : Opts) (k : String) : Option (Option Val) → Prop where
  | param (v : Option Val) : params.get? k = some v → ActionValue a params jail vars k (some v)
  | init (v : Str) : params.get? k = none → (k, v) ∈ a.initSection → ActionValue a params jail vars k (some (some (.str v)))
  | jail (v : Option Val) : params.get? k = none → k ∉ a.initSection.map Prod.fst → jail.get? k = some v → ActionValue a params jail vars k none
  | definition (v : Str) : params.get? k = none → k ∉ a.initSection.map Prod.fst → jail.get? k = none → a.get vars k = .value v →
      ActionValue a params jail vars k (some (some (.str v)))
  | missing : params.get? k = none → k ∉ a.initSection.map Prod.fst → jail.get? k = none → a.get vars k = .noOption → ActionValue a params jail vars k none
  | noSection : params.get? k = none → k ∉ a.initSection.map Prod.fst → jail.get? k = none → a.get vars k = .noSection → ActionValue a params jail vars k (some none)

/-- A setting as it is sent. -/
inductive Typed (k : String) : Option Val → Option Val → Prop where
  | switch (s : Str) (b : Bool) : k ∈ switches → (b = true ↔ s.map Char.toLower ∈ ["1".toList, "on".toList, "true".toList, "yes".toList]) →
      Typed k (some (.str s)) (some (.bool b))
  | text (x : Option Val) : k ∉ switches → Typed k x x
  | other (x : Option Val) : (∀ s, x ≠ some (.str s)) → Typed k x x

/-- A property of an action is sent; `c` are its settings after substitution, `i` its parameters. -/
def Sends (c i : Opts) (k : String) (v : Option Val) : Prop :=
  (IsSetting k ∧ ∃ x, c.get? k = some x ∧ Typed k x v) ∨ (¬IsSetting k ∧ ¬Known k ∧ i.get? k = some v)

/-- Properties that a command sets. -/
def sent (jail name : Str) : ActCmd → List (String × Option Val)
  | .set j n k v => if j = jail ∧ n = name then [(k, v)] else []
  | .multi j n kvs => if j = jail ∧ n = name then kvs else []
  | .add .. => []

def jobName : Job → Str
  | .py n _ _ => n
  | .file n _ _ => n

/-! ## The server -/

/-- Settings that are empty unless given. -/
def cleared : List String := ["actionban", "actionunban", "actionstart", "actionstop", "actioncheck", "actionrepair", "actionflush", "actionreload", "actionreban"]

def unset (k : String) : Option (Option Val) := if k = "timeout" then some (some (.int 60)) else if k ∈ cleared then some (some (.str [])) else none

/-- An attribute after properties were set that had `base` before. -/
def attr (se : SEnv) (kvs : List (String × Option Val)) (base : Option (Option Val)) (k : String) : Option (Option Val) :=
  match Dict.lookup k kvs with
  | none => base
  | some v => if se.method k = true ∨ k = "bantime" then base else if k = "timeout" then some (se.secs v) else some v

def Private (k : String) : Prop := ∃ r : String, k = "_" ++ r

/-- What is remembered as properties is what the attributes are. -/
def Fresh (a : Act) : Prop := ∀ p, a.cache = some p → ∀ k v, (k, v) ∈ p ↔ a.attrs.get? k = some v ∧ ¬Private k

end Verif.ActionReaderSpec
