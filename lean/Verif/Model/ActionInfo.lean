import Verif.Py.Dict

/-!
# Information for actions — `fail2ban/server/action.py` (74-182: `CallingMap`), `fail2ban/server/actions.py` (370-460: `ActionInfo`, 509-516, 583-586)

The dictionary of definitions `AI_DICT` is one object, shared by all bans: it is part of the state here, and `data` of a map may be it. What a
callable returns is arbitrary and may change with time; one that reads other keys does so before its own value is stored, so this is a sequence
of reads. `copy`, `_asdict` and `__repr__` are not modelled.
-/

namespace Verif.ActionInfo

abbrev Key := String
abbrev Value := String

/-- A value in a dictionary: plain, or a callable -/
inductive Item where
  | plain (v : Value)
  | call (id : Nat)
deriving DecidableEq

abbrev Table := Dict Key Item

/-- What callables return now; `none` is an exception -/
abbrev Calls := Nat → Option Value

/-- `CallingMap`; `data` is `none` if it is the shared dictionary, `org` is `none` if `__org_data` is not set -/
structure CMap where
  storage : Table
  data : Option Table
  org : Option (Option Table)
  immutable : Bool

/-- `ActionInfo(ticket, jail)` (actions.py 405-410) -/
def fresh : CMap := ⟨Dict.empty, none, none, true⟩

/-- What an operation gives -/
inductive Out where
  | value (v : Value)
  /-- `KeyError` -/
  | keyError
  /-- exception of the callable -/
  | raised
  | done
  | keys (l : List Key)
deriving DecidableEq

inductive Op where
  | get (k : Key)
  | set' (k : Key) (x : Item)
  | del (k : Key)
  /-- `list(aInfo)` -/
  | keys

/-- `self.data` -/
def CMap.table (m : CMap) (shared : Table) : Table := m.data.getD shared

/-- `getRawItem(key)` (action.py 132-137) -/
def CMap.raw (m : CMap) (shared : Table) (k : Key) : Option Item :=
  match m.storage.get? k with
  | some x => some x
  | none => (m.table shared).get? k

/-- `__getitem__(key)` (action.py 139-148) -/
def get (c : Calls) (shared : Table) (m : CMap) (k : Key) : Out × CMap :=
  match m.raw shared k with
  | none => (.keyError, m)
  | some (.plain v) => (.value v, m)
  | some (.call i) =>
    match c i with
    | none => (.raised, m)
    | some v => (.value v, { m with storage := m.storage.insert k (.plain v) })

/-- "mutate to copy" (action.py 152-156, 164-168) -/
def mutate (shared : Table) (m : CMap) : CMap :=
  if m.immutable then { m with org := some m.data, data := some (m.table shared), immutable := false } else m

/-- `__setitem__(key, value)` (action.py 150-157) -/
def set' (shared : Table) (m : CMap) (k : Key) (x : Item) : CMap :=
  let m1 := mutate shared m
  { m1 with storage := m1.storage.insert k x }

/-- `__delitem__(key)` (action.py 162-173), with the shared dictionary, from which is deleted if it is `self.data` -/
def del (shared : Table) (m : CMap) (k : Key) : Out × Table × CMap :=
  let m1 := mutate shared m
  let m2 := { m1 with storage := m1.storage.erase k }
  if (m2.table shared).contains k then
    match m2.data with
    | none => (.done, shared.erase k, m2)
    | some d => (.done, shared, { m2 with data := some (d.erase k) })
  else (.keyError, shared, m2)

/-- `reset()` (action.py 100-106) -/
def reset (m : CMap) : CMap :=
  { storage := Dict.empty, data := match m.org with | some d => d | none => m.data, org := m.org, immutable := true }

/-- One operation -/
def step (c : Calls) (shared : Table) (m : CMap) : Op → Out × Table × CMap
  | .get k => let r := get c shared m k; (r.1, shared, r.2)
  | .set' k x => (.done, shared, set' shared m k x)
  | .del k => del shared m k
  | .keys => (.keys (m.table shared).keys, shared, m)

/-- What an action does with the map: operations, each with what callables return then -/
def run (shared : Table) (m : CMap) : List (Op × Calls) → List Out × Table × CMap
  | [] => ([], shared, m)
  | (o, c) :: l =>
    let r := step c shared m o
    let q := run r.2.1 r.2.2 l
    (r.1 :: q.1, q.2)

/-- `if not aInfo.immutable: aInfo.reset()` (actions.py 513) -/
def next (m : CMap) : CMap := if !m.immutable then reset m else m

/-- The loop over actions of a ban (actions.py 509-521, 583-586): outputs of each -/
def actions (shared : Table) (m : CMap) : List (List (Op × Calls)) → List (List Out) × Table × CMap
  | [] => ([], shared, m)
  | a :: l =>
    let r := run shared (next m) a
    let q := actions r.2.1 r.2.2 l
    (r.1 :: q.1, q.2)

/-! ## Merged information -/

/-- What `database.getBansMerged` does -/
inductive Db where
  | ticket (t : String)
  /-- `None` -/
  | nothing
  | raises
deriving DecidableEq

/-- What `_mi4ip` gives -/
inductive Info where
  /-- the ticket itself -/
  | own
  | merged (t : String)
  /-- an exception -/
  | raised
deriving DecidableEq

/-- `self.__mi4ip`: for all jails and for this one; an inner `none` is `None` -/
structure MCache where
  all : Option (Option String)
  jail : Option (Option String)
deriving DecidableEq

/-- `hasattr(self, '__mi4ip')` (actions.py 438): the name in the string is not the mangled one of the attribute -/
def hasAttr (_ : Option MCache) : Bool := false

/-- `_mi4ip(overalljails)` (actions.py 420-460). `jail` is whether there is one, and whether it has a database; `n` is the number of queries so
far, `q` their results. `self['ip']` does not raise. -/
def mi4ip (jail : Option Bool) (q : Nat → Db) (all : Bool) (n : Nat) (attr : Option MCache) : Info × Nat × Option MCache :=
  let mi : MCache := if hasAttr attr then attr.getD ⟨none, none⟩ else ⟨none, none⟩
  let put (x : Option String) : Option MCache := some (if all then { mi with all := some x } else { mi with jail := some x })
  match (if all then mi.all else mi.jail) with
  | some x => (match x with | some t => .merged t | none => .own, n, some mi)
  | none =>
    match jail with
    | none => (.raised, n, put none)
    | some false => (.own, n, put none)
    | some true =>
      match q n with
      | .ticket t => (.merged t, n + 1, put (some t))
      | .nothing => (.own, n + 1, put none)
      | .raises => (.own, n + 1, put none)

/-- Several of them -/
def mi4ips (jail : Option Bool) (q : Nat → Db) : List Bool → Nat → Option MCache → List Info × Nat
  | [], n, _ => ([], n)
  | a :: l, n, attr =>
    let r := mi4ip jail q a n attr
    let s := mi4ips jail q l r.2.1 r.2.2
    (r.1 :: s.1, s.2)

end Verif.ActionInfo
