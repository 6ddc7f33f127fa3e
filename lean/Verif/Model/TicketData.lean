import Verif.Py.Dict

/-!
# Data of tickets — `fail2ban/server/ticket.py`

The dictionary `_data` of tickets as an object that several tickets can refer to: construction (also from another
ticket), `update`, `setData`, `setAttempt`, `setMatches`, `getData`, `__eq__`.

Simplified: times are whole numbers, so that `round(…, 2)` in `__eq__` changes nothing. The identifier is its text
(`setID`, lines 89-93). Keys that cannot be hashed (lists) and other failures of reading arguments than a single
argument that is no dictionary are not modelled. Counting of failures (`setRetry`, `inc`, `adjustTime`) is in
`Verif.Model.Ticket`; it changes the same dictionary in place.
-/

namespace Verif.TicketData

/-- Values (and keys) of the data of a ticket. -/
inductive Val where
  /-- `None` -/
  | none
  | text (s : String)
  | num (n : Int)
  /-- a list of lines -/
  | lines (l : List String)
deriving DecidableEq, Repr

/-- A dictionary `_data`. -/
abbrev Data := Dict Val Val

/-- An object of class `Ticket` or `FailTicket` (ticket.py 35-36, 219-229). -/
structure Tk where
  /-- `_id` -/
  id : Option String
  /-- `_time` -/
  time : Int
  /-- `_flags` -/
  flags : Nat
  /-- `_banCount` -/
  banCount : Nat
  /-- `_banTime` -/
  banTime : Option Int
  /-- the dictionary to which `_data` refers -/
  data : Nat
  /-- `_retry`, `none` if not set (class `Ticket`) -/
  retry : Option Val
  /-- the object is a `FailTicket` -/
  isFail : Bool
  /-- `_firstTime`, `none` for `None` -/
  firstTime : Option Int
deriving DecidableEq, Repr

/-- All dictionaries and all tickets made so far, with the next free numbers. -/
structure World where
  dict : Nat → Data
  nextDict : Nat
  tk : Nat → Tk
  nextTk : Nat

/-- Replaces the value of a function at one place. -/
def put {α : Type} (f : Nat → α) (i : Nat) (a : α) : Nat → α := fun j => if j = i then a else f j

/-- `dict.update` with pairs -/
def merge (d : Data) (l : List (Val × Val)) : Data := l.foldl (fun d p => d.insert p.1 p.2) d

/-- `dict([(k,v) for k,v in d.items() if v is not None])` (ticket.py 183, 194) -/
def noNone (d : Data) : Data := d.filter (fun _ v => decide (v ≠ .none))

/-- `{'matches': matches or [], 'failures': 0}` and the entries of `data` that are not `None` (ticket.py 56-60) -/
def fresh (matches' : List String) (extra : List (Val × Val)) : Data :=
  merge ((Dict.empty.insert (.text "matches") (.lines matches')).insert (.text "failures") (.num 0))
    (extra.filter (fun p => decide (p.2 ≠ .none)))

/-- `update` (ticket.py 83-87): attributes in `Ticket.__slots__` that are set and not `None` are taken over, the
dictionary is shared. `_firstTime` is no slot and `_lastReset` is never set. -/
def takeOver (t src : Tk) : Tk :=
  { t with id := src.id.or t.id, time := src.time, flags := src.flags, banCount := src.banCount,
           banTime := src.banTime.or t.banTime, data := src.data, retry := src.retry.or t.retry }

/-- Arguments of the constructor `Ticket(ip, time, matches, data, ticket)` or `FailTicket(…)`. -/
structure Make where
  fail : Bool
  id : Option String := none
  time : Option Int := none
  matches' : List String := []
  extra : List (Val × Val) := []
  src : Option Nat := none
  /-- `MyTime.time()` -/
  now : Int := 0

/-- The dictionaries after creation of a ticket: the new one is number `nextDict`. -/
def makeDict (w : World) (m : Make) : Nat → Data := put w.dict w.nextDict (fresh m.matches' m.extra)

/-- Attributes set by `FailTicket.__init__` and `Ticket.__init__` before another ticket counts (ticket.py 51-55, 220-222). -/
def bare (w : World) (m : Make) : Tk :=
  { id := m.id, time := m.time.getD m.now, flags := 0, banCount := 0, banTime := none, data := w.nextDict,
    retry := if m.fail then some (.num 1) else none, isFail := m.fail, firstTime := none }

/-- The given ticket is a `FailTicket` (ticket.py 226). -/
def fromFail (w : World) (m : Make) : Bool :=
  match m.src with
  | none => false
  | some j => (w.tk j).isFail

/-- The new ticket (ticket.py 43-64, 219-228). -/
def makeTk (w : World) (m : Make) : Tk :=
  let t := match m.src with
    | none => bare w m
    | some j => takeOver (bare w m) (w.tk j)
  if m.fail && !fromFail w m then
    { t with firstTime := some (m.time.getD t.time),
             retry := some (((makeDict w m t.data).get? (.text "failures")).getD (.num 1)) }
  else t

/-- Arguments of `setData` without names: one dictionary, or anything else. -/
inductive Args where
  | whole (d : Data)
  | flat (l : List Val)

/-- `zip(*[iter(args)]*2)` (ticket.py 188): pairs, an odd rest is dropped -/
def pairs : List Val → List (Val × Val)
  | k :: v :: l => (k, v) :: pairs l
  | _ => []

/-- `setData(*args, **argv)` (ticket.py 177-194) of ticket `i`. With a dictionary the ticket gets a new one; otherwise the
pairs are written into the dictionary it has. In the end the ticket gets a new dictionary without `None`. The flag is
`false` for a single argument that is no dictionary (AttributeError). -/
def setData (w : World) (i : Nat) (args : Args) (argv : List (Val × Val)) : World × Bool :=
  match args with
  | .whole d =>
    ({ w with dict := put w.dict w.nextDict (noNone (merge (noNone d) argv)), nextDict := w.nextDict + 1,
              tk := put w.tk i { w.tk i with data := w.nextDict } }, true)
  | .flat l =>
    if l.length = 1 then (w, false)
    else
      let d := merge (merge (w.dict (w.tk i).data) (pairs l)) argv
      ({ w with dict := put (put w.dict (w.tk i).data d) w.nextDict (noNone d), nextDict := w.nextDict + 1,
                tk := put w.tk i { w.tk i with data := w.nextDict } }, true)

/-- `setMatches` on a dictionary (ticket.py 145-152) -/
def withMatches (d : Data) (ms : List String) : Data :=
  if ms = [] then d.erase (.text "matches") else d.insert (.text "matches") (.lines ms)

/-- What is done with tickets. -/
inductive Op where
  | make (m : Make)
  /-- `tickets[i].update(tickets[j])` -/
  | update (i j : Nat)
  | setData (i : Nat) (args : Args) (argv : List (Val × Val))
  /-- `setAttempt` (ticket.py 139-140) -/
  | setAttempt (i : Nat) (v : Val)
  | setMatches (i : Nat) (ms : List String)

/-- The result of an operation. -/
def step (w : World) : Op → World
  | .make m => { dict := makeDict w m, nextDict := w.nextDict + 1, tk := put w.tk w.nextTk (makeTk w m), nextTk := w.nextTk + 1 }
  | .update i j => { w with tk := put w.tk i (takeOver (w.tk i) (w.tk j)) }
  | .setData i args argv => (setData w i args argv).1
  | .setAttempt i v => { w with dict := put w.dict (w.tk i).data ((w.dict (w.tk i).data).insert (.text "failures") v) }
  | .setMatches i ms => { w with dict := put w.dict (w.tk i).data (withMatches (w.dict (w.tk i).data) ms) }

/-- A sequence of operations. -/
def run (w : World) (ops : List Op) : World := ops.foldl step w

/-- No ticket yet. -/
def init : World where
  dict := fun _ => Dict.empty
  nextDict := 0
  tk := fun _ => ⟨none, 0, 0, 0, none, 0, none, false, none⟩
  nextTk := 0

/-- `tickets[i]._data` -/
def World.data (w : World) (i : Nat) : Data := w.dict (w.tk i).data

/-- The parameter `key` of `getData` -/
inductive Key where
  /-- `None` -/
  | all
  | name (k : Val)
  /-- a collection of keys -/
  | keys (ks : List Val)
  /-- a function -/
  | fn (p : Val → Bool)

/-- What `getData` returns: a dictionary or a value. -/
inductive Res where
  | dict (d : Data)
  | val (v : Val)

/-- `if not self._data: return default` (ticket.py 201-202) -/
def ifAny (d : Data) (default : Val) (r : Res) : Res := if d.items = [] then .val default else r

/-- `getData(key, default)` (ticket.py 196-215) -/
def getData (d : Data) (key : Key) (default : Val) : Res :=
  match key with
  | .all => .dict d
  | .fn p => ifAny d default (.dict (d.filter (fun k _ => p k)))
  | .keys ks => ifAny d default (.dict (d.filter (fun k _ => decide (k ∈ ks))))
  | .name k => ifAny d default (.val ((d.get? k).getD default))

/-- `==` of dictionaries: same size, and every entry of the first is one of the second -/
def sameData (a b : Data) : Bool :=
  decide (a.size = b.size) && a.items.all (fun p => decide (b.get? p.1 = some p.2))

/-- `__eq__` (ticket.py 75-81) -/
def eq (w : World) (i j : Nat) : Bool :=
  decide ((w.tk i).id = (w.tk j).id) && decide ((w.tk i).time = (w.tk j).time) && sameData (w.data i) (w.data j)

end Verif.TicketData
