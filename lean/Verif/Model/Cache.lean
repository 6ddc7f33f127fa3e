import Verif.Py.Dict

/-!
# Cache with time to live and size limit — `fail2ban/server/utils.py`, class `Utils.Cache`

The clock (`time.time()`) is an explicit argument, any unit. All modifications happen under the lock of the cache; the read in
`get` (line 84) is one atomic `dict` operation, a following `unset` (line 88) is a separate step (see `Step`).
-/

namespace Verif

/-- `Utils.Cache` (utils.py 65-77): per key the stored value and the time at which it expires, in insertion order. -/
structure Cache (K V : Type) where
  /-- `_cache` -/
  cache : Dict K (V × Int)
  /-- `maxCount` -/
  maxCount : Nat
  /-- `maxTime` -/
  maxTime : Int

namespace Cache

variable {K V : Type}

/-- `Cache(maxCount, maxTime)` (utils.py 69-76) -/
def init (maxCount : Nat) (maxTime : Int) : Cache K V := ⟨Dict.empty, maxCount, maxTime⟩

/-- `setOptions` (utils.py 74-76) -/
def setOptions (c : Cache K V) (maxCount : Nat) (maxTime : Int) : Cache K V := { c with maxCount, maxTime }

/-- The loop of `set` (utils.py 98-102) on the list of entries: pop the first entry until one is popped that is not yet
expired and there is a free slot. -/
def evict (t : Int) (maxCount : Nat) : List (K × (V × Int)) → List (K × (V × Int))
  | [] => []
  | (_, cv) :: rest => if t < cv.2 ∧ rest.length < maxCount then rest else evict t maxCount rest

theorem evict_suffix (t : Int) (n : Nat) (l : List (K × (V × Int))) : evict t n l <:+ l := by
  induction l with
  | nil => exact List.suffix_refl _
  | cons a l ih =>
    obtain ⟨k, cv⟩ := a
    simp only [evict]
    split
    · exact List.suffix_cons _ _
    · exact ih.trans (List.suffix_cons _ _)

/-- `evict` on the dictionary -/
def evictDict (t : Int) (maxCount : Nat) (d : Dict K (V × Int)) : Dict K (V × Int) :=
  ⟨evict t maxCount d.items, ((evict_suffix t maxCount d.items).sublist.map _).nodup d.nodup⟩

variable [DecidableEq K]

/-- `set(k, v)` at time `t` (utils.py 91-104) -/
def set (c : Cache K V) (t : Int) (k : K) (v : V) : Cache K V :=
  let cache := if c.maxCount ≤ c.cache.size then evictDict t c.maxCount c.cache else c.cache
  { c with cache := cache.insert k (v, t + c.maxTime) }

/-- `unset(k)` (utils.py 106-108) -/
def unset (c : Cache K V) (k : K) : Cache K V := { c with cache := c.cache.erase k }

/-- `clear()` (utils.py 110-112) -/
def clear (c : Cache K V) : Cache K V := { c with cache := Dict.empty }

/-- The value returned by `get(k)` at time `t`, `none` for the default (utils.py 83-89). -/
def lookup (c : Cache K V) (t : Int) (k : K) : Option V :=
  match c.cache.get? k with
  | some v => if t < v.2 then some v.1 else none
  | none => none

/-- `get(k)` at time `t` (utils.py 83-89), executed without interruption: an expired entry is removed. -/
def get (c : Cache K V) (t : Int) (k : K) : Option V × Cache K V :=
  match c.cache.get? k with
  | some v => if t < v.2 then (some v.1, c) else (none, c.unset k)
  | none => (none, c)

/-- Atomic steps on a cache. `get` is either one step, or (interleaved with other threads) a `lookup`, which changes nothing,
followed at some later time by `unset`. -/
inductive Step (K V : Type) where
  /-- `set(k, v)` at time `t` -/
  | set (t : Int) (k : K) (v : V)
  /-- `get(k)` at time `t` -/
  | get (t : Int) (k : K)
  /-- `unset(k)`; the second half of an interrupted `get`, too -/
  | unset (k : K)
  /-- `clear()` -/
  | clear
  /-- `setOptions(maxCount, maxTime)` -/
  | setOptions (maxCount : Nat) (maxTime : Int)

/-- Execute one step. -/
def step (c : Cache K V) : Step K V → Cache K V
  | .set t k v => c.set t k v
  | .get t k => (c.get t k).2
  | .unset k => c.unset k
  | .clear => c.clear
  | .setOptions n m => c.setOptions n m

/-- Execute a history. -/
def run (c : Cache K V) (l : List (Step K V)) : Cache K V := l.foldl step c

end Cache

end Verif
