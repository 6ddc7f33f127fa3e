/-!
# Python `dict`

Insertion-ordered dictionary (CPython >= 3.7): a list of key/value pairs with pairwise distinct keys.
Assigning an existing key keeps its position, a new key is appended at the end, deleting keeps the order of the rest.
-/

namespace Verif

/-- Insertion-ordered dictionary with distinct keys. -/
structure Dict (K : Type) (V : Type) where
  /-- the items in insertion order -/
  items : List (K × V)
  /-- keys are pairwise distinct -/
  nodup : (items.map Prod.fst).Nodup

namespace Dict

variable {K V : Type}

@[ext] theorem ext' {a b : Dict K V} (h : a.items = b.items) : a = b := by
  cases a; cases b; cases h; rfl

instance [DecidableEq K] [DecidableEq V] : DecidableEq (Dict K V) := fun a b =>
  if h : a.items = b.items then isTrue (ext' h) else isFalse (fun e => h (e ▸ rfl))

/-- `dict()` -/
def empty : Dict K V := ⟨[], List.nodup_nil⟩

instance : Inhabited (Dict K V) := ⟨empty⟩

/-- `d.keys()` -/
def keys (d : Dict K V) : List K := d.items.map Prod.fst

/-- `d.values()` -/
def values (d : Dict K V) : List V := d.items.map Prod.snd

/-- `len(d)` -/
def size (d : Dict K V) : Nat := d.items.length

theorem nodup_filter (l : List (K × V)) (h : (l.map Prod.fst).Nodup) (p : K × V → Bool) :
    ((l.filter p).map Prod.fst).Nodup :=
  List.Sublist.nodup (List.Sublist.map _ List.filter_sublist) h

/-- `dict((k,v) for k,v in d.items() if p(k,v))` -/
def filter (d : Dict K V) (p : K → V → Bool) : Dict K V :=
  ⟨d.items.filter (fun kv => p kv.1 kv.2), nodup_filter _ d.nodup _⟩

variable [DecidableEq K]

/-- first value stored under `k` in a list of pairs -/
def lookup (k : K) : List (K × V) → Option V
  | [] => none
  | (k', v) :: l => if k' = k then some v else lookup k l

/-- `d.get(k)` -/
def get? (d : Dict K V) (k : K) : Option V := lookup k d.items

/-- `k in d` -/
def contains (d : Dict K V) (k : K) : Bool := (d.get? k).isSome

/-- `l[k] = v` on a list of pairs -/
def put (k : K) (v : V) : List (K × V) → List (K × V)
  | [] => [(k, v)]
  | (k', v') :: l => if k' = k then (k, v) :: l else (k', v') :: put k v l

theorem keys_put (k : K) (v : V) (l : List (K × V)) :
    (put k v l).map Prod.fst = if k ∈ l.map Prod.fst then l.map Prod.fst else l.map Prod.fst ++ [k] := by
  induction l with
  | nil => simp [put]
  | cons a l ih =>
    obtain ⟨k', v'⟩ := a
    by_cases h : k' = k
    · subst h; simp [put]
    · have h' : ¬ k = k' := fun e => h e.symm
      simp only [put, h, if_false, List.map_cons, ih, List.mem_cons, h', false_or]
      split <;> simp

theorem nodup_put (k : K) (v : V) (l : List (K × V)) (h : (l.map Prod.fst).Nodup) :
    ((put k v l).map Prod.fst).Nodup := by
  rw [keys_put]
  split
  · exact h
  · rename_i hk
    rw [List.nodup_append]
    refine ⟨h, by simp, ?_⟩
    intro a ha b hb e
    simp at hb
    subst hb; subst e
    exact hk ha

/-- `d[k] = v` -/
def insert (d : Dict K V) (k : K) (v : V) : Dict K V := ⟨put k v d.items, nodup_put k v _ d.nodup⟩

/-- `del d[k]` if present -/
def erase (d : Dict K V) (k : K) : Dict K V := d.filter (fun k' _ => decide (k' ≠ k))

/-! ### lemmas -/

theorem lookup_put_self (k : K) (v : V) (l : List (K × V)) : lookup k (put k v l) = some v := by
  induction l with
  | nil => simp [put, lookup]
  | cons a l ih =>
    obtain ⟨k', v'⟩ := a
    by_cases h : k' = k <;> simp [put, lookup, h, ih]

theorem lookup_put_ne {k j : K} (h : j ≠ k) (v : V) (l : List (K × V)) :
    lookup j (put k v l) = lookup j l := by
  induction l with
  | nil => simp [put, lookup, h.symm]
  | cons a l ih =>
    obtain ⟨k', v'⟩ := a
    by_cases hk : k' = k
    · subst hk; simp [put, lookup, h.symm]
    · simp only [put, hk, if_false, lookup, ih]

theorem lookup_filter_key (q : K → Bool) (j : K) (l : List (K × V)) :
    lookup j (l.filter (fun kv => q kv.1)) = if q j then lookup j l else none := by
  induction l with
  | nil => simp [lookup]
  | cons a l ih =>
    obtain ⟨k', v'⟩ := a
    by_cases hk : k' = j
    · subst hk
      cases hq : q k' <;> simp [List.filter, hq, lookup, ih]
    · by_cases hq : q k'
      · simp [List.filter, hq, lookup, hk, ih]
      · simp [List.filter, hq, lookup, hk, ih]

theorem lookup_eq_none_iff (j : K) (l : List (K × V)) : lookup j l = none ↔ j ∉ l.map Prod.fst := by
  induction l with
  | nil => simp [lookup]
  | cons a l ih =>
    obtain ⟨k', v'⟩ := a
    by_cases hk : k' = j
    · subst hk; simp [lookup]
    · have : ¬ j = k' := fun e => hk e.symm
      simp [lookup, hk, ih, this]

theorem lookup_eq_some_iff {l : List (K × V)} (hn : (l.map Prod.fst).Nodup) (j : K) (v : V) :
    lookup j l = some v ↔ (j, v) ∈ l := by
  induction l with
  | nil => simp [lookup]
  | cons a l ih =>
    obtain ⟨k', v'⟩ := a
    simp only [List.map_cons, List.nodup_cons] at hn
    by_cases hk : k' = j
    · subst hk
      simp only [lookup, if_true, Option.some.injEq, List.mem_cons, Prod.mk.injEq, true_and]
      constructor
      · intro h; exact Or.inl h.symm
      · rintro (h | h)
        · exact h.symm
        · exact absurd (List.mem_map_of_mem (f := Prod.fst) h) hn.1
    · have : ¬ j = k' := fun e => hk e.symm
      simp [lookup, hk, ih hn.2, this]

@[simp] theorem get?_empty (j : K) : (empty : Dict K V).get? j = none := rfl

theorem get?_eq_some_iff (d : Dict K V) (k : K) (v : V) : d.get? k = some v ↔ (k, v) ∈ d.items :=
  lookup_eq_some_iff d.nodup k v

theorem get?_eq_none_iff (d : Dict K V) (k : K) : d.get? k = none ↔ k ∉ d.keys :=
  lookup_eq_none_iff k d.items

theorem get?_insert (d : Dict K V) (k j : K) (v : V) :
    (d.insert k v).get? j = if j = k then some v else d.get? j := by
  by_cases h : j = k
  · subst h; simp [get?, insert, lookup_put_self]
  · simp [get?, insert, h, lookup_put_ne h]

@[simp] theorem get?_insert_self (d : Dict K V) (k : K) (v : V) : (d.insert k v).get? k = some v := by
  simp [get?_insert]

theorem get?_insert_ne (d : Dict K V) {k j : K} (h : j ≠ k) (v : V) : (d.insert k v).get? j = d.get? j := by
  simp [get?_insert, h]

theorem get?_erase (d : Dict K V) (k j : K) : (d.erase k).get? j = if j = k then none else d.get? j := by
  have := lookup_filter_key (fun k' => decide (k' ≠ k)) j d.items
  simp only [get?, erase, filter]
  rw [this]
  by_cases h : j = k <;> simp [h]

@[simp] theorem get?_erase_self (d : Dict K V) (k : K) : (d.erase k).get? k = none := by simp [get?_erase]

theorem get?_erase_ne (d : Dict K V) {k j : K} (h : j ≠ k) : (d.erase k).get? j = d.get? j := by
  simp [get?_erase, h]

theorem get?_filter (d : Dict K V) (p : K → V → Bool) (j : K) :
    (d.filter p).get? j = (d.get? j).filter (fun v => p j v) := by
  cases h : d.get? j with
  | none =>
    simp only [Option.filter_none]
    rw [get?_eq_none_iff] at h ⊢
    intro hc
    apply h
    simp only [keys, filter, List.mem_map, List.mem_filter] at hc ⊢
    obtain ⟨a, ⟨ha, _⟩, e⟩ := hc
    exact ⟨a, ha, e⟩
  | some v =>
    have hm := (get?_eq_some_iff d j v).1 h
    cases hp : p j v with
    | true =>
      simp only [Option.filter, hp, if_true]
      rw [get?_eq_some_iff]
      simp only [filter, List.mem_filter]
      exact ⟨hm, hp⟩
    | false =>
      simp only [Option.filter, hp]
      simp only [Bool.false_eq_true, if_false]
      rw [get?_eq_none_iff]
      intro hc
      simp only [keys, filter, List.mem_map, List.mem_filter] at hc
      obtain ⟨⟨a, w⟩, ⟨ha, hpa⟩, e⟩ := hc
      simp only at e hpa
      subst e
      have := (get?_eq_some_iff d a w).2 ha
      rw [h] at this
      cases this
      simp [hp] at hpa

theorem mem_keys_iff (d : Dict K V) (k : K) : k ∈ d.keys ↔ ∃ v, d.get? k = some v := by
  have := get?_eq_none_iff d k
  cases h : d.get? k with
  | none => simp [this.1 h]
  | some v =>
    simp only [h, reduceCtorEq, false_iff, Decidable.not_not] at this
    simp [this]

theorem keys_insert_of_mem (d : Dict K V) {k : K} (h : k ∈ d.keys) (v : V) : (d.insert k v).keys = d.keys := by
  simp only [keys, insert, keys_put] at *
  simp only [if_pos h]

theorem items_insert_of_not_mem (d : Dict K V) {k : K} (h : k ∉ d.keys) (v : V) :
    (d.insert k v).items = d.items ++ [(k, v)] := by
  obtain ⟨l, hl⟩ := d
  simp only [keys, insert] at *
  clear hl
  induction l with
  | nil => simp [put]
  | cons a l ih =>
    obtain ⟨k', v'⟩ := a
    simp only [List.map_cons, List.mem_cons, not_or] at h
    have : ¬ k' = k := fun e => h.1 e.symm
    simp [put, this, ih h.2]

theorem keys_erase (d : Dict K V) (k : K) : (d.erase k).keys = d.keys.filter (fun j => decide (j ≠ k)) := by
  simp only [keys, erase, filter, List.filter_map]
  rfl

omit [DecidableEq K] in
theorem keys_nodup (d : Dict K V) : d.keys.Nodup := d.nodup

theorem contains_iff (d : Dict K V) (k : K) : d.contains k = true ↔ k ∈ d.keys := by
  rw [mem_keys_iff]
  simp [contains, Option.isSome_iff_exists]

omit [DecidableEq K] in
theorem size_eq_keys_length (d : Dict K V) : d.size = d.keys.length := by simp [size, keys]

theorem erase_items_of_not_mem (d : Dict K V) {k : K} (h : k ∉ d.keys) : d.erase k = d := by
  apply ext'
  simp only [erase, filter]
  rw [List.filter_eq_self]
  intro a ha
  simp only [ne_eq, decide_not, Bool.not_eq_true', decide_eq_false_iff_not]
  intro e
  exact h (e ▸ List.mem_map_of_mem (f := Prod.fst) ha)

/-- if all keys of a list of deletions are gone one after another, the remaining items are filtered -/
theorem foldl_erase_items (ks : List K) (d : Dict K V) :
    (ks.foldl (fun d k => d.erase k) d).items = d.items.filter (fun kv => decide (kv.1 ∉ ks)) := by
  induction ks generalizing d with
  | nil =>
    simp only [List.foldl_nil, List.not_mem_nil, not_false_eq_true, decide_true]
    exact (List.filter_eq_self.2 (fun _ _ => rfl)).symm
  | cons k ks ih =>
    rw [List.foldl_cons, ih]
    simp only [erase, filter, List.filter_filter]
    apply List.filter_congr
    intro a _
    by_cases h1 : a.1 = k <;> by_cases h2 : a.1 ∈ ks <;> simp [h1, h2]

end Dict

end Verif
