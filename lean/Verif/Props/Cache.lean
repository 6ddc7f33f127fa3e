import Verif.Model.Cache
import Verif.Py.List

/-! # Properties of the caches (C39) -/

namespace Verif

namespace Spec.Cache

open Verif.Cache

variable {K V : Type} [DecidableEq K]

/-- What a history says about key `k`, latest step first: the value stored last and the time it is valid until, nothing if it
was removed after that. `opt` is the time to live in force at the begin of the history. -/
def lastSet (ttl0 : Int) (k : K) : List (Step K V) → Option (V × Int)
  | [] => none
  | .set t j v :: earlier => if j = k then some (v, t + ttl ttl0 earlier) else lastSet ttl0 k earlier
  | .unset j :: earlier => if j = k then none else lastSet ttl0 k earlier
  | .clear :: _ => none
  | .get _ _ :: earlier => lastSet ttl0 k earlier
  | .setOptions _ _ :: earlier => lastSet ttl0 k earlier
where
  /-- time to live set last -/
  ttl (ttl0 : Int) : List (Step K V) → Int
  | [] => ttl0
  | .setOptions _ m :: _ => m
  | _ :: earlier => ttl ttl0 earlier

/-- the limit of entries in force, latest step first -/
def limit (n0 : Nat) : List (Step K V) → Nat
  | [] => n0
  | .setOptions n _ :: _ => n
  | _ :: earlier => limit n0 earlier

/-- number of stores in a history -/
def stores : List (Step K V) → Nat
  | [] => 0
  | .set _ _ _ :: l => stores l + 1
  | _ :: l => stores l

end Spec.Cache

open Verif.Cache Spec.Cache

namespace Cache

variable {K V : Type} [DecidableEq K]

omit [DecidableEq K] in
theorem evict_length (t : Int) (n : Nat) (l : List (K × (V × Int))) (hn : 0 < n) : (evict t n l).length < n := by
  induction l with
  | nil => exact hn
  | cons a l ih =>
    obtain ⟨k, cv⟩ := a
    simp only [evict]
    split
    · rename_i h; exact h.2
    · exact ih

theorem put_length (k : K) (v : V) (l : List (K × V)) : (Dict.put k v l).length ≤ l.length + 1 := by
  induction l with
  | nil => simp [Dict.put]
  | cons a l ih =>
    obtain ⟨k', v'⟩ := a
    simp only [Dict.put]
    split <;> simp
    exact ih

theorem set_size (c : Cache K V) (t : Int) (k : K) (v : V) (hn : 0 < c.maxCount) : (c.set t k v).cache.size ≤ c.maxCount := by
  unfold Cache.set
  dsimp only
  by_cases h : c.maxCount ≤ c.cache.size
  · rw [if_pos h]
    have h1 := put_length k (v, t + c.maxTime) (evict t c.maxCount c.cache.items)
    have h2 := evict_length t c.maxCount c.cache.items hn
    show (Dict.put _ _ _).length ≤ _
    simp only [evictDict]
    omega
  · rw [if_neg h]
    have h1 := put_length k (v, t + c.maxTime) c.cache.items
    show (Dict.put _ _ _).length ≤ _
    simp only [Dict.size] at h
    omega

omit [DecidableEq K] in
theorem evictDict_get [DecidableEq K] (t : Int) (n : Nat) (d : Dict K (V × Int)) (k : K) (v : V × Int)
    (h : (evictDict t n d).get? k = some v) : d.get? k = some v := by
  rw [Dict.get?_eq_some_iff] at h ⊢
  exact (evict_suffix t n d.items).subset h

theorem set_get (c : Cache K V) (t : Int) (k j : K) (v : V) (w : V × Int) (h : (c.set t k v).cache.get? j = some w) :
    (j = k ∧ w = (v, t + c.maxTime)) ∨ (j ≠ k ∧ c.cache.get? j = some w) := by
  unfold Cache.set at h
  dsimp only at h
  rw [Dict.get?_insert] at h
  by_cases hj : j = k
  · rw [if_pos hj] at h; exact .inl ⟨hj, (Option.some.inj h).symm⟩
  · rw [if_neg hj] at h
    refine .inr ⟨hj, ?_⟩
    by_cases hc : c.maxCount ≤ c.cache.size
    · rw [if_pos hc] at h; exact evictDict_get _ _ _ _ _ h
    · rw [if_neg hc] at h; exact h

theorem get_fst (c : Cache K V) (t : Int) (k : K) : (c.get t k).1 = c.lookup t k := by
  unfold Cache.get lookup
  cases c.cache.get? k with
  | none => rfl
  | some v => dsimp only; split <;> rfl

theorem get_state (c : Cache K V) (t : Int) (k : K) :
    (c.get t k).2 = c ∨ ((c.get t k).2 = c.unset k ∧ ∃ v, c.cache.get? k = some v ∧ v.2 ≤ t) := by
  unfold Cache.get
  cases h : c.cache.get? k with
  | none => exact .inl rfl
  | some v =>
    dsimp only
    by_cases hv : t < v.2
    · rw [if_pos hv]; exact .inl rfl
    · rw [if_neg hv]; exact .inr ⟨rfl, v, rfl, by omega⟩

theorem run_snoc (c : Cache K V) (l : List (Step K V)) (s : Step K V) : c.run (l ++ [s]) = (c.run l).step s := by
  simp [run]

theorem run_options (c : Cache K V) (l : List (Step K V)) :
    (c.run l).maxTime = lastSet.ttl c.maxTime l.reverse ∧ (c.run l).maxCount = limit c.maxCount l.reverse := by
  induction l using list_snoc_induction with
  | nil => exact ⟨rfl, rfl⟩
  | snoc l s ih =>
    rw [run_snoc, List.reverse_append]
    cases s with
    | get t k =>
      simp only [step]
      rcases get_state (c.run l) t k with h | h
      · rw [h]; exact ih
      · rw [h.1]; exact ih
    | setOptions n m => exact ⟨rfl, rfl⟩
    | set t k v => exact ih
    | unset k => exact ih
    | clear => exact ih

end Cache

open Cache

/-- **C39 (bounded).** After any history of a cache, started empty, the number of entries is within the limit, if the limit was
not changed; if it was lowered meanwhile, then at the latest after the next store. -/
theorem C39_bounded {K V : Type} [DecidableEq K] (n : Nat) (m : Int) (hn : 0 < n) (l : List (Step K V))
    (hl : ∀ s ∈ l, ∀ n' m', s ≠ .setOptions n' m') : ((Cache.init n m).run l).cache.size ≤ n := by
  have : ((Cache.init (K := K) (V := V) n m).run l).cache.size ≤ n ∧ ((Cache.init (K := K) (V := V) n m).run l).maxCount = n := by
    induction l using list_snoc_induction with
    | nil => exact ⟨Nat.zero_le _, rfl⟩
    | snoc l s ih =>
      obtain ⟨ih1, ih2⟩ := ih (fun s hs => hl s (List.mem_append_left _ hs))
      rw [run_snoc]
      have herase : ∀ k, (((Cache.init n m).run l).cache.erase k).size ≤ n := by
        intro k
        refine Nat.le_trans ?_ ih1
        exact List.length_filter_le _ _
      cases s with
      | set t k v =>
        refine ⟨?_, ih2⟩
        have := set_size ((Cache.init n m).run l) t k v (by rw [ih2]; exact hn)
        rw [ih2] at this
        exact this
      | get t k =>
        simp only [step]
        rcases get_state ((Cache.init n m).run l) t k with h | h
        · rw [h]; exact ⟨ih1, ih2⟩
        · rw [h.1]; exact ⟨herase k, ih2⟩
      | unset k => exact ⟨herase k, ih2⟩
      | clear => exact ⟨Nat.zero_le _, ih2⟩
      | setOptions n' m' => exact absurd rfl (hl _ (by simp) n' m')
  exact this.1

/-- **C39 (bounded after a store).** Directly after a store the number of entries is within the limit, in every state. -/
theorem C39_bounded_store {K V : Type} [DecidableEq K] (c : Cache K V) (t : Int) (k : K) (v : V) (hn : 0 < c.maxCount) :
    (c.set t k v).cache.size ≤ c.maxCount := set_size c t k v hn

/-- **C39 (never stale).** After any history, also one with interleaved threads and changed options, a lookup at any time
returns either nothing, or the value stored last under that key, which was not removed since and whose time to live (the one in
force when it was stored) is not over. -/
theorem C39_last_value {K V : Type} [DecidableEq K] (n : Nat) (m : Int) (l : List (Step K V)) (t : Int) (k : K) (v : V)
    (h : (((Cache.init n m).run l).get t k).1 = some v) :
    ∃ u, lastSet m k l.reverse = some (v, u) ∧ t < u := by
  have key : ∀ w, ((Cache.init n m).run l).cache.get? k = some w → lastSet m k l.reverse = some w := by
    clear h
    induction l using list_snoc_induction with
    | nil => intro w h; cases h
    | snoc l s ih =>
      intro w hw
      rw [run_snoc] at hw
      rw [List.reverse_append]
      have herase : ∀ j, ((((Cache.init n m).run l).unset j).cache.get? k = some w) →
          j ≠ k ∧ ((Cache.init n m).run l).cache.get? k = some w := by
        intro j hj
        simp only [unset] at hj
        rw [Dict.get?_erase] at hj
        by_cases hjk : k = j
        · rw [if_pos hjk] at hj; cases hj
        · rw [if_neg hjk] at hj; exact ⟨fun e => hjk e.symm, hj⟩
      cases s with
      | set t j v =>
        show (if j = k then some (v, t + lastSet.ttl m l.reverse) else lastSet m k l.reverse) = some w
        rcases set_get _ _ _ _ _ _ hw with ⟨h1, h2⟩ | ⟨h1, h2⟩
        · rw [if_pos h1.symm, h2, (run_options _ l).1]; rfl
        · rw [if_neg (fun e => h1 e.symm)]; exact ih w h2
      | get t j =>
        show lastSet m k l.reverse = some w
        simp only [step] at hw
        rcases get_state ((Cache.init n m).run l) t j with h | h
        · rw [h] at hw; exact ih w hw
        · rw [h.1] at hw; exact ih w (herase j hw).2
      | unset j =>
        show (if j = k then none else lastSet m k l.reverse) = some w
        obtain ⟨h1, h2⟩ := herase j hw
        rw [if_neg h1]; exact ih w h2
      | clear => cases hw
      | setOptions n' m' => exact ih w hw
  rw [get_fst] at h
  unfold Cache.lookup at h
  cases hg : ((Cache.init n m).run l).cache.get? k with
  | none => rw [hg] at h; cases h
  | some w =>
    rw [hg] at h
    dsimp only at h
    by_cases hw : t < w.2
    · rw [if_pos hw] at h
      refine ⟨w.2, ?_, hw⟩
      rw [key w hg, ← Option.some.inj h]
    · rw [if_neg hw] at h; cases h

/-- **C39 (kept).** As long as the limit is not exceeded, nothing is lost: if all stores of a history fit into the limit, a lookup
returns the value stored last, unless it was removed or its time to live is over. (Lookups at times not before the earlier
ones; options not changed.) -/
theorem C39_kept {K V : Type} [DecidableEq K] (n : Nat) (m : Int) (l : List (Step K V)) (t : Int) (k : K) (v : V) (u : Int)
    (hs : stores l ≤ n) (hl : ∀ s ∈ l, ∀ n' m', s ≠ .setOptions n' m') (hg : ∀ t', Step.get t' k ∈ l → t' ≤ t)
    (h : lastSet m k l.reverse = some (v, u)) (ht : t < u) :
    (((Cache.init n m).run l).get t k).1 = some v := by
  have key : ((Cache.init n m).run l).cache.size ≤ stores l ∧ ((Cache.init (K := K) (V := V) n m).run l).maxCount = n ∧
      (lastSet m k l.reverse = some (v, u) → ((Cache.init n m).run l).cache.get? k = some (v, u)) := by
    clear h
    induction l using list_snoc_induction with
    | nil => exact ⟨Nat.zero_le _, rfl, fun h => by cases h⟩
    | snoc l s ih =>
      have hsc : ∀ (l : List (Step K V)) s, stores (l ++ [s]) = stores l + stores [s] := by
        intro l s
        induction l with
        | nil => simp [stores]
        | cons a l ih => cases a <;> simp [stores, ih] <;> omega
      rw [hsc] at hs ⊢
      obtain ⟨ih1, ih2, ih3⟩ := ih (by omega) (fun s hs => hl s (List.mem_append_left _ hs))
        (fun t' ht' => hg t' (List.mem_append_left _ ht'))
      rw [run_snoc, List.reverse_append]
      have herase : ∀ j, (((Cache.init n m).run l).cache.erase j).size ≤ stores l := by
        intro j
        refine Nat.le_trans ?_ ih1
        exact List.length_filter_le _ _
      cases s with
      | set t' j w =>
        have hnf : ¬ ((Cache.init (K := K) (V := V) n m).run l).maxCount ≤ ((Cache.init n m).run l).cache.size := by
          rw [ih2]
          have : stores [Step.set t' j w] = 1 := rfl
          omega
        simp only [step, Cache.set]
        rw [if_neg hnf]
        refine ⟨?_, ih2, ?_⟩
        · have := put_length j (w, t' + ((Cache.init n m).run l).maxTime) ((Cache.init n m).run l).cache.items
          have h1 : stores [Step.set t' j w] = 1 := rfl
          rw [h1]
          refine Nat.le_trans this ?_
          exact Nat.add_le_add_right ih1 1
        · intro h
          replace h : (if j = k then some (w, t' + lastSet.ttl m l.reverse) else lastSet m k l.reverse) = some (v, u) := h
          rw [Dict.get?_insert]
          by_cases hj : j = k
          · rw [if_pos hj] at h
            rw [if_pos hj.symm, ← h, (run_options _ l).1]; rfl
          · rw [if_neg hj] at h
            rw [if_neg (fun e => hj e.symm)]
            exact ih3 h
      | get t' j =>
        have h0 : stores [Step.get (V := V) t' j] = 0 := rfl
        rw [h0]
        simp only [step]
        rcases get_state ((Cache.init n m).run l) t' j with h | ⟨h, w, hw1, hw2⟩
        · rw [h]; exact ⟨ih1, ih2, ih3⟩
        · rw [h]
          refine ⟨herase j, ih2, ?_⟩
          intro h'
          have h3 := ih3 h'
          simp only [unset]
          rw [Dict.get?_erase, if_neg, h3]
          rintro rfl
          rw [h3] at hw1
          have := hg t' (by simp)
          cases hw1
          dsimp only at hw2
          omega
      | unset j =>
        refine ⟨herase j, ih2, ?_⟩
        intro h
        replace h : (if j = k then none else lastSet m k l.reverse) = some (v, u) := h
        by_cases hj : j = k
        · rw [if_pos hj] at h; cases h
        · rw [if_neg hj] at h
          simp only [step, unset]
          rw [Dict.get?_erase, if_neg (fun e => hj e.symm)]
          exact ih3 h
      | clear => exact ⟨Nat.zero_le _, ih2, fun h => by cases h⟩
      | setOptions n' m' => exact absurd rfl (hl _ (by simp) n' m')
  rw [get_fst]
  unfold Cache.lookup
  rw [key.2.2 h]
  simp [ht]

/-- **C39 (what is evicted).** A store into a cache that is not full keeps everything; a store into a full one drops entries from
the oldest on, up to the first one that has not expired and leaves a free slot (all, if there is none); all other entries stay. -/
theorem C39_evicts_oldest {K V : Type} [DecidableEq K] (c : Cache K V) (t : Int) (k : K) (v : V) :
    ∃ dropped kept, c.cache.items = dropped ++ kept ∧
      (c.set t k v).cache.items = Dict.put k (v, t + c.maxTime) kept ∧
      (c.cache.items.length < c.maxCount → dropped = []) ∧
      (c.maxCount ≤ c.cache.items.length →
        (kept = [] ∨ ∃ p e, dropped = p ++ [e] ∧ t < e.2.2 ∧ kept.length < c.maxCount) ∧
        (∀ p e q, dropped = p ++ e :: q → q ≠ [] → e.2.2 ≤ t ∨ c.maxCount ≤ (q ++ kept).length)) := by
  by_cases hc : c.maxCount ≤ c.cache.size
  · have key : ∀ l : List (K × (V × Int)), ∃ dropped, l = dropped ++ evict t c.maxCount l ∧
        ((evict t c.maxCount l = [] ∨ ∃ p e, dropped = p ++ [e] ∧ t < e.2.2 ∧ (evict t c.maxCount l).length < c.maxCount) ∧
        (∀ p e q, dropped = p ++ e :: q → q ≠ [] →
          e.2.2 ≤ t ∨ c.maxCount ≤ (q ++ evict t c.maxCount l).length)) := by
      intro l
      induction l with
      | nil => exact ⟨[], rfl, .inl rfl, fun p e q h => by cases p <;> cases h⟩
      | cons a l ih =>
        obtain ⟨j, cv⟩ := a
        simp only [evict]
        by_cases h : t < cv.2 ∧ l.length < c.maxCount
        · rw [if_pos h]
          refine ⟨[(j, cv)], rfl, .inr ⟨[], (j, cv), rfl, h.1, h.2⟩, ?_⟩
          intro p e q hpq hq
          cases p with
          | nil => simp at hpq; exact absurd hpq.2 hq
          | cons b p => simp at hpq
        · rw [if_neg h]
          obtain ⟨d, h1, h2, h3⟩ := ih
          refine ⟨(j, cv) :: d, by rw [List.cons_append, ← h1], ?_, ?_⟩
          · rcases h2 with h2 | ⟨p, e, h4, h5⟩
            · exact .inl h2
            · exact .inr ⟨(j, cv) :: p, e, by rw [h4]; rfl, h5⟩
          · intro p e q hpq hq
            cases p with
            | nil =>
              simp only [List.nil_append, List.cons.injEq] at hpq
              obtain ⟨rfl, rfl⟩ := hpq
              rw [← h1]
              dsimp only
              omega
            | cons b p =>
              simp only [List.cons_append, List.cons.injEq] at hpq
              exact h3 p e q hpq.2 hq
    obtain ⟨d, h1, h2, h3⟩ := key c.cache.items
    refine ⟨d, evict t c.maxCount c.cache.items, h1, ?_, ?_, fun _ => ⟨h2, h3⟩⟩
    · unfold Cache.set
      dsimp only
      rw [if_pos hc]; rfl
    · intro h; exact absurd hc (Nat.not_le.2 h)
  · refine ⟨[], c.cache.items, rfl, ?_, fun _ => rfl, fun h => absurd h hc⟩
    unfold Cache.set
    dsimp only
    rw [if_neg hc]; rfl

example : let c := (Cache.init (K := String) (V := Nat) 2 60).run [.set 0 "a" 1, .set 1 "b" 2, .set 2 "c" 3, .get 61 "b"]
    c.cache.items = [("c", (3, 62))] ∧ (c.get 61 "c").1 = some 3 ∧ (c.get 61 "a").1 = none ∧ (c.get 62 "c").1 = none := by
  decide

example : let l : List (Step String Nat) := [.set 0 "a" 1, .set 5 "a" 2, .unset "b", .get 6 "a"]
    stores l ≤ 2 ∧ lastSet 60 "a" l.reverse = some (2, 65) ∧ (((Cache.init 2 60).run l).get 64 "a").1 = some 2 := by decide

end Verif
