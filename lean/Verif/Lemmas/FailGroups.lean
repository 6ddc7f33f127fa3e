import Verif.Spec.FailGroups

namespace Verif.FailGroupsSpec

open Verif.FailTags Verif.FailTagsSpec Verif.FailGroups

/-! ## Order of texts -/

def ltB : Str → Str → Bool
  | _, [] => false
  | [], _ :: _ => true
  | a :: s, b :: t => a.toNat < b.toNat || (a == b && ltB s t)

theorem before_of {a b : Str} (h : ltB a b = true) : Before a b := by
  induction a generalizing b with
  | nil =>
    cases b with
    | nil => cases h
    | cons c s => exact Or.inl ⟨c, s, rfl⟩
  | cons x a ih =>
    cases b with
    | nil => cases h
    | cons y b =>
      simp only [ltB, Bool.or_eq_true, decide_eq_true_eq, Bool.and_eq_true, beq_iff_eq] at h
      rcases h with h | ⟨h, k⟩
      · exact Or.inr ⟨[], x, y, a, b, rfl, rfl, h⟩
      · subst h
        rcases ih k with ⟨c, s, e⟩ | ⟨p, c, d, s, t, e1, e2, e3⟩
        · exact Or.inl ⟨c, s, by rw [e]; rfl⟩
        · exact Or.inr ⟨x :: p, c, d, s, t, by rw [e1]; rfl, by rw [e2]; rfl, e3⟩

theorem ltB_trans {a b c : Str} (h : ltB a b = true) (k : ltB b c = true) : ltB a c = true := by
  induction a generalizing b c with
  | nil => cases c with
    | nil => cases b <;> simp [ltB] at k
    | cons z c => rfl
  | cons x a ih =>
    cases b with
    | nil => cases h
    | cons y b => cases c with
      | nil => cases k
      | cons z c =>
        simp only [ltB, Bool.or_eq_true, decide_eq_true_eq, Bool.and_eq_true, beq_iff_eq] at h k ⊢
        rcases h with h | ⟨h, h'⟩
        · rcases k with k | ⟨k, k'⟩
          · exact Or.inl (Nat.lt_trans h k)
          · subst k; exact Or.inl h
        · subst h
          rcases k with k | ⟨k, k'⟩
          · exact Or.inl k
          · exact Or.inr ⟨k, ih h' k'⟩

theorem char_eq {a b : Char} (h1 : ¬ a.toNat < b.toNat) (h2 : ¬ b.toNat < a.toNat) : a = b := by
  have h : a.toNat = b.toNat := by omega
  have := congrArg Char.ofNat h
  rw [Char.ofNat_toNat, Char.ofNat_toNat] at this
  exact this

theorem leB_total (a b : Str) : (leB a b = true → a = b ∨ ltB a b = true) ∧ (leB a b = false → ltB b a = true) := by
  induction a generalizing b with
  | nil => cases b <;> simp [leB, ltB]
  | cons x a ih =>
    cases b with
    | nil => simp [leB, ltB]
    | cons y b =>
      by_cases h1 : x.toNat < y.toNat
      · simp [leB, ltB, h1]
      · by_cases h2 : x = y
        · subst h2
          have e : leB (x :: a) (x :: b) = leB a b := by simp [leB]
          rw [e]
          refine ⟨fun h => ?_, fun h => ?_⟩
          · rcases (ih b).1 h with k | k
            · exact Or.inl (by rw [k])
            · right; simp [ltB, k]
          · have := (ih b).2 h; simp [ltB, this]
        · have h3 : y.toNat < x.toNat := Classical.byContradiction (fun k => h2 (char_eq h1 k))
          simp [leB, ltB, h1, h2, h3]

/-! ## Sorting -/

theorem mem_insert (x y : Str × Str) (l : List (Str × Str)) : y ∈ FailGroups.insert x l ↔ y = x ∨ y ∈ l := by
  induction l with
  | nil => simp [FailGroups.insert]
  | cons z l ih =>
    unfold FailGroups.insert
    split
    · simp
    · simp only [List.mem_cons, ih]
      constructor
      · rintro (h | h | h)
        · exact Or.inr (Or.inl h)
        · exact Or.inl h
        · exact Or.inr (Or.inr h)
      · rintro (h | h | h)
        · exact Or.inr (Or.inl h)
        · exact Or.inl h
        · exact Or.inr (Or.inr h)

theorem mem_sort (y : Str × Str) (l : List (Str × Str)) : y ∈ sort l ↔ y ∈ l := by
  induction l with
  | nil => simp [sort]
  | cons x l ih => simp [sort, mem_insert, ih]

/-- Sorted by the first parts. -/
def Sorted : List (Str × Str) → Prop
  | [] => True
  | x :: l => (∀ y ∈ l, ltB x.1 y.1 = true) ∧ Sorted l

theorem sorted_insert {x : Str × Str} {l : List (Str × Str)} (h : Sorted l) (hx : ∀ y ∈ l, y.1 ≠ x.1) : Sorted (FailGroups.insert x l) := by
  induction l with
  | nil => exact ⟨by simp, trivial⟩
  | cons z l ih =>
    have t := leB_total x.1 z.1
    unfold FailGroups.insert
    split
    · rename_i hle
      have hlt : ltB x.1 z.1 = true := (t.1 hle).resolve_left (fun k => hx z (List.mem_cons_self ..) k.symm)
      refine ⟨fun y hy => ?_, h⟩
      rcases List.mem_cons.1 hy with k | k
      · rw [k]; exact hlt
      · exact ltB_trans hlt (h.1 y k)
    · rename_i hle
      refine ⟨fun y hy => ?_, ih h.2 (fun y hy => hx y (List.mem_cons_of_mem _ hy))⟩
      rcases (mem_insert x y l).1 hy with k | k
      · rw [k]; exact t.2 (by simpa using hle)
      · exact h.1 y k

theorem sorted_sort {l : List (Str × Str)} (h : l.Pairwise (fun a b => a.1 ≠ b.1)) : Sorted (sort l) := by
  induction l with
  | nil => trivial
  | cons x l ih =>
    rw [List.pairwise_cons] at h
    exact sorted_insert (ih h.2) (fun y hy k => h.1 y ((mem_sort y l).1 hy) k.symm)

/-! ## Names -/

theorem stem_number {d : Str} (hd : Number d) (m : Str) : stem (m ++ d) = m := by
  obtain ⟨e, h0, hn, rfl⟩ := hd
  induction m with
  | nil =>
    show stem ('_' :: e) = []
    unfold stem
    rw [if_pos]
    simp only [decide_true, Bool.true_and, Bool.and_eq_true, Bool.not_eq_true', List.isEmpty_eq_false_iff, List.all_eq_true]
    exact ⟨h0, hn⟩
  | cons c m ih =>
    show stem (c :: (m ++ ("_".toList ++ e))) = c :: m
    unfold stem
    rw [if_neg, ih]
    intro k
    simp only [Bool.and_eq_true, List.all_eq_true] at k
    have := k.2 '_' (by simp)
    exact absurd this (by decide)

theorem stem_other {s : Str} (h : ¬ ∃ a d, Number d ∧ s = a ++ d) : stem s = s := by
  induction s with
  | nil => rfl
  | cons c s ih =>
    unfold stem
    rw [if_neg, ih]
    · rintro ⟨a, d, hd, e⟩; exact h ⟨c :: a, d, hd, by rw [e]; rfl⟩
    · intro k
      simp only [Bool.and_eq_true, decide_eq_true_eq, Bool.not_eq_true', List.isEmpty_eq_false_iff, List.all_eq_true] at k
      exact h ⟨[], c :: s, ⟨s, k.1.2, k.2, by rw [k.1.1]; rfl⟩, rfl⟩

theorem stem_named (s : Str) : (∃ d, Number d ∧ s = stem s ++ d) ∨ (s = stem s ∧ ¬ ∃ a d, Number d ∧ stem s = a ++ d) := by
  by_cases h : ∃ a d, Number d ∧ s = a ++ d
  · obtain ⟨a, d, hd, e⟩ := h
    have : stem s = a := by rw [e]; exact stem_number hd a
    exact Or.inl ⟨d, hd, by rw [this]; exact e⟩
  · rw [stem_other h]; exact Or.inr ⟨rfl, h⟩

theorem named_iff (pre m s : Str) : Named pre m (pre ++ s) ↔ m = stem s ∧ 4 < (pre ++ s).length := by
  constructor
  · rintro ⟨h, hl⟩
    refine ⟨?_, hl⟩
    rcases h with ⟨d, hd, e⟩ | ⟨e, hn⟩
    · rw [List.append_assoc] at e
      rw [List.append_cancel_left e, stem_number hd]
    · rw [List.append_cancel_left e, stem_other hn]
  · rintro ⟨rfl, hl⟩
    refine ⟨?_, hl⟩
    rcases stem_named s with ⟨d, hd, e⟩ | ⟨e, hn⟩
    · exact Or.inl ⟨d, hd, by rw [List.append_assoc, ← e]⟩
    · exact Or.inr ⟨by rw [← e], hn⟩

theorem named_prefix {pre m k : Str} (h : Named pre m k) : ∃ s, k = pre ++ s := by
  rcases h.1 with ⟨d, _, e⟩ | ⟨e, _⟩
  · exact ⟨m ++ d, by rw [e, List.append_assoc]⟩
  · exact ⟨m, e⟩

theorem complex_alt (k n : Str) : complex k = some (.alt, n) ↔ Alternative n k := by
  constructor
  · intro h
    unfold complex at h
    split at h
    · rename_i hl
      split at h
      · rename_i hp
        obtain ⟨s, e⟩ := List.isPrefixOf_iff_prefix.1 hp
        injection h with h
        injection h with _ h
        refine ⟨stem s, ?_, ?_⟩
        · rw [← e]; exact (named_iff _ _ _).2 ⟨rfl, by rw [e]; exact hl⟩
        · rw [← h, ← e]; rfl
      · split at h
        · injection h with h; injection h with h; cases h
        · cases h
    · cases h
  · rintro ⟨m, h, rfl⟩
    obtain ⟨s, rfl⟩ := named_prefix h
    obtain ⟨rfl, hl⟩ := (named_iff _ _ _).1 h
    unfold complex
    rw [if_pos hl, if_pos (List.isPrefixOf_iff_prefix.2 ⟨s, rfl⟩)]
    rfl

theorem complex_tuple (k n : Str) : complex k = some (.tuple, n) ↔ Part n k := by
  constructor
  · intro h
    unfold complex at h
    split at h
    · rename_i hl
      split at h
      · injection h with h; injection h with h; cases h
      · split at h
        · rename_i hp
          obtain ⟨s, e⟩ := List.isPrefixOf_iff_prefix.1 hp
          injection h with h
          injection h with _ h
          refine ⟨stem s, ?_, ?_⟩
          · rw [← e]; exact (named_iff _ _ _).2 ⟨rfl, by rw [e]; exact hl⟩
          · rw [← h, ← e]; rfl
        · cases h
    · cases h
  · rintro ⟨m, h, rfl⟩
    obtain ⟨s, rfl⟩ := named_prefix h
    obtain ⟨rfl, hl⟩ := (named_iff _ _ _).1 h
    unfold complex
    rw [if_pos hl, if_neg, if_pos (List.isPrefixOf_iff_prefix.2 ⟨s, rfl⟩)]
    · rfl
    · intro hp
      obtain ⟨t, e⟩ := List.isPrefixOf_iff_prefix.1 hp
      have : ("alt_".toList ++ t).head? = ("tuple_".toList ++ s).head? := by rw [e]
      exact absurd this (by simp)

theorem mem_values (kind : Kind) (names : List Str) (k n : Str) : (k, n) ∈ values kind names ↔ k ∈ names ∧ complex k = some (kind, n) := by
  unfold values
  rw [mem_sort, List.mem_filterMap]
  constructor
  · rintro ⟨x, hx, h⟩
    split at h
    · rename_i g m hc
      split at h
      · rename_i hg
        injection h with h
        injection h with h1 h2
        subst h1 h2 hg
        exact ⟨hx, hc⟩
      · cases h
    · cases h
  · rintro ⟨h1, h2⟩
    exact ⟨k, h1, by rw [h2]; simp⟩

theorem sorted_values (kind : Kind) {names : List Str} (h : names.Nodup) : Sorted (values kind names) := by
  unfold values
  apply sorted_sort
  rw [List.pairwise_filterMap]
  refine List.Pairwise.imp ?_ h
  intro a b hab x hx y hy
  have fst : ∀ (c : Str) (z : Str × Str), (match complex c with | some (g, n) => if g = kind then some (c, n) else none | none => none) = some z → z.1 = c := by
    intro c z hz
    split at hz
    · split at hz
      · injection hz with hz; rw [← hz]
      · cases hz
    · cases hz
  rw [fst a x hx, fst b y hy]
  exact hab

/-! ## Merging -/

/-- Names are not among the targets. -/
def Apart (l : List (Str × Str)) : Prop := ∀ x ∈ l, ∀ y ∈ l, x.2 ≠ y.1

/-- The first other name of `n` with a value. -/
def firstAlt (l : List (Str × Str)) (f : Dict) (n : Str) : Val := match l.find? (fun p => decide (p.2 = n) && truthy (f p.1)) with
  | some p => f p.1
  | none => f n

theorem merge_eq (l : List (Str × Str)) (f : Dict) (h : Apart l) (n : Str) : merge l f n = if truthy (f n) then f n else firstAlt l f n := by
  induction l generalizing f with
  | nil => simp [merge, firstAlt]
  | cons p l ih =>
    obtain ⟨k, m⟩ := p
    have hl : Apart l := fun x hx y hy => h x (List.mem_cons_of_mem _ hx) y (List.mem_cons_of_mem _ hy)
    rw [merge, ih _ hl]
    have keys : ∀ q ∈ l, (if truthy (f k) && !truthy (f m) then put f m (f k) else f) q.1 = f q.1 := by
      intro q hq
      split
      · unfold put; rw [if_neg (fun e => h (k, m) (List.mem_cons_self ..) q (List.mem_cons_of_mem _ hq) e.symm)]
      · rfl
    have find : l.find? (fun q => decide (q.2 = n) && truthy ((if truthy (f k) && !truthy (f m) then put f m (f k) else f) q.1)) = l.find? (fun q => decide (q.2 = n) && truthy (f q.1)) := by
      clear ih hl h
      induction l with
      | nil => rfl
      | cons q l ih =>
        simp only [List.find?_cons]
        rw [keys q (List.mem_cons_self ..), ih (fun x hx => keys x (List.mem_cons_of_mem _ hx))]
    by_cases hn : m = n
    · subst hn
      by_cases ht : truthy (f m)
      · simp [ht]
      · by_cases hk : truthy (f k)
        · simp [ht, hk, put, firstAlt]
        · simp [ht, hk, firstAlt]
    · have same : (if truthy (f k) && !truthy (f m) then put f m (f k) else f) n = f n := by
        split
        · unfold put; rw [if_neg (fun e => hn e.symm)]
        · rfl
      rw [same]
      congr 1
      unfold firstAlt
      rw [find, List.find?_cons, same]
      have : (decide ((k, m).2 = n) && truthy (f (k, m).1)) = false := by simp [hn]
      rw [this]
      cases hf : l.find? (fun q => decide (q.2 = n) && truthy (f q.1)) with
      | none => rfl
      | some q => exact keys q (List.mem_of_find?_eq_some hf)

theorem find_first {l : List (Str × Str)} (hs : Sorted l) {P : Str × Str → Bool} {p : Str × Str} (h : l.find? P = some p) : p ∈ l ∧ P p = true ∧ ∀ q ∈ l, P q = true → q = p ∨ ltB p.1 q.1 = true := by
  induction l with
  | nil => cases h
  | cons x l ih =>
    rw [List.find?_cons] at h
    split at h
    · rename_i hx
      injection h with h
      subst h
      refine ⟨List.mem_cons_self .., hx, fun q hq _ => ?_⟩
      rcases List.mem_cons.1 hq with k | k
      · exact Or.inl k
      · exact Or.inr (hs.1 q k)
    · rename_i hx
      obtain ⟨a, b, c⟩ := ih hs.2 h
      refine ⟨List.mem_cons_of_mem _ a, b, fun q hq hp => ?_⟩
      rcases List.mem_cons.1 hq with k | k
      · subst k; rw [hp] at hx; cases hx
      · exact c q k hp

theorem filled_iff {f : Dict} (hf : Plain f) (n : Str) : truthy (f n) = true ↔ Filled (f n) := by
  unfold Filled
  rcases hf n with h | ⟨s, h⟩ <;> rw [h]
  · simp [truthy]
  · simp only [truthy, Bool.not_eq_true', List.isEmpty_eq_false_iff, Val.str.injEq]
    exact ⟨fun k => ⟨s, rfl, k⟩, fun ⟨_, e, k⟩ => by rw [e]; exact k⟩

theorem merged {names : List Str} (hn : names.Nodup) {f : Dict} (hf : Plain f) (ha : Apart (values .alt names)) (n : Str) : Merged names f n (merge (values .alt names) f n) := by
  rw [merge_eq _ _ ha]
  by_cases ht : truthy (f n) = true
  · rw [if_pos ht]; exact Or.inl ⟨(filled_iff hf n).1 ht, rfl⟩
  · rw [if_neg ht]
    have hnf : ¬ Filled (f n) := fun k => ht ((filled_iff hf n).2 k)
    right
    unfold firstAlt
    cases hfind : (values .alt names).find? (fun p => decide (p.2 = n) && truthy (f p.1)) with
    | none =>
      right
      refine ⟨hnf, fun k hk hka hkf => ?_, rfl⟩
      have := List.find?_eq_none.1 hfind (k, n) ((mem_values _ _ _ _).2 ⟨hk, (complex_alt k n).2 hka⟩)
      exact this (by simp [(filled_iff hf k).2 hkf])
    | some p =>
      left
      obtain ⟨k, m⟩ := p
      obtain ⟨hp, hP, hmin⟩ := find_first (sorted_values .alt hn) hfind
      simp only [Bool.and_eq_true, decide_eq_true_eq] at hP
      obtain ⟨rfl, hk⟩ := hP
      have hm := (mem_values _ _ _ _).1 hp
      refine ⟨hnf, k, hm.1, (complex_alt k _).1 hm.2, (filled_iff hf k).1 hk, fun k' hk' ha' hf' => ?_, rfl⟩
      rcases hmin (k', m) ((mem_values _ _ _ _).2 ⟨hk', (complex_alt k' m).2 ha'⟩) (by simp [(filled_iff hf k').2 hf']) with e | e
      · injection e with e; exact Or.inl e
      · exact Or.inr (before_of e)

/-! ## Tuples -/

theorem foldl_tup (vs xs : List Val) : xs.foldl extend (.tup vs) = .tup (vs ++ xs) := by
  induction xs generalizing vs with
  | nil => simp
  | cons x xs ih => simp [extend, ih]

theorem combine_eq (l : List (Str × Str)) (f : Dict) (h : Apart l) (n : Str) : combine l f n = (((l.filter (fun p => decide (p.2 = n))).map (fun p => f p.1)).foldl extend (f n)) := by
  induction l generalizing f with
  | nil => rfl
  | cons p l ih =>
    obtain ⟨k, m⟩ := p
    have hl : Apart l := fun x hx y hy => h x (List.mem_cons_of_mem _ hx) y (List.mem_cons_of_mem _ hy)
    rw [combine, ih _ hl]
    have keys : (l.filter (fun p => decide (p.2 = n))).map (fun p => put f m (extend (f m) (f k)) p.1) = (l.filter (fun p => decide (p.2 = n))).map (fun p => f p.1) := by
      refine List.map_congr_left (fun q hq => ?_)
      unfold put
      rw [if_neg (fun e => h (k, m) (List.mem_cons_self ..) q (List.mem_cons_of_mem _ (List.mem_filter.1 hq).1) e.symm)]
    rw [keys]
    by_cases hm : m = n
    · subst hm; simp [put]
    · rw [List.filter_cons_of_neg (by simpa using hm)]
      congr 1
      unfold put
      rw [if_neg (fun e => hm e.symm)]

theorem increasing_filter {l : List (Str × Str)} (h : Sorted l) (P : Str × Str → Bool) : Increasing ((l.filter P).map Prod.fst) := by
  induction l with
  | nil => trivial
  | cons x l ih =>
    rw [List.filter_cons]
    split
    · refine ⟨fun b hb => ?_, ih h.2⟩
      obtain ⟨y, hy, rfl⟩ := List.mem_map.1 hb
      exact before_of (h.1 y (List.mem_filter.1 hy).1)
    · exact ih h.2

theorem apart_of {names : List Str} (hs : Simple names) (a b : Kind) : ∀ x ∈ values a names, ∀ y ∈ values b names, x.2 ≠ y.1 := by
  have ok : ∀ (a : Kind) (x : Str × Str), x ∈ values a names → x.1 ∈ names ∧ (Alternative x.2 x.1 ∨ Part x.2 x.1) := by
    intro a x hx
    obtain ⟨h1, h2⟩ := (mem_values a names x.1 x.2).1 hx
    refine ⟨h1, ?_⟩
    cases a
    · exact Or.inl ((complex_alt _ _).1 h2)
    · exact Or.inr ((complex_tuple _ _).1 h2)
  intro x hx y hy
  exact hs x.2 x.1 (ok a x hx).1 (ok a x hx).2 y.1 (ok b y hy).1 y.2 (ok b y hy).2

theorem simple_of {names : List Str} (h : ∀ k ∈ names, ∀ k' ∈ names, ∀ x ∈ (complex k).toList, ∀ _y ∈ (complex k').toList, x.2 ≠ k') : Simple names := by
  have key : ∀ n k, Alternative n k ∨ Part n k → ∃ g, (g, n) ∈ (complex k).toList := by
    intro n k hk
    rcases hk with hk | hk
    · exact ⟨.alt, by rw [(complex_alt k n).2 hk]; simp⟩
    · exact ⟨.tuple, by rw [(complex_tuple k n).2 hk]; simp⟩
  intro n k hk ha k' hk' m ha'
  obtain ⟨g, hg⟩ := key n k ha
  obtain ⟨g', hg'⟩ := key m k' ha'
  exact h k hk k' hk' _ hg _ hg'

end Verif.FailGroupsSpec
