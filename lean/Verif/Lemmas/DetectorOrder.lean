import Verif.Lemmas.Detector

/-! # Lemmas about the order of templates -/

namespace Verif.Detector

open DetectorSpec

theorem split_at {α : Type} {l : List α} {n : Nat} {x : α} (h : l[n]? = some x) : ∃ a c, l = a ++ x :: c ∧ a.length = n := by
  have hlt : n < l.length := (List.getElem?_eq_some_iff.1 h).1
  refine ⟨l.take n, l.drop (n + 1), ?_, by simp; omega⟩
  have : l[n] = x := (List.getElem?_eq_some_iff.1 h).2
  rw [← this, List.getElem_cons_drop, List.take_append_drop]

theorem split_two {α : Type} {l : List α} {n p : Nat} {x : α} (h : l[n]? = some x) (hp : p ≤ n) :
    ∃ a b c, l = a ++ b ++ x :: c ∧ a.length = p ∧ (a ++ b).length = n := by
  obtain ⟨ab, c, e, hl⟩ := split_at h
  refine ⟨ab.take p, ab.drop p, c, by rw [List.take_append_drop]; exact e, by simp; omega, by rw [List.take_append_drop]; exact hl⟩

theorem get_mid {α : Type} (a : List α) (x : α) (c : List α) : (a ++ x :: c)[a.length]? = some x := by simp

theorem move_split (a b c : List Entry) (x : Entry) : move (a ++ b ++ x :: c) (a ++ b).length a.length = a ++ x :: (b ++ c) := by
  unfold move
  rw [get_mid]
  have e : (a ++ b ++ x :: c).eraseIdx (a ++ b).length = a ++ (b ++ c) := by
    rw [List.eraseIdx_append_of_length_le (Nat.le_refl _)]; simp
  simp only [e]
  rw [List.take_left' rfl, List.drop_left' rfl]

theorem modify_mid {α : Type} (f : α → α) (a : List α) (x : α) (c : List α) : (a ++ x :: c).modify a.length f = a ++ f x :: c := by
  induction a with
  | nil => simp
  | cons y a ih => simp [ih]

theorem hit_split (env : Env) (a c : List Entry) (e : Entry) (p q : Nat) :
    hit env (a ++ e :: c) ⟨p, q, a.length⟩ = a ++ counted env.now p e :: c := by
  unfold hit counted
  exact modify_mid _ a e c

theorem heavier_iff {x y : Entry} : heavier x y = true ↔ Less y x := by
  unfold heavier Less; simp

theorem moveable_iff {x y : Entry} : moveable x y = true ↔ Replaces x y := by
  unfold moveable Replaces
  simp only [Bool.or_eq_true, heavier_iff, decide_eq_true_eq]
  constructor
  · rintro (h | h)
    · exact .inl h
    · exact .inr (by omega)
  · rintro (h | h)
    · exact .inl h
    · exact .inr (by omega)

/-- Where the search for a better place begins. -/
def goal (firstUnused num : Nat) : Nat := if firstUnused < num then firstUnused else num / 2

theorem goal_lt {fu n : Nat} (h : n ≠ 0) : goal fu n < n := by unfold goal; split <;> omega

/-- The new position by its rules. -/
theorem newPos_spec {es : List Entry} {fu n : Nat} {x : Entry} (h : es[n]? = some x) :
    (newPos es fu n = goal fu n ∧ ∃ y, es[goal fu n]? = some y ∧ Replaces x y) ∨
    ((∀ y, es[goal fu n]? = some y → ¬Replaces x y) ∧
      ((newPos es fu n = n - 1 ∧ ∃ y, es[n - 1]? = some y ∧ Replaces x y) ∨ (newPos es fu n = n ∧ ∀ y, es[n - 1]? = some y → ¬Replaces x y))) := by
  have any : ∀ k : Nat, (es[k]?).any (moveable x) = true ↔ ∃ y, es[k]? = some y ∧ Replaces x y := by
    intro k
    cases es[k]? with
    | none => simp
    | some y => simp [moveable_iff]
  have e : newPos es fu n = if (es[goal fu n]?).any (moveable x) then goal fu n else if goal fu n = n - 1 then n
      else if (es[n - 1]?).any (moveable x) then n - 1 else n := by
    unfold newPos goal; rw [h]
  rw [e]
  by_cases h1 : (es[goal fu n]?).any (moveable x) = true
  · left; rw [if_pos h1]; exact ⟨rfl, (any _).1 h1⟩
  · right
    have no1 : ∀ y, es[goal fu n]? = some y → ¬Replaces x y := fun y hy hr => h1 ((any _).2 ⟨y, hy, hr⟩)
    refine ⟨no1, ?_⟩
    rw [if_neg h1]
    by_cases h2 : goal fu n = n - 1
    · right; rw [if_pos h2]; exact ⟨rfl, by rw [← h2]; exact no1⟩
    · rw [if_neg h2]
      by_cases h3 : (es[n - 1]?).any (moveable x) = true
      · left; rw [if_pos h3]; exact ⟨rfl, (any _).1 h3⟩
      · right; rw [if_neg h3]; exact ⟨rfl, fun y hy hr => h3 ((any _).2 ⟨y, hy, hr⟩)⟩

theorem newPos_le {es : List Entry} {fu n : Nat} {x : Entry} (h : es[n]? = some x) (hn : n ≠ 0) : newPos es fu n ≤ n := by
  have := goal_lt (fu := fu) hn
  rcases newPos_spec (fu := fu) h with ⟨h1, _⟩ | ⟨_, ⟨h1, _⟩ | ⟨h1, _⟩⟩ <;> omega

/-- Reordering moves one template forward. -/
theorem reorder_split {es : List Entry} {fu n : Nat} {x : Entry} (h : es[n]? = some x) :
    ∃ a b c, es = a ++ b ++ x :: c ∧ (a ++ b).length = n ∧ (reorder es fu n).1 = a ++ x :: (b ++ c) ∧ (reorder es fu n).2.2 = a.length := by
  unfold reorder
  by_cases hn : n = 0
  · rw [if_pos hn]
    obtain ⟨a, c, e, hl⟩ := split_at h
    exact ⟨a, [], c, by simpa using e, by simpa using hl, by simpa using e, hl.symm⟩
  · rw [if_neg hn]
    by_cases hp : newPos es fu n = n
    · simp only [hp, if_true]
      obtain ⟨a, c, e, hl⟩ := split_at h
      exact ⟨a, [], c, by simpa using e, by simpa using hl, by simpa using e, hl.symm⟩
    · simp only [hp, if_false]
      obtain ⟨a, b, c, e, h1, h2⟩ := split_two h (newPos_le (fu := fu) h hn)
      refine ⟨a, b, c, e, h2, ?_, h1.symm⟩
      have := move_split a b c x
      rw [← e, h1, h2] at this
      exact this

theorem reorder_pos {es : List Entry} {fu n : Nat} : (reorder es fu n).2.2 = if n = 0 then 0 else newPos es fu n := by
  unfold reorder
  by_cases hn : n = 0
  · rw [if_pos hn, if_pos hn]; exact hn
  · rw [if_neg hn, if_neg hn]
    by_cases hp : newPos es fu n = n
    · simp only [hp, if_true]
    · simp only [hp, if_false]

/-- What is noted about a date. -/
theorem accept_split {env : Env} {s : State} {line : List Char} {c : Cand} {e : Entry} (he : s.entries[c.idx]? = some e)
    (h1 : c.start < line.length) (h2 : c.stop ≤ line.length) :
    ∃ a b d, s.entries = a ++ b ++ e :: d ∧ (a ++ b).length = c.idx ∧ (accept env s line c).2 = .date c.start c.stop e.t ∧
      (accept env s line c).1.entries = a ++ counted env.now c.start e :: (b ++ d) ∧ (accept env s line c).1.lastIdx = some a.length ∧
      (accept env s line c).1.lastPos = c.start ∧ (accept env s line c).1.before = charBefore line c.start ∧
      (accept env s line c).1.first = line[c.start]? ∧ (accept env s line c).1.lastEnd = c.stop ∧
      (accept env s line c).1.last = charLast line c.stop ∧ (accept env s line c).1.after = line[c.stop]? ∧
      (a.length, (accept env s line c).1.firstUnused) =
        (if s.lastIdx = some c.idx then (c.idx, if s.firstUnused = c.idx then s.firstUnused + 1 else s.firstUnused)
          else ((reorder (hit env s.entries c) (if s.firstUnused = c.idx then s.firstUnused + 1 else s.firstUnused) c.idx).2.2,
            (reorder (hit env s.entries c) (if s.firstUnused = c.idx then s.firstUnused + 1 else s.firstUnused) c.idx).2.1)) := by
  obtain ⟨p, d, hs, hp⟩ := split_at he
  obtain ⟨f, hf⟩ : ∃ f, line[c.start]? = some f := ⟨_, List.getElem?_eq_getElem h1⟩
  obtain ⟨l, hl⟩ : ∃ l, charLast line c.stop = some l := by
    unfold charLast
    by_cases h0 : c.stop = 0
    · rw [if_pos h0]
      cases line with
      | nil => simp at h1
      | cons x xs => exact ⟨_, List.getLast?_eq_some_getLast (by simp)⟩
    · rw [if_neg h0]
      exact ⟨_, List.getElem?_eq_getElem (by omega)⟩
  have hh : hit env s.entries c = p ++ counted env.now c.start e :: d := by
    rw [hs]
    have := hit_split env p d e c.start c.stop
    rw [hp] at this
    exact this
  have hg : (hit env s.entries c)[c.idx]? = some (counted env.now c.start e) := by rw [hh, ← hp]; exact get_mid ..
  unfold accept
  simp only [he, hf, hl]
  by_cases hi : s.lastIdx = some c.idx
  · simp only [hi, if_true]
    exact ⟨p, [], d, by simpa using hs, by simpa using hp, by simp, by simpa using hh, by rw [hp], by simp, by simp, by simp, by simp, by simp, by simp, by rw [hp]⟩
  · simp only [hi, if_false]
    obtain ⟨a, b, d', e1, e2, e3, e4⟩ := reorder_split (fu := if s.firstUnused = c.idx then s.firstUnused + 1 else s.firstUnused) hg
    have : a ++ b = p ∧ d' = d := by
      rw [hh] at e1
      have := List.append_inj e1 (by rw [hp, e2])
      simp only [List.cons.injEq, true_and] at this
      exact ⟨this.1.symm, this.2.symm⟩
    obtain ⟨e5, e6⟩ := this
    subst e6
    refine ⟨a, b, d', by rw [e5]; exact hs, e2, by simp, e3, by rw [e4], by simp, by simp, by simp, by simp, by simp, by simp, by rw [e4]⟩

theorem perm_forward {α β : Type} (g : α → β) (a b c : List α) {x y : α} (h : g y = g x) :
    ((a ++ y :: (b ++ c)).map g).Perm ((a ++ b ++ x :: c).map g) := by
  simp only [List.map_append, List.map_cons, h]
  rw [List.append_assoc]
  exact List.Perm.append_left _ List.perm_middle.symm

/-- The invariant of the order, with the index of the last used template. -/
structure Inv (ts : List Template) (s : State) : Prop where
  sorted : Sorted ts s
  len : s.firstUnused ≤ s.entries.length
  last : ∀ i e, LastUsed s i e → e.hits ≠ 0

theorem advance_none {es : List Entry} {k : Nat} (h : ∀ e ∈ es.drop k, e.hits = 0) : advance es k = k := by
  unfold advance
  cases hd : es.drop k with
  | nil => simp
  | cons x r =>
    have : x.hits = 0 := h x (by rw [hd]; simp)
    simp [this]

/-- A used template stays among the used ones. -/
theorem sorted_within {ts : List Template} {es : List Entry} {k n : Nat} {x : Entry} (hx : es[n]? = some x) (hn : n < k) (hk : k ≤ es.length)
    (h1 : ∀ e ∈ es.take k, e.hits ≠ 0) (h2 : ∀ e ∈ es.drop k, e.hits = 0) (h3 : ((es.drop k).map (·.t)).Sublist ts) :
    (∀ e ∈ (reorder es k n).1.take (reorder es k n).2.1, e.hits ≠ 0) ∧ (∀ e ∈ (reorder es k n).1.drop (reorder es k n).2.1, e.hits = 0) ∧
    (((reorder es k n).1.drop (reorder es k n).2.1).map (·.t)).Sublist ts ∧ (reorder es k n).2.1 ≤ (reorder es k n).1.length := by
  unfold reorder
  by_cases h0 : n = 0
  · rw [if_pos h0]; exact ⟨h1, h2, h3, hk⟩
  · rw [if_neg h0]
    by_cases hp : newPos es k n = n
    · simp only [hp, if_true]; exact ⟨h1, h2, h3, hk⟩
    · simp only [hp, if_false]
      obtain ⟨a, b, c, e, e1, e2⟩ := split_two hx (newPos_le (fu := k) hx h0)
      have hm := move_split a b c x
      rw [← e, e1, e2] at hm
      have hlen : (a ++ b).length + 1 ≤ k := by omega
      -- the split of the tail at k
      have hc : es.take k = a ++ b ++ x :: c.take (k - (n + 1)) ∧ es.drop k = c.drop (k - (n + 1)) := by
        rw [e]
        have ek : k = (a ++ b).length + (1 + (k - (n + 1))) := by omega
        constructor
        · conv => lhs; rw [ek]
          rw [List.take_length_add_append, Nat.add_comm 1, List.take_succ_cons]
        · conv => lhs; rw [ek]
          rw [List.drop_length_add_append, Nat.add_comm 1, List.drop_succ_cons]
      have hc' : (move es n (newPos es k n)).take k = a ++ x :: (b ++ c.take (k - (n + 1))) ∧ (move es n (newPos es k n)).drop k = c.drop (k - (n + 1)) := by
        rw [hm]
        have e3 : a ++ x :: (b ++ c) = (a ++ x :: b) ++ c := by simp
        have ek : k = (a ++ x :: b).length + (k - (n + 1)) := by simp only [List.length_append, List.length_cons] at e2 ⊢; omega
        rw [e3]
        constructor
        · conv => lhs; rw [ek]
          rw [List.take_length_add_append]; simp
        · conv => lhs; rw [ek]
          rw [List.drop_length_add_append]
      have hz : ∀ y ∈ (move es n (newPos es k n)).drop k, y.hits = 0 := by
        rw [hc'.2, ← hc.2]; exact h2
      rw [advance_none hz]
      refine ⟨?_, hz, by rw [hc'.2, ← hc.2]; exact h3, ?_⟩
      · rw [hc'.1]
        intro y hy
        apply h1
        rw [hc.1]
        simp only [List.mem_append, List.mem_cons] at hy ⊢
        grind
      · rw [hm]
        rw [e] at hk
        simp only [List.length_append, List.length_cons] at hk ⊢
        omega

theorem getElem?_drop_of_le {α : Type} {l : List α} {k n : Nat} {x : α} (h : l[n]? = some x) (hk : k ≤ n) : x ∈ l.drop k := by
  have : (l.drop k)[n - k]? = some x := by rw [List.getElem?_drop]; rw [show k + (n - k) = n by omega]; exact h
  exact List.mem_of_getElem? this

theorem getElem?_take_of_lt {α : Type} {l : List α} {k n : Nat} {x : α} (h : l[n]? = some x) (hk : n < k) : x ∈ l.take k := by
  have : (l.take k)[n]? = some x := by rw [List.getElem?_take, if_pos hk]; exact h
  exact List.mem_of_getElem? this

theorem replaces_unused {x y : Entry} (h : y.hits = 0) (hx : x.hits ≠ 0) (hw : 0 < x.t.weight) : Replaces x y := by
  left
  unfold Less
  rw [h]
  have h1 : 0 < x.hits * x.t.weight := Nat.mul_pos (by omega) hw
  have h2 : 0 < max 1 y.distance := by omega
  simpa using Nat.mul_pos h1 h2

/-- A template found for the first time is placed behind the used ones. -/
theorem reorder_unused {es : List Entry} {k n : Nat} {x : Entry} (hx : es[n]? = some x) (hn : k < n) (hu : x.hits ≠ 0) (hw : 0 < x.t.weight)
    (h2 : ∀ m y, k ≤ m → m ≠ n → es[m]? = some y → y.hits = 0) :
    ∃ b c, es.drop k = b ++ x :: c ∧ (reorder es k n).1 = es.take k ++ x :: (b ++ c) ∧ (reorder es k n).2.1 = k + 1 := by
  have hlt : n < es.length := (List.getElem?_eq_some_iff.1 hx).1
  have hg : goal k n = k := by unfold goal; rw [if_pos hn]
  have hy : ∃ y, es[k]? = some y := ⟨_, List.getElem?_eq_getElem (by omega)⟩
  obtain ⟨y, hy⟩ := hy
  have hr : Replaces x y := replaces_unused (h2 k y (Nat.le_refl _) (by omega) hy) hu hw
  have hp : newPos es k n = k := by
    rcases newPos_spec (fu := k) hx with ⟨h, _⟩ | ⟨h, _⟩
    · rw [h, hg]
    · rw [hg] at h; exact absurd hr (h y hy)
  obtain ⟨a, b, c, e, e1, e2⟩ := split_two hx (Nat.le_of_lt hn)
  have hm := move_split a b c x
  rw [← e, e1, e2] at hm
  have ht : es.take k = a := by rw [e, List.append_assoc]; exact List.take_left' e1
  have hd : es.drop k = b ++ x :: c := by rw [e, List.append_assoc]; exact List.drop_left' e1
  refine ⟨b, c, hd, ?_, ?_⟩
  · unfold reorder
    rw [if_neg (by omega)]
    simp only [hp, if_neg (show ¬k = n by omega)]
    rw [hm, ht]
  · unfold reorder
    rw [if_neg (by omega)]
    simp only [hp, if_neg (show ¬k = n by omega)]
    unfold advance
    rw [hm, List.drop_left' e1]
    have hz : ∀ z ∈ b ++ c, z.hits = 0 := by
      intro z hz
      rcases List.mem_append.1 hz with hz | hz
      · obtain ⟨i, hi, hzi⟩ := List.mem_iff_getElem.1 hz
        refine h2 (k + i) z (by omega) ?_ ?_
        · simp only [List.length_append] at e2; omega
        · have : (es.drop k)[i]? = some z := by rw [hd, List.getElem?_append_left hi, List.getElem?_eq_getElem hi, hzi]
          rwa [List.getElem?_drop] at this
      · obtain ⟨i, hi, hzi⟩ := List.mem_iff_getElem.1 hz
        refine h2 (k + (b.length + (i + 1))) z (by omega) ?_ ?_
        · simp only [List.length_append] at e2; omega
        · have : (es.drop k)[b.length + (i + 1)]? = some z := by
            rw [hd, List.getElem?_append_right (by omega), Nat.add_sub_cancel_left, List.getElem?_cons_succ, List.getElem?_eq_getElem hi, hzi]
          rwa [List.getElem?_drop] at this
    have h0 : (b ++ c).takeWhile (fun e => decide (e.hits ≠ 0)) = [] := by
      cases hbc : b ++ c with
      | nil => rfl
      | cons z r =>
        have : z.hits = 0 := hz z (by rw [hbc]; simp)
        simp [this]
    rw [List.takeWhile_cons, h0]
    simp [hu]

/-- One more date keeps the invariant. -/
theorem accept_inv {ts : List Template} {env : Env} {s : State} {line : List Char} {c : Cand} {e : Entry} (inv : Inv ts s) (he : s.entries[c.idx]? = some e)
    (h1 : c.start < line.length) (h2 : c.stop ≤ line.length) (hw : 0 < e.t.weight) : Inv ts (accept env s line c).1 := by
  obtain ⟨a, b, d, es, hab, _, ent, li, _, _, _, _, _, _, fu⟩ := accept_split (env := env) he h1 h2
  obtain ⟨⟨s1, s2, s3⟩, len, last⟩ := inv
  have lastOk : ∀ i f, LastUsed (accept env s line c).1 i f → f.hits ≠ 0 := by
    rintro i f ⟨l1, l2⟩
    rw [li] at l1
    cases l1
    rw [ent, get_mid] at l2
    cases l2
    simp [counted]
  have hh : hit env s.entries c = a ++ b ++ counted env.now c.start e :: d := by
    rw [es]
    have := hit_split env (a ++ b) d e c.start c.stop
    rw [hab] at this
    exact this
  have hg : (hit env s.entries c)[c.idx]? = some (counted env.now c.start e) := by rw [hh, ← hab]; exact get_mid ..
  have hlen : (hit env s.entries c).length = s.entries.length := by unfold hit; simp
  have other : ∀ m y, m ≠ c.idx → (hit env s.entries c)[m]? = some y → s.entries[m]? = some y := by
    intro m y hm hy
    unfold hit at hy
    rw [List.getElem?_modify] at hy
    simpa [Ne.symm hm] using hy
  have hcl : c.idx < s.entries.length := (List.getElem?_eq_some_iff.1 he).1
  have entE : (accept env s line c).1.entries = if s.lastIdx = some c.idx then hit env s.entries c
      else (reorder (hit env s.entries c) (if s.firstUnused = c.idx then s.firstUnused + 1 else s.firstUnused) c.idx).1 := by
    by_cases hi : s.lastIdx = some c.idx
    · rw [if_pos hi] at fu ⊢
      simp only [Prod.mk.injEq] at fu
      have : b = [] := by
        rw [List.length_append] at hab
        exact List.eq_nil_of_length_eq_zero (by omega)
      subst this
      rw [ent, hh]; simp
    · rw [if_neg hi] at fu ⊢
      simp only [Prod.mk.injEq] at fu
      obtain ⟨a', b', d', e1, e2, e3, e4⟩ := reorder_split (fu := if s.firstUnused = c.idx then s.firstUnused + 1 else s.firstUnused) hg
      rw [hh] at e1
      have k1 := List.append_inj e1 (by rw [hab, e2])
      have k2 := List.append_inj k1.1 (by omega)
      rw [ent, e3, k2.1, k2.2]
      simp only [List.cons.injEq, true_and] at k1
      rw [k1.2]
  have fuE : (accept env s line c).1.firstUnused = if s.lastIdx = some c.idx then (if s.firstUnused = c.idx then s.firstUnused + 1 else s.firstUnused)
      else (reorder (hit env s.entries c) (if s.firstUnused = c.idx then s.firstUnused + 1 else s.firstUnused) c.idx).2.1 := by
    by_cases hi : s.lastIdx = some c.idx
    · rw [if_pos hi] at fu ⊢
      simp only [Prod.mk.injEq] at fu
      exact fu.2
    · rw [if_neg hi] at fu ⊢
      simp only [Prod.mk.injEq] at fu
      exact fu.2
  -- entries of the used and the unused part after the hit
  have used : ∀ k, c.idx < k → (k = s.firstUnused ∨ k = c.idx + 1 ∧ k = s.firstUnused + 1) → (∀ f ∈ (hit env s.entries c).take k, f.hits ≠ 0) ∧
      (∀ f ∈ (hit env s.entries c).drop k, f.hits = 0) ∧ (((hit env s.entries c).drop k).map (·.t)).Sublist ts := by
    intro k hk hk'
    have dropE : (hit env s.entries c).drop k = s.entries.drop k := by
      apply List.ext_getElem?
      intro i
      rw [List.getElem?_drop, List.getElem?_drop]
      unfold hit
      rw [List.getElem?_modify]; simp [show ¬c.idx = k + i by omega]
    have dropS : (s.entries.drop k).Sublist (s.entries.drop s.firstUnused) := by
      rcases hk' with h | h
      · rw [h]; exact List.Sublist.refl _
      · rw [h.2, ← List.drop_drop]; exact List.drop_sublist ..
    refine ⟨?_, ?_, ?_⟩
    · intro f hf
      obtain ⟨i, hi, hfi⟩ := List.mem_iff_getElem.1 hf
      have hi' : i < k := by rw [List.length_take] at hi; omega
      have hg' : (hit env s.entries c)[i]? = some f := by
        have : ((hit env s.entries c).take k)[i]? = some f := by rw [List.getElem?_eq_getElem hi, hfi]
        rwa [List.getElem?_take, if_pos hi'] at this
      by_cases hic : i = c.idx
      · rw [hic, hg] at hg'; cases hg'; simp [counted]
      · exact s1 f (getElem?_take_of_lt (other i f hic hg') (by omega))
    · rw [dropE]; intro f hf; exact s2 f (dropS.subset hf)
    · rw [dropE]; exact (dropS.map _).trans s3
  have kase : c.idx < s.firstUnused ∨ c.idx = s.firstUnused ∨ s.firstUnused < c.idx := by omega
  rcases kase with hc | hc | hc
  · have fe : (if s.firstUnused = c.idx then s.firstUnused + 1 else s.firstUnused) = s.firstUnused := if_neg (by omega)
    rw [fe] at entE fuE
    obtain ⟨u1, u2, u3⟩ := used s.firstUnused hc (.inl rfl)
    by_cases hi : s.lastIdx = some c.idx
    · rw [if_pos hi] at entE fuE
      exact ⟨⟨by rw [entE, fuE]; exact u1, by rw [entE, fuE]; exact u2, by rw [entE, fuE]; exact u3⟩, by rw [entE, fuE, hlen]; exact len, lastOk⟩
    · rw [if_neg hi] at entE fuE
      obtain ⟨r1, r2, r3, r4⟩ := sorted_within hg hc (by rw [hlen]; exact len) u1 u2 u3
      exact ⟨⟨by rw [entE, fuE]; exact r1, by rw [entE, fuE]; exact r2, by rw [entE, fuE]; exact r3⟩, by rw [entE, fuE]; exact r4, lastOk⟩
  · have fe : (if s.firstUnused = c.idx then s.firstUnused + 1 else s.firstUnused) = s.firstUnused + 1 := if_pos hc.symm
    rw [fe] at entE fuE
    obtain ⟨u1, u2, u3⟩ := used (s.firstUnused + 1) (by omega) (.inr ⟨by omega, rfl⟩)
    by_cases hi : s.lastIdx = some c.idx
    · rw [if_pos hi] at entE fuE
      exact ⟨⟨by rw [entE, fuE]; exact u1, by rw [entE, fuE]; exact u2, by rw [entE, fuE]; exact u3⟩, by rw [entE, fuE, hlen]; omega, lastOk⟩
    · rw [if_neg hi] at entE fuE
      obtain ⟨r1, r2, r3, r4⟩ := sorted_within hg (show c.idx < s.firstUnused + 1 by omega) (by rw [hlen]; omega) u1 u2 u3
      exact ⟨⟨by rw [entE, fuE]; exact r1, by rw [entE, fuE]; exact r2, by rw [entE, fuE]; exact r3⟩, by rw [entE, fuE]; exact r4, lastOk⟩
  · have hu : e.hits = 0 := s2 e (getElem?_drop_of_le he (Nat.le_of_lt hc))
    have hi : ¬s.lastIdx = some c.idx := fun h => last c.idx e ⟨h, he⟩ hu
    have fe : (if s.firstUnused = c.idx then s.firstUnused + 1 else s.firstUnused) = s.firstUnused := if_neg (by omega)
    rw [fe, if_neg hi] at entE fuE
    obtain ⟨b', d', r1, r2, r3⟩ := reorder_unused hg hc (by simp [counted]) (by simpa [counted] using hw)
      (fun m y hm hn hy => s2 y (getElem?_drop_of_le (other m y hn hy) hm))
    have tk : (hit env s.entries c).take s.firstUnused = s.entries.take s.firstUnused := by
      apply List.ext_getElem?
      intro i
      rw [List.getElem?_take, List.getElem?_take]
      by_cases h : i < s.firstUnused
      · rw [if_pos h, if_pos h]; unfold hit; rw [List.getElem?_modify]; simp [show ¬c.idx = i by omega]
      · rw [if_neg h, if_neg h]
    have tl : ((s.entries.take s.firstUnused) ++ [counted env.now c.start e]).length = s.firstUnused + 1 := by
      simp; omega
    have e2 : (reorder (hit env s.entries c) s.firstUnused c.idx).1 = (s.entries.take s.firstUnused ++ [counted env.now c.start e]) ++ (b' ++ d') := by
      rw [r2, tk]; simp
    have tmap : (s.entries.drop s.firstUnused).map (·.t) = b'.map (·.t) ++ e.t :: d'.map (·.t) := by
      have h1 : ((hit env s.entries c).map (·.t)) = s.entries.map (·.t) := by
        rw [hh, es]; simp [counted]
      rw [List.map_drop, ← h1, ← List.map_drop, r1]
      simp [counted]
    have zero : ∀ f ∈ b' ++ d', f.hits = 0 := by
      have hdl : (hit env s.entries c).drop s.firstUnused = b' ++ counted env.now c.start e :: d' := r1
      have bl : b'.length = c.idx - s.firstUnused := by
        -- the place of the counted entry: the only one with hits
        have hb : ((hit env s.entries c).drop s.firstUnused)[c.idx - s.firstUnused]? = some (counted env.now c.start e) := by
          rw [List.getElem?_drop, show s.firstUnused + (c.idx - s.firstUnused) = c.idx by omega]; exact hg
        have hb2 : ((hit env s.entries c).drop s.firstUnused)[b'.length]? = some (counted env.now c.start e) := by rw [r1]; exact get_mid ..
        rw [List.getElem?_drop] at hb2
        by_cases hne : s.firstUnused + b'.length = c.idx
        · omega
        · have := s2 _ (getElem?_drop_of_le (other _ _ hne hb2) (by omega))
          simp [counted] at this
      intro f hf
      rcases List.mem_append.1 hf with hf | hf
      · obtain ⟨i, hi, hfi⟩ := List.mem_iff_getElem.1 hf
        have h1 : ((hit env s.entries c).drop s.firstUnused)[i]? = some f := by rw [r1, List.getElem?_append_left hi, List.getElem?_eq_getElem hi, hfi]
        rw [List.getElem?_drop] at h1
        exact s2 f (getElem?_drop_of_le (other _ _ (by omega) h1) (by omega))
      · obtain ⟨i, hi, hfi⟩ := List.mem_iff_getElem.1 hf
        have h1 : ((hit env s.entries c).drop s.firstUnused)[b'.length + (i + 1)]? = some f := by
          rw [r1, List.getElem?_append_right (by omega), Nat.add_sub_cancel_left, List.getElem?_cons_succ, List.getElem?_eq_getElem hi, hfi]
        rw [List.getElem?_drop] at h1
        exact s2 f (getElem?_drop_of_le (other _ _ (by omega) h1) (by omega))
    refine ⟨⟨?_, ?_, ?_⟩, ?_, lastOk⟩
    · rw [entE, fuE, r3, e2, List.take_left' tl]
      intro f hf
      rcases List.mem_append.1 hf with hf | hf
      · exact s1 f hf
      · rw [List.mem_singleton.1 hf]; simp [counted]
    · rw [entE, fuE, r3, e2, List.drop_left' tl]
      exact zero
    · rw [entE, fuE, r3, e2, List.drop_left' tl]
      refine List.Sublist.trans ?_ s3
      rw [tmap, List.map_append]
      exact List.Sublist.append_left (List.sublist_cons_self ..) _
    · rw [entE, fuE, r3, e2, List.length_append, tl]; omega

end Verif.Detector
