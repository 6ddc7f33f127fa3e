import Verif.Model.Regex

/-! # Lemmas about matching -/

namespace Verif.Regex

/-- Repetition of a class, by recursion over the text. -/
def starc (p : Char → Bool) (k : Cont) : Str → Caps → Option Res
  | [], c => k [] c
  | x :: xs, c =>
    if p x then
      match starc p k xs c with
      | some r => some r
      | none => k (x :: xs) c
    else k (x :: xs) c

theorem iter_cls (p : Char → Bool) (k : Cont) : ∀ (n : Nat) (s : Str) (c : Caps), s.length ≤ n → iter (Re.cls p).run n s c k = starc p k s c := by
  intro n
  induction n with
  | zero => intro s c h; cases s with
    | nil => rfl
    | cons x xs => simp at h
  | succ n ih =>
    intro s c h
    cases s with
    | nil => simp [iter, Re.run, starc]
    | cons x xs =>
      simp only [iter, Re.run, starc]
      cases hp : p x with
      | true => rw [if_pos rfl, if_pos rfl, if_pos (by simp), ih xs c (by simpa using h)]; cases starc p k xs c <;> rfl
      | false => rfl

theorem run_starc (p : Char → Bool) (s : Str) (c : Caps) (k : Cont) : (Re.star (.cls p)).run s c k = starc p k s c := by
  unfold Re.run; exact iter_cls p k _ s c (Nat.le_refl _)

theorem starc_det {p : Char → Bool} {k : Cont} (h : ∀ x xs c, p x = true → k (x :: xs) c = none) : ∀ (a w : Str) (c : Caps), (∀ x ∈ a, p x = true) →
    (∀ x xs, w = x :: xs → p x = false) → starc p k (a ++ w) c = k w c := by
  intro a w c ha hw
  induction a with
  | nil =>
    cases w with
    | nil => rfl
    | cons x xs => simp [starc, hw x xs rfl]
  | cons x a ih =>
    rw [List.cons_append, starc, if_pos (ha x (by simp)), ih (fun y hy => ha y (by simp [hy])), h x _ _ (ha x (by simp))]
    cases k w c <;> rfl

theorem starc_first {p : Char → Bool} {k : Cont} {r : Res} : ∀ (a w : Str) (c : Caps), (∀ x ∈ a, p x = true) →
    starc p k w c = some r → starc p k (a ++ w) c = some r := by
  intro a w c ha h
  induction a with
  | nil => exact h
  | cons x a ih => rw [List.cons_append, starc, if_pos (ha x (by simp)), ih (fun y hy => ha y (by simp [hy]))]

theorem starc_stop {p : Char → Bool} {k : Cont} {w : Str} {c : Caps} (hw : ∀ x xs, w = x :: xs → p x = false) : starc p k w c = k w c := by
  cases w with
  | nil => rfl
  | cons x xs => rw [starc, if_neg (by simp [hw x xs rfl])]

theorem starc_none {p : Char → Bool} {k : Cont} {c : Caps} : ∀ (s : Str), (∀ a w, s = a ++ w → k w c = none) → starc p k s c = none := by
  intro s
  induction s with
  | nil => intro h; exact h [] [] rfl
  | cons x xs ih =>
    intro h
    rw [starc]
    split
    · rw [ih (fun a w e => h (x :: a) w (by rw [e]; rfl))]
      exact h [] _ rfl
    · exact h [] _ rfl

theorem starc_none' {p : Char → Bool} {k : Cont} {c : Caps} {w : Str} (hw : ∀ x xs, w = x :: xs → p x = false) :
    ∀ (s : Str), (∀ a b, s = a ++ b → k (b ++ w) c = none) → starc p k (s ++ w) c = none := by
  intro s
  induction s with
  | nil => intro h; rw [List.nil_append, starc_stop hw]; exact h [] [] rfl
  | cons x xs ih =>
    intro h
    rw [List.cons_append, starc]
    split
    · rw [ih (fun a w e => h (x :: a) w (by rw [e]; rfl))]
      exact h [] _ rfl
    · exact h [] _ rfl

theorem take_sub (a w : Str) : (a ++ w).take ((a ++ w).length - w.length) = a := by
  rw [List.length_append, Nat.add_sub_cancel, List.take_left]

theorem plus_cons (p : Char → Bool) (x : Char) (xs : Str) (c : Caps) (k : Cont) : (plus (.cls p)).run (x :: xs) c k = if p x = true then starc p k xs c else none := by
  simp only [plus, Re.run]
  split
  · exact run_starc p xs c k
  · rfl

theorem plus_nil (p : Char → Bool) (c : Caps) (k : Cont) : (plus (.cls p)).run [] c k = none := rfl

theorem chr_cons (x y : Char) (s : Str) (c : Caps) (k : Cont) : (chr x).run (y :: s) c k = if y = x then k s c else none := by
  simp [chr, Re.run]

theorem chr_self (x : Char) (s : Str) (c : Caps) (k : Cont) : (chr x).run (x :: s) c k = k s c := by simp [chr_cons]

theorem chr_nil (x : Char) (c : Caps) (k : Cont) : (chr x).run [] c k = none := rfl

theorem chr_none {x : Char} {s : Str} {c : Caps} {k : Cont} (h : ∀ t, s ≠ x :: t) : (chr x).run s c k = none := by
  cases s with
  | nil => rfl
  | cons y s => rw [chr_cons, if_neg]; rintro rfl; exact h s rfl

/-- A text is split where a class of characters ends. -/
theorem span (p : Char → Bool) (s : Str) : ∃ a w, s = a ++ w ∧ (∀ x ∈ a, p x = true) ∧ ∀ x xs, w = x :: xs → p x = false := by
  refine ⟨s.takeWhile p, s.dropWhile p, List.takeWhile_append_dropWhile.symm, fun x hx => List.all_eq_true.1 List.all_takeWhile x hx, ?_⟩
  intro x xs e
  cases h : p x with
  | false => rfl
  | true =>
    have := List.head?_dropWhile_not p s
    rw [e] at this
    simp [h] at this

/-- The match goes on at some later position. -/
theorem run_suffix : ∀ (r : Re) (s : Str) (c : Caps) (k : Cont) (res : Res), r.run s c k = some res → ∃ a u c', s = a ++ u ∧ k u c' = some res := by
  intro r
  induction r with
  | cls p =>
    intro s c k res h
    cases s with
    | nil => cases h
    | cons x s =>
      rw [Re.run] at h
      split at h
      · exact ⟨[x], s, c, rfl, h⟩
      · cases h
  | seq a b iha ihb =>
    intro s c k res h
    rw [Re.run] at h
    obtain ⟨a1, u, c', rfl, h1⟩ := iha _ _ _ _ h
    obtain ⟨a2, u, c', rfl, h2⟩ := ihb _ _ _ _ h1
    exact ⟨a1 ++ a2, u, c', by simp, h2⟩
  | alt a b iha ihb =>
    intro s c k res h
    rw [Re.run] at h
    split at h
    · rename_i he; cases h; exact iha _ _ _ _ he
    · exact ihb _ _ _ _ h
  | star r ih =>
    intro s c k res h
    rw [Re.run] at h
    have key : ∀ n s c, iter r.run n s c k = some res → ∃ a u c', s = a ++ u ∧ k u c' = some res := by
      intro n
      induction n with
      | zero => intro s c h; exact ⟨[], s, c, rfl, h⟩
      | succ n ihn =>
        intro s c h
        rw [iter] at h
        split at h
        · rename_i he
          cases h
          obtain ⟨a, u, c', rfl, h1⟩ := ih _ _ _ _ he
          split at h1
          · obtain ⟨a2, u, c', rfl, h2⟩ := ihn _ _ h1
            exact ⟨a ++ a2, u, c', by simp, h2⟩
          · cases h1
        · exact ⟨[], s, c, rfl, h⟩
    exact key _ _ _ h
  | opt r ih =>
    intro s c k res h
    rw [Re.run] at h
    split at h
    · rename_i he; cases h; exact ih _ _ _ _ he
    · exact ⟨[], s, c, rfl, h⟩
  | cap n r ih =>
    intro s c k res h
    rw [Re.run] at h
    obtain ⟨a, u, c', rfl, h⟩ := ih _ _ _ _ h
    exact ⟨a, u, _, rfl, h⟩
  | eos =>
    intro s c k res h
    rw [Re.run] at h
    split at h
    · exact ⟨[], s, c, rfl, h⟩
    · cases h
  | ahead r ih =>
    intro s c k res h
    rw [Re.run] at h
    split at h
    · exact ⟨[], s, c, rfl, h⟩
    · cases h

theorem run_none {r : Re} {s : Str} {c : Caps} {k : Cont} (h : ∀ a u c', s = a ++ u → k u c' = none) : r.run s c k = none := by
  cases e : r.run s c k with
  | none => rfl
  | some res =>
    obtain ⟨a, u, c', rfl, hk⟩ := run_suffix r s c k res e
    rw [h a u c' rfl] at hk; cases hk

theorem iter_fuel {r : Re} {k : Cont} : ∀ (n : Nat) (s : Str) (c : Caps), s.length ≤ n → iter r.run n s c k = iter r.run s.length s c k := by
  intro n
  induction n using Nat.strongRecOn with
  | ind n ih =>
    intro s c h
    cases n with
    | zero => rw [show s.length = 0 by omega]
    | succ n =>
      cases s with
      | nil =>
        rw [iter, run_none]
        · rfl
        · intro a u c' e
          rw [if_neg]
          simp
      | cons x s =>
        rw [List.length_cons, iter, iter]
        have : (fun (s' : Str) (c' : Caps) => if s'.length < (x :: s).length then iter r.run n s' c' k else none) =
            (fun s' c' => if s'.length < (x :: s).length then iter r.run s.length s' c' k else none) := by
          funext s' c'
          split
          · rename_i hl
            have h1 : s'.length ≤ s.length := by simpa [Nat.lt_succ_iff] using hl
            have h2 : s.length ≤ n := by simpa using h
            rw [ih n (by omega) s' c' (by omega)]
            by_cases hs : s.length < n + 1
            · exact (ih s.length hs s' c' h1).symm
            · omega
          · rfl
        rw [this]

/-- A turn of a repetition, then further turns. -/
theorem star_turn {r : Re} {s : Str} {c : Caps} {k : Cont} {res : Res} (h : r.run s c (fun s' c' => if s'.length < s.length then (Re.star r).run s' c' k else none) = some res) :
    (Re.star r).run s c k = some res := by
  cases s with
  | nil =>
    rw [run_none] at h
    · cases h
    · intro a u c' _
      rw [if_neg]
      simp
  | cons x s =>
    rw [Re.run, List.length_cons, iter]
    have : (fun (s' : Str) (c' : Caps) => if s'.length < (x :: s).length then iter r.run s.length s' c' k else none) =
        (fun s' c' => if s'.length < (x :: s).length then (Re.star r).run s' c' k else none) := by
      funext s' c'
      split
      · rename_i hl
        rw [Re.run, iter_fuel _ _ _ (by simpa [Nat.lt_succ_iff] using hl)]
      · rfl
    rw [this, h]

/-- No further turn. -/
theorem star_stop {r : Re} {s : Str} {c : Caps} {k : Cont} (h : ∀ k, r.run s c k = none) : (Re.star r).run s c k = k s c := by
  rw [Re.run]
  cases s with
  | nil => rfl
  | cons x s => rw [List.length_cons, iter, h]

theorem finditer_nil {r : Re} {n : Nat} {s' : Str} {c : Caps} (h : r.at [] = some (s', c)) : finditer r (n + 1) [] = [([], c)] := by
  unfold finditer; rw [h]

theorem finditer_nil_none {r : Re} {n : Nat} (h : r.at [] = none) : finditer r n [] = [] := by
  cases n with
  | zero => rfl
  | succ n => unfold finditer; rw [h]

theorem finditer_cons {r : Re} {n : Nat} {s s' : Str} {c : Caps} (h : r.at s = some (s', c)) (hl : s'.length < s.length) :
    finditer r (n + 1) s = (s.take (s.length - s'.length), c) :: finditer r n s' := by
  cases s with
  | nil => cases hl
  | cons x t => conv => lhs; unfold finditer; rw [h]
                simp only [if_pos hl]

theorem finditer_skip {r : Re} {n : Nat} {x : Char} {t : Str} (h : r.at (x :: t) = none) : finditer r (n + 1) (x :: t) = finditer r n t := by
  conv => lhs; unfold finditer; rw [h]

theorem finditer_fuel (r : Re) : ∀ (n m : Nat) (s : Str), s.length < n → s.length < m → finditer r n s = finditer r m s := by
  intro n
  induction n with
  | zero => intro m s h; cases h
  | succ n ih =>
    intro m s hn hm
    cases m with
    | zero => cases hm
    | succ m =>
      cases s with
      | nil =>
        cases e : r.at [] with
        | none => rw [finditer_nil_none e, finditer_nil_none e]
        | some x => obtain ⟨s', c⟩ := x; rw [finditer_nil e, finditer_nil e]
      | cons x s =>
        have e1 := ih m s (by simpa using hn) (by simpa using hm)
        cases e : r.at (x :: s) with
        | none => rw [finditer_skip e, finditer_skip e, e1]
        | some y =>
          obtain ⟨s', c⟩ := y
          unfold finditer
          rw [e]
          simp only
          split
          · rename_i hl
            rw [ih m s' (by omega) (by omega)]
          · rw [e1]

end Verif.Regex
