import Verif.Spec.Framing

namespace Verif.Framing

open Spec.Framing

/-! ## Finding -/

theorem find_some {t l : Bytes} {i : Nat} (h : find t l = some i) : i ≤ l.length ∧ t <+: l.drop i ∧ ∀ j < i, ¬ t <+: l.drop j := by
  induction l generalizing i with
  | nil =>
    simp only [find] at h
    split at h
    · cases h; rename_i e; subst e; exact ⟨Nat.le_refl _, by simp, fun j hj => absurd hj (Nat.not_lt_zero _)⟩
    · cases h
  | cons a l ih =>
    simp only [find] at h
    split at h
    · rename_i e
      cases h
      exact ⟨Nat.zero_le _, by simpa using e, fun j hj => absurd hj (Nat.not_lt_zero _)⟩
    · rename_i e
      rw [Option.map_eq_some_iff] at h
      obtain ⟨k, hk, rfl⟩ := h
      obtain ⟨h1, h2, h3⟩ := ih hk
      refine ⟨by simp; omega, by simpa using h2, ?_⟩
      intro j hj
      cases j with
      | zero => simpa using e
      | succ j => simpa using h3 j (by omega)

theorem find_none {t l : Bytes} (h : find t l = none) : ∀ j, j ≤ l.length → ¬ t <+: l.drop j := by
  induction l with
  | nil =>
    simp only [find] at h
    split at h
    · cases h
    · rename_i e
      intro j _ hp
      simp at hp
      exact e hp
  | cons a l ih =>
    simp only [find] at h
    split at h
    · cases h
    · rename_i e
      rw [Option.map_eq_none_iff] at h
      intro j hj
      cases j with
      | zero => simpa using e
      | succ j => simpa using ih h j (by simpa using hj)

theorem infix_iff_drop {t l : Bytes} : t <:+: l ↔ ∃ j, j ≤ l.length ∧ t <+: l.drop j := by
  constructor
  · rintro ⟨p, q, rfl⟩
    refine ⟨p.length, by simp, ?_⟩
    rw [List.append_assoc, List.drop_left]
    exact List.prefix_append t q
  · rintro ⟨j, _, q, hq⟩
    exact ⟨l.take j, q, by rw [List.append_assoc, hq, List.take_append_drop]⟩

theorem find_none_iff {t l : Bytes} : find t l = none ↔ ¬ t <:+: l := by
  constructor
  · intro h hi
    obtain ⟨j, hj, hp⟩ := infix_iff_drop.1 hi
    exact find_none h j hj hp
  · intro h
    cases hf : find t l with
    | none => rfl
    | some i =>
      obtain ⟨h1, h2, _⟩ := find_some hf
      exact absurd (infix_iff_drop.2 ⟨i, h1, h2⟩) h

/-- `find` at the first occurrence, in terms of appending -/
theorem find_split {t l : Bytes} {i : Nat} (h : find t l = some i) :
    l = l.take i ++ t ++ l.drop (i + t.length) ∧ ∀ p q, l = p ++ t ++ q → i ≤ p.length := by
  obtain ⟨h1, ⟨q, hq⟩, h3⟩ := find_some h
  constructor
  · have : l.drop (i + t.length) = q := by
      rw [← List.drop_drop, ← hq, List.drop_left]
    rw [this, List.append_assoc, hq, List.take_append_drop]
  · intro p q hpq
    apply Classical.byContradiction
    intro hlt
    refine h3 p.length (by omega) ?_
    rw [hpq, List.append_assoc, List.drop_left]
    exact List.prefix_append t q

/-! ## Prefixes of the mark at the end -/

theorem prefixAtEnd_le (hay t : Bytes) (n : Nat) : prefixAtEnd hay t n ≤ n := by
  induction n with
  | zero => exact Nat.le_refl _
  | succ n ih => unfold prefixAtEnd; split <;> omega

theorem prefixAtEnd_suffix (hay t : Bytes) (n : Nat) : t.take (prefixAtEnd hay t n) <:+ hay := by
  induction n with
  | zero => simp [prefixAtEnd]
  | succ n ih =>
    unfold prefixAtEnd
    split
    · rename_i e; simpa using e
    · exact ih

theorem prefixAtEnd_longest (hay t : Bytes) (n k : Nat) (hk : prefixAtEnd hay t n < k) (hn : k ≤ n) : ¬ t.take k <:+ hay := by
  induction n with
  | zero => omega
  | succ n ih =>
    unfold prefixAtEnd at hk
    split at hk
    · omega
    · rename_i e
      by_cases h : k = n + 1
      · subst h; simpa using e
      · exact ih hk (by omega)

/-! ## Frames -/

theorem frames_append {t x y r r' : Bytes} {ms ms' : List Bytes} (h : Frames t x ms r) (h' : Frames t (r ++ y) ms' r') : Frames t (x ++ y) (ms ++ ms') r' := by
  induction h with
  | rest r _ => exact h'
  | message m b ms r he _ ih =>
    have := Frames.message m (b ++ y) (ms ++ ms') r' he (ih h')
    simpa [List.append_assoc] using this

theorem frames_rest {t x r : Bytes} {ms : List Bytes} (h : Frames t x ms r) : ¬ t <:+: r := by
  induction h with
  | rest r h => exact h
  | message _ _ _ _ _ _ ih => exact ih

theorem ends_unique {t m m' b b' : Bytes} (h : Ends t m) (h' : Ends t m') (heq : m ++ t ++ b = m' ++ t ++ b') : m = m' ∧ b = b' := by
  have key : ∀ m m' b b' : Bytes, Ends t m' → m ++ t ++ b = m' ++ t ++ b' → m.length ≤ m'.length → m = m' ∧ b = b' := by
    intro m m' b b' h' heq hl
    have hp : m ++ t <+: m' ++ t := by
      have h1 : m ++ t <+: m' ++ t ++ b' := ⟨b, heq⟩
      have h2 : m' ++ t <+: m' ++ t ++ b' := ⟨b', rfl⟩
      exact List.prefix_of_prefix_length_le h1 h2 (by simp; omega)
    obtain ⟨q, hq⟩ := hp
    have := h' m q hq.symm
    subst this
    rw [List.append_nil] at hq
    have hm := List.append_cancel_right hq
    subst hm
    exact ⟨rfl, List.append_cancel_left heq⟩
  rcases Nat.le_total m.length m'.length with hl | hl
  · exact key m m' b b' h' heq hl
  · obtain ⟨h1, h2⟩ := key m' m b' b h heq.symm hl
    exact ⟨h1.symm, h2.symm⟩

theorem frames_unique {t x r r' : Bytes} {ms ms' : List Bytes} (h : Frames t x ms r) (h' : Frames t x ms' r') : ms = ms' ∧ r = r' := by
  induction h generalizing ms' with
  | rest r hr =>
    cases h' with
    | rest => exact ⟨rfl, rfl⟩
    | message m b ms r he hf => exact absurd ⟨m, b, rfl⟩ hr
  | message m b ms r he hf ih =>
    generalize hx : m ++ t ++ b = x at h'
    cases h' with
    | rest r hr => exact absurd ⟨m, b, hx⟩ hr
    | message m' b' ms' r' he' hf' =>
      obtain ⟨rfl, rfl⟩ := ends_unique he he' hx
      obtain ⟨rfl, rfl⟩ := ih hf'
      exact ⟨rfl, rfl⟩

/-! ## Reading -/

/-- No mark begins in what was collected, whatever comes. -/
def Safe (t c b : Bytes) : Prop := ∀ x p q, c ++ b ++ x = p ++ t ++ q → c.length ≤ p.length

theorem safe_nil (t b : Bytes) : Safe t [] b := fun _ _ _ _ => Nat.zero_le _

theorem Safe.more {t c b : Bytes} (h : Safe t c b) (x : Bytes) : Safe t c (b ++ x) := by
  intro y p q hpq
  exact h (x ++ y) p q (by rw [← hpq]; simp)

/-- collecting all but a prefix of the mark -/
theorem Safe.collect {t c b : Bytes} (ht : t ≠ []) (h : Safe t c b) (hf : find t b = none) :
    Safe t (c ++ b.take (b.length - prefixAtEnd b t (t.length - 1))) (b.drop (b.length - prefixAtEnd b t (t.length - 1))) ∧ ¬ t <:+: c ++ b := by
  have hlen : 0 < t.length := List.length_pos_iff.2 ht
  have hno : ¬ t <:+: c ++ b := by
    rintro ⟨p, q, hpq⟩
    have h1 := h [] p q (by rw [List.append_nil, hpq])
    apply find_none_iff.1 hf
    have h2 : p = c ++ p.drop c.length := by
      have : c <+: p := List.prefix_of_prefix_length_le (l₃ := c ++ b) ⟨b, rfl⟩ ⟨t ++ q, by rw [← List.append_assoc, hpq]⟩ h1
      obtain ⟨r, rfl⟩ := this
      simp
    rw [h2] at hpq
    refine ⟨p.drop c.length, q, ?_⟩
    simp only [List.append_assoc] at hpq
    simpa using List.append_cancel_left hpq
  refine ⟨?_, hno⟩
  intro x p q hpq
  rw [List.append_assoc c, List.take_append_drop] at hpq
  have h1 := h x p q hpq
  apply Classical.byContradiction
  intro hlt
  rw [List.length_append, List.length_take] at hlt
  generalize hl : prefixAtEnd b t (t.length - 1) = l at *
  have hll : l ≤ t.length - 1 := by rw [← hl]; exact prefixAtEnd_le ..
  have hlb : l ≤ b.length := by
    have := (prefixAtEnd_suffix b t (t.length - 1)).length_le
    rw [hl, List.length_take] at this
    omega
  -- the occurrence begins in `b`
  have h2 : p = c ++ p.drop c.length := by
    have : c <+: p := List.prefix_of_prefix_length_le (l₃ := c ++ b ++ x) ⟨b ++ x, by rw [List.append_assoc]⟩ ⟨t ++ q, by rw [← List.append_assoc, hpq]⟩ h1
    obtain ⟨r, rfl⟩ := this
    simp
  generalize p.drop c.length = p' at h2
  subst h2
  rw [List.length_append] at hlt
  have hp' : p'.length < b.length - l := by omega
  have h3 : b ++ x = p' ++ t ++ q := by
    simp only [List.append_assoc] at hpq ⊢
    exact List.append_cancel_left hpq
  by_cases hend : p'.length + t.length ≤ b.length
  · -- it ends in `b`
    have h4 : p' ++ t <+: b :=
      List.prefix_of_prefix_length_le (l₃ := b ++ x) ⟨q, h3.symm⟩ ⟨x, rfl⟩ (by simp; omega)
    obtain ⟨r, hr⟩ := h4
    exact find_none_iff.1 hf ⟨p', r, hr⟩
  · -- it leaves a longer prefix of the mark at the end of `b`
    have h4 : p' <+: b := List.prefix_of_prefix_length_le (l₃ := b ++ x) ⟨t ++ q, by rw [← List.append_assoc, h3]⟩ ⟨x, rfl⟩ (by omega)
    obtain ⟨r, rfl⟩ := h4
    rw [List.append_assoc, List.append_assoc] at h3
    have h5 := List.append_cancel_left h3
    have h6 : r <+: t := List.prefix_of_prefix_length_le (l₃ := r ++ x) ⟨x, rfl⟩ ⟨q, h5.symm⟩ (by simp at hend; omega)
    have h7 : t.take r.length = r := by
      obtain ⟨w, rfl⟩ := h6
      simp
    refine prefixAtEnd_longest (p' ++ r) t (t.length - 1) r.length ?_ ?_ ?_
    · rw [hl]; simp at hp'; omega
    · simp at hend; omega
    · rw [h7]; exact List.suffix_append p' r

/-- The loop of `handle_read`. -/
theorem scan_frames {t : Bytes} (ht : t ≠ []) (n : Nat) {c : Input} (hn : c.inBuf.length ≤ n) (h : Safe t c.collected c.inBuf) (hc : c.inBuf = [] → ¬ t <:+: c.collected) :
    Frames t (c.collected ++ c.inBuf) (scan t n c).1 ((scan t n c).2.collected ++ (scan t n c).2.inBuf) ∧ Safe t (scan t n c).2.collected (scan t n c).2.inBuf := by
  induction n generalizing c with
  | zero =>
    have h0 : c.inBuf = [] := List.length_eq_zero_iff.1 (by omega)
    simp only [scan]
    rw [h0, List.append_nil]
    exact ⟨.rest _ (hc h0), by rw [← h0]; exact h⟩
  | succ n ih =>
    unfold scan
    split
    · rename_i h0
      rw [h0, List.append_nil]
      exact ⟨.rest _ (hc h0), by rw [← h0]; exact h⟩
    · rename_i h0
      split
      · rename_i i hi
        dsimp only
        obtain ⟨h1, h2⟩ := find_split hi
        have hlt : 0 < t.length := List.length_pos_iff.2 ht
        obtain ⟨h3, h4⟩ := ih (c := ⟨c.inBuf.drop (i + t.length), []⟩) (by simp; omega) (safe_nil t _) (fun _ hi => by
          obtain ⟨p, q, hpq⟩ := hi
          simp at hpq
          exact ht hpq.2.1)
        refine ⟨?_, h4⟩
        have h5 : c.collected ++ c.inBuf = (c.collected ++ c.inBuf.take i) ++ t ++ c.inBuf.drop (i + t.length) := by
          conv => lhs; rw [h1]
          simp only [List.append_assoc]
        rw [h5]
        refine Frames.message _ _ _ _ ?_ (by simpa using h3)
        intro p q hpq
        have h6 : c.collected ++ c.inBuf ++ [] = p ++ t ++ (q ++ c.inBuf.drop (i + t.length)) := by
          rw [List.append_nil, h5, hpq]; simp
        have h7 := h [] p _ h6
        rw [List.append_nil] at h6
        have h8 : p = c.collected ++ p.drop c.collected.length := by
          have : c.collected <+: p := List.prefix_of_prefix_length_le (l₃ := c.collected ++ c.inBuf) ⟨c.inBuf, rfl⟩
            ⟨t ++ (q ++ c.inBuf.drop (i + t.length)), by rw [← List.append_assoc, h6]⟩ h7
          obtain ⟨r, hr⟩ := this
          rw [← hr]; simp
        rw [h8] at h6
        simp only [List.append_assoc] at h6
        have h9 := h2 _ (q ++ c.inBuf.drop (i + t.length)) (by rw [List.append_assoc]; exact List.append_cancel_left h6)
        have h10 := congrArg List.length hpq
        have h11 := congrArg List.length h8
        have hi' := (find_some hi).1
        simp only [List.length_append, List.length_take] at h10 h11
        apply List.length_eq_zero_iff.1
        omega
      · rename_i hf
        dsimp only
        obtain ⟨h1, h2⟩ := h.collect ht hf
        split
        · split
          · refine ⟨?_, h1⟩
            dsimp only
            rw [List.append_assoc, List.take_append_drop]
            exact .rest _ h2
          · exact ⟨.rest _ h2, h⟩
        · rename_i hz
          have hz : prefixAtEnd c.inBuf t (t.length - 1) = 0 := by simpa using hz
          rw [hz, Nat.sub_zero, List.take_length, List.drop_length] at h1
          have := ih (c := ⟨[], c.collected ++ c.inBuf⟩) (by simp) h1 (fun _ => h2)
          simpa using this

/-- `handle_read` and what is pending. -/
theorem read_frames {t : Bytes} (ht : t ≠ []) {c : Input} (h : Safe t c.collected c.inBuf) (hno : ¬ t <:+: c.collected ++ c.inBuf) (data : Bytes) :
    Frames t (c.collected ++ c.inBuf ++ data) (read t c data).1 ((read t c data).2.collected ++ (read t c data).2.inBuf) ∧
      Safe t (read t c data).2.collected (read t c data).2.inBuf := by
  unfold read
  have := scan_frames ht (c.inBuf ++ data).length (c := ⟨c.inBuf ++ data, c.collected⟩) (Nat.le_refl _) (h.more data) (by
    intro he hi
    simp at he
    apply hno
    rw [he.1, List.append_nil]; exact hi)
  simpa [List.append_assoc] using this

end Verif.Framing
