import Verif.Spec.LogFile
import Verif.Lemmas.Database

/-! # Lemmas about reading of log files -/

namespace Verif

open Spec.LogFile

theorem rawLine_append (b : Bytes) : ∃ r, b = rawLine b ++ r := by
  induction b with
  | nil => exact ⟨[], rfl⟩
  | cons a b ih =>
    unfold rawLine
    split
    · exact ⟨b, rfl⟩
    · obtain ⟨r, hr⟩ := ih
      exact ⟨r, by rw [List.cons_append, ← hr]⟩

theorem rawLine_eq_nil (b : Bytes) : rawLine b = [] ↔ b = [] := by
  cases b with
  | nil => simp [rawLine]
  | cons a b => unfold rawLine; split <;> simp

/-- What a raw line is: a complete line, or all that is left if there is no line feed. -/
theorem rawLine_cases (b : Bytes) : IsLine (rawLine b) ∨ 10 ∉ b ∧ rawLine b = b := by
  induction b with
  | nil => right; simp [rawLine]
  | cons a b ih =>
    unfold rawLine
    by_cases h : a = 10
    · left; rw [if_pos h, h]; exact ⟨[], rfl, by simp⟩
    · rw [if_neg h]
      rcases ih with ⟨x, h1, h2⟩ | ⟨h1, h2⟩
      · left; exact ⟨a :: x, by rw [h1]; rfl, by simp only [List.mem_cons, not_or]; exact ⟨fun e => h e.symm, h2⟩⟩
      · right; exact ⟨by simp only [List.mem_cons, not_or]; exact ⟨fun e => h e.symm, h1⟩, by rw [h2]⟩

theorem rawLine_of_line {l r : Bytes} (h : IsLine l) : rawLine (l ++ r) = l := by
  obtain ⟨x, h1, h2⟩ := h
  subst h1
  induction x with
  | nil => rfl
  | cons a x ih =>
    have ha : a ≠ 10 := fun e => h2 (by rw [e]; exact List.mem_cons_self ..)
    show rawLine (a :: (x ++ [10] ++ r)) = _
    unfold rawLine
    rw [if_neg ha]
    have := ih (fun h => h2 (List.mem_cons_of_mem _ h))
    rw [this]
    rfl

theorem dropWhile_split {α : Type} (p : α → Bool) (l : List α) :
    ∃ a, l = a ++ l.dropWhile p ∧ (∀ x ∈ a, p x = true) ∧ ∀ x, (l.dropWhile p).head? = some x → p x = false := by
  induction l with
  | nil => exact ⟨[], rfl, by simp, by simp⟩
  | cons y l ih =>
    rw [List.dropWhile_cons]
    by_cases h : p y = true
    · rw [if_pos h]
      obtain ⟨a, h1, h2, h3⟩ := ih
      refine ⟨y :: a, by rw [List.cons_append, ← h1], ?_, h3⟩
      intro x hx
      rcases List.mem_cons.1 hx with e | e
      · rw [e]; exact h
      · exact h2 x e
    · rw [if_neg h]
      refine ⟨[], rfl, by simp, ?_⟩
      intro x hx
      simp at hx
      rw [← hx]
      simpa using h

/-- `rstripNL` removes carriage returns and line feeds at the end. -/
theorem rstripNL_spec (r : List Char) : ∃ e, r = rstripNL r ++ e ∧ (∀ ch ∈ e, ch = '\r' ∨ ch = '\n') ∧
    (rstripNL r).getLast? ≠ some '\r' ∧ (rstripNL r).getLast? ≠ some '\n' := by
  unfold rstripNL
  obtain ⟨a, h1, h2, h3⟩ := dropWhile_split (fun c => decide (c = '\r') || decide (c = '\n')) r.reverse
  refine ⟨a.reverse, ?_, ?_, ?_, ?_⟩
  · have := congrArg List.reverse h1
    rw [List.reverse_reverse, List.reverse_append] at this
    exact this
  · intro ch hch
    have := h2 ch (List.mem_reverse.1 hch)
    simpa using this
  · intro h
    rw [List.getLast?_reverse] at h
    have := h3 _ h
    simp at this
  · intro h
    rw [List.getLast?_reverse] at h
    have := h3 _ h
    simp at this

theorem rstripNL_eq_self (r : List Char) : rstripNL r = r ↔ r.getLast? ≠ some '\r' ∧ r.getLast? ≠ some '\n' := by
  obtain ⟨e, h1, h2, h3, h4⟩ := rstripNL_spec r
  constructor
  · intro h; rw [h] at h3 h4; exact ⟨h3, h4⟩
  · intro ⟨h5, h6⟩
    rcases List.eq_nil_or_concat e with he | ⟨e', x, he⟩
    · rw [he, List.append_nil] at h1; exact h1.symm
    · exfalso
      rw [List.concat_eq_append] at he
      have hl : r.getLast? = some x := by rw [h1, he, ← List.append_assoc]; simp
      rcases h2 x (by rw [he]; simp) with e | e
      · exact h5 (by rw [hl, e])
      · exact h6 (by rw [hl, e])

theorem rstripNLBytes_eq_self (r : Bytes) : rstripNLBytes r = r ↔ r.getLast? ≠ some 13 ∧ r.getLast? ≠ some 10 := by
  unfold rstripNLBytes
  obtain ⟨a, h1, h2, h3⟩ := dropWhile_split (fun c : UInt8 => decide (c = 13) || decide (c = 10)) r.reverse
  constructor
  · intro h
    have h' := congrArg List.reverse h
    rw [List.reverse_reverse] at h'
    rw [h'] at h3
    constructor
    · intro e; have := h3 13 (by rw [List.head?_reverse]; exact e); simp at this
    · intro e; have := h3 10 (by rw [List.head?_reverse]; exact e); simp at this
  · intro ⟨h5, h6⟩
    cases a with
    | nil => rw [List.nil_append] at h1; rw [← h1, List.reverse_reverse]
    | cons x a =>
      exfalso
      have hl : r.getLast? = some x := by rw [← List.head?_reverse, h1]; rfl
      have := h2 x (List.mem_cons_self ..)
      simp at this
      rcases this with e | e
      · exact h5 (by rw [hl, e])
      · exact h6 (by rw [hl, e])

/-- Decoding of a line with ASCII line ends. -/
theorem decodeLine_spec {c : Codec} (hc : AsciiEnds c) (b : Bytes) : Decoded c b (decodeLine c b) ∧
    ((decodeLine c b).getLast? = some '\n' ↔ b.getLast? = some 10) ∧ ((decodeLine c b).getLast? = some '\r' ↔ b.getLast? = some 13) := by
  unfold decodeLine
  cases h : c.strict b with
  | ok r => exact ⟨.inl h, hc.strict_ends b r h⟩
  | error e =>
    obtain ⟨i, j⟩ := e
    obtain ⟨h1, h2⟩ := hc.strict_error b i j h
    dsimp only
    rw [if_neg (by intro hh; rcases hh.2 with h | h; exact h1 h; exact h2 h)]
    exact ⟨.inr ⟨⟨_, h⟩, rfl⟩, hc.replace_ends b⟩

namespace FileContainer

theorem readline_some {c : Codec} (hc : AsciiEnds c) (data : Bytes) (pos p' : Nat) (t : List Char) (h : readline c true data pos = (some t, p')) :
    ∃ b r, data.drop pos = b ++ r ∧ p' = pos + b.length ∧ p' ≤ data.length ∧ IsText c b t ∧
      (IsLine b ∨ 10 ∉ b ∧ b.getLast? = some 13 ∧ r = []) := by
  unfold readline at h
  dsimp only at h
  by_cases h0 : rawLine (data.drop pos) = []
  · rw [if_pos h0] at h; cases h
  rw [if_neg h0] at h
  obtain ⟨r, hr⟩ := rawLine_append (data.drop pos)
  obtain ⟨d1, d2, d3⟩ := decodeLine_spec hc (rawLine (data.drop pos))
  by_cases hs : rstripNL (decodeLine c (rawLine (data.drop pos))) = decodeLine c (rawLine (data.drop pos))
  · -- not complete: nothing is left after it, and the reader waits
    exfalso
    rw [if_pos hs] at h
    rw [rstripNL_eq_self, Ne, Ne, d2, d3] at hs
    rcases rawLine_cases (data.drop pos) with ⟨x, h1, h2⟩ | ⟨h1, h2⟩
    · rw [h1] at hs; simp at hs
    · have hd : data.length ≠ 0 := by
        intro e
        apply h0
        rw [rawLine_eq_nil]
        apply List.eq_nil_of_length_eq_zero
        rw [List.length_drop]
        omega
      obtain ⟨n, hn⟩ := Nat.exists_eq_succ_of_ne_zero hd
      rw [hn, h2] at h
      unfold fill at h
      dsimp only at h
      have e0 : rawLine (data.drop (pos + (data.drop pos).length)) = [] := by
        rw [rawLine_eq_nil]
        apply List.eq_nil_of_length_eq_zero
        rw [List.length_drop, List.length_drop]
        omega
      rw [if_pos e0] at h
      simp at h
  · rw [if_neg hs] at h
    simp only [Prod.mk.injEq, Option.some.injEq] at h
    obtain ⟨h1, h2⟩ := h
    obtain ⟨e, s1, s2, s3, s4⟩ := rstripNL_spec (decodeLine c (rawLine (data.drop pos)))
    refine ⟨rawLine (data.drop pos), r, hr, h2.symm, ?_, ⟨e, ?_, s2, ?_, ?_⟩, ?_⟩
    · have := congrArg List.length hr
      rw [List.length_append, List.length_drop] at this
      have hne : 0 < (rawLine (data.drop pos)).length := List.length_pos_iff.2 h0
      omega
    · rw [← h1, ← s1]; exact d1
    · rw [← h1]; exact s3
    · rw [← h1]; exact s4
    · rcases rawLine_cases (data.drop pos) with hl | ⟨hl1, hl2⟩
      · exact .inl hl
      · right
        rw [rstripNL_eq_self, Ne, Ne, d2, d3] at hs
        have h10 : (rawLine (data.drop pos)).getLast? ≠ some 10 := by
          intro e
          rw [hl2] at e
          exact hl1 (List.mem_of_getLast? e)
        refine ⟨by rw [hl2]; exact hl1, ?_, ?_⟩
        · apply Classical.byContradiction; intro h13; exact hs ⟨h13, h10⟩
        · rw [hl2] at hr
          have := congrArg List.length hr
          rw [List.length_append] at this
          exact List.eq_nil_of_length_eq_zero (by omega)

theorem readline_none {c : Codec} (hc : AsciiEnds c) (data : Bytes) (pos p' : Nat) (h : readline c true data pos = (none, p')) :
    p' = pos ∧ 10 ∉ data.drop pos := by
  unfold readline at h
  dsimp only at h
  by_cases h0 : rawLine (data.drop pos) = []
  · rw [if_pos h0] at h
    rw [rawLine_eq_nil] at h0
    simp only [Prod.mk.injEq, true_and] at h
    exact ⟨h.symm, by rw [h0]; simp⟩
  rw [if_neg h0] at h
  obtain ⟨d1, d2, d3⟩ := decodeLine_spec hc (rawLine (data.drop pos))
  by_cases hs : rstripNL (decodeLine c (rawLine (data.drop pos))) = decodeLine c (rawLine (data.drop pos))
  · rw [if_pos hs] at h
    rw [rstripNL_eq_self, Ne, Ne, d2, d3] at hs
    rcases rawLine_cases (data.drop pos) with ⟨x, h1, h2⟩ | ⟨h1, h2⟩
    · rw [h1] at hs; simp at hs
    · refine ⟨?_, h1⟩
      rw [h2] at h
      have key : ∀ n, fill c true data pos (data.drop pos) (rstripNL (decodeLine c (data.drop pos))) n = (none, pos) := by
        intro n
        cases n with
        | zero => rfl
        | succ n =>
          unfold fill
          dsimp only
          have e0 : rawLine (data.drop (pos + (data.drop pos).length)) = [] := by
            rw [rawLine_eq_nil]
            apply List.eq_nil_of_length_eq_zero
            rw [List.length_drop, List.length_drop]
            omega
          rw [if_pos e0]
          rfl
      rw [key] at h
      simp only [Prod.mk.injEq, true_and] at h
      exact h.symm
  · rw [if_neg hs] at h; simp at h

/-- If there is a complete line, it is returned. -/
theorem readline_line {c : Codec} (hc : AsciiEnds c) (data : Bytes) (pos : Nat) (l r : Bytes) (hl : IsLine l) (h : data.drop pos = l ++ r) :
    ∃ t, readline c true data pos = (some t, pos + l.length) ∧ IsText c l t := by
  rcases hx : readline c true data pos with ⟨_ | t, p'⟩
  · obtain ⟨_, h2⟩ := readline_none hc data pos p' hx
    exfalso
    apply h2
    rw [h]
    obtain ⟨x, h3, _⟩ := hl
    rw [h3]
    simp
  · obtain ⟨b, r', h1, h2, _, h4, h5⟩ := readline_some hc data pos p' t hx
    have hb : b = l := by
      rcases h5 with h5 | ⟨h5, _, h6⟩
      · rw [← rawLine_of_line (r := r') h5, ← h1, h, rawLine_of_line hl]
      · exfalso
        rw [h6, List.append_nil] at h1
        apply h5
        rw [← h1, h]
        obtain ⟨x, h3, _⟩ := hl
        rw [h3]
        simp
    subst hb
    exact ⟨t, by rw [h2], h4⟩

end FileContainer

end Verif
