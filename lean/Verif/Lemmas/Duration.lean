import Verif.Spec.Duration

/-! # Lemmas about the rewriting of durations -/

namespace Verif.Duration

open DurationSpec

theorem letter_not_digit {c : Char} (h : isLetter c = true) : isDigit c = false := by
  unfold isLetter at h; unfold isDigit
  simp only [Bool.or_eq_true, Bool.and_eq_true, decide_eq_true_eq] at h
  simp only [Bool.and_eq_false_iff, decide_eq_false_iff_not]
  omega

theorem digit_not_letter {c : Char} (h : isDigit c = true) : isLetter c = false := by
  cases hl : isLetter c with
  | false => rfl
  | true => rw [letter_not_digit hl] at h; cases h

theorem isSpace_iff {c : Char} : isSpace c = true ↔ c = ' ' ∨ c = '\t' ∨ c = '\n' ∨ c = '\r' ∨ c = '\x0b' ∨ c = '\x0c' := by
  unfold isSpace; simp

theorem space_not_word {c : Char} (h : isSpace c = true) : isWord c = false := by
  rw [isSpace_iff] at h
  rcases h with rfl | rfl | rfl | rfl | rfl | rfl <;> decide

theorem digit_not_space {c : Char} (h : isDigit c = true) : isSpace c = false := by
  cases hs : isSpace c with
  | false => rfl
  | true =>
    rw [isSpace_iff] at hs
    rcases hs with rfl | rfl | rfl | rfl | rfl | rfl <;> revert h <;> decide

theorem letter_not_space {c : Char} (h : isLetter c = true) : isSpace c = false := by
  cases hs : isSpace c with
  | false => rfl
  | true => have := space_not_word hs; unfold isWord at this; rw [h] at this; cases this

theorem letter_word {c : Char} (h : isLetter c = true) : isWord c = true := by unfold isWord; rw [h]; rfl

theorem toLower_of_not_letter {c : Char} (h : isLetter c = false) : c.toLower = c := by
  unfold Char.toLower
  have : ¬(c.val ≥ 65 ∧ c.val ≤ 90) := by
    rintro ⟨h1, h2⟩
    have h3 : 65 ≤ c.toNat := h1
    have h4 : c.toNat ≤ 90 := h2
    unfold isLetter at h
    simp only [Bool.or_eq_false_iff, Bool.and_eq_false_iff, decide_eq_false_iff_not] at h
    omega
  exact dif_neg this

/-! ## Space between letters and digits -/

theorem last_or {c : Char} {xs : List Char} {prev : Option Char} : xs.getLast?.or (some c) = (c :: xs).getLast?.or prev := by
  cases hx : xs.getLast? with
  | none => rw [List.getLast?_eq_none_iff] at hx; subst hx; rfl
  | some l => rw [List.getLast?_cons, hx]; rfl

theorem prep_step (prev : Option Char) (c : Char) (cs : List Char) :
    prep prev (c :: cs) = if isDigit c && prev.any isLetter then ' ' :: c :: prep (some c) cs else c :: prep (some c) cs := rfl

theorem prep_nodigit : ∀ (xs : List Char) (prev : Option Char) (rest : List Char), (∀ c ∈ xs, isDigit c = false) →
    prep prev (xs ++ rest) = xs ++ prep (xs.getLast?.or prev) rest := by
  intro xs
  induction xs with
  | nil => intro prev rest _; rfl
  | cons c xs ih =>
    intro prev rest h
    rw [List.cons_append, prep_step, h c (List.mem_cons_self ..)]
    simp only [Bool.false_and, Bool.false_eq_true, if_false, List.cons_append, List.cons.injEq, true_and]
    rw [ih (some c) rest (fun d hd => h d (List.mem_cons_of_mem _ hd)), last_or]

theorem prep_noletter : ∀ (xs : List Char) (prev : Option Char) (rest : List Char), prev.any isLetter = false → (∀ c ∈ xs, isLetter c = false) →
    prep prev (xs ++ rest) = xs ++ prep (xs.getLast?.or prev) rest := by
  intro xs
  induction xs with
  | nil => intro prev rest _ _; rfl
  | cons c xs ih =>
    intro prev rest hp h
    rw [List.cons_append, prep_step, hp]
    simp only [Bool.and_false, Bool.false_eq_true, if_false, List.cons_append, List.cons.injEq, true_and]
    rw [ih (some c) rest (by simpa using h c (List.mem_cons_self ..)) (fun d hd => h d (List.mem_cons_of_mem _ hd)), last_or]

theorem prep_join {p d : Char} {rest : List Char} (hp : isLetter p = true) (hd : isDigit d = true) :
    prep (some p) (d :: rest) = ' ' :: prep none (d :: rest) := by
  rw [prep_step, prep_step]; simp [hp, hd]

/-! ## Replacement of words -/

/-- Words begin with letters. -/
def Words (words : List String) : Prop := ∀ w ∈ words, ∃ c cs, w.toList = c :: cs ∧ isLetter c = true

theorem subst_skip {words : List String} {repl : List Char} : ∀ (xs : List Char) (prev : Option Char) (rest : List Char),
    subst words repl xs.length prev (xs ++ rest) = subst words repl 0 (xs.getLast?.or prev) rest := by
  intro xs
  induction xs with
  | nil => intro prev rest; rfl
  | cons c xs ih =>
    intro prev rest
    have e : subst words repl (c :: xs).length prev (c :: xs ++ rest) = subst words repl xs.length (some c) (xs ++ rest) := rfl
    rw [e, ih]
    congr 1
    cases hx : xs.getLast? with
    | none => rw [List.getLast?_eq_none_iff] at hx; subst hx; rfl
    | some l => rw [List.getLast?_cons, hx]; rfl

theorem subst_step {words : List String} {repl : List Char} (prev : Option Char) (c : Char) (cs : List Char) :
    subst words repl 0 prev (c :: cs) =
      if prev.any (fun p => isDigit p || isSpace p) && decide (String.ofList (((c :: cs).takeWhile isWord).map Char.toLower) ∈ words) then
        repl ++ subst words repl (((c :: cs).takeWhile isWord).length - 1) (some c) cs
      else c :: subst words repl 0 (some c) cs := rfl

theorem subst_other {words : List String} {repl : List Char} (hw : Words words) : ∀ (xs : List Char) (prev : Option Char) (rest : List Char),
    (∀ c ∈ xs, isLetter c = false) → subst words repl 0 prev (xs ++ rest) = xs ++ subst words repl 0 (xs.getLast?.or prev) rest := by
  intro xs
  induction xs with
  | nil => intro prev rest _; rfl
  | cons c xs ih =>
    intro prev rest h
    have hc : isLetter c = false := h c (List.mem_cons_self ..)
    rw [List.cons_append, subst_step]
    have hno : ¬String.ofList (((c :: (xs ++ rest)).takeWhile isWord).map Char.toLower) ∈ words := by
      intro hm
      obtain ⟨d, ds, e, hd⟩ := hw _ hm
      rw [String.toList_ofList] at e
      rw [List.takeWhile_cons] at e
      cases hwc : isWord c with
      | false => simp [hwc] at e
      | true =>
        simp only [hwc, if_true, List.map_cons, List.cons.injEq] at e
        rw [toLower_of_not_letter hc] at e
        rw [← e.1, hc] at hd
        cases hd
    rw [decide_eq_false hno]
    simp only [Bool.and_false, Bool.false_eq_true, if_false, List.cons_append, List.cons.injEq, true_and]
    rw [ih (some c) rest (fun d hd => h d (List.mem_cons_of_mem _ hd))]
    congr 1
    cases hx : xs.getLast? with
    | none => rw [List.getLast?_eq_none_iff] at hx; subst hx; rfl
    | some l => rw [List.getLast?_cons, hx]; rfl

/-- Letters behind a letter are left alone. -/
theorem subst_letters {words : List String} {repl : List Char} : ∀ (xs : List Char) (p : Char) (rest : List Char),
    isLetter p = true → (∀ c ∈ xs, isLetter c = true) → subst words repl 0 (some p) (xs ++ rest) = xs ++ subst words repl 0 (xs.getLast?.or (some p)) rest := by
  intro xs
  induction xs with
  | nil => intro p rest _ _; rfl
  | cons c xs ih =>
    intro p rest hp h
    rw [List.cons_append, subst_step]
    have : (some p).any (fun p => isDigit p || isSpace p) = false := by simp [letter_not_digit hp, letter_not_space hp]
    rw [this]
    simp only [Bool.false_and, Bool.false_eq_true, if_false, List.cons_append, List.cons.injEq, true_and]
    rw [ih c rest (h c (List.mem_cons_self ..)) (fun d hd => h d (List.mem_cons_of_mem _ hd))]
    congr 1
    cases hx : xs.getLast? with
    | none => rw [List.getLast?_eq_none_iff] at hx; subst hx; rfl
    | some l => rw [List.getLast?_cons, hx]; rfl

/-- The text goes on with something that is no part of a word. -/
def Ends (l : List Char) : Prop := ∀ c, l.head? = some c → isWord c = false

theorem takeWhile_word {w rest : List Char} (h : ∀ c ∈ w, isLetter c = true) (hr : Ends rest) : (w ++ rest).takeWhile isWord = w := by
  induction w with
  | nil =>
    cases rest with
    | nil => rfl
    | cons c cs => simp [hr c rfl]
  | cons c w ih =>
    simp only [List.cons_append, List.takeWhile_cons, letter_word (h c (List.mem_cons_self ..)), if_true, List.cons.injEq, true_and]
    exact ih (fun d hd => h d (List.mem_cons_of_mem _ hd))

/-- The word behind a number. -/
def newTail (words : List String) (repl tail : List Char) : List Char :=
  if String.ofList (tail.map Char.toLower) ∈ words then repl else tail

theorem subst_word {words : List String} {repl : List Char} {w rest : List Char} {p : Char} (hp : (isDigit p || isSpace p) = true)
    (h0 : w ≠ []) (h : ∀ c ∈ w, isLetter c = true) (hr : Ends rest) :
    subst words repl 0 (some p) (w ++ rest) = newTail words repl w ++ subst words repl 0 w.getLast? rest := by
  cases w with
  | nil => exact absurd rfl h0
  | cons c w =>
    have hc := h c (List.mem_cons_self ..)
    have hw := fun d hd => h d (List.mem_cons_of_mem _ hd)
    have e : (c :: (w ++ rest)).takeWhile isWord = c :: w := takeWhile_word h hr
    have el : (w.getLast?.or (some c)) = (c :: w).getLast? := by
      cases hx : w.getLast? with
      | none => rw [List.getLast?_eq_none_iff] at hx; subst hx; rfl
      | some l => rw [List.getLast?_cons, hx]; rfl
    rw [List.cons_append, subst_step, e]
    have : (some p).any (fun p => isDigit p || isSpace p) = true := by simpa using hp
    rw [this, Bool.true_and]
    unfold newTail
    by_cases hm : String.ofList ((c :: w).map Char.toLower) ∈ words
    · rw [decide_eq_true hm, if_pos rfl, if_pos hm]
      congr 1
      have := subst_skip (words := words) (repl := repl) w (some c) rest
      rw [el] at this
      exact this
    · rw [decide_eq_false hm, if_neg (by simp), if_neg hm, subst_letters w c rest hc hw, el]
      rfl

/-! ## Numbers with a unit or its replacement -/

/-- What comes before a unit, and the unit or its replacement. -/
structure Seg where
  pre : List Char
  tail : List Char

namespace Seg

structure Ok (s : Seg) : Prop where
  pre : ∀ c ∈ s.pre, isLetter c = false
  last : ∃ p, s.pre.getLast? = some p ∧ (isDigit p || isSpace p) = true
  tail : (s.tail ≠ [] ∧ ∀ c ∈ s.tail, isLetter c = true) ∨ ∀ c ∈ s.tail, isLetter c = false

def text (s : Seg) : List Char := s.pre ++ s.tail

end Seg

theorem ends_of_segs {segs : List Seg} (h : ∀ s ∈ segs, s.Ok ∧ Ends s.pre) : Ends (segs.flatMap Seg.text) := by
  cases segs with
  | nil => intro c hc; cases hc
  | cons s segs =>
    obtain ⟨h1, h2⟩ := h s (List.mem_cons_self ..)
    intro c hc
    apply h2
    obtain ⟨p, hp, _⟩ := h1.last
    have : s.pre ≠ [] := by intro h0; rw [h0] at hp; cases hp
    rw [List.flatMap_cons, Seg.text, List.append_assoc, List.head?_append] at hc
    cases hpre : s.pre with
    | nil => exact absurd hpre this
    | cons x xs => rw [hpre] at hc; simpa using hc

theorem not_mem_words {words : List String} (hw : Words words) {t : List Char} (h : ∀ c ∈ t, isLetter c = false) : ¬String.ofList (t.map Char.toLower) ∈ words := by
  intro hm
  obtain ⟨d, ds, e, hd⟩ := hw _ hm
  rw [String.toList_ofList] at e
  cases t with
  | nil => cases e
  | cons c t =>
    simp only [List.map_cons, List.cons.injEq] at e
    have hc := h c (List.mem_cons_self ..)
    rw [toLower_of_not_letter hc] at e
    rw [← e.1, hc] at hd
    cases hd

theorem subst_segs {words : List String} {repl : List Char} (hw : Words words) : ∀ (segs : List Seg) (prev : Option Char),
    (∀ s ∈ segs, s.Ok) → (∀ s ∈ segs.drop 1, Ends s.pre) →
    subst words repl 0 prev (segs.flatMap Seg.text) = segs.flatMap (fun s => s.pre ++ newTail words repl s.tail) := by
  intro segs
  induction segs with
  | nil => intro prev _ _; rfl
  | cons s segs ih =>
    intro prev h1 h2
    have hs := h1 s (List.mem_cons_self ..)
    have h1' : ∀ s ∈ segs, s.Ok := fun x hx => h1 x (List.mem_cons_of_mem _ hx)
    have h2' : ∀ s ∈ segs, Ends s.pre := fun x hx => h2 x (by simpa using hx)
    have hE : Ends (segs.flatMap Seg.text) := ends_of_segs (fun x hx => ⟨h1' x hx, h2' x hx⟩)
    have ih' := fun prev => ih prev h1' (fun x hx => h2' x (List.mem_of_mem_drop hx))
    obtain ⟨p, hp, hpd⟩ := hs.last
    rw [List.flatMap_cons, List.flatMap_cons, Seg.text, List.append_assoc, subst_other hw _ _ _ hs.pre, hp]
    have e : (some p : Option Char).or prev = some p := rfl
    rw [e, List.append_assoc]
    congr 1
    rcases hs.tail with ⟨t1, t2⟩ | t
    · rw [subst_word hpd t1 t2 hE, ih']
    · rw [subst_other hw _ _ _ t, ih']
      unfold newTail
      rw [if_neg (not_mem_words hw t)]

end Verif.Duration
