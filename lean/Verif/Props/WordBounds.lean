import Verif.Spec.WordBounds

/-!
# C110: bounds of dates
-/

namespace Verif.WordBounds

/-! ## Meaning of the bounds -/

theorem wordAt_iff {w : Char → Bool} {line : Text} {i : Nat} : wordAt w line i = true ↔ ∃ c, line[i]? = some c ∧ w c = true := by
  unfold wordAt
  cases line[i]? <;> simp

theorem inside_iff {w : Char → Bool} {line : Text} {i : Nat} : Spec.Inside w line i ↔ (wordBefore w line i = true ∧ wordAt w line i = true) := by
  constructor
  · rintro ⟨a, b, k, rfl, ha, hb, wa, wb⟩
    exact ⟨wordAt_iff.2 ⟨a, ha, wa⟩, wordAt_iff.2 ⟨b, hb, wb⟩⟩
  · rintro ⟨h1, h2⟩
    cases i with
    | zero => simp [wordBefore] at h1
    | succ k =>
      obtain ⟨a, ha, wa⟩ := wordAt_iff.1 h1
      obtain ⟨b, hb, wb⟩ := wordAt_iff.1 h2
      exact ⟨a, b, k, rfl, ha, hb, wa, wb⟩

theorem nonWord_lt {w : Char → Bool} {line : Text} {i : Nat} (h : i < line.length) : nonWord w line i = !wordAt w line i := by
  unfold nonWord wordAt
  rw [List.getElem?_eq_getElem h]
  rfl

/-- A date begins anywhere but inside of a word -/
theorem C110_begin {w : Char → Bool} {line : Text} {i : Nat} (h : i < line.length) : beginHolds w line i = true ↔ ¬ Spec.Inside w line i := by
  rw [inside_iff]
  unfold beginHolds boundary
  rw [nonWord_lt h]
  cases i with
  | zero => simp [wordBefore]
  | succ k => cases wordBefore w line (k + 1) <;> cases wordAt w line (k + 1) <;> simp

/-- A date ends anywhere but inside of a word -/
theorem C110_end {w : Char → Bool} (hw : w '\n' = false) {line : Text} {j : Nat} (h : j ≤ line.length) : endHolds w line j = true ↔ ¬ Spec.Inside w line j := by
  rw [inside_iff]
  unfold endHolds boundary
  rcases Nat.lt_or_eq_of_le h with h | h
  · rw [nonWord_lt h]
    have : wordAt w line j = true → atEnd line j = false := by
      intro k
      unfold atEnd
      simp only [Bool.or_eq_false_iff, decide_eq_false_iff_not]
      refine ⟨by omega, fun e => ?_⟩
      have : line[j]? = some '\n' := by
        have := List.getElem?_drop (xs := line) (i := j) (j := 0)
        rw [e] at this
        simpa using this.symm
      obtain ⟨c, hc, wc⟩ := wordAt_iff.1 k
      rw [this] at hc
      cases hc
      rw [hw] at wc
      cases wc
    cases hb : wordBefore w line j <;> cases ha : wordAt w line j <;> simp_all
  · subst h
    have : wordAt w line line.length = false := by simp [wordAt]
    simp [this, atEnd]

/-- At the begin of the line: at most two characters before, none of a word -/
theorem C110_start {w : Char → Bool} {line : Text} {i : Nat} :
    startHolds w line i = true ↔ i ≤ 2 ∧ ∀ k, k < i → ∃ c, line[k]? = some c ∧ w c = false := by
  unfold startHolds nonWord
  simp only [Bool.and_eq_true, decide_eq_true_eq, List.all_eq_true, List.mem_range]
  constructor
  · rintro ⟨h, g⟩
    refine ⟨h, fun k hk => ?_⟩
    have := g k hk
    cases e : line[k]? with
    | none => rw [e] at this; simp at this
    | some c => rw [e] at this; exact ⟨c, rfl, by simpa using this⟩
  · rintro ⟨h, g⟩
    refine ⟨h, fun k hk => ?_⟩
    obtain ⟨c, e, hc⟩ := g k hk
    simp [e, hc]

/-- With both bounds exactly those dates are found that neither begin nor end inside of a word -/
theorem C110_word {w : Char → Bool} (hw : w '\n' = false) (inner : Text → Nat → Nat → Bool) {line : Text} {i j : Nat} (hi : i < line.length) (hj : j ≤ line.length) :
    matches_ w (some .word) true inner line i j = true ↔ inner line i j = true ∧ ¬ Spec.Inside w line i ∧ ¬ Spec.Inside w line j := by
  rw [← C110_begin hi, ← C110_end hw hj]
  simp [matches_, and_assoc]

/-- Bound to the line -/
theorem C110_line {w : Char → Bool} (hw : w '\n' = false) (inner : Text → Nat → Nat → Bool) {line : Text} {i j : Nat} (hj : j ≤ line.length) :
    matches_ w (some .start) true inner line i j = true ↔
      inner line i j = true ∧ (i ≤ 2 ∧ ∀ k, k < i → ∃ c, line[k]? = some c ∧ w c = false) ∧ ¬ Spec.Inside w line j := by
  rw [← C110_start, ← C110_end hw hj]
  simp [matches_, and_assoc]

/-- Without bounds: everything -/
theorem C110_free {w : Char → Bool} (inner : Text → Nat → Nat → Bool) (line : Text) (i j : Nat) : matches_ w none false inner line i j = inner line i j := by
  simp [matches_]

/-! ## Texts -/

theorem strip_clean {space : Char → Bool} {s : Text} (h1 : ∀ c, s.head? = some c → space c = false) (h2 : ∀ c, s.getLast? = some c → space c = false) :
    strip space s = s := by
  unfold strip
  have d : s.dropWhile space = s := by
    cases s with
    | nil => rfl
    | cons c l => exact List.dropWhile_cons_of_neg (by simp [h1 c rfl])
  rw [d]
  cases e : s.reverse with
  | nil => have := List.reverse_eq_nil_iff.1 e; simp [this]
  | cons c l =>
    have : s.getLast? = some c := by rw [← List.head?_reverse, e]; rfl
    rw [List.dropWhile_cons_of_neg (by simp [h2 c this]), ← e, List.reverse_reverse]

theorem flagsAt_none {letter : Char → Bool} {s : Text} (h : ∀ f v, s = '(' :: '?' :: f :: v → letter f = false) : flagsAt letter s = none := by
  unfold flagsAt
  split
  · rename_i c l
    rw [h c l rfl]
    rfl
  · rfl

theorem cutFlags_none {s : Text} (h : ∀ u v f, s ≠ u ++ '(' :: '?' :: f :: v ∨ f.isLower = false) (prev : Option Char) : cutFlags prev s = none := by
  induction s generalizing prev with
  | nil => rfl
  | cons c l ih =>
    have a : flagsAt Char.isLower (c :: l) = none := flagsAt_none (fun f v e => (h [] v f).resolve_left (fun n => n e))
    have b := ih (fun u v f => (h (c :: u) v f).imp (fun n e => n (by simp [e])) id) (some c)
    unfold cutFlags
    simp [a, b]

theorem cleaned {space : Char → Bool} {s : Text} (h : Spec.Clean space s) : strip space s = s ∧ cutFlags none s = none :=
  ⟨strip_clean h.head h.last, cutFlags_none h.noFlags none⟩

theorem beginText_eq : beginText = ['(', '?', '=', '^', '|', '\\', 'b', '|', '\\', 'W', ')'] := by decide +kernel
theorem startText_eq : startText = ['^', '(', '?', ':', '\\', 'W', '{', '0', ',', '2', '}', ')', '?'] := by decide +kernel
theorem endText_eq : endText = ['(', '?', '=', '\\', 'b', '|', '\\', 'W', '|', '$', ')'] := by decide +kernel

/-- The bounds are not touched: nothing is cut behind the bound at the end -/
theorem cutEnd_endText (prev : Option Char) (s : Text) : cutEnd prev (s ++ endText) = s ++ endText := by
  unfold cutEnd
  rw [endText_eq]
  simp [starts, List.isPrefixOf]

theorem frontStars_begin (s : Text) : frontStars (beginText ++ s) = none := by
  rw [beginText_eq]
  simp [frontStars, starts, frontStars.withFlags, flagsAt, isWordChar]

theorem frontStars_start (s : Text) : frontStars (startText ++ s) = none := by
  rw [startText_eq]
  simp [frontStars, starts, frontStars.withFlags]

/-- What is in brackets -/
def core (r : Text) : Text := if grouped none none r then r else group r

/-- Bounds on both sides: the expression stays as it is between them -/
theorem C110_bounded {space : Char → Bool} {s : Text} (h : Spec.Clean space s) (hb : noBegin s = false) (he : noEnd s = false) :
    (setRegex space .word true s).regex = "(?=^|\\b|\\W)".toList ++ core s ++ "(?=\\b|\\W|$)".toList ∧
      (setRegex space .word true s).wordBegin = true ∧ (setRegex space .word true s).wordEnd = true ∧
      (setRegex space .start true s).regex = "^(?:\\W{0,2})?".toList ++ core s ++ "(?=\\b|\\W|$)".toList ∧
      (setRegex space .start true s).lineBegin = true := by
  obtain ⟨c1, c2⟩ := cleaned h
  have x1 : ∀ t, cutStars (beginText ++ t ++ endText) = beginText ++ t ++ endText := by
    intro t
    unfold cutStars
    rw [List.append_assoc, frontStars_begin]
    simp only
    rw [← List.append_assoc, cutEnd_endText]
  have x2 : ∀ t, cutStars (startText ++ t ++ endText) = startText ++ t ++ endText := by
    intro t
    unfold cutStars
    rw [List.append_assoc, frontStars_start]
    simp only
    rw [← List.append_assoc, cutEnd_endText]
  refine ⟨?_, ?_, ?_, ?_, ?_⟩
  · simp only [setRegex, c1, c2, hb, he, Option.map_none, Option.getD_none, List.nil_append]
    exact x1 (core s)
  · simp [setRegex, c1, c2, hb]
  · simp [setRegex, c1, c2, he]
  · simp only [setRegex, c1, c2, hb, he, Option.map_none, Option.getD_none, List.nil_append]
    exact x2 (core s)
  · simp [setRegex, c1, c2, hb]

/-! ## What the expressions of the source recognise -/

theorem mem_tw {p : Char → Bool} {l : Text} {c : Char} (h : c ∈ l.takeWhile p) : p c = true := by
  induction l with
  | nil => simp at h
  | cons x l ih =>
    by_cases hx : p x = true
    · rw [List.takeWhile_cons_of_pos hx] at h
      rcases List.mem_cons.1 h with rfl | h
      · exact hx
      · exact ih h
    · rw [List.takeWhile_cons_of_neg hx] at h
      simp at h

theorem starts_iff {p s : Text} : starts p s = true ↔ p <+: s := List.isPrefixOf_iff_prefix

theorem endsWith_iff {no : List Char} {e s : Text} : endsWith no e s = true ↔ Spec.Ends no e s := by
  have key : starts e.reverse s.reverse = true → s = (s.reverse.drop e.length).reverse ++ e := by
    intro h
    obtain ⟨t, ht⟩ := starts_iff.1 h
    have : s = t.reverse ++ e := by rw [← List.reverse_reverse s, ← ht]; simp
    rw [← ht]
    have : (e.reverse ++ t).drop e.length = t := by
      rw [← List.length_reverse, List.drop_left]
    rw [this]
    assumption
  unfold endsWith Spec.Ends
  constructor
  · intro h
    split at h
    · rename_i k
      have := key h
      rw [k] at this
      exact ⟨[], by simpa using this, by simp⟩
    · rename_i c l k
      rw [Bool.and_eq_true] at h
      have := key h.1
      rw [k] at this
      refine ⟨(c :: l).reverse, this, fun d hd => ?_⟩
      rw [List.getLast?_reverse] at hd
      simp at hd
      subst hd
      simpa using h.2
  · rintro ⟨u, rfl, hu⟩
    have p : starts e.reverse (u ++ e).reverse = true := starts_iff.2 (by simp)
    have d : (u ++ e).reverse.drop e.length = u.reverse := by
      rw [List.reverse_append, ← List.length_reverse (as := e), List.drop_left]
    rw [d]
    split
    · exact p
    · rename_i c l k
      rw [p]
      have : u.getLast? = some c := by rw [← List.head?_reverse, k]; rfl
      simpa using hu c this

theorem dropBrackets (s : Text) : ∃ n, s = (s.reverse.dropWhile (· = ')')).reverse ++ List.replicate n ')' := by
  have h := List.takeWhile_append_dropWhile (p := (· = ')')) (l := s.reverse)
  refine ⟨(s.reverse.takeWhile (· = ')')).length, ?_⟩
  have r : s.reverse.takeWhile (· = ')') = List.replicate (s.reverse.takeWhile (· = ')')).length ')' := by
    refine List.eq_replicate_iff.2 ⟨rfl, fun c hc => ?_⟩
    have := mem_tw hc
    simpa using this
  rw [← List.reverse_reverse s, ← h]
  simp only [List.reverse_append, List.reverse_reverse]
  rw [h]
  congr 1
  rw [r]
  simp

theorem endStars_iff {s : Text} : endStars s = true ↔ ∃ n, Spec.Ends ['\\'] ("**".toList ++ List.replicate n ')') s := by
  have st : "**".toList = ['*', '*'] := by decide +kernel
  unfold endStars
  rw [endsWith_iff, st]
  constructor
  · rintro ⟨u, hu, h⟩
    obtain ⟨n, hn⟩ := dropBrackets s
    exact ⟨n, u, by rw [hn, hu]; simp, h⟩
  · rintro ⟨n, u, rfl, h⟩
    refine ⟨u, ?_, h⟩
    have : (u ++ (['*', '*'] ++ List.replicate n ')')).reverse = List.replicate n ')' ++ ('*' :: '*' :: u.reverse) := by simp
    rw [this, List.dropWhile_append_of_pos (by simp)]
    simp

/-- The bound at the end is left out if the user closed the expression, and only then -/
theorem C110_closed (s : Text) : noEnd s = true ↔ Spec.Closed s := by
  have e1 : "$".toList = ['$'] := by decide +kernel
  have e2 : "$)".toList = ['$', ')'] := by decide +kernel
  have e3 : "\\b".toList = ['\\', 'b'] := by decide +kernel
  have e4 : "\\s".toList = ['\\', 's'] := by decide +kernel
  unfold noEnd Spec.Closed
  simp only [Bool.or_eq_true, endsWith_iff, endStars_iff, List.map_cons, List.map_nil, List.mem_cons, List.not_mem_nil, or_false, e1, e2, e3, e4]
  constructor
  · rintro ((((h | h) | h) | h) | h)
    · exact .inl ⟨_, .inl rfl, h⟩
    · exact .inl ⟨_, .inr (.inl rfl), h⟩
    · exact .inl ⟨_, .inr (.inr (.inl rfl)), h⟩
    · exact .inl ⟨_, .inr (.inr (.inr rfl)), h⟩
    · exact .inr h
  · rintro (⟨e, rfl | rfl | rfl | rfl, h⟩ | h)
    · exact .inl (.inl (.inl (.inl h)))
    · exact .inl (.inl (.inl (.inr h)))
    · exact .inl (.inl (.inr h))
    · exact .inl (.inr h)
    · exact .inr h

theorem flagsAt_gen {letter : Char → Bool} (hl : letter ')' = false) {s r f : Text} : flagsAt letter s = some (f, r) ↔
    s = f ++ r ∧ ∃ w, w ≠ [] ∧ (∀ c ∈ w, letter c = true) ∧ f = ['(', '?'] ++ w ++ [')'] := by
  constructor
  · intro h
    unfold flagsAt at h
    split at h
    · rename_i c l
      split at h
      · rename_i hc
        split at h
        · rename_i r' k
          simp only [Option.some.injEq, Prod.mk.injEq] at h
          obtain ⟨rfl, rfl⟩ := h
          refine ⟨?_, c :: l.takeWhile letter, by simp, ?_, by simp⟩
          · have := List.takeWhile_append_dropWhile (p := letter) (l := l)
            rw [k] at this
            simp [this]
          · intro d hd
            rcases List.mem_cons.1 hd with rfl | hd
            · exact hc
            · exact mem_tw hd
        · simp at h
      · simp at h
    · simp at h
  · rintro ⟨rfl, w, hw, hc, rfl⟩
    cases w with
    | nil => exact absurd rfl hw
    | cons c w =>
      have d : (w ++ ')' :: r).dropWhile letter = ')' :: r := by
        rw [List.dropWhile_append_of_pos (fun x hx => hc x (by simp [hx]))]
        exact List.dropWhile_cons_of_neg (by simp [hl])
      have t : (w ++ ')' :: r).takeWhile letter = w := by
        rw [List.takeWhile_append_of_pos (fun x hx => hc x (by simp [hx]))]
        rw [List.takeWhile_cons_of_neg (by simp [hl])]
        simp
      simp only [List.cons_append, List.nil_append, List.append_assoc, flagsAt, hc c (by simp), if_true, d, t]

theorem flagsAt_iff {s r f : Text} : flagsAt isWordChar s = some (f, r) ↔
    s = f ++ r ∧ ∃ w, w ≠ [] ∧ (∀ c ∈ w, isWordChar c = true) ∧ f = ['(', '?'] ++ w ++ [')'] := flagsAt_gen (by decide)

theorem behindFlags_iff {g : Text → Bool} {s : Text} : behindFlags g s = true ↔ ∃ f t, s = f ++ t ∧ Spec.Flags f ∧ g t = true := by
  have e1 : "(?".toList = ['(', '?'] := by decide +kernel
  have e2 : ")".toList = [')'] := by decide +kernel
  unfold behindFlags Spec.Flags
  rw [e1, e2, Bool.or_eq_true]
  constructor
  · rintro (h | h)
    · exact ⟨[], s, rfl, .inl rfl, h⟩
    · split at h
      · rename_i f r k
        obtain ⟨a, w, b⟩ := flagsAt_iff.1 k
        exact ⟨f, r, a, .inr ⟨w, b⟩, h⟩
      · simp at h
  · rintro ⟨f, t, rfl, rfl | ⟨w, hw, hc, rfl⟩, h⟩
    · exact .inl h
    · right
      rw [flagsAt_iff.2 ⟨rfl, w, hw, hc, rfl⟩]
      exact h

theorem anchor_iff {s : Text} : anchor s = true ↔
    (∃ a, a ∈ ["^", "(^", "(?:^"].map String.toList ∧ a <+: s) ∨ ∃ k, List.replicate k '(' ++ "**".toList <+: s := by
  have e0 : "**".toList = ['*', '*'] := by decide +kernel
  have e1 : "^".toList = ['^'] := by decide +kernel
  have e2 : "(^".toList = ['(', '^'] := by decide +kernel
  have e3 : "(?:^".toList = ['(', '?', ':', '^'] := by decide +kernel
  have d : starts ['*', '*'] (s.dropWhile (· = '(')) = true ↔ ∃ k, List.replicate k '(' ++ ['*', '*'] <+: s := by
    rw [starts_iff]
    constructor
    · rintro ⟨t, ht⟩
      refine ⟨(s.takeWhile (· = '(')).length, t, ?_⟩
      have r : s.takeWhile (· = '(') = List.replicate (s.takeWhile (· = '(')).length '(' :=
        List.eq_replicate_iff.2 ⟨rfl, fun c hc => by simpa using mem_tw hc⟩
      rw [← r, List.append_assoc, ht, List.takeWhile_append_dropWhile]
    · rintro ⟨k, t, rfl⟩
      rw [List.append_assoc, List.dropWhile_append_of_pos (by simp)]
      exact ⟨t, by simp⟩
  unfold anchor
  simp only [Bool.or_eq_true, d, starts_iff, List.map_cons, List.map_nil, List.mem_cons, List.not_mem_nil, or_false, e0, e1, e2, e3]
  constructor
  · rintro (((h | h) | h) | h)
    · exact .inl ⟨_, .inl rfl, h⟩
    · exact .inl ⟨_, .inr (.inl rfl), h⟩
    · exact .inl ⟨_, .inr (.inr rfl), h⟩
    · exact .inr h
  · rintro (⟨a, rfl | rfl | rfl, h⟩ | h)
    · exact .inl (.inl (.inl h))
    · exact .inl (.inl (.inr h))
    · exact .inl (.inr h)
    · exact .inr h

/-- The bound at the begin is left out if the user opened the expression, and only then -/
theorem C110_opened (s : Text) : noBegin s = true ↔ Spec.Opened s := by
  have step : noBegin s = true ↔ ∃ n t, s = List.replicate n '(' ++ t ∧ behindFlags anchor t = true := by
    induction s with
    | nil =>
      constructor
      · intro h; exact ⟨0, [], rfl, h⟩
      · rintro ⟨n, t, e, h⟩
        obtain ⟨_, rfl⟩ := List.append_eq_nil_iff.1 e.symm
        exact h
    | cons c l ih =>
      by_cases hc : c = '('
      · subst hc
        rw [noBegin, Bool.or_eq_true, ih]
        constructor
        · rintro (h | ⟨n, t, rfl, h⟩)
          · exact ⟨0, _, rfl, h⟩
          · exact ⟨n + 1, t, by simp [List.replicate_succ], h⟩
        · rintro ⟨n, t, e, h⟩
          cases n with
          | zero => left; simp at e; rw [e]; exact h
          | succ n =>
            simp only [List.replicate_succ, List.cons_append, List.cons.injEq, true_and] at e
            exact .inr ⟨n, t, e, h⟩
      · have : noBegin (c :: l) = behindFlags anchor (c :: l) := by
          rw [noBegin.eq_def]
          split
          · rename_i e; simp only [List.cons.injEq] at e; exact absurd e.1 hc
          · rfl
        rw [this]
        constructor
        · intro h; exact ⟨0, _, rfl, h⟩
        · rintro ⟨n, t, e, h⟩
          cases n with
          | zero => simp at e; rw [e]; exact h
          | succ n =>
            simp only [List.replicate_succ, List.cons_append, List.cons.injEq] at e
            exact absurd e.1 hc
  rw [step]
  unfold Spec.Opened
  constructor
  · rintro ⟨n, t, rfl, h⟩
    obtain ⟨f, u, rfl, hf, hu⟩ := behindFlags_iff.1 h
    exact ⟨n, f, u, by simp, hf, anchor_iff.1 hu⟩
  · rintro ⟨n, f, u, rfl, hf, hu⟩
    exact ⟨n, f ++ u, by simp, behindFlags_iff.2 ⟨f, u, rfl, hf, anchor_iff.2 hu⟩⟩

theorem grouped_iff (ctx s : Text) : grouped ctx.dropLast.getLast? ctx.getLast? s = true ↔
    ∃ u v, s = u ++ '(' :: v ∧ (ctx ++ u).getLast? ≠ some '\\' ∧ ¬ (∃ x, ctx ++ u = x ++ ['(', '?']) ∧ v.head? ≠ some '?' := by
  induction s generalizing ctx with
  | nil => simp [grouped]
  | cons c l ih =>
    have two : (ctx.dropLast.getLast? = some '(' ∧ ctx.getLast? = some '?') ↔ ∃ x, ctx = x ++ ['(', '?'] := by
      constructor
      · rintro ⟨h1, h2⟩
        obtain ⟨y, rfl⟩ := List.getLast?_eq_some_iff.1 h2
        rw [List.dropLast_concat] at h1
        obtain ⟨z, rfl⟩ := List.getLast?_eq_some_iff.1 h1
        exact ⟨z, by simp⟩
      · rintro ⟨x, rfl⟩
        constructor
        · have : (x ++ ['(', '?']) = (x ++ ['(']) ++ ['?'] := by simp
          rw [this, List.dropLast_concat]; simp
        · simp
    have next := ih (ctx ++ [c])
    rw [List.dropLast_concat] at next
    have last : (ctx ++ [c]).getLast? = some c := by simp
    rw [last] at next
    rw [grouped, Bool.or_eq_true, next]
    have hq : (!starts ['?'] l) = true ↔ l.head? ≠ some '?' := by
      cases l with
      | nil => simp [starts, List.isPrefixOf]
      | cons d l =>
        have : (d ≠ '?') ↔ ('?' ≠ d) := ⟨Ne.symm, Ne.symm⟩
        simp [starts, List.isPrefixOf, this]
    constructor
    · rintro (h | ⟨u, v, rfl, h1, h2, h3⟩)
      · simp only [Bool.and_eq_true, decide_eq_true_eq, hq] at h
        obtain ⟨⟨⟨rfl, h1⟩, h2⟩, h3⟩ := h
        refine ⟨[], l, rfl, by simpa using h1, ?_, h3⟩
        rw [List.append_nil, ← two]
        rintro ⟨a, b⟩
        simp [a, b] at h2
      · exact ⟨c :: u, v, rfl, by simpa using h1, by simpa using h2, h3⟩
    · rintro ⟨u, v, e, h1, h2, h3⟩
      cases u with
      | nil =>
        simp only [List.nil_append, List.cons.injEq] at e
        obtain ⟨rfl, rfl⟩ := e
        left
        rw [List.append_nil, ← two] at h2
        rw [List.append_nil] at h1
        simp only [Bool.and_eq_true, decide_eq_true_eq, hq]
        refine ⟨⟨⟨trivial, h1⟩, ?_⟩, h3⟩
        rw [Bool.not_eq_true', Bool.eq_false_iff]
        intro k
        simp only [Bool.and_eq_true, decide_eq_true_eq] at k
        exact h2 k
      | cons d u =>
        simp only [List.cons_append, List.cons.injEq] at e
        obtain ⟨rfl, rfl⟩ := e
        exact .inr ⟨u, v, rfl, by simpa using h1, by simpa using h2, h3⟩

/-- Brackets are added if there is no group, and only then -/
theorem C110_grouped (s : Text) : grouped none none s = true ↔ Spec.Grouped s := by
  have e : "(?".toList = ['(', '?'] := by decide +kernel
  have := grouped_iff [] s
  simpa [Spec.Grouped, e] using this

theorem cutEnd_stars {p : Option Char} {x : Text} (h : (x.getLast?).or p ≠ some '\\') (n : Nat) :
    cutEnd p (x ++ ['*', '*'] ++ List.replicate n ')') = x ++ List.replicate n ')' := by
  have r : (x ++ ['*', '*'] ++ List.replicate n ')').reverse = List.replicate n ')' ++ ('*' :: '*' :: x.reverse) := by simp
  have t : ((x ++ ['*', '*'] ++ List.replicate n ')').reverse.dropWhile (· = ')')).reverse = x ++ ['*', '*'] := by
    rw [r, List.dropWhile_append_of_pos (by simp), List.dropWhile_cons_of_neg (by decide)]
    simp
  have tw : (x ++ ['*', '*'] ++ List.replicate n ')').reverse.takeWhile (· = ')') = List.replicate n ')' := by
    rw [r, List.takeWhile_append_of_pos (by simp), List.takeWhile_cons_of_neg (by decide)]
    simp
  have d1 : (x ++ ['*', '*']).dropLast.dropLast = x := by
    have : x ++ ['*', '*'] = (x ++ ['*']) ++ ['*'] := by simp
    rw [this, List.dropLast_concat, List.dropLast_concat]
  have st : starts ['*', '*'] (x ++ ['*', '*']).reverse = true := by simp [starts, List.isPrefixOf]
  unfold cutEnd
  simp only [t, tw, d1, st]
  exact if_pos ⟨trivial, h⟩

/-- Stars remove the bounds and themselves -/
theorem C110_stars {space : Char → Bool} {x : Text} (h : Spec.Clean space ("**".toList ++ x ++ "**".toList)) (hx : x.getLast? ≠ some '\\') (b : Begin) (e : Bool) :
    (Spec.Grouped ("**".toList ++ x ++ "**".toList) → (setRegex space b e ("**".toList ++ x ++ "**".toList)).regex = x) ∧
    (¬ Spec.Grouped ("**".toList ++ x ++ "**".toList) → (setRegex space b e ("**".toList ++ x ++ "**".toList)).regex = "(".toList ++ x ++ ")".toList) ∧
    (setRegex space b e ("**".toList ++ x ++ "**".toList)).wordBegin = false ∧ (setRegex space b e ("**".toList ++ x ++ "**".toList)).wordEnd = false := by
  have st : "**".toList = ['*', '*'] := by decide +kernel
  have nb : noBegin ("**".toList ++ x ++ "**".toList) = true := (C110_opened _).2 ⟨0, [], _, rfl, .inl rfl, .inr ⟨0, x ++ "**".toList, (List.append_assoc _ _ _).symm⟩⟩
  have hl : ∀ y : Text, y = '*' :: '*' :: x → ∀ c, y.getLast? = some c → c ∉ ['\\'] := by
    rintro y rfl c hc k
    simp at k
    subst k
    cases x with
    | nil => simp at hc
    | cons a x => simp [List.getLast?_cons] at hc hx; exact hx hc
  have ne : noEnd ("**".toList ++ x ++ "**".toList) = true :=
    (C110_closed _).2 (.inr ⟨0, "**".toList ++ x, by simp, hl _ (by rw [st]; rfl)⟩)
  obtain ⟨c1, c2⟩ := cleaned h
  have last : ((x.getLast?).or (some '*')) ≠ some '\\' := by cases k : x.getLast? <;> simp_all
  rw [← C110_grouped]
  rw [st] at *
  refine ⟨fun g => ?_, fun g => ?_, ?_, ?_⟩
  · simp only [setRegex, c1, c2, nb, ne, g, Option.map_none, Option.getD_none, List.nil_append, Bool.not_true, Bool.and_false, Bool.false_eq_true, if_false, if_true]
    have f : frontStars (['*', '*'] ++ x ++ ['*', '*']) = some ([], x ++ ['*', '*']) := by simp [frontStars, starts, List.isPrefixOf]
    simp only [cutStars, f, List.nil_append]
    simpa using cutEnd_stars last 0
  · have e1 : "(".toList = ['('] := by decide +kernel
    have e2 : ")".toList = [')'] := by decide +kernel
    rw [Bool.not_eq_true] at g
    have gr : group (['*', '*'] ++ x ++ ['*', '*']) = ['('] ++ (['*', '*'] ++ x ++ ['*', '*']) ++ [')'] := by
      have z : endsWith [] ['$'] (['*', '*'] ++ x ++ ['*', '*']) = false := by
        rw [Bool.eq_false_iff]
        intro k
        obtain ⟨u, hu, _⟩ := endsWith_iff.1 k
        have := congrArg List.getLast? hu
        rw [List.getLast?_append] at this
        simp at this
      have fl : flagsAt isWordChar (['*', '*'] ++ x ++ ['*', '*']) = none := rfl
      have sw : starts ['^'] (['*', '*'] ++ x ++ ['*', '*']) = false := rfl
      simp only [group, fl, Option.getD_none, sw, Bool.false_eq_true, if_false, z, List.nil_append, List.append_nil]
    simp only [setRegex, c1, c2, nb, ne, g, gr, Option.map_none, Option.getD_none, List.nil_append, Bool.not_true, Bool.and_false, Bool.false_eq_true, if_false, e1, e2]
    have f : frontStars (['('] ++ (['*', '*'] ++ x ++ ['*', '*']) ++ [')']) = some (['('], x ++ ['*', '*'] ++ [')']) := by
      simp [frontStars, starts, List.isPrefixOf]
    have k := cutEnd_stars last 1
    simp only [List.replicate_one] at k
    simp only [cutStars]
    rw [f]
    refine (congrArg (['('] ++ ·) k).trans ?_
    simp
  · simp only [setRegex, c1, c2, nb, Option.map_none, Option.getD_none, Bool.not_true, Bool.and_false, Bool.false_and]
  · simp only [setRegex, c1, c2, ne, Option.map_none, Option.getD_none, Bool.not_true, Bool.and_false]

/-- A dollar that stands for itself at the end takes the bracket of the group with it: the group is never closed -/
theorem C110_refuted_dollar {x : Text} (hx : starts ['^'] x = false) (hf : flagsAt isWordChar (x ++ ['\\', '$']) = none) (hn : x ≠ []) :
    group (x ++ ['\\', '$']) = ['('] ++ x ++ ['\\', ')', '$'] := by
  have z : endsWith [] ['$'] (x ++ ['\\', '$']) = true := endsWith_iff.2 ⟨x ++ ['\\'], by simp, by simp⟩
  have sw : starts ['^'] (x ++ ['\\', '$']) = false := by
    cases x with
    | nil => exact absurd rfl hn
    | cons c x => simpa [starts, List.isPrefixOf] using hx
  have d : (x ++ ['\\', '$']).dropLast = x ++ ['\\'] := by
    have : x ++ ['\\', '$'] = (x ++ ['\\']) ++ ['$'] := by simp
    rw [this, List.dropLast_concat]
  simp only [group, hf, Option.getD_none, sw, Bool.false_eq_true, if_false, z, if_true, d, List.nil_append]
  simp

/-! ## Flags of the expression -/

theorem last_or (a : Char) (u : Text) (x : Option Char) : (a :: u).getLast?.or x = (a :: u).getLast? := by
  rw [List.getLast?_eq_some_getLast (List.cons_ne_nil a u)]
  rfl

theorem cutFlags_sound {prev : Option Char} {s f r : Text} (h : cutFlags prev s = some (f, r)) :
    ∃ u v, s = u ++ f ++ v ∧ r = u ++ v ∧ (u.getLast?.or prev) ≠ some '\\' ∧ ∃ w, w ≠ [] ∧ (∀ c ∈ w, c.isLower = true) ∧ f = ['(', '?'] ++ w ++ [')'] := by
  induction s generalizing prev r with
  | nil => cases h
  | cons c l ih =>
    unfold cutFlags at h
    split at h
    · rename_i f' r' hf
      cases h
      split at hf
      · cases hf
      · rename_i hp
        obtain ⟨e, w⟩ := (flagsAt_gen (by decide)).1 hf
        exact ⟨[], r, by simpa using e, rfl, by simpa using hp, w⟩
    · obtain ⟨⟨f', r'⟩, hr, e⟩ := Option.map_eq_some_iff.mp h
      cases e
      obtain ⟨u, v, rfl, rfl, hp, w⟩ := ih hr
      refine ⟨c :: u, v, rfl, rfl, ?_, w⟩
      cases u with
      | nil => simpa using hp
      | cons a u =>
        rw [last_or, List.getLast?_cons_cons]
        rw [last_or] at hp
        exact hp

theorem cutFlags_complete {prev : Option Char} {u w v : Text} (hp : (u.getLast?.or prev) ≠ some '\\') (hw : w ≠ []) (hc : ∀ c ∈ w, c.isLower = true) :
    cutFlags prev (u ++ (['(', '?'] ++ w ++ [')']) ++ v) ≠ none := by
  induction u generalizing prev with
  | nil =>
    have hf : flagsAt Char.isLower ((['(', '?'] ++ w ++ [')']) ++ v) = some (['(', '?'] ++ w ++ [')'], v) := (flagsAt_gen (by decide)).2 ⟨rfl, w, hw, hc, rfl⟩
    have hp' : prev ≠ some '\\' := by simpa using hp
    show cutFlags prev ('(' :: ('?' :: w ++ [')'] ++ v)) ≠ none
    unfold cutFlags
    rw [if_neg hp', show '(' :: ('?' :: w ++ [')'] ++ v) = (['(', '?'] ++ w ++ [')']) ++ v from by simp, hf]
    simp
  | cons a u ih =>
    have := ih (prev := some a) (by
      cases u with
      | nil => simpa using hp
      | cons b u =>
        rw [last_or, List.getLast?_cons_cons] at hp
        rw [last_or]
        exact hp)
    rw [List.cons_append, List.cons_append]
    unfold cutFlags
    split
    · simp
    · rw [ne_eq, Option.map_eq_none_iff]
      exact this

/-- Flags like `(?i)`, not escaped, are taken out of the expression from wherever they stand, and only they: they exist exactly if some are found. -/
theorem C110_flags (s : Text) :
    (∀ f r, cutFlags none s = some (f, r) →
      ∃ u v, s = u ++ f ++ v ∧ r = u ++ v ∧ u.getLast? ≠ some '\\' ∧ ∃ w, w ≠ [] ∧ (∀ c ∈ w, c.isLower = true) ∧ f = "(?".toList ++ w ++ ")".toList) ∧
    (cutFlags none s = none ↔ ¬ ∃ u w v, s = u ++ ("(?".toList ++ w ++ ")".toList) ++ v ∧ u.getLast? ≠ some '\\' ∧ w ≠ [] ∧ ∀ c ∈ w, c.isLower = true) := by
  have e1 : "(?".toList = ['(', '?'] := by decide +kernel
  have e2 : ")".toList = [')'] := by decide +kernel
  rw [e1, e2]
  have sound : ∀ f r, cutFlags none s = some (f, r) →
      ∃ u v, s = u ++ f ++ v ∧ r = u ++ v ∧ u.getLast? ≠ some '\\' ∧ ∃ w, w ≠ [] ∧ (∀ c ∈ w, c.isLower = true) ∧ f = ['(', '?'] ++ w ++ [')'] := by
    intro f r h
    obtain ⟨u, v, h1, h2, h3, h4⟩ := cutFlags_sound h
    exact ⟨u, v, h1, h2, by simpa using h3, h4⟩
  refine ⟨sound, ?_, ?_⟩
  · rintro h ⟨u, w, v, rfl, hu, hw, hc⟩
    exact cutFlags_complete (by simpa using hu) hw hc h
  · intro hn
    cases h : cutFlags none s with
    | none => rfl
    | some p =>
      obtain ⟨u, v, rfl, _, hu, w, hw, hc, hf⟩ := sound p.1 p.2 h
      exact absurd ⟨u, w, v, by rw [hf], hu, hw, hc⟩ hn

/-- The flags end up in front. -/
theorem C110_flags_front {space : Char → Bool} (b : Begin) (e : Bool) {s f r : Text} (hs : strip space s = s) (h : cutFlags none s = some (f, r)) :
    f <+: (setRegex space b e s).regex := by
  unfold setRegex
  simp only [hs, h, Option.map_some, Option.getD_some]
  exact List.prefix_append ..

example : cutFlags none "a\\(?i)b(?u)c".toList = some ("(?u)".toList, "a\\(?i)bc".toList) := by decide +kernel
example : lineEnd "(a)|$".toList = false ∧ lineEnd "(a)$".toList = true ∧ lineEnd "(a|$)".toList = false ∧ lineEnd "(a$)".toList = true := by decide +kernel
example : group "^(?L)a$".toList = "^(?L)(a)$".toList ∧ group "(?L)^a".toList = "(?L)^(a)".toList := by decide +kernel
example : frontStars "((?L)(**a".toList = some ("((?L)(".toList, ['a']) ∧ cutStars "(?L)**a".toList = "(?L)a".toList := by decide +kernel
/-- An empty line begins. -/
example : beginHolds (fun _ => true) [] 0 = true := by decide +kernel

/-! ## Examples -/

/-- Words of ASCII -/
def asciiWord (c : Char) : Bool := c.isAlphanum || c = '_'

/-- `12005` does not contain the year 2005, `x-2005,` does -/
example : matches_ asciiWord (some .word) true (fun _ _ _ => true) "12005".toList 1 5 = false ∧
    matches_ asciiWord (some .word) true (fun _ _ _ => true) "20051".toList 0 4 = false ∧
    matches_ asciiWord (some .word) true (fun _ _ _ => true) "x-2005,".toList 2 6 = true ∧
    matches_ asciiWord none false (fun _ _ _ => true) "12005".toList 1 5 = true := by decide +kernel

/-- At the begin of the line two characters are left out, three are not, and none of a word -/
example : matches_ asciiWord (some .start) true (fun _ _ _ => true) "[ 2005]".toList 2 6 = true ∧
    matches_ asciiWord (some .start) true (fun _ _ _ => true) "[[ 2005]".toList 3 7 = false ∧
    matches_ asciiWord (some .start) true (fun _ _ _ => true) "a 2005".toList 2 6 = false := by decide +kernel

def spaceChar (c : Char) : Bool := c = ' ' || c = '\t'

example : setRegex spaceChar .word true " a|b ".toList = ⟨"(?=^|\\b|\\W)(a|b)(?=\\b|\\W|$)".toList, true, true, false, false⟩ := by decide +kernel
example : setRegex spaceChar .start true "(?iu)(a)b".toList = ⟨"(?iu)^(?:\\W{0,2})?(a)b(?=\\b|\\W|$)".toList, false, true, true, false⟩ := by decide +kernel
example : setRegex spaceChar .word true "^a$".toList = ⟨"^(a)$".toList, false, false, true, true⟩ := by decide +kernel
example : setRegex spaceChar .word true "(?iu)**a\\s".toList = ⟨"(?iu)(a\\s)".toList, false, false, false, false⟩ := by decide +kernel
example : setRegex spaceChar .word true "((**a**))".toList = ⟨"((a))".toList, false, false, false, false⟩ := by decide +kernel
example : setRegex spaceChar .word true "(^|x)a".toList = ⟨"(^|x)a(?=\\b|\\W|$)".toList, false, true, false, false⟩ := by decide +kernel
example : setRegex spaceChar .word true "(?:^x)a|$".toList = ⟨"((?:^x)a|)$".toList, false, false, false, true⟩ := by decide +kernel
example : setRegex spaceChar .off false "a\\(b".toList = ⟨"(a\\(b)".toList, false, false, false, false⟩ := by decide +kernel

/-- The group is not closed -/
example : setRegex spaceChar .word true "a\\$".toList = ⟨"(?=^|\\b|\\W)(a\\)$(?=\\b|\\W|$)".toList, true, true, false, false⟩ := by decide +kernel

end Verif.WordBounds
