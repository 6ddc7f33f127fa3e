import Verif.Model.Years
import Verif.Spec.Years

/-!
# C108 — years and numbers of seconds
-/

namespace Verif.Years

open Spec

/-! ## The expression for a set of texts -/

theorem common_some (f : Text → Text) : ∀ (l : List Text) (c d : Text), common f (some c) l = some d ↔ d = c ∧ ∀ i ∈ l, f i = c
  | [], c, d => by simp [common, eq_comm]
  | i :: l, c, d => by
    by_cases h : f i = c
    · simp [common, h, common_some f l c d]
    · simp [common, h]

theorem common_none (f : Text → Text) (i : Text) (l : List Text) (d : Text) : common f none (i :: l) = some d ↔ ∀ j ∈ i :: l, f j = d := by
  rw [common, common_some]
  constructor
  · rintro ⟨rfl, h⟩ j hj
    rcases List.mem_cons.1 hj with rfl | hj
    · rfl
    · exact h j hj
  · intro h
    have := h i (by simp)
    exact ⟨this.symm, fun j hj => by rw [this]; exact h j (by simp [hj])⟩

theorem leaf_full (l : List Text) (k : Nat) (hk : 1 ≤ k) (hl : ∀ t ∈ l, t.length = k) (hne : l ≠ []) (s : Text) : (leaf l).full s = true ↔ s ∈ l := by
  unfold leaf
  cases l with
  | nil => exact absurd rfl hne
  | cons x l =>
    have hx := hl x (by simp)
    by_cases h1 : 1 < (x :: l).length
    · rw [if_pos h1]
      by_cases h2 : 1 < k
      · rw [if_pos (by simpa [hx] using h2)]
        simp [Rx.full]
      · have hk1 : k = 1 := by omega
        subst hk1
        rw [if_neg (by simp [hx])]
        simp only [Rx.full]
        constructor
        · intro h
          split at h
          · rename_i c
            simp only [List.contains_iff_mem, List.mem_flatten] at h
            obtain ⟨t, ht, hc⟩ := h
            have := hl t ht
            obtain ⟨d, rfl⟩ := List.length_eq_one_iff.1 this
            simp at hc
            rw [hc]
            exact ht
          · simp at h
        · intro h
          have := hl s h
          obtain ⟨d, rfl⟩ := List.length_eq_one_iff.1 this
          simp only [List.contains_iff_mem, List.mem_flatten]
          exact ⟨_, h, by simp⟩
    · rw [if_neg h1]
      have : l = [] := by
        cases l with
        | nil => rfl
        | cons y l => simp at h1
      subst this
      simp [Rx.full]

theorem drop_full {l : List Text} {p s : Text} (h : ∀ i ∈ l, i.take p.length = p) :
    s ∈ l ↔ p.isPrefixOf s = true ∧ s.drop p.length ∈ l.map (fun i => i.drop p.length) := by
  constructor
  · intro hs
    refine ⟨?_, List.mem_map.2 ⟨s, hs, rfl⟩⟩
    rw [List.isPrefixOf_iff_prefix, List.prefix_iff_eq_take]
    exact (h s hs).symm
  · rintro ⟨h1, h2⟩
    obtain ⟨i, hi, he⟩ := List.mem_map.1 h2
    rw [List.isPrefixOf_iff_prefix, List.prefix_iff_eq_take] at h1
    have e1 : s = s.take p.length ++ s.drop p.length := (List.take_append_drop _ _).symm
    have e2 : i = i.take p.length ++ i.drop p.length := (List.take_append_drop _ _).symm
    rw [← h1, ← he] at e1
    rw [h i hi] at e2
    rw [e1, ← e2]
    exact hi

theorem grp_full : ∀ (n : Nat) (l : List Text) (k : Nat), 1 ≤ k → k ≤ n → (∀ t ∈ l, t.length = k) → l ≠ [] → ∀ s, (grp n l).full s = true ↔ s ∈ l
  | 0, l, k, h1, h2, _, _, _ => by omega
  | n + 1, l, k, h1, h2, hl, hne, s => by
    unfold grp
    by_cases hlen : 1 < l.length
    · rw [if_pos hlen]
      obtain ⟨x, l', rfl⟩ : ∃ x l', l = x :: l' := by
        cases l with
        | nil => exact absurd rfl hne
        | cons x l' => exact ⟨x, l', rfl⟩
      simp only
      split
      · rename_i a t hc
        have key : (∀ i ∈ x :: l', i.take (t.length + 1) = a :: t) ∧ t.length + 2 ≤ k := by
          split at hc
          · have h := (common_none _ x l' (a :: t)).1 hc
            have hx := congrArg List.length (h x (by simp))
            simp only [List.length_dropLast, List.length_cons, hl x (by simp)] at hx
            refine ⟨fun i hi => ?_, by omega⟩
            rw [← h i hi, List.dropLast_eq_take]
            congr 1
            rw [hl i hi]
            omega
          · rename_i ht
            cases hc1 : common (fun i => i.dropLast) none (x :: l') with
            | none =>
              rw [hc1] at hc
              have h := (common_none _ x l' (a :: t)).1 hc
              have hx := congrArg List.length (h x (by simp))
              simp only [List.length_take, List.length_cons, hl x (by simp)] at hx
              have ht0 : t.length = 0 := by omega
              refine ⟨fun i hi => by rw [ht0]; exact h i hi, ?_⟩
              rcases Nat.lt_or_ge k 2 with hk | hk
              · exfalso
                have hk1 : k = 1 := by omega
                have : common (fun i => i.dropLast) none (x :: l') = some [] := by
                  rw [common_none]
                  intro j hj
                  have := hl j hj
                  rw [hk1] at this
                  obtain ⟨d, rfl⟩ := List.length_eq_one_iff.1 this
                  rfl
                rw [this] at hc1
                simp at hc1
              · omega
            | some c =>
              rw [hc1] at hc ht
              have := (common_some _ _ _ _).1 hc
              rw [← this.1] at ht
              simp [truthy] at ht
        obtain ⟨hp, hk⟩ := key
        have hp' : ∀ i ∈ x :: l', i.take (a :: t).length = a :: t := hp
        rw [Rx.full, drop_full hp', Bool.and_eq_true]
        have ih := grp_full n ((x :: l').map (fun i => i.drop (t.length + 1))) (k - (t.length + 1)) (by omega) (by omega)
          (by
            intro j hj
            obtain ⟨i, hi, rfl⟩ := List.mem_map.1 hj
            rw [List.length_drop, hl i hi]) (by simp) (s.drop (t.length + 1))
        exact and_congr_right (fun _ => ih)
      · exact leaf_full _ k h1 hl hne s
    · rw [if_neg hlen]
      exact leaf_full _ k h1 hl hne s

theorem mem_insert (t s : Text) : ∀ l : List Text, s ∈ insert t l ↔ s = t ∨ s ∈ l
  | [] => by simp [insert]
  | x :: l => by
    unfold insert
    split
    · rename_i h
      subst h
      simp
    · split
      · simp
      · simp [mem_insert t s l]
        constructor
        · rintro (h | h | h)
          · exact .inr (.inl h)
          · exact .inl h
          · exact .inr (.inr h)
        · rintro (h | h | h)
          · exact .inr (.inl h)
          · exact .inl h
          · exact .inr (.inr h)

theorem mem_sortedSet (s : Text) : ∀ l : List Text, s ∈ sortedSet l ↔ s ∈ l
  | [] => by simp [sortedSet]
  | x :: l => by
    have : sortedSet (x :: l) = insert x (sortedSet l) := rfl
    rw [this, mem_insert, mem_sortedSet s l, List.mem_cons]

theorem mem_steps : ∀ (k y n z : Nat), z ∈ steps k y n ↔ ∃ j, j < k ∧ z = y + 3 * j ∧ z ≤ n
  | 0, y, n, z => by simp [steps]
  | k + 1, y, n, z => by
    unfold steps
    by_cases h : y ≤ n
    · rw [if_pos h, List.mem_cons, mem_steps k (y + 3) n z]
      constructor
      · rintro (rfl | ⟨j, h1, h2, h3⟩)
        · exact ⟨0, by omega, by omega, h⟩
        · exact ⟨j + 1, by omega, by omega, h3⟩
      · rintro ⟨j, h1, h2, h3⟩
        cases j with
        | zero => exact .inl (by omega)
        | succ j => exact .inr ⟨j, by omega, by omega, h3⟩
    · rw [if_neg h]
      simp only [List.not_mem_nil, false_iff]
      rintro ⟨j, h1, h2, h3⟩
      omega

theorem cent_eq (y : Nat) (h1 : 1000 ≤ y) (h2 : y < 10000) :
    cent y = [Nat.digitChar (y / 1000), Nat.digitChar (y / 100 % 10), Nat.digitChar (y / 10 % 10)] := by
  unfold cent
  have e : Nat.toDigits 10 y = [Nat.digitChar (y / 1000), Nat.digitChar (y / 100 % 10), Nat.digitChar (y / 10 % 10), Nat.digitChar (y % 10)] := by
    rw [Nat.toDigits_of_base_le (by decide) (by omega), Nat.toDigits_of_base_le (by decide) (by omega), Nat.toDigits_of_base_le (by decide) (by omega),
      Nat.toDigits_of_lt_base (by omega)]
    simp [Nat.div_div_eq_div_mul]
  rw [e]
  rfl

theorem digit_inj : ∀ a < 10, ∀ b < 10, Nat.digitChar a = Nat.digitChar b → a = b := by decide

theorem digit_isDigit : ∀ a < 10, isDigit (Nat.digitChar a) = true := by decide

theorem isDigit_char (c : Char) (h : isDigit c = true) : ∃ a < 10, c = Nat.digitChar a := by
  have h48 : ('0').toNat = 48 := rfl
  have h57 : ('9').toNat = 57 := rfl
  simp only [isDigit, h48, h57, Bool.and_eq_true, decide_eq_true_eq] at h
  refine ⟨c.toNat - 48, by omega, ?_⟩
  have key : ∀ a < 10, (Nat.digitChar a).toNat = a + 48 := by decide
  have := key (c.toNat - 48) (by omega)
  apply Char.ext
  apply UInt32.toNat_inj.1
  show c.toNat = _
  have e : (Nat.digitChar (c.toNat - 48)).val.toNat = (Nat.digitChar (c.toNat - 48)).toNat := rfl
  rw [e, this]
  omega

theorem cent_same {y z : Nat} (h1 : 1000 ≤ y) (h2 : y < 10000) (h3 : 1000 ≤ z) (h4 : z < 10000) : cent y = cent z ↔ y / 10 = z / 10 := by
  rw [cent_eq y h1 h2, cent_eq z h3 h4]
  constructor
  · intro h
    simp only [List.cons.injEq, and_true] at h
    have a := digit_inj _ (by omega) _ (by omega) h.1
    have b := digit_inj _ (by omega) _ (by omega) h.2.1
    have c := digit_inj _ (by omega) _ (by omega) h.2.2
    omega
  · intro h
    have a : y / 1000 = z / 1000 := by omega
    have b : y / 100 % 10 = z / 100 % 10 := by omega
    have c : y / 10 % 10 = z / 10 % 10 := by omega
    rw [a, b, c]

/-- Decades of the years that are used -/
theorem decades (now base y : Nat) (h1 : 1 ≤ base) (h2 : base ≤ now) :
    (∃ z ∈ years now base, z / 10 = y / 10) ↔ (base - 1) / 10 ≤ y / 10 ∧ y / 10 ≤ (now + 3) / 10 := by
  constructor
  · rintro ⟨z, hz, e⟩
    simp only [years, List.mem_append, List.mem_cons, List.not_mem_nil, or_false, mem_steps] at hz
    rcases hz with (rfl | rfl) | ⟨j, a, b, c⟩ <;> omega
  · rintro ⟨a, b⟩
    simp only [years, List.mem_append, List.mem_cons, List.not_mem_nil, or_false, mem_steps]
    rcases Nat.lt_or_ge y.succ 0 with h | _
    · omega
    by_cases hb : y / 10 = (base - 1) / 10
    · exact ⟨base - 1, .inr ⟨0, by omega, by omega, by omega⟩, hb.symm⟩
    · have hj : ∃ j, y / 10 * 10 ≤ base - 1 + 3 * j ∧ base - 1 + 3 * j ≤ y / 10 * 10 + 2 := by
        refine ⟨(y / 10 * 10 - (base - 1) + 2) / 3, ?_, ?_⟩ <;> omega
      obtain ⟨j, j1, j2⟩ := hj
      by_cases hn : base - 1 + 3 * j ≤ now
      · exact ⟨base - 1 + 3 * j, .inr ⟨j, by omega, rfl, hn⟩, by omega⟩
      · exact ⟨now + 3, .inl (.inr rfl), by omega⟩

/-- C108: a text is recognised as a year with century exactly if it consists of four digits that are a year of a decade from that of 2000 to that of three
years after the start of the server. -/
theorem C108_year (now base : Nat) (h1 : 1001 ≤ base) (h2 : base ≤ now) (h3 : now + 3 < 10000) (t : Text) :
    year now base t = true ↔ ∃ y, Writes t y ∧ (base - 1) / 10 ≤ y / 10 ∧ y / 10 ≤ (now + 3) / 10 := by
  have hyears : ∀ z ∈ years now base, 1000 ≤ z ∧ z < 10000 := by
    intro z hz
    simp only [years, List.mem_append, List.mem_cons, List.not_mem_nil, or_false, mem_steps] at hz
    rcases hz with (rfl | rfl) | ⟨j, a, b, c⟩ <;> omega
  have hfull : ∀ s, (yearRx now base).full s = true ↔ ∃ z ∈ years now base, cent z = s := by
    intro s
    unfold yearRx
    rw [grp_full 3 _ 3 (by omega) (by omega) ?_ ?_ s, mem_sortedSet, List.mem_map]
    · intro x hx
      rw [mem_sortedSet, List.mem_map] at hx
      obtain ⟨z, hz, rfl⟩ := hx
      rw [cent_eq z (hyears z hz).1 (hyears z hz).2]
      rfl
    · intro he
      have : cent (now - 1) ∈ sortedSet ((years now base).map cent) := by
        rw [mem_sortedSet]
        exact List.mem_map.2 ⟨_, by simp [years], rfl⟩
      rw [he] at this
      simp at this
  unfold year
  rw [Bool.and_eq_true, Bool.and_eq_true, hfull]
  constructor
  · rintro ⟨⟨h0, z, hz, hc⟩, hd⟩
    obtain ⟨z1, z2⟩ := hyears z hz
    have hne : t ≠ [] := by simpa using h0
    rw [List.getLast?_eq_some_getLast hne] at hd
    obtain ⟨d, hd1, hd2⟩ := isDigit_char _ (by simpa using hd)
    have ht : t = cent z ++ [Nat.digitChar d] := by
      rw [hc, ← hd2]
      exact (List.dropLast_concat_getLast hne).symm
    rw [cent_eq z z1 z2] at ht
    have hy : (z / 10 * 10 + d) / 10 = z / 10 := by omega
    refine ⟨z / 10 * 10 + d, ⟨z / 1000, z / 100 % 10, z / 10 % 10, d, by omega, by omega, by omega, hd1, ht, by omega⟩, ?_⟩
    exact (decades now base _ (by omega) h2).1 ⟨z, hz, hy.symm⟩
  · rintro ⟨y, ⟨a, b, c, d, ha, hb, hc, hd, rfl, hy⟩, hr⟩
    obtain ⟨z, hz, he⟩ := (decades now base y (by omega) h2).2 hr
    obtain ⟨z1, z2⟩ := hyears z hz
    refine ⟨⟨rfl, z, hz, ?_⟩, digit_isDigit d hd⟩
    rw [cent_eq z z1 z2]
    have e1 : z / 1000 = a := by omega
    have e2 : z / 100 % 10 = b := by omega
    have e3 : z / 10 % 10 = c := by omega
    rw [e1, e2, e3]
    rfl

/-- C108: years from 2000 until three years after the start are recognised. -/
theorem C108_recognised (now y : Nat) (h1 : 2001 ≤ now) (h2 : now + 3 < 10000) (h3 : 2000 ≤ y) (h4 : y ≤ now + 3) :
    year now 2001 (Nat.toDigits 10 y) = true := by
  rw [C108_year now 2001 (by omega) h1 h2]
  refine ⟨y, ⟨y / 1000, y / 100 % 10, y / 10 % 10, y % 10, by omega, by omega, by omega, by omega, ?_, by omega⟩, by omega, by omega⟩
  rw [Nat.toDigits_of_base_le (by decide) (by omega), Nat.toDigits_of_base_le (by decide) (by omega), Nat.toDigits_of_base_le (by decide) (by omega),
    Nat.toDigits_of_lt_base (by omega)]
  simp [Nat.div_div_eq_div_mul]

/-- C108: other numbers are not taken for years: nothing before 2000 and nothing more than twelve years ahead. -/
theorem C108_only (now : Nat) (t : Text) (h1 : 2001 ≤ now) (h2 : now + 3 < 10000) (h : year now 2001 t = true) :
    t.length = 4 ∧ Digits t ∧ 2000 ≤ num t ∧ num t ≤ now + 12 := by
  obtain ⟨y, ⟨a, b, c, d, ha, hb, hc, hd, rfl, hy⟩, h5, h6⟩ := (C108_year now 2001 (by omega) h1 h2 t).1 h
  have key : ∀ a < 10, digitVal (Nat.digitChar a) = a := by decide
  have e : num [Nat.digitChar a, Nat.digitChar b, Nat.digitChar c, Nat.digitChar d] = y := by
    simp only [num, List.foldl_cons, List.foldl_nil, key a ha, key b hb, key c hc, key d hd]
    omega
  rw [e]
  refine ⟨rfl, ?_, by omega, by omega⟩
  intro x hx
  simp only [List.mem_cons, List.not_mem_nil, or_false] at hx
  rcases hx with rfl | rfl | rfl | rfl
  · exact digit_isDigit a ha
  · exact digit_isDigit b hb
  · exact digit_isDigit c hc
  · exact digit_isDigit d hd

/-- If the clock is wrong at the start of the server (no battery, 1970), years of today are not recognised afterwards. -/
theorem C108_refuted_clock : year 1970 2001 "2026".toList = false ∧ year 2026 2001 "2026".toList = true := by decide +kernel

/-- A server that has been running since 2026 does not recognise dates of 2030. -/
theorem C108_refuted_uptime : year 2026 2001 "2030".toList = false ∧ year 2027 2001 "2030".toList = true := by decide +kernel

example : (yearRx 2026 2001).show = "20[012]".toList := by decide +kernel

example : (yearRx 2098 2001).show = "2(?:00|01|02|03|04|05|06|07|08|09|10)".toList := by decide +kernel

example : year 2026 2001 "1999".toList = false ∧ year 2026 2001 "2029".toList = true ∧ year 2026 2001 "202".toList = false := by decide +kernel

/-! ## Numbers of seconds -/

theorem num_from (l : Text) : ∀ n : Nat, l.foldl (fun n c => 10 * n + digitVal c) n = n * 10 ^ l.length + num l := by
  induction l with
  | nil => intro n; simp [num]
  | cons c l ih =>
    intro n
    simp only [num, List.foldl_cons, List.length_cons]
    rw [ih, ih (10 * 0 + digitVal c)]
    have : (10 * n + digitVal c) * 10 ^ l.length = n * 10 ^ (l.length + 1) + digitVal c * 10 ^ l.length := by
      rw [Nat.add_mul, Nat.pow_succ]
      congr 1
      rw [Nat.mul_comm 10 n, Nat.mul_assoc, Nat.mul_comm 10]
    rw [this]
    simp [Nat.add_assoc]

theorem num_append (a b : Text) : num (a ++ b) = num a * 10 ^ b.length + num b := by
  rw [num, List.foldl_append]
  exact num_from b (num a)

theorem digit_dot {c : Char} (h : isDigit c = true) : (decide (c ≠ '.')) = true := by
  simp only [decide_eq_true_eq]
  intro e
  subst e
  exact absurd h (by decide)

theorem takeWhile_digits (t : Text) (h : Digits t) (r : Text) : (t ++ '.' :: r).takeWhile (fun c => decide (c ≠ '.')) = t ∧
    (t ++ '.' :: r).dropWhile (fun c => decide (c ≠ '.')) = '.' :: r := by
  induction t with
  | nil => simp
  | cons c t ih =>
    have hc := digit_dot (h c (by simp))
    have := ih (fun x hx => h x (by simp [hx]))
    rw [List.cons_append, List.takeWhile_cons, List.dropWhile_cons, if_pos hc, if_pos hc, this.1, this.2]
    exact ⟨rfl, rfl⟩

theorem takeWhile_all (t : Text) (h : Digits t) : t.takeWhile (fun c => decide (c ≠ '.')) = t ∧ t.dropWhile (fun c => decide (c ≠ '.')) = [] := by
  induction t with
  | nil => simp
  | cons c t ih =>
    have hc := digit_dot (h c (by simp))
    have := ih (fun x hx => h x (by simp [hx]))
    rw [List.takeWhile_cons, List.dropWhile_cons, if_pos hc, if_pos hc, this.1, this.2]
    exact ⟨rfl, rfl⟩

theorem span_eq (p : Char → Bool) (l : Text) : l.span p = (l.takeWhile p, l.dropWhile p) := by
  have key : ∀ (l acc : Text), List.span.loop p l acc = (acc.reverse ++ l.takeWhile p, l.dropWhile p) := by
    intro l
    induction l with
    | nil => intro acc; simp [List.span.loop]
    | cons a l ih =>
      intro acc
      rw [List.span.loop]
      cases h : p a <;> simp [h, ih]
  exact key l []

theorem float_int (t : Text) (h : Digits t) : float t = (num t, 1) := by
  unfold float
  rw [span_eq, (takeWhile_all t h).1, (takeWhile_all t h).2]

theorem float_dot (t r : Text) (h : Digits t) : float (t ++ '.' :: r) = (num (t ++ r), 10 ^ r.length) := by
  unfold float
  rw [span_eq, (takeWhile_digits t h r).1, (takeWhile_digits t h r).2]

theorem no_dot (t : Text) (h : Digits t) : t.contains '.' = false := by
  rw [Bool.eq_false_iff]
  intro hc
  have := h '.' (by simpa using hc)
  exact absurd this (by decide)

theorem Spec.Digits.append {a b : Text} (ha : Digits a) (hb : Digits b) : Digits (a ++ b) := by
  intro c hc
  rcases List.mem_append.1 hc with h | h
  · exact ha c h
  · exact hb c h

/-- C108: seconds, with or without a fraction, are taken as they are. -/
theorem C108_seconds (s f : Text) (hs : Digits s) :
    Same (epoch false s) (num s, 1) ∧ Same (epoch false (s ++ '.' :: f)) (num s * 10 ^ f.length + num f, 10 ^ f.length) := by
  have hp : 10 ^ f.length ≠ 0 := Nat.pos_iff_ne_zero.1 (Nat.pow_pos (by decide))
  simp only [epoch, Bool.false_and, Bool.false_eq_true, if_false, float_int s hs, float_dot s f hs, num_append]
  exact ⟨⟨Nat.one_ne_zero, Nat.one_ne_zero, rfl⟩, ⟨hp, hp, rfl⟩⟩

/-- C108: in the long form the digits behind the seconds are milliseconds, and microseconds behind those, with or without a dot. -/
theorem C108_long (s m u f : Text) (hs : Digits s) (hm : Digits m) (hu : Digits u) (hls : s.length = 10 ∨ s.length = 11) (hlm : m.length = 3)
    (hlu : u.length = 3) :
    Same (epoch true s) (num s, 1) ∧
    Same (epoch true (s ++ m)) (num s * 1000 + num m, 1000) ∧
    Same (epoch true (s ++ m ++ u)) (num s * 1000000 + num m * 1000 + num u, 1000000) ∧
    Same (epoch true (s ++ m ++ '.' :: f)) ((num s * 1000 + num m) * 10 ^ f.length + num f, 1000 * 10 ^ f.length) := by
  have hsm := hs.append hm
  have hp : 10 ^ f.length ≠ 0 := Nat.pos_iff_ne_zero.1 (Nat.pow_pos (by decide))
  refine ⟨?_, ?_, ?_, ?_⟩
  · have h13 : ¬ (13 ≤ s.length) := by omega
    simp only [epoch, h13, decide_false, Bool.and_false, Bool.false_eq_true, if_false, float_int s hs]
    exact ⟨Nat.one_ne_zero, Nat.one_ne_zero, rfl⟩
  · have hl : (s ++ m).length = s.length + 3 := by rw [List.length_append, hlm]
    have h13 : 13 ≤ (s ++ m).length := by omega
    have h16 : ¬ 16 ≤ (s ++ m).length := by omega
    simp only [epoch, h13, h16, decide_true, decide_false, Bool.and_true, Bool.false_and, if_true, if_false, Bool.false_eq_true, float_int _ hsm, num_append, hlm]
    exact ⟨by simp, by simp, by simp⟩
  · have hl : (s ++ m ++ u).length = s.length + 6 := by rw [List.length_append, List.length_append, hlm, hlu]
    have h13 : 13 ≤ (s ++ m ++ u).length := by omega
    have h16 : 16 ≤ (s ++ m ++ u).length := by omega
    simp only [epoch, h13, h16, no_dot _ (hsm.append hu), decide_true, Bool.and_true, Bool.not_false, if_true, float_int _ (hsm.append hu), num_append, hlm, hlu]
    refine ⟨by simp, by simp, ?_⟩
    simp only [Nat.reducePow, Nat.one_mul, Nat.add_mul, Nat.mul_assoc, Nat.reduceMul]
  · have hl : (s ++ m ++ '.' :: f).length = s.length + 3 + (f.length + 1) := by rw [List.length_append, List.length_append, hlm]; rfl
    have h13 : 13 ≤ (s ++ m ++ '.' :: f).length := by omega
    have hd : (s ++ m ++ '.' :: f).contains '.' = true := by simp
    simp only [epoch, h13, hd, decide_true, Bool.and_true, Bool.not_true, Bool.and_false, if_true, if_false, Bool.false_eq_true, float_dot _ f hsm, num_append, hlm]
    refine ⟨by simp only [ne_eq, Nat.mul_eq_zero, not_or]; exact ⟨hp, by decide⟩, by simp only [ne_eq, Nat.mul_eq_zero, not_or]; exact ⟨by decide, hp⟩, ?_⟩
    simp only [Nat.reducePow, Nat.mul_comm 1000]

example : epoch true "1700000000123456".toList = (1700000000123456, 1000000) ∧ epoch true "1700000000123".toList = (1700000000123, 1000) ∧
    epoch true "17000000001".toList = (17000000001, 1) ∧ epoch true "1700000000123.45".toList = (170000000012345, 100000) ∧
    epoch false "1700000000.5".toList = (17000000005, 10) := by decide +kernel

end Verif.Years
