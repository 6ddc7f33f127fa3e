import Verif.Lemmas.DurationShown

/-! # C64, C65: durations in the configuration and in the log -/

namespace Verif

open Duration DurationSpec

/-- Items with units, one after the other with or without spaces or joined with signs, are read as the sum of their values: a number times the seconds of its unit,
whatever the case and the spelling of the unit. -/
theorem C64_sum_of_items (first : Item) (rest : List (DurationSpec.Sep × Item)) (h1 : first.Valid) (h2 : ∀ x ∈ rest, x.2.Valid) :
    str2seconds (text first rest) = some (total first rest) :=
  str2seconds_text h1 h2

/-- A plain number is a number of seconds, with or without minus sign (`-1` for a ban for ever). -/
theorem C64_plain_number (n : Number) (h : n.Valid) : str2seconds n.text = some n.value ∧ str2seconds ('-' :: n.text) = some (-n.value) := by
  obtain ⟨e1, e2⟩ := eval_number h
  constructor
  · rw [str2seconds_plain (number_noletter h) (number_nospace h), e1]
  · rw [str2seconds_plain, e2]
    · intro c hc
      rcases List.mem_cons.mp hc with rfl | hc
      · decide
      · exact number_noletter h c hc
    · intro c hc
      rcases List.mem_cons.mp hc with rfl | hc
      · decide
      · exact number_nospace h c hc

/-- Spaces, the case of letters and which spelling of a unit is used make no difference. -/
theorem C64_spelling_irrelevant (first first' : Item) (rest rest' : List (DurationSpec.Sep × Item)) (h1 : first.Valid) (h1' : first'.Valid) (h2 : ∀ x ∈ rest, x.2.Valid)
    (h2' : ∀ x ∈ rest', x.2.Valid) (hf : first.value = first'.value) (hr : rest.map (fun x => (x.1.sign, x.2.value)) = rest'.map (fun x => (x.1.sign, x.2.value))) :
    str2seconds (text first rest) = str2seconds (text first' rest') := by
  rw [C64_sum_of_items _ _ h1 h2, C64_sum_of_items _ _ h1' h2']
  congr 1
  unfold total
  have key : ∀ (l : List (DurationSpec.Sep × Item)) (v : Rat), l.foldl (fun v x => v + x.1.sign * x.2.value) v = (l.map (fun x => (x.1.sign, x.2.value))).foldl (fun v p => v + p.1 * p.2) v := by
    intro l v; rw [List.foldl_map]
  rw [key, key, hr, hf]

/-- A superfluous zero before a number is an error (not the value of the number), and so are more than two numbers without unit. -/
theorem C64_refuted_leading_zero :
    str2seconds "05m".toList = none ∧ str2seconds "5m".toList = some 300 ∧ str2seconds "1 2 3".toList = none ∧ str2seconds "1 2".toList = some 3 := by
  refine ⟨?_, ?_, ?_, ?_⟩ <;> decide +kernel

/-! ### Examples -/

example : str2seconds "1h 2m 3s".toList = some 3723 := by decide +kernel
example : str2seconds "1d12h".toList = some 129600 := by decide +kernel
example : str2seconds "1.5 Hours  2  MIN".toList = some 5520 := by decide +kernel
example : str2seconds "1year-6mo".toList = some 15778800 := by decide +kernel
example : str2seconds "-1".toList = some (-1) := by decide +kernel

/-- `2 Weeks-1.5d` as items -/
example : str2seconds "2 Weeks-1.5d".toList = some (2 * 604800 - 3 / 2 * 86400) := by
  have hd : Item.Valid ⟨⟨['1'], ['5']⟩, 0, ['d'], .day⟩ :=
    ⟨⟨by decide, by decide, by decide⟩, by decide, .inr (.inr (.inl ⟨by decide, by decide⟩))⟩
  have := C64_sum_of_items ⟨⟨['2'], []⟩, 1, "Weeks".toList, .week⟩ [(.minus 0 0, ⟨⟨['1'], ['5']⟩, 0, ['d'], .day⟩)]
    ⟨⟨by decide, by decide, by decide⟩, by decide, .inr (.inl (by decide))⟩ (by
      intro x hx
      rw [List.mem_singleton.mp hx]
      exact hd)
  refine Eq.trans ?_ (this.trans ?_)
  · congr 1
  · decide +kernel

/-! ## Durations shown -/

/-- The text shown: groups of the rounded duration, each less than the unit before; nothing else. -/
theorem C65_shown (s : Nat) (h : s ≠ 0) : ∃ gs, Shows s gs ∧ seconds2str s = shown gs := shows_groups s h

/-- Nothing but `0` for no time at all. -/
theorem C65_zero : seconds2str 0 = ['0'] := by decide

/-- The groups shown are determined by the duration. -/
theorem C65_determined (s : Nat) (gs gs' : List (Nat × TimeUnit)) (h : Shows s gs) (h' : Shows s gs') : gs = gs' := by
  cases h with
  | years n y w d a b c e f =>
    cases h' with
    | years n' y' w' d' a' b' c' e' f' =>
      have := IsRounded.unique (by decide) b b'
      subst this
      have e1 : y = y' := by omega
      have e2 : w = w' := by omega
      have e3 : d = d' := by omega
      rw [e1, e2, e3]
    | _ => omega
  | weeks n w d h a a2 b c e f =>
    cases h' with
    | weeks n' w' d' h' a' a2' b' c' e' f' =>
      have := IsRounded.unique (by decide) b b'
      subst this
      have e1 : w = w' := by omega
      have e2 : d = d' := by omega
      have e3 : h = h' := by omega
      rw [e1, e2, e3]
    | _ => omega
  | days n d h m a a2 b c e f =>
    cases h' with
    | days n' d' h' m' a' a2' b' c' e' f' =>
      have := IsRounded.unique (by decide) b b'
      subst this
      have e1 : d = d' := by omega
      have e2 : h = h' := by omega
      have e3 : m = m' := by omega
      rw [e1, e2, e3]
    | _ => omega
  | hours n h m t a a2 b c e f =>
    cases h' with
    | hours n' h' m' t' a' a2' b' c' e' f' =>
      have := IsRounded.unique (by decide) b b'
      subst this
      have e1 : h = h' := by omega
      have e2 : m = m' := by omega
      rw [e1, e2]
    | _ => omega
  | minutes m x a b c =>
    cases h' with
    | minutes m' x' a' b' c' =>
      have e1 : m = m' := by omega
      have e2 : x = x' := by omega
      rw [e1, e2]
    | _ => omega

/-- Below a year of 365 days the text shown, entered as a duration, is the duration up to the precision of what is shown: exact below an hour (less five seconds);
at most five seconds more or less than a minute less below a day; within half a minute below a week; within half an hour above. -/
theorem C65_read_again_partial (s : Nat) (h : s < 365 * 86400) :
    ∃ v : Nat, str2seconds (seconds2str s) = some (v : Rat) ∧ (s < 3595 → v = s) ∧ (3595 ≤ s → s < 86400 → v ≤ s + 5 ∧ s ≤ v + 55 ∧ v % 60 = 0) ∧
      (86400 ≤ s → s < 604800 → v ≤ s + 30 ∧ s ≤ v + 30 ∧ v % 60 = 0) ∧ (604800 ≤ s → v ≤ s + 1800 ∧ s ≤ v + 1800 ∧ v % 3600 = 0) := by
  by_cases h0 : s = 0
  · subst h0
    exact ⟨0, by decide +kernel, by omega, by omega, by omega, by omega⟩
  · obtain ⟨gs, hs, e⟩ := shows_groups s h0
    rw [e]
    cases hs with
    | years n y w d a b c e f => omega
    | weeks n w d h a a2 b c e f =>
      obtain ⟨b1, b2, b3⟩ := b
      rw [read_shown]
      · refine ⟨3600 * n, ?_, by omega, by omega, by omega, by omega⟩
        congr 1
        subst c
        simp only [groupsValue, List.foldr, TimeUnit.seconds, Rat.natCast_mul, Rat.natCast_add]
        grind
      · by_cases hw : w = 0
        · exfalso; omega
        · exact ⟨(w, .week), by simp, hw⟩
      · simp
    | days n d h m a a2 b c e f =>
      obtain ⟨b1, b2, b3⟩ := b
      rw [read_shown]
      · refine ⟨60 * n, ?_, by omega, by omega, by omega, by omega⟩
        congr 1
        subst c
        simp only [groupsValue, List.foldr, TimeUnit.seconds, Rat.natCast_mul, Rat.natCast_add]
        grind
      · by_cases hw : d = 0
        · exfalso; omega
        · exact ⟨(d, .day), by simp, hw⟩
      · simp
    | hours n h m t a a2 b c e f =>
      obtain ⟨b1, b2, b3⟩ := b
      rw [read_shown]
      · refine ⟨3600 * h + 60 * m, ?_, by omega, by omega, by omega, by omega⟩
        congr 1
        simp only [groupsValue, List.foldr, TimeUnit.seconds, Rat.natCast_mul, Rat.natCast_add]
        grind
      · by_cases hw : h = 0
        · refine ⟨(m, .minute), by simp, ?_⟩
          show m ≠ 0
          omega
        · exact ⟨(h, .hour), by simp, hw⟩
      · simp
    | minutes m x a b c =>
      rw [read_shown]
      · refine ⟨60 * m + x, ?_, by omega, by omega, by omega, by omega⟩
        congr 1
        simp only [groupsValue, List.foldr, TimeUnit.seconds, Rat.natCast_mul, Rat.natCast_add]
        grind
      · by_cases hw : m = 0
        · refine ⟨(x, .second), by simp, ?_⟩
          show x ≠ 0
          omega
        · exact ⟨(m, .minute), by simp, hw⟩
      · simp

/-- A year shown has 365 days, a year read has 365¼: from a year on, the text shown is read as another duration. -/
theorem C65_refuted_years : seconds2str 31536000 = "1y".toList ∧ str2seconds "1y".toList = some 31557600 ∧
    seconds2str 315360000 = "10y".toList ∧ str2seconds "10y".toList = some (315360000 + 216000) := by
  refine ⟨?_, ?_, ?_, ?_⟩ <;> decide +kernel

/-! ### Examples -/

example : seconds2str (86400 * 390) = "1y 3w 4d".toList := by decide +kernel
example : seconds2str (86400 * 368) = "1y 3d".toList := by decide +kernel
example : seconds2str (86400 * 2 + 3600 * 7 + 60 * 15) = "2d 7h 15m".toList := by decide +kernel
example : seconds2str (86400 * 2 + 3599) = "2d 1h".toList := by decide +kernel
example : seconds2str 3595 = "1h".toList := by decide +kernel
example : seconds2str 3590 = "59m 50s".toList := by decide +kernel
example : seconds2str 59 = "59s".toList := by decide +kernel
example : seconds2str 694861 = "1w 1d 1h".toList := by decide +kernel

end Verif
