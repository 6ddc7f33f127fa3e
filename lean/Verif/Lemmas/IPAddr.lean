import Verif.Spec.IPAddr

/-! # Lemmas about addresses -/

namespace Verif.IPAddr

open Verif Spec.IP

theorem testBit_andNot (a m i : Nat) : (andNot a m).testBit i = (a.testBit i && !m.testBit i) := by
  unfold andNot
  rw [Nat.testBit_xor, Nat.testBit_and]
  cases a.testBit i <;> cases m.testBit i <;> rfl

theorem m4_eq : m4 = 2 ^ 32 - 1 := by decide
theorem m6_eq : m6 = 2 ^ 128 - 1 := by decide

theorem testBit_host (w n i : Nat) : ((2 ^ w - 1) >>> n).testBit i = decide (n + i < w) := by
  rw [Nat.testBit_shiftRight, Nat.testBit_two_pow_sub_one]

theorem testBit_mask (w n a i : Nat) : (andNot a ((2 ^ w - 1) >>> n)).testBit i =
    (a.testBit i && decide (w ≤ n + i)) := by
  rw [testBit_andNot, testBit_host]
  by_cases h : w ≤ n + i
  · have h1 : ¬ (n + i < w) := by omega
    simp [h, h1]
  · have h1 : n + i < w := by omega
    simp [h, h1]

theorem andNot_le (a m : Nat) (w : Nat) (h : a < 2 ^ w) : andNot a m < 2 ^ w := by
  apply Nat.lt_pow_two_of_testBit
  intro i hi
  rw [testBit_andNot, Nat.testBit_lt_two_pow (Nat.lt_of_lt_of_le h (Nat.pow_le_pow_right (by decide) hi))]
  rfl

/-- masked addresses are equal iff the prefixes agree -/
theorem mask_eq_iff (w n a b : Nat) (ha : a < 2 ^ w) (hb : b < 2 ^ w) :
    andNot a ((2 ^ w - 1) >>> n) = andNot b ((2 ^ w - 1) >>> n) ↔ SamePrefix w n a b := by
  constructor
  · intro h i hi hw
    have := congrArg (fun x => Nat.testBit x (w - 1 - i)) h
    rw [testBit_mask, testBit_mask] at this
    have hd : decide (w ≤ n + (w - 1 - i)) = true := by simp; omega
    rw [hd, Bool.and_true, Bool.and_true] at this
    exact this
  · intro h
    apply Nat.eq_of_testBit_eq
    intro j
    rw [testBit_mask, testBit_mask]
    by_cases hj : j < w
    · by_cases hn : w ≤ n + j
      · have := h (w - 1 - j) (by omega) (by omega)
        have he : w - 1 - (w - 1 - j) = j := by omega
        rw [he] at this
        rw [this]
      · simp [hn]
    · have h2 : 2 ^ w ≤ 2 ^ j := Nat.pow_le_pow_right (by decide) (by omega)
      rw [Nat.testBit_lt_two_pow (Nat.lt_of_lt_of_le ha h2), Nat.testBit_lt_two_pow (Nat.lt_of_lt_of_le hb h2)]

theorem mask_idem (w n a : Nat) : andNot (andNot a ((2 ^ w - 1) >>> n)) ((2 ^ w - 1) >>> n) = andNot a ((2 ^ w - 1) >>> n) := by
  apply Nat.eq_of_testBit_eq
  intro j
  simp only [testBit_andNot]
  cases a.testBit j <;> cases ((2 ^ w - 1) >>> n).testBit j <;> rfl

/-- masking first with a longer and then a shorter prefix -/
theorem mask_mask (w n p a : Nat) (hnp : n ≤ p) :
    andNot (andNot a ((2 ^ w - 1) >>> p)) ((2 ^ w - 1) >>> n) = andNot a ((2 ^ w - 1) >>> n) := by
  apply Nat.eq_of_testBit_eq
  intro j
  rw [testBit_andNot, testBit_mask, testBit_mask, testBit_host]
  by_cases h1 : w ≤ n + j
  · have h2 : w ≤ p + j := by omega
    have h3 : ¬ n + j < w := by omega
    simp [h1, h2, h3]
  · have h3 : n + j < w := by omega
    simp [h1, h3]

theorem samePrefix_refl (w n a : Nat) : SamePrefix w n a a := fun _ _ _ => rfl

theorem samePrefix_all (w n a b : Nat) (hw : w ≤ n) (ha : a < 2 ^ w) (hb : b < 2 ^ w) : SamePrefix w n a b ↔ a = b := by
  constructor
  · intro h
    apply Nat.eq_of_testBit_eq
    intro j
    by_cases hj : j < w
    · have := h (w - 1 - j) (by omega) (by omega)
      have he : w - 1 - (w - 1 - j) = j := by omega
      rwa [he] at this
    · have h2 : 2 ^ w ≤ 2 ^ j := Nat.pow_le_pow_right (by decide) (by omega)
      rw [Nat.testBit_lt_two_pow (Nat.lt_of_lt_of_le ha h2), Nat.testBit_lt_two_pow (Nat.lt_of_lt_of_le hb h2)]
  · rintro rfl; exact samePrefix_refl _ _ _

theorem isCompat_iff (a : Nat) (ha : a < 2 ^ 128) : isCompat a = true ↔ a / 2 ^ 32 = 0xFFFF := by
  unfold isCompat
  rw [decide_eq_true_iff]
  have hc : compatAddr = andNot compatAddr (m6 >>> 96) := by decide
  rw [hc, m6_eq, mask_eq_iff 128 96 a compatAddr ha (by decide)]
  have h0 : (0xFFFF : Nat) = compatAddr / 2 ^ 32 := by decide
  rw [h0]
  constructor
  · intro h
    apply Nat.eq_of_testBit_eq
    intro j
    rw [Nat.testBit_div_two_pow, Nat.testBit_div_two_pow]
    by_cases hj : j + 32 < 128
    · have := h (128 - 1 - (j + 32)) (by omega) (by omega)
      have he : 128 - 1 - (128 - 1 - (j + 32)) = j + 32 := by omega
      rwa [he] at this
    · have h2 : 2 ^ 128 ≤ 2 ^ (j + 32) := Nat.pow_le_pow_right (by decide) (by omega)
      rw [Nat.testBit_lt_two_pow (Nat.lt_of_lt_of_le ha h2),
        Nat.testBit_lt_two_pow (Nat.lt_of_lt_of_le (by decide) h2)]
  · intro h i hi _
    have := congrArg (fun x => Nat.testBit x (128 - 1 - i - 32)) h
    rw [Nat.testBit_div_two_pow, Nat.testBit_div_two_pow] at this
    have he : 128 - 1 - i - 32 + 32 = 128 - 1 - i := by omega
    rwa [he] at this

theorem and_m4 (a : Nat) : a &&& m4 = a % 2 ^ 32 := by
  rw [m4_eq, Nat.and_two_pow_sub_one_eq_mod]

/-! ### masks -/

theorem maskMap_sound : maskMap.items.all (fun kv =>
    (decide (kv.2 ≤ 128) && decide (kv.1 = 2 ^ 128 - 2 ^ (128 - kv.2))) ||
    (decide (kv.2 ≤ 32) && decide (kv.1 = 2 ^ 32 - 2 ^ (32 - kv.2)))) = true := by decide +kernel

theorem maskMap_complete6 : (List.range 129).all (fun n => maskMap.get? (2 ^ 128 - 2 ^ (128 - n)) == some n) = true := by
  decide +kernel

theorem maskMap_complete4 : (List.range 33).all (fun n => maskMap.get? (2 ^ 32 - 2 ^ (32 - n)) == some n) = true := by
  decide +kernel

theorem maskMap_get (m n : Nat) : maskMap.get? m = some n ↔
    (n ≤ 128 ∧ m = 2 ^ 128 - 2 ^ (128 - n)) ∨ (n ≤ 32 ∧ m = 2 ^ 32 - 2 ^ (32 - n)) := by
  constructor
  · intro h
    have := List.all_eq_true.1 maskMap_sound _ ((Dict.get?_eq_some_iff _ _ _).1 h)
    simpa using this
  · rintro (⟨h, rfl⟩ | ⟨h, rfl⟩)
    · have := List.all_eq_true.1 maskMap_complete6 n (by simp; omega)
      exact eq_of_beq this
    · have := List.all_eq_true.1 maskMap_complete4 n (by simp; omega)
      exact eq_of_beq this

theorem testBit_two_pow_sub_two_pow (w n i : Nat) (hn : n ≤ w) :
    (2 ^ w - 2 ^ (w - n)).testBit i = (decide (i < w) && decide (w - n ≤ i)) := by
  have h1 : 2 ^ w - 2 ^ (w - n) = (2 ^ n - 1) * 2 ^ (w - n) := by
    rw [Nat.sub_mul, Nat.one_mul, ← Nat.pow_add]
    congr 2
    omega
  rw [h1, ← Nat.shiftLeft_eq, Nat.testBit_shiftLeft, Nat.testBit_two_pow_sub_one]
  by_cases h2 : w - n ≤ i
  · by_cases h3 : i < w
    · simp [h2, h3]; omega
    · simp [h2, h3]; omega
  · simp [h2]

theorem isMask_iff (w n m : Nat) : IsMask w n m ↔ n ≤ w ∧ m = 2 ^ w - 2 ^ (w - n) := by
  constructor
  · rintro ⟨h1, h2, h3⟩
    refine ⟨h1, ?_⟩
    apply Nat.eq_of_testBit_eq
    intro i
    rw [testBit_two_pow_sub_two_pow w n i h1]
    by_cases hi : i < w
    · have := h3 (w - 1 - i) (by omega)
      have he : w - 1 - (w - 1 - i) = i := by omega
      rw [he] at this
      rw [Bool.eq_iff_iff, this]
      simp [hi]
      omega
    · rw [Nat.testBit_lt_two_pow (Nat.lt_of_lt_of_le h2 (Nat.pow_le_pow_right (by decide) (by omega)))]
      simp [hi]
  · rintro ⟨h1, rfl⟩
    refine ⟨h1, ?_, ?_⟩
    · have := Nat.two_pow_pos (w - n)
      have h2 := Nat.two_pow_pos w
      omega
    · intro i hi
      rw [testBit_two_pow_sub_two_pow w n _ h1]
      simp
      omega

/-! ### splitting -/

theorem splitOn_ne_nil (c : Char) (s : Str) : splitOn c s ≠ [] := by
  induction s with
  | nil => simp [splitOn]
  | cons a s ih =>
    simp only [splitOn]
    cases h : splitOn c s with
    | nil => simp
    | cons p ps => dsimp only; split <;> simp

theorem splitOn_clean (c : Char) (s : Str) (h : c ∉ s) : splitOn c s = [s] := by
  induction s with
  | nil => rfl
  | cons a s ih =>
    simp only [List.mem_cons, not_or] at h
    simp only [splitOn, ih h.2]
    rw [if_neg (fun e => h.1 e.symm)]

theorem splitOn_append (c : Char) (a b : Str) (h : c ∉ a) : splitOn c (a ++ c :: b) = a :: splitOn c b := by
  induction a with
  | nil =>
    simp only [List.nil_append, splitOn]
    cases hs : splitOn c b with
    | nil => exact absurd hs (splitOn_ne_nil c b)
    | cons p ps => simp
  | cons x a ih =>
    simp only [List.mem_cons, not_or] at h
    simp only [List.cons_append, splitOn, ih h.2]
    rw [if_neg (fun e => h.1 e.symm)]

theorem splitSlash_append (a b : Str) (ha : '/' ∉ a) (hb : '/' ∉ b) : splitSlash (a ++ '/' :: b) = some (a, b) := by
  unfold splitSlash
  rw [splitOn_append _ _ _ ha, splitOn_clean _ _ hb]

theorem splitSlash_none (a : Str) (ha : '/' ∉ a) : splitSlash a = none := by
  unfold splitSlash
  rw [splitOn_clean _ _ ha]

theorem dropNl_of (s : Str) (h : '\n' ∉ s) : dropNl s = s := by
  unfold dropNl
  rw [if_neg]
  intro e
  exact h (List.mem_of_getLast? e)

/-- `wrapIpstr` of a text without brackets, slash -/
theorem wrap_plain (lib : NetLib) (s : Str) (h1 : '/' ∉ s) (h2 : '[' ∉ s) : wrapIpstr lib s = some (s, .unspec) := by
  unfold wrapIpstr
  have hb : ¬ (2 < s.length ∧ s.head? = some '[' ∧ s.getLast? = some ']') := by
    rintro ⟨_, h, _⟩
    exact h2 (List.mem_of_head? h)
  dsimp only
  rw [if_neg hb, splitSlash_none]
  intro h
  unfold dropNl at h
  split at h
  · exact h1 (List.dropLast_subset _ h)
  · exact h1 h

/-- `wrapIpstr` of an address with a prefix length or mask -/
theorem wrap_slash (lib : NetLib) (a b : Str) (ha : '/' ∉ a) (hb : '/' ∉ b) (ha2 : '[' ∉ a) (hne : a ≠ []) (hn1 : '\n' ∉ a)
    (hn2 : '\n' ∉ b) (hre : isIp4Re a = true ∨ isIp6Re a = true) :
    wrapIpstr lib (a ++ '/' :: b) =
      (if b ≠ [] ∧ b.all isDig = true then some (a, .len (decNat b))
      else if isIp4Re b || isIp6Re b then
        match (init lib b .unspec).maskplen with
        | some n => some (a, .len n)
        | none => none
      else some (a ++ '/' :: b, .unspec)) := by
  unfold wrapIpstr
  have hb' : ¬ (2 < (a ++ '/' :: b).length ∧ (a ++ '/' :: b).head? = some '[' ∧ (a ++ '/' :: b).getLast? = some ']') := by
    rintro ⟨_, h, _⟩
    cases a with
    | nil => exact hne rfl
    | cons x a =>
      simp at h
      exact ha2 (by simp [h])
  dsimp only
  rw [if_neg hb', dropNl_of _ (by simp [hn1, hn2]), splitSlash_append a b ha hb]
  dsimp only
  have hre' : ¬ ((isIp4Re a || isIp6Re a) = false) := by
    rcases hre with h | h <;> simp [h]
  rw [if_neg hre']
  generalize (init lib b .unspec).maskplen = q
  cases q <;> rfl

/-! ### decimal numbers -/

theorem digitChar_val (d : Nat) (h : d < 10) : (Nat.digitChar d).toNat - '0'.toNat = d ∧ isDig (Nat.digitChar d) = true := by
  have : ∀ d, d < 10 → (Nat.digitChar d).toNat - '0'.toNat = d ∧ isDig (Nat.digitChar d) = true := by decide
  exact this d h

theorem decNat_snoc (s : Str) (c : Char) : decNat (s ++ [c]) = 10 * decNat s + (c.toNat - '0'.toNat) := by
  simp [decNat]

theorem dec_spec (n : Nat) : decNat (dec n) = n ∧ (dec n).all isDig = true ∧ dec n ≠ [] := by
  induction n using Nat.strongRecOn with
  | ind n ih =>
    unfold dec at *
    by_cases h : n < 10
    · rw [Nat.toDigits_of_lt_base h]
      have := digitChar_val n h
      refine ⟨by simpa [decNat] using this.1, by simp [this.2], by simp⟩
    · rw [Nat.toDigits_of_base_le (by decide) (by omega)]
      obtain ⟨h1, h2, _⟩ := ih (n / 10) (by omega)
      have := digitChar_val (n % 10) (by omega)
      refine ⟨?_, ?_, by simp⟩
      · rw [decNat_snoc, h1, this.1]; omega
      · rw [List.all_append, h2]
        simp [this.2]

theorem isDig_ne (c : Char) (h : isDig c = true) : c ≠ '/' ∧ c ≠ '\n' ∧ c ≠ '[' := by
  refine ⟨?_, ?_, ?_⟩ <;> rintro rfl <;> simp [isDig] at h

theorem clean_ne (c : Char) (h : isHex c = true ∨ c = '.' ∨ c = ':') : c ≠ '/' ∧ c ≠ '\n' ∧ c ≠ '[' := by
  refine ⟨?_, ?_, ?_⟩ <;> rintro rfl <;> revert h <;> decide

theorem dec_clean (n : Nat) : '/' ∉ dec n ∧ '\n' ∉ dec n := by
  have h := List.all_eq_true.1 (dec_spec n).2.1
  exact ⟨fun hm => (isDig_ne _ (h _ hm)).1 rfl, fun hm => (isDig_ne _ (h _ hm)).2.1 rfl⟩

end Verif.IPAddr
