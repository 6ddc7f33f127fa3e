import Verif.Spec.Dates

/-!
# The calendar of the model counts days
-/

namespace Verif

namespace DateSpec

open Dates

theorem isLeap_iff (y : Nat) : isLeap y = true ↔ Leap y := by
  simp only [isLeap, Leap, Bool.and_eq_true, Bool.or_eq_true, beq_iff_eq, bne_iff_ne]
  omega

theorem daysIn_eq (y m : Nat) (h1 : 1 ≤ m) (h2 : m ≤ 12) : daysIn y m = monthLength y m := by
  have : m = 1 ∨ m = 2 ∨ m = 3 ∨ m = 4 ∨ m = 5 ∨ m = 6 ∨ m = 7 ∨ m = 8 ∨ m = 9 ∨ m = 10 ∨ m = 11 ∨ m = 12 := by omega
  rcases this with h | h | h | h | h | h | h | h | h | h | h | h <;> subst h <;> simp [daysIn, monthLength, months, isLeap_iff]

/-- the days of the months before `m` -/
theorem daysBefore_eq (y m : Nat) (h1 : 1 ≤ m) (h2 : m ≤ 13) :
    daysBefore y m = [0, 31, 59, 90, 120, 151, 181, 212, 243, 273, 304, 334, 365].getD (m - 1) 0 + (if 2 < m ∧ isLeap y then 1 else 0) := by
  have : m = 1 ∨ m = 2 ∨ m = 3 ∨ m = 4 ∨ m = 5 ∨ m = 6 ∨ m = 7 ∨ m = 8 ∨ m = 9 ∨ m = 10 ∨ m = 11 ∨ m = 12 ∨ m = 13 := by omega
  rcases this with h | h | h | h | h | h | h | h | h | h | h | h | h <;> subst h <;> simp [daysBefore, daysIn] <;> split <;> rfl

theorem daysBefore_succ (y m : Nat) (h : 1 ≤ m) : daysBefore y (m + 1) = daysBefore y m + daysIn y m := by
  cases m with
  | zero => omega
  | succ m => rfl

/-- days before the first of January -/
def beforeYear (y : Nat) : Nat := (y - 1) * 365 + (y - 1) / 4 - (y - 1) / 100 + (y - 1) / 400

theorem toOrdinal_eq (y m d : Nat) : toOrdinal y m d = beforeYear y + daysBefore y m + d := rfl

theorem yearLength (y : Nat) : daysBefore y 13 = if isLeap y then 366 else 365 := by
  rw [daysBefore_eq y 13 (by omega) (by omega)]
  by_cases h : isLeap y = true <;> simp [h]

theorem beforeYear_succ (y : Nat) (h : 1 ≤ y) : beforeYear (y + 1) = beforeYear y + daysBefore y 13 := by
  rw [yearLength]
  by_cases l : isLeap y = true
  · rw [if_pos l]
    rw [isLeap_iff] at l
    unfold Leap at l
    unfold beforeYear
    omega
  · rw [if_neg l]
    rw [isLeap_iff] at l
    unfold Leap at l
    unfold beforeYear
    omega

/-- ordinal of a day -/
def Day.ord (x : Day) : Nat := toOrdinal x.y x.m x.d

theorem valid_next {x : Day} (h : x.Valid) : x.next.Valid := by
  obtain ⟨y, m, d⟩ := x
  obtain ⟨h1, h2, h3, h4, h5⟩ := h
  simp only at *
  unfold Day.next
  simp only
  split
  · exact ⟨h1, h2, h3, by simp, by simp; omega⟩
  · split
    · rename_i hm
      refine ⟨h1, by simp, by simp; omega, by simp, ?_⟩
      simp only
      rw [← daysIn_eq y (m + 1) (by omega) (by omega)]
      unfold daysIn
      split <;> (try split) <;> omega
    · refine ⟨by simp, by simp, by simp, by simp, ?_⟩
      simp [monthLength, months]

theorem ord_next {x : Day} (h : x.Valid) : x.next.ord = x.ord + 1 := by
  obtain ⟨y, m, d⟩ := x
  obtain ⟨h1, h2, h3, h4, h5⟩ := h
  simp only at *
  have e := daysIn_eq y m h2 h3
  unfold Day.next Day.ord
  simp only
  split
  · simp only [toOrdinal_eq]; omega
  · have hd : d = daysIn y m := by omega
    split
    · simp only [toOrdinal_eq]
      rw [daysBefore_succ y m h2]
      omega
    · have hm : m = 12 := by omega
      subst hm
      simp only [toOrdinal_eq]
      rw [beforeYear_succ y h1]
      have e2 : daysBefore y 13 = daysBefore y 12 + daysIn y 12 := rfl
      have e3 : daysBefore (y + 1) 1 = 0 := rfl
      omega

theorem beforeYear_mono {y z : Nat} (h1 : 1 ≤ y) (h : y ≤ z) : beforeYear y + 365 * (z - y) ≤ beforeYear z := by
  induction z with
  | zero => omega
  | succ z ih =>
    by_cases e : y = z + 1
    · subst e; simp
    · have := ih (by omega)
      rw [beforeYear_succ z (by omega), yearLength]
      split <;> omega

theorem daysBefore_mono (y : Nat) {m n : Nat} (h1 : 1 ≤ m) (h : m < n) (h2 : n ≤ 13) : daysBefore y m + daysIn y m ≤ daysBefore y n := by
  induction n with
  | zero => omega
  | succ n ih =>
    by_cases e : m = n
    · subst e; rw [daysBefore_succ y m h1]; omega
    · have := ih (by omega) (by omega)
      rw [daysBefore_succ y n (by omega)]
      omega

/-- the day is within its year -/
theorem ord_year {x : Day} (h : x.Valid) : beforeYear x.y < x.ord ∧ x.ord ≤ beforeYear (x.y + 1) := by
  obtain ⟨y, m, d⟩ := x
  obtain ⟨h1, h2, h3, h4, h5⟩ := h
  simp only at *
  have e := daysIn_eq y m h2 h3
  have := daysBefore_mono y h2 (show m < 13 by omega) (by omega)
  rw [beforeYear_succ y h1]
  simp only [Day.ord, toOrdinal_eq]
  omega

theorem ord_inj {x z : Day} (hx : x.Valid) (hz : z.Valid) (e : x.ord = z.ord) : x = z := by
  have ax := ord_year hx
  have az := ord_year hz
  have ey : x.y = z.y := by
    rcases Nat.lt_trichotomy x.y z.y with h | h | h
    · have := beforeYear_mono (show 1 ≤ x.y + 1 by omega) (show x.y + 1 ≤ z.y from h)
      omega
    · exact h
    · have := beforeYear_mono (show 1 ≤ z.y + 1 by omega) (show z.y + 1 ≤ x.y from h)
      omega
  obtain ⟨y, m, d⟩ := x
  obtain ⟨y', m', d'⟩ := z
  simp only at ey
  subst ey
  obtain ⟨h1, h2, h3, h4, h5⟩ := hx
  obtain ⟨k1, k2, k3, k4, k5⟩ := hz
  simp only [Day.ord, toOrdinal_eq] at *
  have em := daysIn_eq y m h2 h3
  have em' := daysIn_eq y m' k2 k3
  have : m = m' := by
    rcases Nat.lt_trichotomy m m' with h | h | h
    · have := daysBefore_mono y h2 h (by omega)
      omega
    · exact h
    · have := daysBefore_mono y k2 h (by omega)
      omega
  subst this
  have : d = d' := by omega
  subst this
  rfl

theorem ord_pos {x : Day} (h : x.Valid) : 1 ≤ x.ord := by
  have := (ord_year h).1
  omega

def first : Day := ⟨1, 1, 1⟩

def nextN : Nat → Day → Day
  | 0, x => x
  | k + 1, x => (nextN k x).next

theorem nextN_spec (k : Nat) : (nextN k first).Valid ∧ (nextN k first).ord = k + 1 := by
  induction k with
  | zero => exact ⟨by decide, by decide⟩
  | succ k ih => exact ⟨valid_next ih.1, by rw [nextN, ord_next ih.1, ih.2]⟩

theorem eq_nextN {x : Day} (h : x.Valid) : x = nextN (x.ord - 1) first := by
  have := nextN_spec (x.ord - 1)
  refine ord_inj h this.1 ?_
  have := ord_pos h
  omega

theorem DayNo.valid {x : Day} {n : Int} (h : DayNo x n) : x.Valid := by
  induction h with
  | epoch => decide
  | next _ ih => exact valid_next ih
  | prev v _ _ => exact v

theorem DayNo.ord {x : Day} {n : Int} (h : DayNo x n) : n = x.ord - 719163 := by
  induction h with
  | epoch => decide
  | @next x n h ih =>
    have := ord_next h.valid
    omega
  | @prev x n v h ih =>
    have := ord_next v
    omega

theorem dayNo_first : ∀ (k : Nat) (n : Int), DayNo (nextN k first) n → DayNo first (n - k)
  | 0, n, h => by simpa [nextN] using h
  | k + 1, n, h => by
    have := dayNo_first k (n - 1) (DayNo.prev (nextN_spec k).1 h)
    have e : n - ((k + 1 : Nat) : Int) = n - 1 - k := by omega
    rw [e]
    exact this

theorem dayNo_nextN (k : Nat) : DayNo (nextN k first) ((k : Int) - 719162) := by
  induction k with
  | zero =>
    have e : (⟨1970, 1, 1⟩ : Day) = nextN 719162 first := by
      have h : (⟨1970, 1, 1⟩ : Day).ord = 719163 := by decide
      have := eq_nextN (x := ⟨1970, 1, 1⟩) (by decide)
      rwa [h] at this
    have h := DayNo.epoch
    rw [e] at h
    have := dayNo_first _ _ h
    simpa [nextN] using this
  | succ k ih =>
    have := DayNo.next ih
    have e : ((k + 1 : Nat) : Int) - 719162 = (k : Int) - 719162 + 1 := by omega
    rw [e]
    exact this

/-- The number of a day is its ordinal but for the first one. -/
theorem dayNo_iff {x : Day} (h : x.Valid) (n : Int) : DayNo x n ↔ n = x.ord - 719163 := by
  constructor
  · exact DayNo.ord
  · intro e
    have := dayNo_nextN (x.ord - 1)
    rw [← eq_nextN h] at this
    have p := ord_pos h
    have e2 : ((x.ord - 1 : Nat) : Int) - 719162 = n := by omega
    rwa [e2] at this

/-! ## Back from ordinals -/

theorem monthDay_spec (y : Nat) : ∀ (k m n : Nat), 1 ≤ m → m + k = 12 → n < daysBefore y 13 - daysBefore y m →
    ∃ m' d', monthDay y k m n = (m', d') ∧ (⟨max y 1, m', d'⟩ : Day).m = m' ∧ m ≤ m' ∧ m' ≤ 12 ∧ 1 ≤ d' ∧ d' ≤ daysIn y m' ∧ daysBefore y m' + d' = daysBefore y m + n + 1
  | 0, m, n, h1, h2, h3 => by
    have : m = 12 := by omega
    subst this
    have e2 : daysBefore y 13 = daysBefore y 12 + daysIn y 12 := rfl
    exact ⟨12, n + 1, rfl, rfl, by omega, by omega, by omega, by omega, by omega⟩
  | k + 1, m, n, h1, h2, h3 => by
    have e : monthDay y (k + 1) m n = if n < daysIn y m then (m, n + 1) else monthDay y k (m + 1) (n - daysIn y m) := rfl
    rw [e]
    by_cases c : n < daysIn y m
    · rw [if_pos c]
      exact ⟨m, n + 1, rfl, rfl, by omega, by omega, by omega, by omega, by omega⟩
    · rw [if_neg c]
      have s := daysBefore_succ y m h1
      obtain ⟨m', d', a, b, c1, c2, c3, c4, c5⟩ := monthDay_spec y k (m + 1) (n - daysIn y m) (by omega) (by omega) (by omega)
      exact ⟨m', d', a, b, by omega, c2, c3, c4, by omega⟩

theorem leaps (a b c d : Nat) (hb : b ≤ 3) (hc : c ≤ 24) (hd : d ≤ 3) :
    (a * 400 + b * 100 + c * 4 + d) / 4 = 100 * a + 25 * b + c ∧ (a * 400 + b * 100 + c * 4 + d) / 100 = 4 * a + b ∧
    (a * 400 + b * 100 + c * 4 + d) / 400 = a := by
  refine ⟨by omega, by omega, by omega⟩

theorem add_one_mid (a b c d : Nat) : a + 1 + b + c + d = a + b + c + d + 1 := by omega

theorem add_399 (a : Nat) : a * 400 + 4 * 100 + 0 * 4 + 0 - 1 = a * 400 + 399 := by omega

theorem fromOrdinal_spec (n : Nat) (h : 1 ≤ n) :
    (⟨(fromOrdinal n).1, (fromOrdinal n).2.1, (fromOrdinal n).2.2⟩ : Day).Valid ∧
    (⟨(fromOrdinal n).1, (fromOrdinal n).2.1, (fromOrdinal n).2.2⟩ : Day).ord = n := by
  unfold fromOrdinal
  simp only
  have key : ∀ (Y r : Nat), 1 ≤ Y → n = beforeYear Y + r + 1 → r < daysBefore Y 13 →
      (⟨Y, (monthDay Y 11 1 r).1, (monthDay Y 11 1 r).2⟩ : Day).Valid ∧ (⟨Y, (monthDay Y 11 1 r).1, (monthDay Y 11 1 r).2⟩ : Day).ord = n := by
    intro Y r hY en hr
    obtain ⟨m', d', a, _, c1, c2, c3, c4, c5⟩ := monthDay_spec Y 11 1 r (by omega) (by omega) (by simpa [daysBefore] using hr)
    rw [a]
    have e0 : daysBefore Y 1 = 0 := rfl
    refine ⟨⟨hY, c1, c2, c3, ?_⟩, ?_⟩
    · simpa [daysIn_eq Y m' c1 c2] using c4
    · simp only [Day.ord, toOrdinal_eq]
      omega
  generalize ha : (n - 1) / 146097 = a
  generalize hr : (n - 1) % 146097 = r
  generalize hb : r / 36524 = b
  generalize hr2 : r % 36524 = r2
  generalize hc : r2 / 1461 = c
  generalize hr3 : r2 % 1461 = r3
  generalize hd : r3 / 365 = d
  generalize hr4 : r3 % 365 = r4
  split
  · rename_i hx
    -- last day of a leap year
    have ey : a * 400 + 1 + b * 100 + c * 4 + d - 1 = a * 400 + b * 100 + c * 4 + d := by omega
    rw [ey]
    have fin : ∀ Y, isLeap Y = true → 1 ≤ Y → n = beforeYear Y + 365 + 1 → (⟨Y, 12, 31⟩ : Day).Valid ∧ (⟨Y, 12, 31⟩ : Day).ord = n := by
      intro Y leap hY en
      have := key Y 365 hY en (by rw [yearLength, if_pos leap]; omega)
      have e : monthDay Y 11 1 365 = (12, 31) := by simp [monthDay, daysIn, leap]
      rw [e] at this
      exact this
    by_cases hb4 : b = 4
    · have c0 : c = 0 := by omega
      have d0 : d = 0 := by omega
      subst hb4 c0 d0
      refine fin _ ?_ (by omega) ?_
      · rw [isLeap_iff]; unfold Leap; omega
      · unfold beforeYear
        have : a * 400 + 4 * 100 + 0 * 4 + 0 - 1 = a * 400 + 399 := add_399 a
        rw [this]
        have q1 : (a * 400 + 399) / 4 = 100 * a + 99 := by omega
        have q2 : (a * 400 + 399) / 100 = 4 * a + 3 := by omega
        have q3 : (a * 400 + 399) / 400 = a := by omega
        omega
    · have d4 : d = 4 := by omega
      have b3 : b ≤ 3 := by omega
      have c23 : c ≤ 23 := by omega
      subst d4
      refine fin _ ?_ (by omega) ?_
      · rw [isLeap_iff]; unfold Leap; omega
      · unfold beforeYear
        have : a * 400 + b * 100 + c * 4 + 4 - 1 = a * 400 + b * 100 + c * 4 + 3 := rfl
        rw [this]
        obtain ⟨q1, q2, q3⟩ := leaps a b c 3 b3 (by omega) (by omega)
        omega
  · rename_i hx
    have b3 : b ≤ 3 := by omega
    have d3 : d ≤ 3 := by omega
    have c24 : c ≤ 24 := by omega
    have ey : a * 400 + 1 + b * 100 + c * 4 + d = a * 400 + b * 100 + c * 4 + d + 1 := add_one_mid _ _ _ _
    rw [ey]
    refine key _ r4 (by omega) ?_ ?_
    · unfold beforeYear
      simp only [Nat.add_sub_cancel]
      obtain ⟨q1, q2, q3⟩ := leaps a b c d b3 c24 d3
      omega
    · rw [yearLength]
      split <;> omega

/-- the day of a time -/
def dayAt (t : Int) : Day := ⟨(dateOf t).1, (dateOf t).2.1, (dateOf t).2.2⟩

/-- the first second of the year 1 -/
def minTime : Int := (1 - 719163) * 86400

theorem dayAt_spec (t : Int) (h : minTime ≤ t) : (dayAt t).Valid ∧ ((dayAt t).ord : Int) = t / 86400 + 719163 := by
  unfold minTime at h
  have := fromOrdinal_spec (t / 86400 + 719163).toNat (by omega)
  unfold dayAt dateOf
  refine ⟨this.1, ?_⟩
  rw [this.2]
  omega

theorem dayAt_eq {x : Day} (v : x.Valid) (t : Int) (h : (x.ord : Int) = t / 86400 + 719163) : dayAt t = x := by
  have p := ord_pos v
  have s := dayAt_spec t (by unfold minTime; omega)
  exact ord_inj s.1 v (by omega)

end DateSpec

end Verif
