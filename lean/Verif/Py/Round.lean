/-!
# `int(round(a / d))`

Python 3 `round` of a real number to an integer rounds half to even. Modelled on exact rationals `a/d` (the code
uses IEEE doubles).
-/

namespace Verif

/-- nearest integer of `a/d` (`d > 0`), ties to the even integer -/
def roundHalfEven (a d : Nat) : Nat :=
  let q := a / d
  let r := a % d
  if 2 * r < d then q
  else if d < 2 * r then q + 1
  else if q % 2 = 0 then q else q + 1

/-- Independent description of rounding: `n` is a nearest integer of `a/d`, and an even one in case of a tie. -/
def IsRounded (a d n : Nat) : Prop :=
  2 * (n * d) ≤ 2 * a + d ∧ 2 * a ≤ 2 * (n * d) + d ∧
  ((2 * (n * d) = 2 * a + d ∨ 2 * a = 2 * (n * d) + d) → n % 2 = 0)

theorem isRounded_roundHalfEven (a d : Nat) (hd : 0 < d) : IsRounded a d (roundHalfEven a d) := by
  have h1 : a / d * d + a % d = a := by rw [Nat.mul_comm]; exact Nat.div_add_mod a d
  have h2 : a % d < d := Nat.mod_lt _ hd
  have h3 : (a / d + 1) * d = a / d * d + d := by rw [Nat.add_mul, Nat.one_mul]
  unfold roundHalfEven IsRounded
  simp only
  generalize hq : a / d = q at *
  generalize hr : a % d = r at *
  generalize hqd : q * d = m at *
  split
  · rw [hqd]; refine ⟨by omega, by omega, ?_⟩; omega
  · split
    · rw [h3]; refine ⟨by omega, by omega, ?_⟩; omega
    · split
      · rw [hqd]; refine ⟨by omega, by omega, ?_⟩; omega
      · rw [h3]; refine ⟨by omega, by omega, ?_⟩; omega

/-- the description determines the result -/
theorem IsRounded.unique {a d m n : Nat} (hd : 0 < d) (hm : IsRounded a d m) (hn : IsRounded a d n) : m = n := by
  have key : ∀ {m n : Nat}, IsRounded a d m → IsRounded a d n → m < n → False := by
    intro m n hm hn h
    obtain ⟨a1, a2, a3⟩ := hm
    obtain ⟨b1, b2, b3⟩ := hn
    have h1 : (m + 1) * d ≤ n * d := Nat.mul_le_mul_right d h
    rw [Nat.add_mul, Nat.one_mul] at h1
    have e1 : n * d = m * d + d := by omega
    have e2 : 2 * a = 2 * (m * d) + d := by omega
    have e3 : 2 * (n * d) = 2 * a + d := by omega
    have hm2 := a3 (Or.inr e2)
    have hn2 := b3 (Or.inl e3)
    have h4 : n * d = (m + 1) * d := by rw [Nat.add_mul, Nat.one_mul]; omega
    have h5 : n = m + 1 := Nat.eq_of_mul_eq_mul_right hd h4
    omega
  rcases Nat.lt_trichotomy m n with h | h | h
  · exact (key hm hn h).elim
  · exact h
  · exact (key hn hm h).elim

/-- a fraction `r * m / d` with `m ≤ d` never rounds above `r` -/
theorem roundHalfEven_le {r m d : Nat} (hd : 0 < d) (h : m ≤ d) : roundHalfEven (r * m) d ≤ r := by
  have hle : r * m ≤ r * d := Nat.mul_le_mul_left r h
  obtain ⟨a1, a2, a3⟩ := isRounded_roundHalfEven (r * m) d hd
  generalize hn : roundHalfEven (r * m) d = n at *
  by_cases hlt : n ≤ r
  · exact hlt
  · have h1 : (r + 1) * d ≤ n * d := Nat.mul_le_mul_right d (by omega)
    rw [Nat.add_mul, Nat.one_mul] at h1
    omega

end Verif
