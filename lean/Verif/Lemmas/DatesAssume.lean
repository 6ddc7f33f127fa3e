import Verif.Lemmas.DatesResolve

/-!
# Dates without year or day
-/

namespace Verif

namespace DateSpec

open Dates

/-- the day of a time has its number -/
theorem dayAt_no {t : Int} (h : minTime ≤ t) : DayNo (dayAt t) (t / 86400) := by
  have s := dayAt_spec t h
  exact (dayNo_iff s.1 _).2 (by omega)

theorem dayNo_unique {x : Day} {a b : Int} (h1 : DayNo x a) (h2 : DayNo x b) : a = b := by rw [h1.ord, h2.ord]

theorem dayNo_inj {x z : Day} {n : Int} (h1 : DayNo x n) (h2 : DayNo z n) : x = z :=
  ord_inj h1.valid h2.valid (by have := h1.ord; have := h2.ord; omega)

/-- later years have later days -/
theorem year_mono {x z : Day} {a b : Int} (hx : DayNo x a) (hz : DayNo z b) (h : a ≤ b) : x.y ≤ z.y := by
  have e1 := hx.ord
  have e2 := hz.ord
  have r1 := ord_year hx.valid
  have r2 := ord_year hz.valid
  rcases Nat.lt_or_ge z.y x.y with h | h
  · have := beforeYear_mono (show 1 ≤ z.y + 1 by omega) (show z.y + 1 ≤ x.y from h)
    omega
  · exact h

/-- less than a year apart -/
theorem year_near {x z : Day} {a b : Int} (hx : DayNo x a) (hz : DayNo z b) (h : b ≤ a + 365) : z.y ≤ x.y + 1 := by
  have e1 := hx.ord
  have e2 := hz.ord
  have r1 := ord_year hx.valid
  have r2 := ord_year hz.valid
  rcases Nat.lt_or_ge (x.y + 1) z.y with h | h
  · have := beforeYear_mono (show 1 ≤ x.y + 1 by omega) (show x.y + 1 ≤ z.y by omega)
    omega
  · exact h

theorem year_before {x z : Day} {a b : Int} (hx : DayNo x a) (hz : DayNo z b) (h : x.y < z.y) : a < b := by
  have e1 := hx.ord
  have e2 := hz.ord
  have r1 := ord_year hx.valid
  have r2 := ord_year hz.valid
  have := beforeYear_mono (show 1 ≤ x.y + 1 by omega) (show x.y + 1 ≤ z.y by omega)
  omega

/-- The same day a year later: at least 365 days later, or it is the 29th of February, more than 300 days before the next year. -/
theorem anniversary {x : Day} {n : Int} (h : DayNo x n) :
    (∃ n', DayNo ⟨x.y + 1, x.m, x.d⟩ n' ∧ n + 365 ≤ n') ∨ (∀ z b, DayNo z b → z.y = x.y + 1 → n + 306 < b) := by
  have v := h.valid
  have e := h.ord
  obtain ⟨y, m, d⟩ := x
  obtain ⟨h1, h2, h3, h4, h5⟩ := v
  simp only at *
  have l1 := daysIn_eq y m h2 h3
  by_cases hv : (⟨y + 1, m, d⟩ : Day).Valid
  · refine .inl ⟨(⟨y + 1, m, d⟩ : Day).ord - 719163, (dayNo_iff hv _).2 rfl, ?_⟩
    have d1 := daysBefore_eq y m h2 (by omega)
    have d2 := daysBefore_eq (y + 1) m h2 (by omega)
    simp only [Day.ord, toOrdinal_eq] at *
    have b := beforeYear_succ y h1
    rw [yearLength] at b
    by_cases l : isLeap y = true
    · rw [if_pos l] at b
      by_cases l2 : isLeap (y + 1) = true
      · rw [isLeap_iff] at l l2; unfold Leap at l l2; omega
      · rw [if_neg (fun h => l2 h.2)] at d2
        split at d1 <;> omega
    · rw [if_neg l] at b
      rw [if_neg (fun h => l h.2)] at d1
      omega
  · refine .inr ?_
    have hf : m = 2 ∧ d = 29 ∧ Leap y := by
      have hv' : ¬ d ≤ monthLength (y + 1) m := fun hd => hv ⟨by simp, h2, h3, h4, hd⟩
      rw [← daysIn_eq (y + 1) m h2 h3] at hv'
      rw [← l1] at h5
      unfold daysIn at h5 hv'
      by_cases hm : m = 2
      · simp only [hm, if_true] at h5 hv'
        by_cases l : isLeap y = true
        · rw [if_pos l] at h5
          refine ⟨hm, ?_, (isLeap_iff y).1 l⟩
          split at hv' <;> omega
        · rw [if_neg l] at h5
          split at hv' <;> omega
      · simp only [hm, if_false] at h5 hv'
        omega
    obtain ⟨rfl, rfl, lp⟩ := hf
    intro z b hz hy
    have e2 := hz.ord
    have r2 := ord_year hz.valid
    rw [hy] at r2
    rw [beforeYear_succ y h1, yearLength, if_pos ((isLeap_iff y).2 lp)] at r2
    have d1 := daysBefore_eq y 2 h2 (by omega)
    simp only [Day.ord, toOrdinal_eq] at *
    simp at d1
    omega

/-! ## The steps of `resolve` without year -/

/-- no time is out of range -/
def InRange (t : Int) : Prop := 86400 * (1 - 719163 + 800) ≤ t ∧ t < 86400 * (3652059 + 1 - 719163 - 800)

theorem InRange.year {t : Int} (h : InRange t) : 2 ≤ (dayAt t).y ∧ (dayAt t).y ≤ 9998 ∧ 2 ≤ (dayAt t).y - 1 := by
  unfold InRange at h
  have d := dayAt_no (t := t) (by unfold minTime; omega)
  have e := d.ord
  have r := ord_year d.valid
  have a : ¬ (dayAt t).y + 1 ≤ 3 := by
    intro hh
    have := beforeYear_mono (show 1 ≤ (dayAt t).y + 1 by omega) hh
    have e1 : beforeYear 3 = 730 := by decide
    omega
  have b : ¬ 9999 ≤ (dayAt t).y := by
    intro hh
    have := beforeYear_mono (show 1 ≤ 9999 by omega) hh
    have e1 : beforeYear 9999 = 3651694 := by decide
    omega
  omega

theorem dateOf_eq (t : Int) : dateOf t = ((dayAt t).y, (dayAt t).m, (dayAt t).d) := rfl

/-- Only the time of the day is known. -/
theorem resolve_today {now : Int} {v : Vars} (hr : InRange now) (hy : v.year = none) (hd : resolveDay v (dayAt now).y = .ok ((dayAt now).y, none, none))
    {c : Clock} (ec : c = ⟨v.hour, v.minute, v.second⟩) (hc : c.Valid) (hz : tzOf none v = none) :
    ∃ t, resolve now none v = .ok (t, none) ∧ t % 86400 = c.seconds ∧ t ≤ now ∧ now - 86400 < t := by
  have yr := hr.year
  unfold InRange at hr
  have d := dayAt_no (t := now) (by unfold minTime; omega)
  have mk := mkTime_ok d (by omega) hc
  have b := Clock.bounds hc
  unfold tzOf at hz
  unfold resolve
  subst ec
  simp only at mk
  simp only [hy, Option.getD_none, dateOf_eq, hd, bind, Except.bind, Option.isNone_none, Bool.and_self, if_true, true_and, mk, hz, applyZone]
  have s : shift now 86400 = .ok (now + 86400) := shift_ok (by omega) (by omega)
  generalize hT : 86400 * (now / 86400) + (⟨v.hour, v.minute, v.second⟩ : Clock).seconds = T
  by_cases h : now < T
  · rw [if_pos h, shift_ok (by omega) (by omega)]
    simp only [s]
    rw [if_neg (by omega)]
    exact ⟨T + -86400, rfl, by omega, by omega, by omega⟩
  · rw [if_neg h]
    simp only [s]
    rw [if_neg (by omega)]
    exact ⟨T, rfl, by omega, by omega, by omega⟩

/-- The year is missing, and it is this one. -/
theorem resolve_this_year {now : Int} {dtz : Option Int} {v : Vars} {x : Day} {n : Int} (hr : InRange now) (hx : DayNo x n) (hy : v.year = none)
    (hd : resolveDay v x.y = .ok (x.y, some x.m, some x.d)) (ex : x.y = (dayAt now).y)
    {c : Clock} (ec : c = ⟨v.hour, v.minute, v.second⟩) (hc : c.Valid) (ho : Bounded (tzOf dtz v))
    (hu : utc (86400 * n + c.seconds) (tzOf dtz v) ≤ now + 86400) :
    resolve now dtz v = .ok (utc (86400 * n + c.seconds) (tzOf dtz v), tzOf dtz v) := by
  have yr := hr.year
  have r := hx.range (by omega) (by omega)
  have b := Clock.bounds hc
  have mk := mkTime_ok hx (by omega) hc
  have u := toUtc (t := 86400 * n + c.seconds) ho (by omega) (by omega)
  unfold InRange at hr
  have s : shift now 86400 = .ok (now + 86400) := shift_ok (by omega) (by omega)
  subst ec
  simp only at mk
  unfold tzOf at u hu ⊢
  unfold resolve
  simp only [hy, Option.getD_none, dateOf_eq, ← ex, hd, bind, Except.bind, Option.isNone_some, Bool.and_self, Bool.false_eq_true, if_false, false_and, mk,
    u, if_true, s]
  rw [if_neg (by omega)]

/-- The year is missing, and it is the last one. -/
theorem resolve_last_year {now : Int} {dtz : Option Int} {v : Vars} {x : Day} {n n' : Int} (hr : InRange now) (hx : DayNo x n)
    (hx' : DayNo ⟨x.y + 1, x.m, x.d⟩ n') (hy : v.year = none)
    (hd : resolveDay v (x.y + 1) = .ok (x.y + 1, some x.m, some x.d)) (ex : x.y + 1 = (dayAt now).y)
    {c : Clock} (ec : c = ⟨v.hour, v.minute, v.second⟩) (hc : c.Valid) (ho : Bounded (tzOf dtz v))
    (hu : now + 86400 < utc (86400 * n' + c.seconds) (tzOf dtz v)) :
    resolve now dtz v = .ok (86400 * n + utc (86400 * n' + c.seconds) (tzOf dtz v) % 86400, tzOf dtz v) := by
  have yr := hr.year
  have r := hx'.range (by simp; omega) (by simp; omega)
  have b := Clock.bounds hc
  have mk := mkTime_ok hx' (by simp; omega) hc
  have mk0 := mkTime_ok hx (by omega) (c := ⟨0, 0, 0⟩) ⟨by decide, by decide, by decide⟩
  have u := toUtc (t := 86400 * n' + c.seconds) ho (by omega) (by omega)
  unfold InRange at hr
  have s : shift now 86400 = .ok (now + 86400) := shift_ok (by omega) (by omega)
  subst ec
  simp only at mk mk0
  unfold tzOf at u hu ⊢
  unfold resolve
  simp only [hy, Option.getD_none, dateOf_eq, ← ex, hd, bind, Except.bind, Option.isNone_some, Bool.and_self, Bool.false_eq_true, if_false, false_and, mk,
    u, if_true, s]
  rw [if_pos hu]
  simp only [Nat.add_sub_cancel, mk0]
  simp [Clock.seconds]

end DateSpec

end Verif
