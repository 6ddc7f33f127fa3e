import Verif.Lemmas.DatesFields

/-!
# From fields to a time
-/

namespace Verif

namespace DateSpec

open Dates

theorem mkTime_ok {x : Day} {n : Int} (h : DayNo x n) (hy : x.y ≤ 9999) {c : Clock} (hc : c.Valid) :
    mkTime x.y x.m x.d c.h c.i c.s = .ok (86400 * n + c.seconds) := by
  have v := h.valid
  have e := h.ord
  unfold mkTime
  rw [if_pos ⟨v.1, hy, v.2.1, v.2.2.1, v.2.2.2.1, by rw [daysIn_eq _ _ v.2.1 v.2.2.1]; exact v.2.2.2.2, hc.1, hc.2.1, hc.2.2⟩]
  have : toOrdinal x.y x.m x.d = x.ord := rfl
  rw [this]
  simp only [Clock.seconds, Except.ok.injEq]
  omega

theorem mkTime_error {x : Day} {c : Clock} (h : ¬(x.Valid ∧ x.y ≤ 9999 ∧ c.Valid)) : mkTime x.y x.m x.d c.h c.i c.s = .error .value := by
  unfold mkTime
  rw [if_neg]
  intro k
  refine h ⟨⟨k.1, k.2.2.1, k.2.2.2.1, k.2.2.2.2.1, ?_⟩, k.2.1, k.2.2.2.2.2.2.1, k.2.2.2.2.2.2.2.1, k.2.2.2.2.2.2.2.2⟩
  rw [← daysIn_eq _ _ k.2.2.1 k.2.2.2.1]
  exact k.2.2.2.2.2.1

theorem Clock.bounds {c : Clock} (h : c.Valid) : 0 ≤ c.seconds ∧ c.seconds < 86400 := by
  unfold Clock.Valid at h
  unfold Clock.seconds
  omega

/-- days of the years from 2 to 9998 are far from the limits -/
theorem DayNo.range {x : Day} {n : Int} (h : DayNo x n) (h1 : 2 ≤ x.y) (h2 : x.y ≤ 9998) : 1 - 719163 + 365 ≤ n ∧ n ≤ 3652059 - 719163 - 365 := by
  have e := h.ord
  have r := ord_year h.valid
  have b1 : beforeYear 2 ≤ beforeYear x.y := by
    have := beforeYear_mono (show 1 ≤ 2 by omega) h1
    omega
  have b2 : beforeYear (x.y + 1) ≤ beforeYear 9999 := by
    have := beforeYear_mono (show 1 ≤ x.y + 1 by omega) (show x.y + 1 ≤ 9999 by omega)
    omega
  have e1 : beforeYear 2 = 365 := by decide
  have e2 : beforeYear 9999 = 3651694 := by decide
  omega

theorem shift_ok {t x : Int} (h1 : 86400 * (1 - 719163) ≤ t + x) (h2 : t + x < 86400 * (3652059 + 1 - 719163)) : shift t x = .ok (t + x) := by
  unfold shift maxOrdinal
  rw [if_pos ⟨by omega, by omega⟩]

/-- the offset that applies -/
def tzOf (defaultTz : Option Int) (v : Vars) : Option Int := v.tzoffset.or defaultTz

/-- a time of a zone in UTC -/
def utc (t : Int) : Option Int → Int
  | none => t
  | some o => t - 60 * o

theorem toUtc {t : Int} {o : Option Int} (ho : Bounded o) (h1 : 86400 * (1 - 719163 + 365) ≤ t) (h2 : t < 86400 * (3652059 + 1 - 719163 - 365)) :
    applyZone t o = .ok (utc t o) := by
  cases o with
  | none => rfl
  | some o =>
    unfold Bounded at ho
    simp only at ho
    unfold applyZone
    simp only
    rw [shift_ok (by omega) (by omega)]
    simp only [utc, Except.ok.injEq]
    omega

/-- A complete date. -/
theorem resolve_complete {now : Int} {dtz : Option Int} {v : Vars} {x : Day} {n : Int} (hx : DayNo x n)
    (h1 : 2 ≤ x.y) (h2 : x.y ≤ 9998) (hy : v.year = some x.y) (hd : resolveDay v x.y = .ok (x.y, some x.m, some x.d))
    (hc : (⟨v.hour, v.minute, v.second⟩ : Clock).Valid) (ho : Bounded (tzOf dtz v)) :
    resolve now dtz v = .ok (utc (86400 * n + (⟨v.hour, v.minute, v.second⟩ : Clock).seconds) (tzOf dtz v), tzOf dtz v) := by
  have r := hx.range h1 h2
  have b := Clock.bounds hc
  have mk := mkTime_ok hx (by omega) hc
  have u := toUtc (t := 86400 * n + (⟨v.hour, v.minute, v.second⟩ : Clock).seconds) ho (by omega) (by omega)
  simp only at mk
  unfold tzOf at u ⊢
  unfold resolve
  simp only [hy, Option.getD_some, hd, bind, Except.bind, Option.isNone_some, Bool.and_self, Bool.false_eq_true, if_false, false_and, mk, reduceCtorEq]
  rw [u]

theorem resolveDay_given {v : Vars} {y m d : Nat} (hm : v.month = some m) (hd : v.day = some d) : resolveDay v y = .ok (y, some m, some d) := by
  unfold resolveDay
  simp [hm, hd]

theorem strptime_ok {mktime : Int → Int} {now : Int} {dtz : Option Int} {p : AmPm} {fs : List Field} {v : Vars} {t : Int}
    (hf : fields p fs {} = .ok v) (hr : resolve now dtz v = .ok (utc t (tzOf dtz v), tzOf dtz v)) :
    strptime mktime now dtz p fs = .ok (unix mktime t (tzOf dtz v)) := by
  unfold strptime
  simp only [hf, hr, bind, Except.bind]
  cases tzOf dtz v <;> simp [unix, utc]

theorem applies_eq {dtz : Option Int} {p : AmPm} {fs : List Field} {v : Vars} {o : Option Int} (r : Result p fs {} v) (h : applies abbrOffset dtz fs o) :
    tzOf dtz v = o := by
  unfold applies at h
  unfold tzOf
  cases e : says zone? fs with
  | none =>
    rw [e] at h
    have := r.zoneNone e
    rw [this, Option.none_or]
    exact h.symm
  | some z =>
    rw [e] at h
    obtain ⟨x, a, b⟩ := h
    obtain ⟨x', a', b'⟩ := r.zoneSome z e
    rw [a', a, zone_unique b b', Option.some_or]

theorem clock_eq {p : AmPm} {fs : List Field} {v : Vars} (r : Result p fs {} v) : (⟨v.hour, v.minute, v.second⟩ : Clock) = clock p fs := by
  unfold clock
  rw [r.hour, r.minute, r.second]

/-! ## Days by their number -/

theorem dayAt_dayNo {x : Day} {n : Int} (h : DayNo x n) : fromOrdinal (n + 719163).toNat = (x.y, x.m, x.d) := by
  have v := h.valid
  have e := h.ord
  have p := ord_pos v
  have s := fromOrdinal_spec (n + 719163).toNat (by omega)
  have := ord_inj s.1 v (by rw [s.2]; omega)
  rw [← this]

theorem resolveDay_yearday {v : Vars} {y : Nat} {j jan : Int} {x : Day} (h1 : 1 ≤ y) (h2 : y ≤ 9999) (hn : v.month = none ∨ v.day = none)
    (hj : v.julian = some j ∨ (v.julian = none ∧ ∃ w mon wd, v.week = some (w, mon) ∧ v.weekday = some wd ∧ yeardayOfWeek y w wd mon = j))
    (hjan : DayNo ⟨y, 1, 1⟩ jan) (hx : DayNo x (jan + j - 1)) (hx2 : x.y ≤ 9999) :
    resolveDay v y = .ok (x.y, some x.m, some x.d) := by
  unfold resolveDay
  rw [if_pos hn]
  have ej : julianOf v y = some j := by
    unfold julianOf
    rcases hj with h | ⟨h, w, mon, wd, e1, e2, e3⟩
    · rw [h]
    · rw [h, e1, e2, ← e3]
  simp only [ej]
  rw [if_pos ⟨h1, h2⟩]
  have e := hjan.ord
  have e' := hx.ord
  have p := ord_pos hx.valid
  have q : x.ord ≤ maxOrdinal := by
    have r := ord_year hx.valid
    have := beforeYear_mono (show 1 ≤ x.y + 1 by omega) (show x.y + 1 ≤ 10000 by omega)
    have e3 : beforeYear 10000 = maxOrdinal := by decide
    omega
  have eo : toOrdinal y 1 1 = (⟨y, 1, 1⟩ : Day).ord := rfl
  rw [eo]
  rw [if_pos ⟨by omega, by omega⟩]
  have f := dayAt_dayNo hx
  have ei : j - 1 + ((⟨y, 1, 1⟩ : Day).ord : Int) = jan + j - 1 + 719163 := by omega
  rw [ei, f]

/-! ## Weeks -/

theorem weekday_range (n : Int) : 0 ≤ weekday n ∧ weekday n < 7 := by unfold weekday; omega

/-- the number of a week by division -/
theorem weekNo_eq (start jan : Int) (hs : 0 ≤ start) (hs2 : start < 7) :
    ∀ k : Nat, (weekNo start jan k : Int) = (k + 7 - (start - weekday jan) % 7) / 7
  | 0 => by
    have r := weekday_range jan
    unfold weekNo
    by_cases h : weekday jan = start
    · simp [List.range_succ, h]
    · have : decide (weekday (jan + ((0 : Nat) : Int)) = start) = false := by simpa using h
      simp only [Nat.zero_add, List.range_succ, List.range_zero, List.nil_append, List.filter_cons, this, Bool.false_eq_true, if_false, List.filter_nil,
        List.length_nil]
      omega
  | k + 1 => by
    have ih := weekNo_eq start jan hs hs2 k
    have r := weekday_range jan
    have r2 := weekday_range (jan + ((k + 1 : Nat) : Int))
    have e : weekNo start jan (k + 1) = weekNo start jan k + (if weekday (jan + ((k + 1 : Nat) : Int)) = start then 1 else 0) := by
      unfold weekNo
      rw [List.range_succ (n := k + 1), List.filter_append, List.length_append]
      congr 1
      by_cases h : weekday (jan + ((k + 1 : Nat) : Int)) = start
      · simp only [if_pos h]; rw [List.filter_cons, if_pos (by simpa using h)]; rfl
      · simp only [if_neg h]; rw [List.filter_cons, if_neg (by simpa using h)]; rfl
    rw [e]
    unfold weekday at *
    split <;> omega

/-- The day with a weekday in a week. -/
theorem yeardayOfWeek_eq {y w wd : Nat} {jan : Int} {k : Nat} (monday : Bool) (hjan : DayNo ⟨y, 1, 1⟩ jan) (hwd : weekday (jan + k) = wd)
    (hw : weekNo (if monday then 0 else 6) jan k = w) : yeardayOfWeek y w wd monday = (k : Int) + 1 := by
  have e := hjan.ord
  have p := ord_pos hjan.valid
  have eo : toOrdinal y 1 1 = (⟨y, 1, 1⟩ : Day).ord := rfl
  have f : (((toOrdinal y 1 1 + 6) % 7 : Nat) : Int) = weekday jan := by unfold weekday; rw [eo]; omega
  have r := weekday_range jan
  have r2 := weekday_range (jan + k)
  have q : weekday (jan + k) = (weekday jan + k) % 7 := by unfold weekday; omega
  rw [q] at hwd
  have wn := weekNo_eq (if monday then 0 else 6) jan (by cases monday <;> decide) (by cases monday <;> decide) k
  rw [hw] at wn
  unfold yeardayOfWeek
  simp only
  generalize (toOrdinal y 1 1 + 6) % 7 = first at f ⊢
  cases monday with
  | true =>
    simp only [if_true] at wn ⊢
    by_cases h0 : w = 0
    · rw [if_pos h0]; omega
    · rw [if_neg h0]; omega
  | false =>
    simp only [Bool.false_eq_true, if_false] at wn ⊢
    by_cases h0 : w = 0
    · rw [if_pos h0]; omega
    · rw [if_neg h0]; omega

end DateSpec

end Verif
