import Verif.Lemmas.DatesAssume

/-!
# C60, C61: dates of log lines
-/

namespace Verif

open Dates DateSpec

/-! ## C60 A date is understood as it is written -/

/-- The time of a complete date is the time that is written, in the zone that is written or configured (or of this computer). The current time is
irrelevant. -/
theorem C60_as_written (mktime : Int → Int) (now : Int) (dtz : Option Int) (p : AmPm) (fs : List Field) (x : Day) (n : Int) (o : Option Int)
    (hr : Readable abbrOffset p fs) (hx : DayNo x n) (h1 : 2 ≤ x.y) (h2 : x.y ≤ 9998) (hy : says year? fs = some x.y) (hm : says month? fs = some x.m)
    (hd : says day? fs = some x.d) (hc : (clock p fs).Valid) (ho : applies abbrOffset dtz fs o) (hb : Bounded o) :
    strptime mktime now dtz p fs = .ok (unix mktime (86400 * n + (clock p fs).seconds) o) := by
  obtain ⟨v, hf, r⟩ := fields_ok p fs {} hr
  have ez := applies_eq r ho
  rw [← ez]
  refine strptime_ok hf ?_
  rw [← clock_eq r]
  refine resolve_complete hx h1 h2 (by rw [r.year, hy]; rfl) (resolveDay_given (by rw [r.month, hm]; rfl) (by rw [r.day, hd]; rfl)) ?_ (by rw [ez]; exact hb)
  rw [clock_eq r]
  exact hc

/-- A day that does not exist, or a time such as 25:00, gives no time. -/
theorem C60_no_such_date (mktime : Int → Int) (now : Int) (dtz : Option Int) (p : AmPm) (fs : List Field) (x : Day)
    (hr : Readable abbrOffset p fs) (hy : says year? fs = some x.y) (hm : says month? fs = some x.m) (hd : says day? fs = some x.d)
    (h : ¬(x.Valid ∧ x.y ≤ 9999 ∧ (clock p fs).Valid)) : strptime mktime now dtz p fs = .error .value := by
  obtain ⟨v, hf, r⟩ := fields_ok p fs {} hr
  have rd : resolveDay v x.y = .ok (x.y, some x.m, some x.d) := resolveDay_given (by rw [r.month, hm]; rfl) (by rw [r.day, hd]; rfl)
  have ey : v.year = some x.y := by rw [r.year, hy]; rfl
  rw [← clock_eq r] at h
  have mk := mkTime_error h
  simp only at mk
  unfold strptime resolve
  simp only [hf, ey, Option.getD_some, rd, bind, Except.bind, Option.isNone_some, Bool.and_self, Bool.false_eq_true, if_false, mk]

/-- A zone that is unknown, or a 12-hour clock whose half of the day took no part in the match, gives no time. -/
theorem C60_unreadable (mktime : Int → Int) (now : Int) (dtz : Option Int) (p : AmPm) (fs : List Field)
    (h : (∃ n, Field.hour12 n ∈ fs ∧ p = .unmatched) ∨ ∃ s, Field.zone s ∈ fs ∧ ∀ o, ¬Zone abbrOffset s o) (t : Int) :
    strptime mktime now dtz p fs ≠ .ok t := by
  obtain ⟨e, he⟩ := fields_error p fs {} h
  unfold strptime
  simp [he, bind, Except.bind]

/-- The day may be given by its number within the year. -/
theorem C60_yearday (mktime : Int → Int) (now : Int) (dtz : Option Int) (p : AmPm) (fs : List Field) (x : Day) (j : Nat) (jan : Int) (o : Option Int)
    (hr : Readable abbrOffset p fs) (hy : says year? fs = some x.y) (hn : says month? fs = none ∨ says day? fs = none) (hj : says yearday? fs = some j)
    (hjan : DayNo ⟨x.y, 1, 1⟩ jan) (hx : DayNo x (jan + j - 1)) (h1 : 2 ≤ x.y) (h2 : x.y ≤ 9998)
    (hc : (clock p fs).Valid) (ho : applies abbrOffset dtz fs o) (hb : Bounded o) :
    strptime mktime now dtz p fs = .ok (unix mktime (86400 * (jan + j - 1) + (clock p fs).seconds) o) := by
  obtain ⟨v, hf, r⟩ := fields_ok p fs {} hr
  have ez := applies_eq r ho
  rw [← ez]
  refine strptime_ok hf ?_
  rw [← clock_eq r]
  refine resolve_complete hx h1 h2 (by rw [r.year, hy]; rfl) ?_ (by rw [clock_eq r]; exact hc) (by rw [ez]; exact hb)
  refine resolveDay_yearday (by omega) (by omega) ?_ (.inl (by rw [r.julian, hj]; rfl)) hjan hx (by omega)
  rcases hn with h | h
  · exact .inl (by rw [r.month, h]; rfl)
  · exact .inr (by rw [r.day, h]; rfl)

/-- The day may be given by the week and the day of the week: `k` days after the first of January. -/
theorem C60_week (mktime : Int → Int) (now : Int) (dtz : Option Int) (p : AmPm) (fs : List Field) (x : Day) (w wd k : Nat) (start jan : Int) (o : Option Int)
    (hr : Readable abbrOffset p fs) (hy : says year? fs = some x.y) (hn : says month? fs = none ∨ says day? fs = none) (hj : says yearday? fs = none)
    (hw : says week? fs = some (w, start)) (hwd : says weekday? fs = some wd) (hjan : DayNo ⟨x.y, 1, 1⟩ jan) (hx : DayNo x (jan + k))
    (e1 : weekday (jan + k) = wd) (e2 : weekNo start jan k = w) (h1 : 2 ≤ x.y) (h2 : x.y ≤ 9998)
    (hc : (clock p fs).Valid) (ho : applies abbrOffset dtz fs o) (hb : Bounded o) :
    strptime mktime now dtz p fs = .ok (unix mktime (86400 * (jan + k) + (clock p fs).seconds) o) := by
  obtain ⟨v, hf, r⟩ := fields_ok p fs {} hr
  have ez := applies_eq r ho
  rw [← ez]
  refine strptime_ok hf ?_
  rw [← clock_eq r]
  refine resolve_complete hx h1 h2 (by rw [r.year, hy]; rfl) ?_ (by rw [clock_eq r]; exact hc) (by rw [ez]; exact hb)
  have hst : start = 0 ∨ start = 6 := by
    have : (w, start) ∈ fs.filterMap week? := List.mem_of_getLast? hw
    obtain ⟨f, _, e⟩ := List.mem_filterMap.1 this
    cases f <;> simp [week?] at e
    · exact .inr e.2.symm
    · exact .inl e.2.symm
  have ej := yeardayOfWeek_eq (y := x.y) (w := w) (wd := wd) (k := k) (decide (start = 0)) hjan e1 (by
    rcases hst with h | h <;> subst h <;> simpa using e2)
  have ek : jan + ((k : Int) + 1) - 1 = jan + k := by omega
  refine resolveDay_yearday (j := (k : Int) + 1) (by omega) (by omega) ?_
    (.inr ⟨by rw [r.julian, hj]; rfl, w, decide (start = 0), wd, by rw [r.week, hw]; rfl, by rw [r.weekday, hwd]; rfl, ej⟩) hjan (by rw [ek]; exact hx) (by omega)
  rcases hn with h | h
  · exact .inl (by rw [r.month, h]; rfl)
  · exact .inr (by rw [r.day, h]; rfl)

/-- The text of a zone is understood as described, and nothing else is. -/
theorem C60_zone (z : List Char) (o : Int) : zoneOffset z = .ok o ↔ Zone abbrOffset z o := zoneOffset_iff z o

/-- Letters for zones: A to M (without J) lie 1 to 12 hours east, N to Y as much west. -/
theorem C60_letters (k : Nat) (h : k < 12) :
    abbrOffset (String.ofList [("ABCDEFGHIKLM".toList).getD k ' ']) = some (60 * ((k : Int) + 1)) ∧
    abbrOffset (String.ofList [("NOPQRSTUVWXY".toList).getD k ' ']) = some (-(60 * ((k : Int) + 1))) := by
  have : k = 0 ∨ k = 1 ∨ k = 2 ∨ k = 3 ∨ k = 4 ∨ k = 5 ∨ k = 6 ∨ k = 7 ∨ k = 8 ∨ k = 9 ∨ k = 10 ∨ k = 11 := by omega
  rcases this with h | h | h | h | h | h | h | h | h | h | h | h <;> subst h <;> constructor <;> decide +kernel

/-- Summer time is one hour ahead. -/
theorem C60_summer (a b : String) (h : (a, b) ∈ [("CET", "CEST"), ("EET", "EEST"), ("WET", "WEST"), ("EST", "EDT"), ("CST", "CDT"), ("MST", "MDT"), ("PST", "PDT"),
    ("AKST", "AKDT"), ("AST", "ADT"), ("AEST", "AEDT"), ("ACST", "ACDT"), ("NZST", "NZDT"), ("NST", "NDT"), ("MSK", "MSD"), ("BRT", "BRST")]) :
    ∃ o, abbrOffset a = some o ∧ abbrOffset b = some (o + 60) := by
  simp only [List.mem_cons, Prod.mk.injEq, List.not_mem_nil, or_false] at h
  rcases h with ⟨rfl, rfl⟩ | ⟨rfl, rfl⟩ | ⟨rfl, rfl⟩ | ⟨rfl, rfl⟩ | ⟨rfl, rfl⟩ | ⟨rfl, rfl⟩ | ⟨rfl, rfl⟩ | ⟨rfl, rfl⟩ | ⟨rfl, rfl⟩ | ⟨rfl, rfl⟩ | ⟨rfl, rfl⟩ |
    ⟨rfl, rfl⟩ | ⟨rfl, rfl⟩ | ⟨rfl, rfl⟩ | ⟨rfl, rfl⟩
  · exact ⟨60, by decide +kernel⟩
  · exact ⟨120, by decide +kernel⟩
  · exact ⟨0, by decide +kernel⟩
  · exact ⟨-300, by decide +kernel⟩
  · exact ⟨-360, by decide +kernel⟩
  · exact ⟨-420, by decide +kernel⟩
  · exact ⟨-480, by decide +kernel⟩
  · exact ⟨-540, by decide +kernel⟩
  · exact ⟨-240, by decide +kernel⟩
  · exact ⟨600, by decide +kernel⟩
  · exact ⟨570, by decide +kernel⟩
  · exact ⟨720, by decide +kernel⟩
  · exact ⟨-210, by decide +kernel⟩
  · exact ⟨180, by decide +kernel⟩
  · exact ⟨-180, by decide +kernel⟩

theorem hexDigit_eq (d : Fin 16) : hexDigit? (hexDigit d) = some d.val := by
  revert d; decide

theorem hex_map (ds : List (Fin 16)) : hex (ds.map hexDigit) = hexValue ds := by
  unfold hex hexValue
  suffices h : ∀ n, (ds.map hexDigit).foldl (fun n c => 16 * n + (hexDigit? c).getD 0) n = ds.foldl (fun n d => 16 * n + d.val) n from h 0
  induction ds with
  | nil => intro n; rfl
  | cons d ds ih =>
    intro n
    simp only [List.map_cons, List.foldl_cons, hexDigit_eq, Option.getD_some]
    exact ih _

theorem hexValue_cons (d : Fin 16) (ds : List (Fin 16)) : hexValue (d :: ds) = d.val * 16 ^ ds.length + hexValue ds := by
  unfold hexValue
  suffices h : ∀ n, ds.foldl (fun n d => 16 * n + d.val) n = n * 16 ^ ds.length + ds.foldl (fun n d => 16 * n + d.val) 0 by
    simp only [List.foldl_cons]
    rw [h]
    simp
  induction ds with
  | nil => intro n; simp
  | cons e ds ih =>
    intro n
    simp only [List.foldl_cons, List.length_cons, Nat.mul_zero, Nat.zero_add]
    rw [ih (16 * n + e.val), ih e.val, Nat.pow_succ]
    rw [Nat.add_mul, Nat.add_assoc]
    congr 1
    rw [Nat.mul_comm 16 n, Nat.mul_assoc, Nat.mul_comm 16]

/-- A label TAI64N `@4…` stands for as many seconds as its value exceeds 2⁶². (These are seconds of TAI; the difference to UTC is not considered.) -/
theorem C60_tai (ds ns : List (Fin 16)) (h : ds.length = 15) :
    2 ^ 62 + tai64n ('@' :: (4 :: ds ++ ns).map hexDigit) = hexValue (4 :: ds) := by
  unfold tai64n
  have e : List.take 15 (List.drop 2 ('@' :: (4 :: ds ++ ns).map hexDigit)) = ds.map hexDigit := by
    simp only [List.cons_append, List.map_cons, List.drop_succ_cons, List.drop_zero, List.map_append]
    exact List.take_left' (by simpa using h)
  rw [e, hex_map, hexValue_cons, h]
  have : (4 : Fin 16).val * 16 ^ 15 = 2 ^ 62 := by decide +kernel
  rw [this]

example : tai64n "@4000000037c219bf2ef02e94".toList = 0x37c219bf := by decide +kernel

/-! ## C61 What is missing in a date is taken from the current time -/

theorem inRange_of {now : Int} {today : Day} (hn : DayNo today (now / 86400)) (h1 : 4 ≤ today.y) (h2 : today.y ≤ 9996) :
    InRange now ∧ dayAt now = today := by
  have e := hn.ord
  have r := ord_year hn.valid
  have b1 := beforeYear_mono (show 1 ≤ 4 by omega) h1
  have b2 := beforeYear_mono (show 1 ≤ today.y + 1 by omega) (show today.y + 1 ≤ 9997 by omega)
  have e1 : beforeYear 4 = 1095 := by decide
  have e2 : beforeYear 9997 = 3650964 := by decide
  have hr : InRange now := by unfold InRange; omega
  refine ⟨hr, ?_⟩
  unfold InRange at hr
  exact dayNo_inj (dayAt_no (by unfold minTime; omega)) hn

/-- A time of the day alone means the last 24 hours. -/
theorem C61_time_of_day (mktime : Int → Int) (now : Int) (p : AmPm) (fs : List Field) (today : Day) (hr : Readable abbrOffset p fs)
    (hn : DayNo today (now / 86400)) (h1 : 4 ≤ today.y) (h2 : today.y ≤ 9996)
    (hy : says year? fs = none) (hm : says month? fs = none) (hd : says day? fs = none) (hj : says yearday? fs = none)
    (hw : says week? fs = none ∨ says weekday? fs = none) (hz : says zone? fs = none) (hc : (clock p fs).Valid) :
    ∃ t, strptime mktime now none p fs = .ok (mktime t) ∧ t % 86400 = (clock p fs).seconds ∧ t ≤ now ∧ now - 86400 < t := by
  obtain ⟨hrange, ed⟩ := inRange_of hn h1 h2
  obtain ⟨v, hf, r⟩ := fields_ok p fs {} hr
  have ez : tzOf none v = none := applies_eq r (by unfold applies; rw [hz])
  have hjn : julianOf v (dayAt now).y = none := by
    have e1 : v.julian = none := by rw [r.julian, hj]; rfl
    unfold julianOf
    rcases hw with h | h
    · have e2 : v.week = none := by rw [r.week, h]; rfl
      simp [e1, e2]
    · have e2 : v.weekday = none := by rw [r.weekday, h]; rfl
      rw [e1, e2]
      cases v.week <;> rfl
  have em : v.month = none := by rw [r.month, hm]; rfl
  have edy : v.day = none := by rw [r.day, hd]; rfl
  obtain ⟨t, a, b, c, d⟩ := resolve_today hrange (by rw [r.year, hy]; rfl) (by unfold resolveDay; simp [hjn, em, edy]) rfl
    (by rw [clock_eq r]; exact hc) ez
  refine ⟨t, ?_, by rw [b, clock_eq r], c, d⟩
  have := strptime_ok (mktime := mktime) (t := t) hf (by rw [ez, a]; rfl)
  rw [ez] at this
  exact this

/-- A date without year means a time that is not in the future, within the last 300 days. -/
theorem C61_year (mktime : Int → Int) (now : Int) (p : AmPm) (fs : List Field) (today x : Day) (n : Int) (hr : Readable abbrOffset p fs)
    (hn : DayNo today (now / 86400)) (h1 : 4 ≤ today.y) (h2 : today.y ≤ 9996)
    (hy : says year? fs = none) (hm : says month? fs = some x.m) (hd : says day? fs = some x.d) (hz : says zone? fs = none) (hc : (clock p fs).Valid)
    (hx : DayNo x n) (past : 86400 * n + (clock p fs).seconds ≤ now) (recent : now - 300 * 86400 ≤ 86400 * n + (clock p fs).seconds) :
    strptime mktime now none p fs = .ok (mktime (86400 * n + (clock p fs).seconds)) := by
  obtain ⟨hrange, ed⟩ := inRange_of hn h1 h2
  obtain ⟨v, hf, r⟩ := fields_ok p fs {} hr
  have ez : tzOf none v = none := applies_eq r (by unfold applies; rw [hz])
  have b := Clock.bounds hc
  have em : v.month = some x.m := by rw [r.month, hm]; rfl
  have edy : v.day = some x.d := by rw [r.day, hd]; rfl
  have ey : v.year = none := by rw [r.year, hy]; rfl
  have le1 := year_mono hx hn (by omega)
  have le2 := year_near hx hn (by omega)
  have key : resolve now none v = .ok (utc (86400 * n + (clock p fs).seconds) (tzOf none v), tzOf none v) := by
    by_cases e : x.y = today.y
    · exact resolve_this_year hrange hx ey (resolveDay_given em edy) (by rw [ed, e]) (clock_eq r).symm hc (by rw [ez]; trivial)
        (by rw [ez]; unfold utc; simp only; omega)
    · rcases anniversary hx with ⟨n', a, c⟩ | a
      · have := resolve_last_year (dtz := none) hrange hx a ey (resolveDay_given em edy) (by rw [ed]; omega) (clock_eq r).symm hc (by rw [ez]; trivial)
          (by rw [ez]; unfold utc; simp only; omega)
        rw [this, ez]
        simp only [utc, Except.ok.injEq, Prod.mk.injEq, and_true]
        omega
      · have := a _ _ hn (by omega)
        omega
  have := strptime_ok (mktime := mktime) hf key
  rw [ez] at this
  exact this

/-- … also if it is up to a day ahead, as long as the year is the current one. -/
theorem C61_ahead (mktime : Int → Int) (now : Int) (p : AmPm) (fs : List Field) (today x : Day) (n : Int) (hr : Readable abbrOffset p fs)
    (hn : DayNo today (now / 86400)) (h1 : 4 ≤ today.y) (h2 : today.y ≤ 9996)
    (hy : says year? fs = none) (hm : says month? fs = some x.m) (hd : says day? fs = some x.d) (hz : says zone? fs = none) (hc : (clock p fs).Valid)
    (hx : DayNo x n) (e : x.y = today.y) (near : 86400 * n + (clock p fs).seconds ≤ now + 86400) :
    strptime mktime now none p fs = .ok (mktime (86400 * n + (clock p fs).seconds)) := by
  obtain ⟨hrange, ed⟩ := inRange_of hn h1 h2
  obtain ⟨v, hf, r⟩ := fields_ok p fs {} hr
  have ez : tzOf none v = none := applies_eq r (by unfold applies; rw [hz])
  have em : v.month = some x.m := by rw [r.month, hm]; rfl
  have edy : v.day = some x.d := by rw [r.day, hd]; rfl
  have ey : v.year = none := by rw [r.year, hy]; rfl
  have := strptime_ok (mktime := mktime) hf (resolve_this_year hrange hx ey (resolveDay_given em edy) (by rw [ed, e]) (clock_eq r).symm hc (by rw [ez]; trivial)
        (by rw [ez]; exact near))
  rw [ez] at this
  exact this

/-- With a time zone this holds if the year that is written about is the current one of this computer, or if the day in UTC is the written one. Missing:
the other cases, in which it is false (`C61_refuted_zone_new_year`, `C61_refuted_zone_year`). -/
theorem C61_zone_partial (mktime : Int → Int) (now : Int) (dtz : Option Int) (p : AmPm) (fs : List Field) (today x : Day) (n o : Int)
    (hr : Readable abbrOffset p fs) (hn : DayNo today (now / 86400)) (h1 : 4 ≤ today.y) (h2 : today.y ≤ 9996)
    (hy : says year? fs = none) (hm : says month? fs = some x.m) (hd : says day? fs = some x.d) (hc : (clock p fs).Valid)
    (ho : applies abbrOffset dtz fs (some o)) (hb : Bounded (some o)) (hx : DayNo x n)
    (h : (x.y = today.y ∧ 86400 * n + (clock p fs).seconds - 60 * o ≤ now + 86400) ∨
      (x.y + 1 = today.y ∧ (86400 * n + (clock p fs).seconds - 60 * o) / 86400 = n ∧ now - 300 * 86400 ≤ 86400 * n + (clock p fs).seconds - 60 * o)) :
    strptime mktime now dtz p fs = .ok (86400 * n + (clock p fs).seconds - 60 * o) := by
  obtain ⟨hrange, ed⟩ := inRange_of hn h1 h2
  obtain ⟨v, hf, r⟩ := fields_ok p fs {} hr
  have ez : tzOf dtz v = some o := applies_eq r ho
  have b := Clock.bounds hc
  have em : v.month = some x.m := by rw [r.month, hm]; rfl
  have edy : v.day = some x.d := by rw [r.day, hd]; rfl
  have ey : v.year = none := by rw [r.year, hy]; rfl
  have key : resolve now dtz v = .ok (utc (86400 * n + (clock p fs).seconds) (tzOf dtz v), tzOf dtz v) := by
    rcases h with ⟨e, hu⟩ | ⟨e, hday, hu⟩
    · exact resolve_this_year hrange hx ey (resolveDay_given em edy) (by rw [ed, e]) (clock_eq r).symm hc (by rw [ez]; exact hb)
        (by rw [ez]; unfold utc; simp only; omega)
    · rcases anniversary hx with ⟨n', a, c⟩ | a
      · have := resolve_last_year (dtz := dtz) hrange hx a ey (resolveDay_given em edy) (by rw [ed]; omega) (clock_eq r).symm hc (by rw [ez]; exact hb)
          (by rw [ez]; unfold utc; simp only; omega)
        rw [this, ez]
        simp only [utc, Except.ok.injEq, Prod.mk.injEq, and_true]
        omega
      · have := a _ _ hn (by omega)
        omega
  have := strptime_ok (mktime := mktime) hf key
  rw [ez] at this
  exact this

/-! ## Examples and refutations -/

namespace DateSample

/-- 23 Jan 2005 21:59:59 -/
def full : List Field := [.year 2005, .month 1, .day 23, .hour 21, .minute 59, .second 59]

/-- Dec 31 23:59:59 -/
def silvester : List Field := [.month 12, .day 31, .hour 23, .minute 59, .second 59]

theorem day2005 : DayNo ⟨2005, 1, 23⟩ 12806 := (dayNo_iff (by decide) _).2 (by decide)

theorem day2023 : DayNo ⟨2023, 12, 31⟩ 19722 := (dayNo_iff (by decide) _).2 (by decide)

theorem day2024 : DayNo ⟨2024, 1, 1⟩ 19723 := (dayNo_iff (by decide) _).2 (by decide)

end DateSample

open DateSample

/-- `2005-01-23 21:59:59 +0200` -/
example : strptime id 0 none .absent (full ++ [.zone "+0200".toList]) = .ok 1106510399 :=
  C60_as_written id 0 none .absent _ ⟨2005, 1, 23⟩ 12806 (some 120)
    ⟨by simp [full], by simp [full], fun s hs => ⟨120, by simp [full] at hs; subst hs; exact (zoneOffset_iff _ _).1 (by decide +kernel)⟩⟩
    day2005 (by decide) (by decide) (by decide +kernel) (by decide +kernel) (by decide +kernel) ⟨by decide +kernel, by decide +kernel, by decide +kernel⟩
    (by have e : says zone? (full ++ [.zone "+0200".toList]) = some "+0200".toList := by decide +kernel
        unfold applies; rw [e]; exact ⟨120, rfl, (zoneOffset_iff _ _).1 (by decide +kernel)⟩) ⟨by decide, by decide⟩

/-- `2005-01-23 12:05:09 AM` in a configured zone -/
example : strptime id 0 (some (-300)) .am [.year 2005, .month 1, .day 23, .hour12 12, .minute 5, .second 9] = .ok (12806 * 86400 + 309 + 18000) := by
  decide +kernel

example : strptime id 0 none .absent [.year 2023, .month 2, .day 29] = .error .value :=
  C60_no_such_date id 0 none .absent _ ⟨2023, 2, 29⟩ ⟨by simp, by simp, by simp⟩ (by decide +kernel) (by decide +kernel) (by decide +kernel)
    (fun h => absurd h.1 (by decide +kernel))

example : zoneOffset "CET+01:30".toList = .ok 150 := by decide +kernel

example : zoneOffset "-0330".toList = .ok (-210) := by decide +kernel

example : zoneOffset "XYZ".toList = .error .other := by decide +kernel

/-- The last second of a year, read in the next one. -/
example : strptime id (19723 * 86400 + 5) none .absent silvester = .ok (19722 * 86400 + 86399) :=
  C61_year id _ .absent silvester ⟨2024, 1, 1⟩ ⟨2023, 12, 31⟩ 19722 ⟨by simp [silvester], by simp [silvester], by simp [silvester]⟩ (by exact day2024) (by decide)
    (by decide) (by decide +kernel) (by decide +kernel) (by decide +kernel) (by decide +kernel) ⟨by decide +kernel, by decide +kernel, by decide +kernel⟩ day2023
    (by decide +kernel) (by decide +kernel)

/-- The day before, if the time is still ahead. -/
example : strptime id (19723 * 86400 + 5) none .absent [.hour 23, .minute 59, .second 58] = .ok (19722 * 86400 + 86398) := by decide +kernel

/-- Day 60 of the year, and Wednesday of week 9 (from Monday): 29 February 2024 is a Thursday. -/
example : strptime id 0 none .absent [.year 2024, .yearday 60] = .ok (19782 * 86400) ∧
    strptime id 0 none .absent [.year 2024, .weekW 9, .weekday 2] = .ok (19781 * 86400) ∧
    strptime id 0 none .absent [.year 2024, .weekU 8, .weekdayNo 3] = .ok (19781 * 86400) := by
  refine ⟨?_, ?_, ?_⟩ <;> decide +kernel

/-- With a zone that is ahead of this computer, the first hours of a year are taken for the ones of the year before: at 21:00 on 31 December 2023 (here: UTC)
`Jan 1 02:00:00 +0500` is this moment, but is read as 31 December 2022. -/
theorem C61_refuted_zone_new_year :
    strptime id (19722 * 86400 + 21 * 3600) none .absent [.month 1, .day 1, .hour 2, .minute 0, .second 0, .zone "+0500".toList] =
      .ok (19722 * 86400 + 21 * 3600 - 365 * 86400) := by
  decide +kernel

/-- Likewise without zone, if the clock of the other computer is ahead. -/
theorem C61_refuted_ahead :
    strptime id (19722 * 86400 + 86399) none .absent [.month 1, .day 1, .hour 0, .minute 0, .second 1] = .ok (19723 * 86400 + 1 - 365 * 86400) := by
  decide +kernel

/-- With a zone and no year, a time of the last year is a day too early or too late if its day in UTC is another one: at 04:00 on 1 January 2024 (UTC)
`Dec 31 23:30:00 -0200` is two and a half hours ago, but is read as a day before. -/
theorem C61_refuted_zone_year :
    strptime id (19723 * 86400 + 4 * 3600) none .absent [.month 12, .day 31, .hour 23, .minute 30, .second 0, .zone "-0200".toList] =
      .ok (19723 * 86400 + 4 * 3600 - 9000 - 86400) := by
  decide +kernel

/-- With a zone and a time of the day only, the day is the one of this computer: in the zone -0500 at 20:00 on 1 January 2024 `01:00:00Z` is this moment, but
is read as the day before. -/
theorem C61_refuted_zone_day :
    strptime (· + 5 * 3600) (19723 * 86400 + 20 * 3600) none .absent [.hour 1, .minute 0, .second 0, .zone "Z".toList] =
      .ok (19723 * 86400 + (20 + 5) * 3600 - 86400) := by
  decide +kernel

/-- A day within the year, without year, is one day off in the year after a leap year: day 100 of 2024 is 9 April. -/
theorem C61_refuted_yearday :
    strptime id (20090 * 86400) none .absent [.yearday 100] = .ok ((19723 + 100) * 86400) ∧ DayNo ⟨2025, 1, 2⟩ 20090 := by
  refine ⟨by decide +kernel, (dayNo_iff (by decide) _).2 (by decide)⟩

end Verif
