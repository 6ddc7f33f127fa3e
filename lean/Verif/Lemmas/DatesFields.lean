import Verif.Lemmas.DatesCalendar

/-!
# Fields of a date
-/

namespace Verif

namespace DateSpec

open Dates

/-! ## Time zones -/

theorem digit_iff (c : Char) (n : Nat) : digit? c = some n ↔ n < 10 ∧ c = Nat.digitChar n := by
  constructor
  · intro h
    unfold digit? at h
    split at h
    · rename_i hc
      have h1 : 48 ≤ c.toNat := hc.1
      have h2 : c.toNat ≤ 57 := hc.2
      have e : ('0' : Char).toNat = 48 := rfl
      rw [e] at h
      simp only [Option.some.injEq] at h
      have hn : n < 10 := by omega
      refine ⟨hn, ?_⟩
      have ec : c = Char.ofNat (48 + n) := by
        have : c.toNat = 48 + n := by omega
        rw [← this, Char.ofNat_toNat]
      rw [ec]
      have : n = 0 ∨ n = 1 ∨ n = 2 ∨ n = 3 ∨ n = 4 ∨ n = 5 ∨ n = 6 ∨ n = 7 ∨ n = 8 ∨ n = 9 := by omega
      rcases this with h | h | h | h | h | h | h | h | h | h <;> subst h <;> rfl
    · cases h
  · rintro ⟨hn, rfl⟩
    have : n = 0 ∨ n = 1 ∨ n = 2 ∨ n = 3 ∨ n = 4 ∨ n = 5 ∨ n = 6 ∨ n = 7 ∨ n = 8 ∨ n = 9 := by omega
    rcases this with h | h | h | h | h | h | h | h | h | h <;> subst h <;> rfl

theorem two_iff (a b : Char) (n : Nat) : two? a b = some n ↔ n < 100 ∧ [a, b] = twoDigits n := by
  unfold two? twoDigits
  constructor
  · intro h
    cases ea : digit? a with
    | none => simp [ea] at h
    | some x =>
      cases eb : digit? b with
      | none => simp [ea, eb] at h
      | some y =>
        simp only [ea, eb, Option.bind_some, Option.map_some, Option.some.injEq] at h
        obtain ⟨x1, x2⟩ := (digit_iff a x).1 ea
        obtain ⟨y1, y2⟩ := (digit_iff b y).1 eb
        subst h
        refine ⟨by omega, ?_⟩
        have e1 : (10 * x + y) / 10 = x := by omega
        have e2 : (10 * x + y) % 10 = y := by omega
        rw [e1, e2, x2, y2]
  · rintro ⟨hn, e⟩
    simp only [List.cons.injEq, and_true] at e
    have ha := (digit_iff a (n / 10)).2 ⟨by omega, e.1⟩
    have hb := (digit_iff b (n % 10)).2 ⟨by omega, e.2⟩
    simp only [ha, hb, Option.bind_some, Option.map_some, Option.some.injEq]
    omega

theorem two_twoDigits {n : Nat} (h : n < 100) : two? (Nat.digitChar (n / 10)) (Nat.digitChar (n % 10)) = some n :=
  (two_iff _ _ n).2 ⟨h, rfl⟩

theorem tens_iff (a b : Char) (n : Nat) (h : two? a b = some n) : (a = '0' ∨ a = '1') ↔ n < 20 := by
  obtain ⟨hn, e⟩ := (two_iff a b n).1 h
  simp only [twoDigits, List.cons.injEq, and_true] at e
  rw [e.1]
  have : n / 10 = 0 ∨ n / 10 = 1 ∨ n / 10 = 2 ∨ n / 10 = 3 ∨ n / 10 = 4 ∨ n / 10 = 5 ∨ n / 10 = 6 ∨ n / 10 = 7 ∨ n / 10 = 8 ∨ n / 10 = 9 := by omega
  rcases this with h | h | h | h | h | h | h | h | h | h <;> rw [h] <;> simp [Nat.digitChar] <;> omega

theorem offset_sound {s : List Char} {o : Int} (h : Offset s o) : offset? s = some o := by
  have t : ∀ {h : Nat}, h < 20 → (Nat.digitChar (h / 10) = '0' ∨ Nat.digitChar (h / 10) = '1') :=
    fun {h} hh => (tens_iff _ _ h (two_twoDigits (by omega))).2 hh
  cases h with
  | @plusH x h =>
    simp only [twoDigits, offset?]
    rw [if_pos ⟨Or.inl trivial, t h⟩, two_twoDigits (show x < 100 by omega)]
    simp only [Option.some.injEq]
    rw [if_neg (by decide)]
    omega
  | @plus x y h m =>
    simp only [twoDigits, offset?, List.cons_append, List.nil_append]
    rw [if_pos ⟨Or.inl trivial, t h⟩, two_twoDigits (show x < 100 by omega)]
    simp only [two_twoDigits m, Option.map_some, Option.some.injEq]
    rw [if_neg (by decide)]
    omega
  | @plusC x y h m =>
    simp only [twoDigits, offset?, List.cons_append, List.nil_append]
    rw [if_pos ⟨Or.inl trivial, t h⟩, two_twoDigits (show x < 100 by omega)]
    simp only [two_twoDigits m, Option.map_some, Option.some.injEq]
    rw [if_neg (by decide)]
    omega
  | @minusH x h =>
    simp only [twoDigits, offset?]
    rw [if_pos ⟨Or.inr trivial, t h⟩, two_twoDigits (show x < 100 by omega)]
    simp only [Option.some.injEq]
    rw [if_pos trivial]
    omega
  | @minus x y h m =>
    simp only [twoDigits, offset?, List.cons_append, List.nil_append]
    rw [if_pos ⟨Or.inr trivial, t h⟩, two_twoDigits (show x < 100 by omega)]
    simp only [two_twoDigits m, Option.map_some, Option.some.injEq]
    rw [if_pos trivial]
    omega
  | @minusC x y h m =>
    simp only [twoDigits, offset?, List.cons_append, List.nil_append]
    rw [if_pos ⟨Or.inr trivial, t h⟩, two_twoDigits (show x < 100 by omega)]
    simp only [two_twoDigits m, Option.map_some, Option.some.injEq]
    rw [if_pos trivial]
    omega

theorem offset_complete {s : List Char} {o : Int} (h : offset? s = some o) : Offset s o := by
  match s with
  | [] => simp [offset?] at h
  | [_] => simp [offset?] at h
  | [_, _] => simp [offset?] at h
  | sg :: a :: b :: rest =>
    simp only [offset?] at h
    split at h
    · rename_i hc
      cases e : two? a b with
      | none => simp [e] at h
      | some x =>
        rw [e] at h
        simp only at h
        have hx : x < 20 := (tens_iff a b x e).1 hc.2
        obtain ⟨_, eab⟩ := (two_iff a b x).1 e
        simp only [twoDigits, List.cons.injEq, and_true] at eab
        obtain ⟨rfl, rfl⟩ := eab
        split at h
        · simp only [Option.some.injEq] at h
          rcases hc.1 with rfl | rfl
          · have := Offset.plusH hx
            rw [if_neg (by decide)] at h
            have e2 : o = 60 * (x : Int) := by omega
            rw [e2]; exact this
          · have := Offset.minusH hx
            rw [if_pos rfl] at h
            have e2 : o = -(60 * (x : Int)) := by omega
            rw [e2]; exact this
        · rename_i c d
          cases e2 : two? c d with
          | none => simp [e2] at h
          | some y =>
            obtain ⟨hy, ecd⟩ := (two_iff c d y).1 e2
            simp only [twoDigits, List.cons.injEq, and_true] at ecd
            obtain ⟨rfl, rfl⟩ := ecd
            simp only [e2, Option.map_some, Option.some.injEq] at h
            rcases hc.1 with rfl | rfl
            · have := Offset.plus hx hy
              rw [if_neg (by decide)] at h
              have e2 : o = 60 * (x : Int) + y := by omega
              rw [e2]; exact this
            · have := Offset.minus hx hy
              rw [if_pos rfl] at h
              have e2 : o = -(60 * (x : Int) + y) := by omega
              rw [e2]; exact this
        · rename_i c d
          cases e2 : two? c d with
          | none => simp [e2] at h
          | some y =>
            obtain ⟨hy, ecd⟩ := (two_iff c d y).1 e2
            simp only [twoDigits, List.cons.injEq, and_true] at ecd
            obtain ⟨rfl, rfl⟩ := ecd
            simp only [e2, Option.map_some, Option.some.injEq] at h
            rcases hc.1 with rfl | rfl
            · have := Offset.plusC hx hy
              rw [if_neg (by decide)] at h
              have e2 : o = 60 * (x : Int) + y := by omega
              rw [e2]; exact this
            · have := Offset.minusC hx hy
              rw [if_pos rfl] at h
              have e2 : o = -(60 * (x : Int) + y) := by omega
              rw [e2]; exact this
        · cases h
    · cases h

theorem offset_iff (s : List Char) (o : Int) : offset? s = some o ↔ Offset s o := ⟨offset_complete, offset_sound⟩

/-- an offset starts with a sign -/
theorem Offset.head {s : List Char} {o : Int} (h : Offset s o) : ∃ c t, s = c :: t ∧ ¬('A' ≤ c ∧ c ≤ 'Z') := by
  cases h <;> exact ⟨_, _, rfl, by decide⟩

theorem takeWhile_append_stop (p : Char → Bool) : ∀ (s t : List Char), (∀ c ∈ s, p c = true) → (∀ c t', t = c :: t' → p c = false) →
    (s ++ t).takeWhile p = s
  | [], [], _, _ => rfl
  | [], c :: t, _, h => by simp [h c t rfl]
  | a :: s, t, h1, h2 => by
    simp only [List.cons_append, List.takeWhile_cons, h1 a (by simp), if_true]
    rw [takeWhile_append_stop p s t (fun c hc => h1 c (by simp [hc])) h2]

/-- The offset of a time zone is the one described. -/
theorem zoneOffset_iff (z : List Char) (o : Int) : zoneOffset z = .ok o ↔ Zone abbrOffset z o := by
  constructor
  · intro h
    unfold zoneOffset at h
    simp only at h
    generalize hn : z.takeWhile (fun c => decide ('A' ≤ c ∧ c ≤ 'Z')) = name at h
    have up : ∀ c ∈ name, 'A' ≤ c ∧ c ≤ 'Z' := by
      intro c hc
      rw [← hn] at hc
      have := List.all_eq_true.1 (List.all_takeWhile (l := z) (p := fun c => decide ('A' ≤ c ∧ c ≤ 'Z'))) c hc
      simpa using this
    have split_z : z = name ++ z.drop name.length := by
      have h1 := List.takeWhile_append_dropWhile (p := fun c => decide ('A' ≤ c ∧ c ≤ 'Z')) (l := z)
      rw [hn] at h1
      have h2 : z.drop name.length = z.dropWhile (fun c => decide ('A' ≤ c ∧ c ≤ 'Z')) := by
        conv => lhs; rw [← h1]
        simp
      rw [h2, h1]
    generalize hr : z.drop name.length = rest at h split_z
    split at h
    · cases h
    · rename_i hl
      cases eo : (if rest = [] then some (0 : Int) else offset? rest) with
      | none => simp [eo] at h
      | some x =>
        rw [eo] at h
        simp only at h
        by_cases e : name = []
        · rw [if_pos e] at h
          simp only [Except.ok.injEq] at h
          subst h
          rw [split_z, e, List.nil_append]
          by_cases er : rest = []
          · simp only [er, if_true, Option.some.injEq] at eo
            rw [er, ← eo]; exact .empty
          · rw [if_neg er] at eo
            exact .offset (offset_complete eo)
        · rw [if_neg e] at h
          have hN : Name name := ⟨up, by have : name.length ≠ 0 := by simp [e]
                                         omega⟩
          cases ea : abbrOffset (String.ofList name) with
          | none => simp [ea] at h
          | some a =>
            simp only [ea, Except.ok.injEq] at h
            subst h
            rw [split_z]
            by_cases er : rest = []
            · simp only [er, if_true, Option.some.injEq] at eo
              rw [er, ← eo, List.append_nil, Int.add_zero]
              exact .name hN ea
            · rw [if_neg er] at eo
              exact .both hN ea (offset_complete eo)
  · intro h
    unfold zoneOffset
    simp only
    cases h with
    | empty => simp
    | offset h =>
      obtain ⟨c, t, e, hc⟩ := h.head
      have ho := offset_sound h
      have tw : z.takeWhile (fun c => decide ('A' ≤ c ∧ c ≤ 'Z')) = [] := by
        rw [e]; simp only [List.takeWhile_cons, decide_eq_true_eq, if_neg hc]
      rw [tw]
      have ne : z ≠ [] := by rw [e]; simp
      simp [ne, ho]
    | @name s a hN ha =>
      have tw : z.takeWhile (fun c => decide ('A' ≤ c ∧ c ≤ 'Z')) = z := by
        have := takeWhile_append_stop (fun c => decide ('A' ≤ c ∧ c ≤ 'Z')) z [] (fun c hc => by simpa using hN.1 c hc) (by simp)
        simpa using this
      rw [tw]
      have hl := hN.2
      have ne : z ≠ [] := by intro e; rw [e] at hl; simp at hl
      rw [if_neg (by omega)]
      simp [ne, ha]
    | @both s t a x hN ha hx =>
      obtain ⟨c, t', e, hc⟩ := hx.head
      have tw : (s ++ t).takeWhile (fun c => decide ('A' ≤ c ∧ c ≤ 'Z')) = s := by
        refine takeWhile_append_stop _ s t (fun c hc => by simpa using hN.1 c hc) ?_
        intro d t'' ed
        rw [e] at ed
        simp only [List.cons.injEq] at ed
        rw [← ed.1]
        simp only [decide_eq_false_iff_not]
        exact hc
      rw [tw]
      have hl := hN.2
      have ne : s ≠ [] := by intro e; rw [e] at hl; simp at hl
      have nt : t ≠ [] := by rw [e]; simp
      rw [if_neg (by omega)]
      simp [ne, nt, ha, offset_sound hx]

theorem zone_unique {z : List Char} {a b : Int} (h1 : Zone abbrOffset z a) (h2 : Zone abbrOffset z b) : a = b := by
  have e1 := (zoneOffset_iff z a).2 h1
  have e2 := (zoneOffset_iff z b).2 h2
  rw [e1] at e2
  simpa using e2

/-! ## The loop over the fields -/

theorem says_cons {α : Type} (k : Field → Option α) (f : Field) (fs : List Field) : says k (f :: fs) = (says k fs).or (k f) := by
  unfold says
  cases h : k f with
  | none => simp [h]
  | some a =>
    simp only [List.filterMap_cons, h, List.getLast?_cons]
    cases (List.filterMap k fs).getLast? <;> rfl

theorem says_nil {α : Type} (k : Field → Option α) : says k [] = none := rfl

/-- the variables after the loop -/
structure Result (p : AmPm) (fs : List Field) (v w : Vars) : Prop where
  year : w.year = (says year? fs).or v.year
  month : w.month = (says month? fs).or v.month
  day : w.day = (says day? fs).or v.day
  hour : w.hour = (says (hour? p) fs).getD v.hour
  minute : w.minute = (says minute? fs).getD v.minute
  second : w.second = (says second? fs).getD v.second
  weekday : w.weekday = (says weekday? fs).or v.weekday
  julian : w.julian = ((says yearday? fs).map (fun n => (n : Int))).or v.julian
  week : w.week = ((says week? fs).map (fun x => (x.1, decide (x.2 = 0)))).or v.week
  zoneNone : says zone? fs = none → w.tzoffset = v.tzoffset
  zoneSome : ∀ z, says zone? fs = some z → ∃ o, w.tzoffset = some o ∧ Zone abbrOffset z o

theorem Result.nil (p : AmPm) (v : Vars) : Result p [] v v := by
  constructor <;> simp [says_nil]

theorem or_assoc' {α : Type} (a b c : Option α) : (a.or b).or c = a.or (b.or c) := by cases a <;> rfl

theorem or_getD {α : Type} (a b : Option α) (d : α) : (a.or b).getD d = a.getD (b.getD d) := by cases a <;> rfl

theorem Result.cons {p : AmPm} {f : Field} {fs : List Field} {v u w : Vars} (r : Result p fs u w) (s : Result p [f] v u) :
    Result p (f :: fs) v w := by
  have e : ∀ {α : Type} (k : Field → Option α), says k [f] = k f := fun k => by rw [says_cons, says_nil]; cases k f <;> rfl
  constructor
  · rw [r.year, s.year, e, says_cons, or_assoc']
  · rw [r.month, s.month, e, says_cons, or_assoc']
  · rw [r.day, s.day, e, says_cons, or_assoc']
  · rw [r.hour, s.hour, e, says_cons, or_getD]
  · rw [r.minute, s.minute, e, says_cons, or_getD]
  · rw [r.second, s.second, e, says_cons, or_getD]
  · rw [r.weekday, s.weekday, e, says_cons, or_assoc']
  · rw [r.julian, s.julian, e, says_cons]
    cases says yearday? fs <;> simp
  · rw [r.week, s.week, e, says_cons]
    cases says week? fs <;> simp
  · intro h
    rw [says_cons] at h
    cases h2 : says zone? fs with
    | some z => rw [h2] at h; simp at h
    | none =>
      rw [h2] at h
      rw [r.zoneNone h2]
      exact s.zoneNone (by rw [e]; simpa using h)
  · intro z h
    rw [says_cons] at h
    cases h2 : says zone? fs with
    | some z' =>
      rw [h2] at h
      simp only [Option.some_or, Option.some.injEq] at h
      subst h
      exact r.zoneSome _ h2
    | none =>
      rw [h2] at h
      obtain ⟨o, a, b⟩ := s.zoneSome z (by rw [e]; simpa using h)
      exact ⟨o, by rw [r.zoneNone h2, a], b⟩

theorem fields_ok (p : AmPm) : ∀ (fs : List Field) (v : Vars), Readable abbrOffset p fs → ∃ w, fields p fs v = .ok w ∧ Result p fs v w
  | [], v, _ => ⟨v, rfl, Result.nil p v⟩
  | f :: fs, v, h => by
    have ht : Readable abbrOffset p fs :=
      ⟨fun n hn => h.1 n (by simp [hn]), fun n hn => h.2.1 n (by simp [hn]), fun s hs => h.2.2 s (by simp [hs])⟩
    have key : ∀ u, Result p [f] v u → (fields p (f :: fs) v = fields p fs u) → ∃ w, fields p (f :: fs) v = .ok w ∧ Result p (f :: fs) v w := by
      intro u s e
      obtain ⟨w, a, b⟩ := fields_ok p fs u ht
      exact ⟨w, by rw [e, a], b.cons s⟩
    cases f with
    | year2 n =>
      have := h.1 n (by simp)
      refine key _ ?_ rfl
      have e : (if n ≤ 2000 then n + 2000 else n) = 2000 + n := by rw [if_pos (by omega)]; omega
      constructor <;> simp [e, says, year?, month?, day?, hour?, minute?, second?, weekday?, yearday?, week?, zone?]
    | year n => refine key _ ?_ rfl; constructor <;> simp [says, year?, month?, day?, hour?, minute?, second?, weekday?, yearday?, week?, zone?]
    | month n => refine key _ ?_ rfl; constructor <;> simp [says, year?, month?, day?, hour?, minute?, second?, weekday?, yearday?, week?, zone?]
    | day n => refine key _ ?_ rfl; constructor <;> simp [says, year?, month?, day?, hour?, minute?, second?, weekday?, yearday?, week?, zone?]
    | hour n => refine key _ ?_ rfl; constructor <;> simp [says, year?, month?, day?, hour?, minute?, second?, weekday?, yearday?, week?, zone?]
    | minute n => refine key _ ?_ rfl; constructor <;> simp [says, year?, month?, day?, hour?, minute?, second?, weekday?, yearday?, week?, zone?]
    | second n => refine key _ ?_ rfl; constructor <;> simp [says, year?, month?, day?, hour?, minute?, second?, weekday?, yearday?, week?, zone?]
    | weekday n => refine key _ ?_ rfl; constructor <;> simp [says, year?, month?, day?, hour?, minute?, second?, weekday?, yearday?, week?, zone?]
    | weekdayNo n => refine key _ ?_ rfl; constructor <;> simp [says, year?, month?, day?, hour?, minute?, second?, weekday?, yearday?, week?, zone?]
    | yearday n => refine key _ ?_ rfl; constructor <;> simp [says, year?, month?, day?, hour?, minute?, second?, weekday?, yearday?, week?, zone?]
    | weekU n => refine key _ ?_ rfl; constructor <;> simp [says, year?, month?, day?, hour?, minute?, second?, weekday?, yearday?, week?, zone?]
    | weekW n => refine key _ ?_ rfl; constructor <;> simp [says, year?, month?, day?, hour?, minute?, second?, weekday?, yearday?, week?, zone?]
    | hour12 n =>
      have hp := h.2.1 n (by simp)
      cases p with
      | unmatched => exact absurd rfl hp
      | absent =>
        refine key { v with hour := if n = 12 then 0 else n } ?_ rfl
        constructor <;> simp [says, year?, month?, day?, hour?, minute?, second?, weekday?, yearday?, week?, zone?]
      | am =>
        refine key { v with hour := if n = 12 then 0 else n } ?_ rfl
        constructor <;> simp [says, year?, month?, day?, hour?, minute?, second?, weekday?, yearday?, week?, zone?]
      | pm =>
        refine key { v with hour := if n = 12 then 12 else n + 12 } ?_ rfl
        constructor <;> simp [says, year?, month?, day?, hour?, minute?, second?, weekday?, yearday?, week?, zone?]
        split <;> simp
      | unknown =>
        refine key { v with hour := n } ?_ rfl
        constructor <;> simp [says, year?, month?, day?, hour?, minute?, second?, weekday?, yearday?, week?, zone?]
    | zone z =>
      obtain ⟨o, ho⟩ := h.2.2 z (by simp)
      refine key { v with tzoffset := some o } ?_ ?_
      · constructor <;> simp [says, year?, month?, day?, hour?, minute?, second?, weekday?, yearday?, week?, zone?]
        exact ho
      · have e : fields p (Field.zone z :: fs) v =
          (if z = ['Z'] ∨ z = ['U', 'T', 'C'] ∨ z = ['G', 'M', 'T'] then fields p fs { v with tzoffset := some 0 }
          else match zoneOffset z with
            | .error e => .error e
            | .ok o => fields p fs { v with tzoffset := some o }) := rfl
        rw [e]
        have hz := (zoneOffset_iff z o).2 ho
        split
        · rename_i hc
          have : o = 0 := by
            rcases hc with rfl | rfl | rfl
            · have e2 : zoneOffset ['Z'] = .ok 0 := by decide +kernel
              rw [hz] at e2; simpa using e2
            · have e2 : zoneOffset ['U', 'T', 'C'] = .ok 0 := by decide +kernel
              rw [hz] at e2; simpa using e2
            · have e2 : zoneOffset ['G', 'M', 'T'] = .ok 0 := by decide +kernel
              rw [hz] at e2; simpa using e2
          rw [this]
        · rw [hz]

/-- If the text of a zone is none, or the half of the day is missing, no time is returned. -/
theorem fields_error (p : AmPm) : ∀ (fs : List Field) (v : Vars),
    ((∃ n, Field.hour12 n ∈ fs ∧ p = .unmatched) ∨ ∃ s, Field.zone s ∈ fs ∧ ∀ o, ¬Zone abbrOffset s o) → ∃ e, fields p fs v = .error e
  | [], _, h => by rcases h with ⟨_, h, _⟩ | ⟨_, h, _⟩ <;> cases h
  | f :: fs, v, h => by
    have rest : ∀ u, (((∃ n, Field.hour12 n ∈ fs ∧ p = .unmatched) ∨ ∃ s, Field.zone s ∈ fs ∧ ∀ o, ¬Zone abbrOffset s o)) →
      ∃ e, fields p fs u = .error e := fun u => fields_error p fs u
    have tl : (∀ n, f ≠ .hour12 n) → (∀ s, f ≠ .zone s) →
        ((∃ n, Field.hour12 n ∈ fs ∧ p = .unmatched) ∨ ∃ s, Field.zone s ∈ fs ∧ ∀ o, ¬Zone abbrOffset s o) := by
      intro h1 h2
      rcases h with ⟨n, hn, hp⟩ | ⟨s, hs, ho⟩
      · rcases List.mem_cons.1 hn with e | hn
        · exact absurd e.symm (h1 n)
        · exact .inl ⟨n, hn, hp⟩
      · rcases List.mem_cons.1 hs with e | hs
        · exact absurd e.symm (h2 s)
        · exact .inr ⟨s, hs, ho⟩
    cases f with
    | hour12 n =>
      have t : p ≠ .unmatched → ((∃ n, Field.hour12 n ∈ fs ∧ p = .unmatched) ∨ ∃ s, Field.zone s ∈ fs ∧ ∀ o, ¬Zone abbrOffset s o) := by
        intro hp
        rcases h with ⟨_, _, h⟩ | ⟨s, hs, ho⟩
        · exact absurd h hp
        · exact .inr ⟨s, by simpa using hs, ho⟩
      cases p with
      | unmatched => exact ⟨_, rfl⟩
      | absent => exact rest _ (t (by decide))
      | am => exact rest _ (t (by decide))
      | pm => exact rest _ (t (by decide))
      | unknown => exact rest _ (t (by decide))
    | zone z =>
      have e : fields p (Field.zone z :: fs) v =
          (if z = ['Z'] ∨ z = ['U', 'T', 'C'] ∨ z = ['G', 'M', 'T'] then fields p fs { v with tzoffset := some 0 }
          else match zoneOffset z with
            | .error e => .error e
            | .ok o => fields p fs { v with tzoffset := some o }) := rfl
      rw [e]
      have t : (∃ o, Zone abbrOffset z o) → ((∃ n, Field.hour12 n ∈ fs ∧ p = .unmatched) ∨ ∃ s, Field.zone s ∈ fs ∧ ∀ o, ¬Zone abbrOffset s o) := by
        rintro ⟨o, hz⟩
        rcases h with ⟨n, hn, hp⟩ | ⟨s, hs, ho⟩
        · exact .inl ⟨n, by simpa using hn, hp⟩
        · rcases List.mem_cons.1 hs with e | hs
          · simp only [Field.zone.injEq] at e
            subst e
            exact absurd hz (ho o)
          · exact .inr ⟨s, hs, ho⟩
      by_cases hc : z = ['Z'] ∨ z = ['U', 'T', 'C'] ∨ z = ['G', 'M', 'T']
      · rw [if_pos hc]
        refine rest _ (t ⟨0, (zoneOffset_iff z 0).1 ?_⟩)
        rcases hc with rfl | rfl | rfl <;> decide +kernel
      · rw [if_neg hc]
        cases hz : zoneOffset z with
        | error x => exact ⟨x, rfl⟩
        | ok o => exact rest _ (t ⟨o, (zoneOffset_iff z o).1 hz⟩)
    | year2 n => exact rest _ (tl (by simp) (by simp))
    | year n => exact rest _ (tl (by simp) (by simp))
    | month n => exact rest _ (tl (by simp) (by simp))
    | day n => exact rest _ (tl (by simp) (by simp))
    | hour n => exact rest _ (tl (by simp) (by simp))
    | minute n => exact rest _ (tl (by simp) (by simp))
    | second n => exact rest _ (tl (by simp) (by simp))
    | weekday n => exact rest _ (tl (by simp) (by simp))
    | weekdayNo n => exact rest _ (tl (by simp) (by simp))
    | yearday n => exact rest _ (tl (by simp) (by simp))
    | weekU n => exact rest _ (tl (by simp) (by simp))
    | weekW n => exact rest _ (tl (by simp) (by simp))

end DateSpec

end Verif
