import Verif.Model.Dates

/-!
# What a date means
-/

namespace Verif

namespace DateSpec

open Dates

instance instDecidableEqExcept {ε α : Type} [DecidableEq ε] [DecidableEq α] : DecidableEq (Except ε α)
  | .ok a, .ok b => if h : a = b then isTrue (by rw [h]) else isFalse (by intro e; cases e; exact h rfl)
  | .error a, .error b => if h : a = b then isTrue (by rw [h]) else isFalse (by intro e; cases e; exact h rfl)
  | .ok _, .error _ => isFalse (by intro e; cases e)
  | .error _, .ok _ => isFalse (by intro e; cases e)

/-! ## The calendar, by counting days -/

/-- A day of the calendar. -/
structure Day where
  y : Nat
  m : Nat
  d : Nat
deriving DecidableEq

def Leap (y : Nat) : Prop := 4 ∣ y ∧ (100 ∣ y → 400 ∣ y)

instance (y : Nat) : Decidable (Leap y) := by unfold Leap; infer_instance

/-- The number of days of the months of a year. -/
def months (y : Nat) : List Nat := [31, if Leap y then 29 else 28, 31, 30, 31, 30, 31, 31, 30, 31, 30, 31]

def monthLength (y m : Nat) : Nat := (months y).getD (m - 1) 0

def Day.Valid (x : Day) : Prop := 1 ≤ x.y ∧ 1 ≤ x.m ∧ x.m ≤ 12 ∧ 1 ≤ x.d ∧ x.d ≤ monthLength x.y x.m

instance (x : Day) : Decidable x.Valid := by unfold Day.Valid; infer_instance

/-- the day after -/
def Day.next (x : Day) : Day :=
  if x.d < monthLength x.y x.m then ⟨x.y, x.m, x.d + 1⟩ else if x.m < 12 then ⟨x.y, x.m + 1, 1⟩ else ⟨x.y + 1, 1, 1⟩

/-- The number of a day, counted from the first of January 1970. -/
inductive DayNo : Day → Int → Prop
  | epoch : DayNo ⟨1970, 1, 1⟩ 0
  | next {x n} : DayNo x n → DayNo x.next (n + 1)
  | prev {x n} : x.Valid → DayNo x.next n → DayNo x (n - 1)

/-- The first of January 1970 was a Thursday; 0 is Monday. -/
def weekday (n : Int) : Int := (n + 3) % 7

/-! ## What is written -/

/-- a year with two digits belongs to this century -/
def year? : Field → Option Nat
  | .year n => some n
  | .year2 n => some (2000 + n)
  | _ => none

def month? : Field → Option Nat
  | .month n => some n
  | _ => none

def day? : Field → Option Nat
  | .day n => some n
  | _ => none

/-- On a 12-hour clock 12 comes before 1. -/
def hour? (p : AmPm) : Field → Option Nat
  | .hour n => some n
  | .hour12 n => if p = .unknown then some n else some ((if n = 12 then 0 else n) + (if p = .pm then 12 else 0))
  | _ => none

def minute? : Field → Option Nat
  | .minute n => some n
  | _ => none

def second? : Field → Option Nat
  | .second n => some n
  | _ => none

/-- Monday is 0; as a number (`%w`) Sunday is 0 -/
def weekday? : Field → Option Nat
  | .weekday n => some n
  | .weekdayNo n => some (if n = 0 then 6 else n - 1)
  | _ => none

def yearday? : Field → Option Nat
  | .yearday n => some n
  | _ => none

/-- the number of a week, and the day weeks start with -/
def week? : Field → Option (Nat × Int)
  | .weekU n => some (n, 6)
  | .weekW n => some (n, 0)
  | _ => none

def zone? : Field → Option (List Char)
  | .zone s => some s
  | _ => none

/-- What a field of some kind says; a later one is preferred. -/
def says {α : Type} (kind : Field → Option α) (fs : List Field) : Option α := (fs.filterMap kind).getLast?

/-! ## Time zones -/

/-- A number with two digits. -/
def twoDigits (n : Nat) : List Char := [Nat.digitChar (n / 10), Nat.digitChar (n % 10)]

/-- An offset in minutes: `+hh`, `+hhmm` or `+hh:mm`. -/
inductive Offset : List Char → Int → Prop
  | plusH {h} : h < 20 → Offset ('+' :: twoDigits h) (60 * h)
  | plus {h m} : h < 20 → m < 100 → Offset ('+' :: (twoDigits h ++ twoDigits m)) (60 * h + m)
  | plusC {h m} : h < 20 → m < 100 → Offset ('+' :: (twoDigits h ++ ':' :: twoDigits m)) (60 * h + m)
  | minusH {h} : h < 20 → Offset ('-' :: twoDigits h) (-(60 * h))
  | minus {h m} : h < 20 → m < 100 → Offset ('-' :: (twoDigits h ++ twoDigits m)) (-(60 * h + m))
  | minusC {h m} : h < 20 → m < 100 → Offset ('-' :: (twoDigits h ++ ':' :: twoDigits m)) (-(60 * h + m))

/-- The name of a time zone has one or three to five letters. -/
def Name (s : List Char) : Prop := (∀ c ∈ s, 'A' ≤ c ∧ c ≤ 'Z') ∧ (s.length = 1 ∨ (3 ≤ s.length ∧ s.length ≤ 5))

/-- The offset of a time zone in minutes: the one of its name (if any) plus the one written (if any). -/
inductive Zone (offsetOf : String → Option Int) : List Char → Int → Prop
  | empty : Zone offsetOf [] 0
  | offset {s o} : Offset s o → Zone offsetOf s o
  | name {s a} : Name s → offsetOf (String.ofList s) = some a → Zone offsetOf s a
  | both {s t a o} : Name s → offsetOf (String.ofList s) = some a → Offset t o → Zone offsetOf (s ++ t) (a + o)

/-- The zone that applies: the one written, or the one of the configuration. -/
def applies (offsetOf : String → Option Int) (defaultTz : Option Int) (fs : List Field) (o : Option Int) : Prop :=
  match says zone? fs with
  | none => o = defaultTz
  | some z => ∃ x, o = some x ∧ Zone offsetOf z x

/-- A year `%y` has two digits, and no field makes the conversion fail. -/
def Readable (offsetOf : String → Option Int) (p : AmPm) (fs : List Field) : Prop :=
  (∀ n, Field.year2 n ∈ fs → n < 100) ∧ (∀ n, Field.hour12 n ∈ fs → p ≠ .unmatched) ∧ ∀ s, Field.zone s ∈ fs → ∃ o, Zone offsetOf s o

/-- An offset of less than a year (for zones of the configuration, given as a number). -/
def Bounded : Option Int → Prop
  | none => True
  | some o => -(365 * 1440) < o ∧ o < 365 * 1440

/-- A time of the day. -/
structure Clock where
  h : Nat
  i : Nat
  s : Nat

def Clock.Valid (c : Clock) : Prop := c.h < 24 ∧ c.i < 60 ∧ c.s < 60

def Clock.seconds (c : Clock) : Int := 3600 * c.h + 60 * c.i + c.s

/-- The time of the day that is written. -/
def clock (p : AmPm) (fs : List Field) : Clock :=
  ⟨(says (hour? p) fs).getD 0, (says minute? fs).getD 0, (says second? fs).getD 0⟩

/-- The unix time of a time in a zone with offset `o` (in minutes), or of a time of this computer. -/
def unix (mktime : Int → Int) (t : Int) : Option Int → Int
  | some o => t - 60 * o
  | none => mktime t

/-- The number of the week of the year: weeks start with weekday `start`, the days before the first one are in week 0. `jan` is the number of
the first of January, `k` the number of days since. -/
def weekNo (start jan : Int) (k : Nat) : Nat := ((List.range (k + 1)).filter (fun (i : Nat) => weekday (jan + i) = start)).length

/-- The number with these digits. -/
def hexValue (ds : List (Fin 16)) : Nat := ds.foldl (fun n d => 16 * n + d.val) 0

/-- A digit as it is written. -/
def hexDigit (d : Fin 16) : Char := Nat.digitChar d.val

end DateSpec

end Verif
