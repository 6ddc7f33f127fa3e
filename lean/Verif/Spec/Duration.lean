import Verif.Model.Duration

/-! # Durations as users write them -/

namespace Verif.DurationSpec

open Duration

inductive TimeUnit where
  | second | minute | hour | day | week | month | year
deriving DecidableEq, Repr

namespace TimeUnit

/-- A year has 365¼ days, a month is the twelfth part. -/
def seconds : TimeUnit → Rat
  | second => 1
  | minute => 60
  | hour => 60 * 60
  | day => 24 * (60 * 60)
  | week => 7 * (24 * (60 * 60))
  | month => (365 + 1 / 4) * (24 * (60 * 60)) / 12
  | year => (365 + 1 / 4) * (24 * (60 * 60))

def name : TimeUnit → String
  | second => "second"
  | minute => "minute"
  | hour => "hour"
  | day => "day"
  | week => "week"
  | month => "month"
  | year => "year"

/-- How a unit may be written (in small letters): its name, the plural, up to three letters of it (at least two for a month), or its first letter twice (not for
a month). -/
def Spelled (u : TimeUnit) (w : List Char) : Prop :=
  w = u.name.toList ∨ w = u.name.toList ++ ['s'] ∨
  (w = u.name.toList.take 1 ∧ u ≠ month) ∨ w = u.name.toList.take 2 ∨ w = u.name.toList.take 3 ∨
  (w = u.name.toList.take 1 ++ u.name.toList.take 1 ∧ u ≠ month)

end TimeUnit

/-- A decimal number: no superfluous zero at its begin unless there is a fraction. -/
structure Number where
  int : List Char
  frac : List Char := []
deriving DecidableEq

namespace Number

structure Valid (n : Number) : Prop where
  int : n.int ≠ [] ∧ n.int.all isDigit = true
  frac : n.frac.all isDigit = true
  zero : n.frac = [] → 1 < n.int.length → n.int.head? ≠ some '0'

def text (n : Number) : List Char := if n.frac = [] then n.int else n.int ++ '.' :: n.frac

/-- Value of a digit. -/
def digit (c : Char) : Nat := c.toNat - 48

/-- `Σ dᵢ·10^(k-i)` -/
def natural : List Char → Nat
  | [] => 0
  | c :: cs => digit c * 10 ^ cs.length + natural cs

def value (n : Number) : Rat := (natural n.int : Rat) + (natural n.frac : Rat) / ((10 ^ n.frac.length : Nat) : Rat)

end Number

/-- A number with its unit, maybe with spaces between. -/
structure Item where
  number : Number
  gap : Nat := 0
  word : List Char
  unit : TimeUnit

namespace Item

structure Valid (i : Item) : Prop where
  number : i.number.Valid
  letters : i.word.all isLetter = true
  word : i.unit.Spelled (i.word.map Char.toLower)

def text (i : Item) : List Char := i.number.text ++ List.replicate i.gap ' ' ++ i.word

def value (i : Item) : Rat := i.number.value * i.unit.seconds

end Item

/-- What is between two items: spaces, or a sign with spaces around it. -/
inductive Sep where
  | spaces (n : Nat)
  | plus (n m : Nat)
  | minus (n m : Nat)

namespace Sep

def text : Sep → List Char
  | spaces n => List.replicate n ' '
  | plus n m => List.replicate n ' ' ++ '+' :: List.replicate m ' '
  | minus n m => List.replicate n ' ' ++ '-' :: List.replicate m ' '

def sign : Sep → Rat
  | minus _ _ => -1
  | _ => 1

end Sep

/-- Items one after the other. -/
def text (first : Item) (rest : List (Sep × Item)) : List Char := first.text ++ rest.flatMap (fun x => x.1.text ++ x.2.text)

def total (first : Item) (rest : List (Sep × Item)) : Rat := rest.foldl (fun v x => v + x.1.sign * x.2.value) first.value

/-- A number with the first letter of its unit. -/
def shortItem (g : Nat × TimeUnit) : List Char := Nat.toDigits 10 g.1 ++ g.2.name.toList.take 1

/-- Groups with a space between. -/
def spacedItems : List (Nat × TimeUnit) → List Char
  | [] => []
  | [g] => shortItem g
  | g :: gs => shortItem g ++ ' ' :: spacedItems gs

/-- A duration in groups; those which are zero are left out. -/
def shown (gs : List (Nat × TimeUnit)) : List Char := spacedItems (gs.filter (fun g => g.1 ≠ 0))

/-- What a duration of `s` seconds shows: rounded (half to even) to days from a year of 365 days, to hours from a week, to minutes from a day; from an hour (less
five seconds) rounded to ten seconds of which only the minutes are shown; exact below. Each group is less than the unit of the group before. -/
inductive Shows (s : Nat) : List (Nat × TimeUnit) → Prop where
  | years (n y w d : Nat) : 365 * 86400 ≤ s → IsRounded s 86400 n → n = 365 * y + 7 * w + d → 7 * w + d < 365 → d < 7 → Shows s [(y, .year), (w, .week), (d, .day)]
  | weeks (n w d h : Nat) : 604800 ≤ s → s < 365 * 86400 → IsRounded s 3600 n → n = 168 * w + 24 * d + h → 24 * d + h < 168 → h < 24 → Shows s [(w, .week), (d, .day), (h, .hour)]
  | days (n d h m : Nat) : 86400 ≤ s → s < 604800 → IsRounded s 60 n → n = 1440 * d + 60 * h + m → 60 * h + m < 1440 → m < 60 → Shows s [(d, .day), (h, .hour), (m, .minute)]
  | hours (n h m t : Nat) : 3600 - 5 ≤ s → s < 86400 → IsRounded s 10 n → n = 360 * h + 6 * m + t → 6 * m + t < 360 → t < 6 → Shows s [(h, .hour), (m, .minute)]
  | minutes (m x : Nat) : s < 3600 - 5 → s = 60 * m + x → x < 60 → Shows s [(m, .minute), (x, .second)]

end Verif.DurationSpec
