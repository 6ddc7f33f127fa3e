import Verif.Model.DefaultDates

/-!
# What the user expects of default date patterns

Written without the functions of the detector.
-/

namespace Verif.DefaultDates.Spec

open Verif.DatePattern (Text Template)

/-- `str.upper` does with ASCII what one expects -/
def AsciiUpper (up : Text → Text) : Prop := ∀ p : Text, (∀ c ∈ p, c.toNat < 128) → up p = p.map Char.toUpper

/-- A default that is found at the begin of a line only -/
def atBegin (p : Text) : Bool := "{^LN-BEG}".toList.isPrefixOf p || "^".toList.isPrefixOf p

/-- The template of a default -/
def plain (p : Text) : Template :=
  if p = "EPOCH".toList then .epoch false false else if p = "TAI64N".toList then .tai64n false else .regex p

/-- The template of a default at the begin of a line -/
def begins (p : Text) : Template :=
  if p = "EPOCH".toList then .epoch true false else if p = "TAI64N".toList then .tai64n true else .regex ("{^LN-BEG}".toList ++ p)

/-- First everything at the begin of a line with weight 100, then everything, in order -/
def preferred (ps : List Text) : List (Template × Nat) :=
  (ps.filter (fun p => !atBegin p)).map (fun p => (begins p, 100)) ++ ps.map (fun p => (plain p, 1))

/-- Only what is at the begin of a line -/
def beginOnly (ps : List Text) : List (Template × Nat) :=
  (ps.filter (fun p => !atBegin p)).map (fun p => (begins p, 100)) ++ (ps.filter atBegin).map (fun p => (plain p, 1))

/-- No `{DATE}` in a text, in any case -/
def NoDate (a : Text) : Prop := ∀ u v : Text, a.map Char.toLower ≠ u ++ "{date}".toList ++ v

/-- Pieces of a pattern: a character as it is, `%c` and `%Exc` -/
inductive Piece where
  | char (c : Char)
  | field (c : Char)
  | ex (c : Char)

/-- Written -/
def Piece.text : Piece → Text
  | .char c => [c]
  | .field c => ['%', c]
  | .ex c => ['%', 'E', 'x', c]

/-- What a field is called -/
def called (c : Char) : String :=
  if c = 'a' then "DAY" else if c = 'A' then "DAYNAME" else if c = 'b' then "MON" else if c = 'B' then "MONTH" else if c = 'd' then "Day"
  else if c = 'H' then "24hour" else if c = 'I' then "12hour" else if c = 'j' then "Yearday" else if c = 'm' then "Month" else if c = 'M' then "Minute"
  else if c = 'p' then "AMPM" else if c = 'S' then "Second" else if c = 'U' then "Yearweek" else if c = 'w' then "Weekday" else if c = 'W' then "Yearweek"
  else if c = 'y' then "Year2" else if c = 'Y' then "Year" else if c = '%' then "%" else if c = 'z' then "Zone offset"
  else if c = 'f' then "Microseconds" else if c = 'Z' then "Zone name" else "%" ++ String.singleton c

/-- What a piece is called -/
def Piece.name : Piece → Text
  | .char c => [c]
  | .field c => (called c).toList
  | .ex c => if c = 'k' ∨ c = 'l' then ['%', 'E', 'x', c] else 'E' :: 'x' :: (called c).toList

/-- Pieces there are -/
def Piece.Ok : Piece → Prop
  | .char c => c ≠ '%'
  | .field c => c ∈ "aAbBdHIjmMpSUwWyYzfZklcxXGuV%".toList
  | .ex c => c ∈ "dmHklMSYyZz".toList

end Verif.DefaultDates.Spec
