/-!
# Dates — strptime.py, datetemplate.py (`getDate`)

A date and time without zone (`datetime.datetime`) is the number of its seconds since the beginning of 1970 (on the same clock). The regular expressions
of date patterns are left out: a match is given as the list of its groups, with numbers already converted by `int()` and names of months and days
by their index in the list of the locale. Microseconds are left out: `%f` is ignored by the code, and comparing a whole number of seconds with the
current time gives the same without its fraction.
-/

namespace Verif

namespace Dates

/-- Exceptions: `DateDetector.getTime` (datedetector.py 491-503) catches `ValueError` only. -/
inductive DateErr where
  | value
  /-- `TypeError`, `KeyError`, `AttributeError`, `OverflowError` -/
  | other
deriving DecidableEq, Repr

/-! ## The calendar of the library `datetime` -/

/-- `calendar.isleap` -/
def isLeap (y : Nat) : Bool := y % 4 == 0 && (y % 100 != 0 || y % 400 == 0)

/-- days of a month -/
def daysIn (y m : Nat) : Nat :=
  if m = 2 then (if isLeap y then 29 else 28) else if m = 4 ∨ m = 6 ∨ m = 9 ∨ m = 11 then 30 else 31

/-- days of the year before the first of a month -/
def daysBefore (y : Nat) : Nat → Nat
  | 0 => 0
  | 1 => 0
  | m + 1 => daysBefore y m + daysIn y m

/-- `toordinal()` of a date -/
def toOrdinal (y m d : Nat) : Nat :=
  let p := y - 1
  p * 365 + p / 4 - p / 100 + p / 400 + daysBefore y m + d

/-- the month and the day by the number of the day within a year, counted from 0 -/
def monthDay (y : Nat) : Nat → Nat → Nat → Nat × Nat
  | 0, m, n => (m, n + 1)
  | k + 1, m, n => if n < daysIn y m then (m, n + 1) else monthDay y k (m + 1) (n - daysIn y m)

/-- `fromordinal(n)`: year, month and day (for `n` ≥ 1) -/
def fromOrdinal (n : Nat) : Nat × Nat × Nat :=
  let n := n - 1
  let n400 := n / 146097
  let n := n % 146097
  let n100 := n / 36524
  let n := n % 36524
  let n4 := n / 1461
  let n := n % 1461
  let n1 := n / 365
  let n := n % 365
  let y := n400 * 400 + 1 + n100 * 100 + n4 * 4 + n1
  if n1 = 4 ∨ n100 = 4 then (y - 1, 12, 31) else (y, monthDay y 11 1 n)

/-- the last day of the year 9999 -/
def maxOrdinal : Nat := 3652059

/-- `datetime.datetime(y, m, d, h, i, s)` -/
def mkTime (y m d h i s : Nat) : Except DateErr Int :=
  if 1 ≤ y ∧ y ≤ 9999 ∧ 1 ≤ m ∧ m ≤ 12 ∧ 1 ≤ d ∧ d ≤ daysIn y m ∧ h < 24 ∧ i < 60 ∧ s < 60 then
    .ok (((toOrdinal y m d : Int) - 719163) * 86400 + (h * 3600 + i * 60 + s : Nat))
  else .error .value

/-- `t + datetime.timedelta(seconds=x)` -/
def shift (t x : Int) : Except DateErr Int :=
  if (1 - 719163) * 86400 ≤ t + x ∧ t + x < (maxOrdinal + 1 - 719163) * 86400 then .ok (t + x) else .error .other

/-- the date of a time -/
def dateOf (t : Int) : Nat × Nat × Nat := fromOrdinal (t / 86400 + 719163).toNat

/-! ## Time zones -/

/-- `TZ_STR`, `TZ_ABBR_OFFS` (strptime.py 342-392): offsets in minutes -/
def zones : List (Int × List String) := [
  (-720, ["Y"]),
  (-660, ["X", "NUT", "SST"]),
  (-600, ["W", "CKT", "HAST", "HST", "TAHT", "TKT"]),
  (-540, ["V", "AKST", "GAMT", "GIT", "HADT", "HNY"]),
  (-480, ["U", "AKDT", "CIST", "HAY", "HNP", "PST", "PT"]),
  (-420, ["T", "HAP", "HNR", "MST", "PDT"]),
  (-360, ["S", "CST", "EAST", "GALT", "HAR", "HNC", "MDT"]),
  (-300, ["R", "CDT", "COT", "EASST", "ECT", "EST", "ET", "HAC", "HNE", "PET"]),
  (-240, ["Q", "AST", "BOT", "CLT", "COST", "EDT", "FKT", "GYT", "HAE", "HNA", "PYT"]),
  (-180, ["P", "ADT", "ART", "BRT", "CLST", "FKST", "GFT", "HAA", "PMST", "PYST", "SRT", "UYT", "WGT"]),
  (-120, ["O", "BRST", "FNT", "PMDT", "UYST", "WGST"]),
  (-60, ["N", "AZOT", "CVT", "EGT"]),
  (0, ["Z", "EGST", "GMT", "UTC", "WET", "WT"]),
  (60, ["A", "CET", "DFT", "WAT", "WEDT", "WEST"]),
  (120, ["B", "CAT", "CEDT", "CEST", "EET", "SAST", "WAST"]),
  (180, ["C", "EAT", "EEDT", "EEST", "IDT", "MSK"]),
  (240, ["D", "AMT", "AZT", "GET", "GST", "KUYT", "MSD", "MUT", "RET", "SAMT", "SCT"]),
  (300, ["E", "AMST", "AQTT", "AZST", "HMT", "MAWT", "MVT", "PKT", "TFT", "TJT", "TMT", "UZT", "YEKT"]),
  (360, ["F", "ALMT", "BIOT", "BTT", "IOT", "KGT", "NOVT", "OMST", "YEKST"]),
  (420, ["G", "CXT", "DAVT", "HOVT", "ICT", "KRAT", "NOVST", "OMSST", "THA", "WIB"]),
  (480, ["H", "ACT", "AWST", "BDT", "BNT", "CAST", "HKT", "IRKT", "KRAST", "MYT", "PHT", "SGT", "ULAT", "WITA", "WST"]),
  (540, ["I", "AWDT", "IRKST", "JST", "KST", "PWT", "TLT", "WDT", "WIT", "YAKT"]),
  (600, ["K", "AEST", "ChST", "PGT", "VLAT", "YAKST", "YAPT"]),
  (660, ["L", "AEDT", "LHDT", "MAGT", "NCT", "PONT", "SBT", "VLAST", "VUT"]),
  (720, ["M", "ANAST", "ANAT", "FJT", "GILT", "MAGST", "MHT", "NZST", "PETST", "PETT", "TVT", "WFT"]),
  (780, ["FJST", "NZDT"]),
  (690, ["NFT"]),
  (630, ["ACDT", "LHST"]),
  (570, ["ACST"]),
  (390, ["CCT", "MMT"]),
  (345, ["NPT"]),
  (330, ["SLT"]),
  (270, ["AFT", "IRDT"]),
  (210, ["IRST"]),
  (-150, ["HAT", "NDT"]),
  (-210, ["HNT", "NST", "NT"]),
  (-270, ["HLV", "VET"]),
  (-570, ["MART", "MIT"])]

/-- `TZ_ABBR_OFFS[tz]` -/
def abbrOffset (z : String) : Option Int := (zones.find? (fun r => r.2.contains z)).map (·.1)

/-- a digit -/
def digit? (c : Char) : Option Nat := if '0' ≤ c ∧ c ≤ '9' then some (c.toNat - '0'.toNat) else none

/-- two digits -/
def two? (a b : Char) : Option Nat := (digit? a).bind (fun x => (digit? b).map (fun y => 10 * x + y))

/-- The offset matched by the second group of `FIXED_OFFSET_TZ_RE` (line 31) and its value (`zone2offset`, lines 180-187). -/
def offset? : List Char → Option Int
  | sg :: a :: b :: rest =>
    if (sg = '+' ∨ sg = '-') ∧ (a = '0' ∨ a = '1') then
      let sign : Int := if sg = '-' then -1 else 1
      match two? a b with
      | none => none
      | some h =>
        match rest with
        | [] => some (sign * h * 60)
        | [c, d] => (two? c d).map (fun (m : Nat) => sign * (h * 60 + m))
        | [':', c, d] => (two? c d).map (fun (m : Nat) => sign * (h * 60 + m))
        | _ => none
    else none
  | _ => none

/-- `validateTimeZone(tz)` (lines 141-158) for a text: the match of `FIXED_OFFSET_TZ_RE` and `zone2offset` (lines 160-187). An abbreviation has one
or three to five capital letters. -/
def zoneOffset (tz : List Char) : Except DateErr Int :=
  let name := tz.takeWhile (fun c => 'A' ≤ c ∧ c ≤ 'Z')
  let rest := tz.drop name.length
  if name.length = 2 ∨ 5 < name.length then .error .value
  else
    match (if rest = [] then some 0 else offset? rest) with
    | none => .error .value
    | some o =>
      if name = [] then .ok o
      else
        match abbrOffset (String.ofList name) with
        | none => .error .other
        | some a => .ok (a + o)

/-! ## The fields of a match -/

/-- A group of the match, with a value. -/
inductive Field where
  /-- `y` -/
  | year2 (n : Nat)
  /-- `Y` -/
  | year (n : Nat)
  /-- `m`, `B`, `b` -/
  | month (n : Nat)
  /-- `d` -/
  | day (n : Nat)
  /-- `H` -/
  | hour (n : Nat)
  /-- `I` -/
  | hour12 (n : Nat)
  /-- `M` -/
  | minute (n : Nat)
  /-- `S` -/
  | second (n : Nat)
  /-- `A`, `a` -/
  | weekday (n : Nat)
  /-- `w` -/
  | weekdayNo (n : Nat)
  /-- `j` -/
  | yearday (n : Nat)
  /-- `U` -/
  | weekU (n : Nat)
  /-- `W` -/
  | weekW (n : Nat)
  /-- `z`, `Z` -/
  | zone (s : List Char)
deriving DecidableEq

/-- The group `p`. -/
inductive AmPm where
  /-- there is no such group -/
  | absent
  /-- it took no part in the match -/
  | unmatched
  /-- equal to the first text of the locale, or empty -/
  | am
  /-- equal to the second text of the locale -/
  | pm
  | unknown
deriving DecidableEq

/-- The variables of `reGroupDictStrptime` (lines 207-210). -/
structure Vars where
  year : Option Nat := none
  month : Option Nat := none
  day : Option Nat := none
  hour : Nat := 0
  minute : Nat := 0
  second : Nat := 0
  weekday : Option Nat := none
  julian : Option Int := none
  /-- `week_of_year` and whether `week_of_year_start == 0` -/
  week : Option (Nat × Bool) := none
  tzoffset : Option Int := none
deriving DecidableEq

/-- The loop over the groups (lines 211-279). -/
def fields (p : AmPm) : List Field → Vars → Except DateErr Vars
  | [], v => .ok v
  | f :: fs, v =>
    match f with
    | .year2 n => fields p fs { v with year := some (if n ≤ 2000 then n + 2000 else n) }
    | .year n => fields p fs { v with year := some n }
    | .month n => fields p fs { v with month := some n }
    | .day n => fields p fs { v with day := some n }
    | .hour n => fields p fs { v with hour := n }
    | .hour12 n =>
      match p with
      | .unmatched => .error .other
      | .absent | .am => fields p fs { v with hour := if n = 12 then 0 else n }
      | .pm => fields p fs { v with hour := if n = 12 then 12 else n + 12 }
      | .unknown => fields p fs { v with hour := n }
    | .minute n => fields p fs { v with minute := n }
    | .second n => fields p fs { v with second := n }
    | .weekday n => fields p fs { v with weekday := some n }
    | .weekdayNo n => fields p fs { v with weekday := some (if n = 0 then 6 else n - 1) }
    | .yearday n => fields p fs { v with julian := some n }
    | .weekU n => fields p fs { v with week := some (n, false) }
    | .weekW n => fields p fs { v with week := some (n, true) }
    | .zone s =>
      if s = ['Z'] ∨ s = ['U', 'T', 'C'] ∨ s = ['G', 'M', 'T'] then fields p fs { v with tzoffset := some 0 }
      else
        match zoneOffset s with
        | .error e => .error e
        | .ok o => fields p fs { v with tzoffset := some o }

/-- `_calc_julian_from_U_or_W` of the library `_strptime` -/
def yeardayOfWeek (y week wd : Nat) (monday : Bool) : Int :=
  let first := (toOrdinal y 1 1 + 6) % 7
  let first := if monday then first else (first + 1) % 7
  let wd := if monday then wd else (wd + 1) % 7
  if week = 0 then 1 + wd - first else 1 + ((7 - first) % 7 + 7 * (week - 1) : Nat) + wd

/-- The day within the year, if known (lines 290-292). -/
def julianOf (v : Vars) (y : Nat) : Option Int :=
  match v.julian, v.week, v.weekday with
  | none, some (w, monday), some wd => some (yeardayOfWeek y w wd monday)
  | j, _, _ => j

/-- Year, month and day (lines 287-300). -/
def resolveDay (v : Vars) (y : Nat) : Except DateErr (Nat × Option Nat × Option Nat) :=
  if v.month = none ∨ v.day = none then
    match julianOf v y with
    | none => .ok (y, v.month, v.day)
    | some j =>
      if 1 ≤ y ∧ y ≤ 9999 then
        let n := j - 1 + toOrdinal y 1 1
        if 1 ≤ n ∧ n ≤ maxOrdinal then
          let d := fromOrdinal n.toNat
          .ok (d.1, some d.2.1, some d.2.2)
        else .error .value
      else .error .value
  else .ok (y, v.month, v.day)

/-- The time in UTC, if the zone is known (lines 316-318). -/
def applyZone (t : Int) : Option Int → Except DateErr Int
  | some o => shift t (-(o * 60))
  | none => .ok t

/-- The time given by the fields (lines 281-330), without zone or in UTC. `now` is the local time. -/
def resolve (now : Int) (defaultTz : Option Int) (v : Vars) : Except DateErr (Int × Option Int) := do
  let (y, m, d) ← resolveDay v (v.year.getD (dateOf now).1)
  let today := m.isNone && d.isNone
  let m := if today then some (dateOf now).2.1 else m
  let d := if today then some (dateOf now).2.2 else d
  match m, d with
  | some m, some d =>
    let t ← mkTime y m d v.hour v.minute v.second
    let tz := v.tzoffset.or defaultTz
    let t ← applyZone t tz
    let t ← (if today ∧ now < t then shift t (-86400) else .ok t)
    if v.year = none then
      let limit ← shift now 86400
      if limit < t then
        let t' ← mkTime (y - 1) m d 0 0 0
        .ok (t' + t % 86400, tz)
      else .ok (t, tz)
    else .ok (t, tz)
  | _, _ => .error .other

/-- `reGroupDictStrptime(found_dict, default_tz=…)` (lines 189-339). `mktime` is `time.mktime`; `calendar.timegm` is the number itself. -/
def strptime (mktime : Int → Int) (now : Int) (defaultTz : Option Int) (p : AmPm) (fs : List Field) : Except DateErr Int := do
  let v ← fields p fs {}
  let (t, tz) ← resolve now defaultTz v
  if tz.isSome then .ok t else .ok (mktime t)

/-! ## TAI64N -/

/-- a digit of a hexadecimal number -/
def hexDigit? (c : Char) : Option Nat :=
  if '0' ≤ c ∧ c ≤ '9' then some (c.toNat - '0'.toNat) else if 'a' ≤ c ∧ c ≤ 'f' then some (c.toNat - 'a'.toNat + 10) else none

/-- `int(text, 16)` -/
def hex (cs : List Char) : Nat := cs.foldl (fun n c => 16 * n + (hexDigit? c).getD 0) 0

/-- `DateTai64n.getDate` (datetemplate.py 372-396): `value[2:17]` of the matched text -/
def tai64n (value : List Char) : Nat := hex ((value.drop 2).take 15)

end Dates

end Verif
