import Verif.Model.DatePattern

/-!
# Default date patterns — `fail2ban/server/datedetector.py` (68-196: `_getAnchoredTemplate`, `DateDetectorCache`; 247-313: `DateDetector`),
`fail2ban/server/datetemplate.py` (40-49, 113-139, 199-205: `unboundPattern`, 311-332: name of a pattern), `fail2ban/server/strptime.py` (118-138: names),
`fail2ban/server/filter.py` (302-332: `setDatePattern`, `getDatePattern`)

Templates, keys and the building of a template are those of `DatePattern`. Simplifications: the cache of templates is left out (C101 says what it
changes). The checks for anchors at the begin of the expression are made on the pattern before fields are replaced (the expression of a field never begins
with an anchor), and they are exact for patterns without flags like `(?i)` of their own and without a space behind a mark. The weight belongs to the
entry (in the code to the template, which the cache may share). `%Exk` and `%Exl` may also be named `Ex%k`, `Ex%l` (order of a set). A percent sign before anything but a field is an error (Python would also take `%(Y)s`, and `%s`, `%r`, `%a` for the whole table).
-/

namespace Verif.DefaultDates

open Verif.DatePattern (Text Template Lib inText keyOf build)

/-! ## Names -/

/-- Fields of one letter and their names (strptime.py 124-137) -/
def fields1 : List (Char × String) :=
  [('a', "DAY"), ('A', "DAYNAME"), ('b', "MON"), ('B', "MONTH"), ('d', "Day"), ('H', "24hour"), ('I', "12hour"), ('j', "Yearday"), ('m', "Month"),
   ('M', "Minute"), ('p', "AMPM"), ('S', "Second"), ('U', "Yearweek"), ('w', "Weekday"), ('W', "Yearweek"), ('y', "Year2"), ('Y', "Year"), ('%', "%"),
   ('z', "Zone offset"), ('f', "Microseconds"), ('Z', "Zone name"), ('k', "%k"), ('l', "%l"), ('c', "%c"), ('x', "%x"), ('X', "%X"), ('G', "%G"),
   ('u', "%u"), ('V', "%V")]

/-- Fields `%Ex.` and their names (strptime.py 131-137) -/
def fieldsEx : List (Char × String) :=
  [('d', "ExDay"), ('m', "ExMonth"), ('H', "Ex24hour"), ('k', "%Exk"), ('l', "%Exl"), ('M', "ExMinute"), ('S', "ExSecond"), ('Y', "ExYear"), ('y', "ExYear2"),
   ('Z', "ExZone name"), ('z', "ExZone offset")]

/-- `fmt % self._patternName` (datetemplate.py 324-325, 331-332); `none` is `TypeError` -/
def fmtName : Text → Option Text
  | [] => some []
  | '%' :: 'E' :: 'x' :: c :: l => (fieldsEx.lookup c).bind (fun n => (fmtName l).map (n.toList ++ ·))
  | '%' :: c :: l => (fields1.lookup c).bind (fun n => (fmtName l).map (n.toList ++ ·))
  | ['%'] => none
  | c :: l => (fmtName l).map (c :: ·)

/-- Remove a prefix -/
def cut (p s : Text) : Option Text := if p.isPrefixOf s then some (s.drop p.length) else none

def isWordChar (c : Char) : Bool := c.isAlphanum || c = '_'

/-- `\(\?\w+\)` at the begin; what is behind -/
def inlineFlags (s : Text) : Option Text :=
  match s with
  | '(' :: '?' :: c :: l =>
    if isWordChar c then
      match l.dropWhile isWordChar with
      | ')' :: r => some r
      | _ => none
    else none
  | _ => none

/-- `(?:\^|\(*\*\*|\((?:\?:)?\^)` at the begin -/
def anchor0 (s : Text) : Bool :=
  match s with
  | '^' :: _ => true
  | '(' :: '^' :: _ => true
  | '(' :: '?' :: ':' :: '^' :: _ => true
  | _ => ("**".toList).isPrefixOf (s.dropWhile (· = '('))

/-- `RE_NO_WRD_BOUND_BEG` (datetemplate.py 44): all ways to take brackets first -/
def noBoundBeg : Text → Bool
  | '(' :: l => anchor0 ('(' :: l) || ((inlineFlags ('(' :: l)).map anchor0).getD false || noBoundBeg l
  | s => anchor0 s

/-- `\^|\((?:\?:)?\^(?!\|)` at the begin -/
def lineAnchor0 (s : Text) : Bool :=
  match s with
  | '^' :: _ => true
  | '(' :: '^' :: l => l.head? ≠ some '|'
  | '(' :: '?' :: ':' :: '^' :: l => l.head? ≠ some '|'
  | _ => false

/-- `RE_LINE_BOUND_BEG` (datetemplate.py 49) -/
def lineBound (s : Text) : Bool := lineAnchor0 s || ((inlineFlags s).map lineAnchor0).getD false

def lnBeg : Text := "{^LN-BEG}".toList
def unb : Text := "{UNB}".toList

/-- What `DatePatternRegex.setRegex` (datetemplate.py 314-321) takes from the pattern: the pattern without marks, and `wordBegin`: `none` for `False`,
`some true` for `'start'` -/
def marks (p : Text) : Text × Option Bool :=
  match cut unb p with
  | some q => (q, none)
  | none =>
    match cut lnBeg p with
    | some q => (q, some true)
    | none => (p, some false)

/-- Name of a `DatePatternRegex` (datetemplate.py 324-325, 132-133) -/
def nameOf (p : Text) : Text :=
  let q := marks p
  let n := (fmtName q.1).getD []
  if q.2 = some true ∧ noBoundBeg q.1 = false ∧ lnBeg.isPrefixOf n = false then lnBeg ++ n else n

/-- `flags & LINE_BEGIN` of a `DatePatternRegex` (datetemplate.py 119, 126-127, 138-139) -/
def lineBegOf (p : Text) : Bool :=
  let q := marks p
  decide (q.2 = some true ∧ noBoundBeg q.1 = false) || lineBound q.1

/-- `template.name` (datetemplate.py 222-227, 325, 370, 132-133) -/
def name : Template → Text
  | .epochIn p _ => p
  | .epoch b long => (if b then lnBeg else []) ++ (if long then "LongEpoch".toList else "Epoch".toList)
  | .tai64n b => (if b then lnBeg else []) ++ "TAI64N".toList
  | .regex p => nameOf p

/-- `template.flags & LINE_BEGIN`; it is asked of defaults only, none of which is an `epochIn` -/
def lineBeg : Template → Bool
  | .epochIn p _ => lineBound p
  | .epoch b _ => b
  | .tai64n b => b
  | .regex p => lineBegOf p

/-- What is known about formats, with `str.upper` -/
def std (upper : Text → Text) : Lib where
  upper := upper
  valid p := (fmtName (marks p).1).isSome

/-! ## Defaults -/

/-- `_getPatternTemplate(pattern)` (44-66) -/
def get (lib : Lib) (p : Text) : Option Template := build lib p (keyOf lib p)

/-- `_getAnchoredTemplate` (68-85): only a `DatePatternRegex` has a `pattern`, others are taken by name -/
def wrapped (lib : Lib) (wrap : Text → Text) : Template → Option Template
  | .regex p => get lib (wrap p)
  | t => get lib (wrap (name t))

/-- `DEFAULT_TEMPLATES` (126-177) -/
def defaultPatterns : List Text := [
  "%ExY(?P<_sep>[-/.])%m(?P=_sep)%d(?:T|  ?)%H:%M:%S(?:[.,]%f)?(?:\\s*%z)?",
  "(?:%a )?%b %d %k:%M:%S(?:\\.%f)?(?: %ExY)?",
  "(?:%a )?%b %d %ExY %k:%M:%S(?:\\.%f)?",
  "%d(?P<_sep>[-/])%m(?P=_sep)(?:%ExY|%Exy) %k:%M:%S",
  "%d(?P<_sep>[-/])%b(?P=_sep)%ExY[ :]?%H:%M:%S(?:\\.%f)?(?: %z)?",
  "%m/%d/%ExY:%H:%M:%S",
  "%m-%d-%ExY %k:%M:%S(?:\\.%f)?",
  "EPOCH",
  "{^LN-BEG}%H:%M:%S",
  "^<%m/%d/%Exy@%H:%M:%S>",
  "%Exy%Exm%Exd  ?%H:%M:%S",
  "%b %d, %ExY %I:%M:%S %p",
  "^%b-%d-%Exy %k:%M:%S",
  "%ExY%Exm%Exd(?:T|  ?)%ExH%ExM%ExS(?:[.,]%f)?(?:\\s*%z)?",
  "(?:%Z )?(?:%a )?%b %d %k:%M:%S(?:\\.%f)?(?: %ExY)?",
  "(?:%z )?(?:%a )?%b %d %k:%M:%S(?:\\.%f)?(?: %ExY)?",
  "TAI64N"].map String.toList

def allSome {α : Type} : List (Option α) → Option (List α)
  | [] => some []
  | a :: l => a.bind (fun a => (allSome l).map (a :: ·))

/-- `defaultTemplates` (179-185) -/
def defaults (lib : Lib) : Option (List Template) := allSome (defaultPatterns.map (get lib))

/-- A template of a detector and its weight -/
abbrev Entry := Template × Nat

/-- The anchored copy that `_cacheTemplate` (108-124) adds, if any; outer `none` is an error -/
def copy (lib : Lib) (t : Template) : Option (Option Entry) :=
  if lnBeg.isPrefixOf (name t) ∨ ['^'].isPrefixOf (name t) then some none
  else (wrapped lib (lnBeg ++ ·) t).map (fun t2 => if name t2 ≠ name t then some (t2, 100) else none)

/-- `_addDefaultTemplate` (187-196): copies first -/
def cached (lib : Lib) (ds : List Template) : Option (List Entry) :=
  (allSome (ds.map (copy lib))).map (fun cs => cs.filterMap id ++ ds.map (fun t => (t, 1)))

/-! ## Detector -/

inductive Err where
  /-- `TypeError` -/
  | invalid
  /-- `ValueError`: a name twice -/
  | duplicate
deriving DecidableEq

/-- `_appendTemplate` (247-254); the known names are those of the templates -/
def add (ignoreDup : Bool) (d : List Entry) (e : Entry) : Except Err (List Entry) :=
  if name e.1 ∈ d.map (fun x => name x.1) then (if ignoreDup then .ok d else .error .duplicate) else .ok (d ++ [e])

def addAll (ignoreDup : Bool) : List Entry → List Entry → Except Err (List Entry)
  | d, [] => .ok d
  | d, e :: l => (add ignoreDup d e).bind (fun d => addAll ignoreDup d l)

/-- `RE_DATE_PREMATCH.sub` (40, 311): `(?<!\\)\{DATE\}` ignoring case, everywhere; the number is how many characters of a match are still to skip -/
def subDate (r : Text) : Nat → Option Char → Text → Text
  | _, _, [] => []
  | n + 1, _, c :: l => subDate r n (some c) l
  | 0, prev, c :: l =>
    if prev ≠ some '\\' ∧ ("{date}".toList).isPrefixOf ((c :: l).map Char.toLower) then r ++ subDate r 5 (some c) l
    else c :: subDate r 0 (some c) l

/-- `unboundPattern` (datetemplate.py 199-205) -/
def unbound (s : Text) : Text :=
  let s := (cut unb s).getD s
  let s := (cut lnBeg s).getD s
  let s := ((cut "(^|\\b|\\W)".toList s).or (cut "(?:^|\\b|\\W)".toList s)).getD s
  ((cut "(?=\\b|\\W|$)".toList.reverse s.reverse).map List.reverse).getD s

/-- `wrap` (310-311) -/
def within (pre : Text) (s : Text) : Text := subDate (unbound s) 0 none pre

/-- `addDefaultTemplate` (298-313). `filter`: `none` if there is none; what it returns, as a truth value -/
def addDefault (lib : Lib) (filter : Option (Template → Bool)) (pre : Option Text) (all : Bool) (d : List Entry) : Except Err (List Entry) :=
  match defaults lib with
  | none => .error .invalid
  | some ds =>
    match (if all then cached lib ds else some (ds.map (fun t => (t, 1)))) with
    | none => .error .invalid
    | some l =>
      let l := match filter with
        | none => l
        | some f => l.filter (fun e => f e.1)
      match (match pre with
        | none => some l
        | some p => allSome (l.map (fun e => (wrapped lib (within p) e.1).map (fun t => (t, 1))))) with
      | none => .error .invalid
      | some l => addAll (!d.isEmpty) d l

/-- `appendTemplate(pattern)` (271-292). The filter of lines 278-279 is a function in both cases; for `{DEFAULT}` it returns `None` always. -/
def append (lib : Lib) (d : List Entry) (p : Text) : Except Err (List Entry) :=
  let key := keyOf lib p
  if key = lnBeg ∨ key = "{DEFAULT}".toList then addDefault lib (some (fun t => if key = lnBeg then lineBeg t else false)) none true d
  else if inText "{DATE}".toList key then addDefault lib none (some p) false d
  else
    match build lib (if key = "{NONE}".toList then "{UNB}^".toList else p) key with
    | none => .error .invalid
    | some t => add false d (t, 1)

def appendAll (lib : Lib) : List Entry → List Text → Except Err (List Entry)
  | d, [] => .ok d
  | d, p :: ps => (append lib d p).bind (fun d => appendAll lib d ps)

/-- `setDatePattern` (filter.py 302-313) with a list of patterns: the detector afterwards, `old` if there is an exception -/
def setDatePattern (lib : Lib) (old : List Entry) (ps : List Text) : List Entry × Option Err :=
  match appendAll lib [] ps with
  | .ok d => (d, none)
  | .error e => (old, some e)

/-- Templates that are used for a line (datedetector.py 339-341) -/
def used (lib : Lib) (d : List Entry) : Except Err (List Entry) := if d.isEmpty then addDefault lib none none true d else .ok d

/-- `template.pattern` -/
def pattern : Template → Option Text
  | .regex p => some p
  | _ => none

/-- `getDatePattern` (filter.py 320-332) with a detector: pattern and name -/
def getDatePattern (d : List Entry) : Option Text × Text :=
  match d with
  | [] => (none, "Default Detectors".toList)
  | e :: l => if 2 < (e :: l).length then (none, "Default Detectors".toList) else (pattern e.1, name e.1)

end Verif.DefaultDates
