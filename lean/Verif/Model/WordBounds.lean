/-!
# Bounds of dates — `fail2ban/server/datetemplate.py` (35-50: expressions, 86-148: `DateTemplate.setRegex`)

Texts of expressions are lists of characters. The expressions of lines 36-50 are written as functions. Simplifications: no newline in an expression (so `$`
is its end, and `.` any character); `\w` in flags is a letter, digit or underscore of ASCII. `strip` removes what `isspace` says, a parameter. Compiling is left out.
-/

namespace Verif.WordBounds

abbrev Text := List Char

def isWordChar (c : Char) : Bool := c.isAlphanum || c = '_'

/-- `regex.strip()` (113) -/
def strip (space : Char → Bool) (s : Text) : Text := ((s.dropWhile space).reverse.dropWhile space).reverse

/-- `\(\?x+\)` at the begin, with letters `x`: the flags and what is behind -/
def flagsAt (letter : Char → Bool) (s : Text) : Option (Text × Text) :=
  match s with
  | '(' :: '?' :: c :: l =>
    if letter c then
      match l.dropWhile letter with
      | ')' :: r => some ('(' :: '?' :: c :: l.takeWhile letter ++ [')'], r)
      | _ => none
    else none
  | _ => none

/-- `RE_GLOBALFLAGS` (38): the first flags, not behind a backslash, and the text without them (115-117) -/
def cutFlags : Option Char → Text → Option (Text × Text)
  | _, [] => none
  | prev, c :: l =>
    match (if prev = some '\\' then none else flagsAt Char.isLower (c :: l)) with
    | some (f, r) => some (f, r)
    | none => (cutFlags (some c) l).map (fun p => (p.1, c :: p.2))

def starts (p s : Text) : Bool := p.isPrefixOf s

/-- `(?:\^|\(*\*\*|\((?:\?:)?\^)` at the begin -/
def anchor (s : Text) : Bool := starts ['^'] s || starts ['(', '^'] s || starts ['(', '?', ':', '^'] s || starts ['*', '*'] (s.dropWhile (· = '('))

/-- Something holds behind flags, or without -/
def behindFlags (f : Text → Bool) (s : Text) : Bool :=
  f s || (match flagsAt isWordChar s with
    | some (_, r) => f r
    | none => false)

/-- `RE_NO_WRD_BOUND_BEG` (44) -/
def noBegin : Text → Bool
  | '(' :: l => behindFlags anchor ('(' :: l) || noBegin l
  | s => behindFlags anchor s

/-- Text ends with `e`, not behind one of `no` -/
def endsWith (no : List Char) (e s : Text) : Bool :=
  match s.reverse.drop e.length with
  | [] => starts e.reverse s.reverse
  | c :: _ => starts e.reverse s.reverse && !no.contains c

/-- `(?<!\\)\*\*\)*$` -/
def endStars (s : Text) : Bool := endsWith ['\\'] ['*', '*'] (s.reverse.dropWhile (· = ')')).reverse

/-- `RE_NO_WRD_BOUND_END` (45) -/
def noEnd (s : Text) : Bool :=
  endsWith ['\\'] ['$'] s || endsWith ['\\'] ['$', ')'] s || endsWith ['\\'] ['\\', 'b'] s || endsWith ['\\'] ['\\', 's'] s || endStars s

/-- `RE_LINE_BOUND_BEG` (49) -/
def lineBegin (s : Text) : Bool :=
  behindFlags (fun s => starts ['^'] s || (starts ['(', '^'] s && !starts ['(', '^', '|'] s) || (starts ['(', '?', ':', '^'] s && !starts ['(', '?', ':', '^', '|'] s)) s

/-- `RE_LINE_BOUND_END` (50) -/
def lineEnd (s : Text) : Bool := endsWith ['\\', '|'] ['$'] s || endsWith ['\\', '|'] ['$', ')'] s

/-- `RE_GROUPED` (36): a bracket that is not behind a backslash or `(?`, and not before `?`; the two characters before -/
def grouped : Option Char → Option Char → Text → Bool
  | _, _, [] => false
  | p2, p1, c :: l =>
    (decide (c = '(') && decide (p1 ≠ some '\\') && !(decide (p2 = some '(') && decide (p1 = some '?')) && !starts ['?'] l) || grouped p1 (some c) l

/-- `RE_GROUP` (37): brackets around all but flags and `^` at the begin and `$` at the end -/
def group (s : Text) : Text :=
  let f := (flagsAt isWordChar s).getD ([], s)
  let a : Text × Text := if starts ['^'] f.2 then (['^'], f.2.drop 1) else ([], f.2)
  let g := (flagsAt isWordChar a.2).getD ([], a.2)
  let z : Text × Text := if endsWith [] ['$'] g.2 then (g.2.dropLast, ['$']) else (g.2, [])
  f.1 ++ a.1 ++ g.1 ++ ['('] ++ z.1 ++ [')'] ++ z.2

/-- `^\(*(?:\(\?\w+\))?\(*\*\*`: what is before the stars, and what is behind -/
def frontStars (s : Text) : Option (Text × Text) :=
  let plain (s : Text) : Option (Text × Text) :=
    let t := s.dropWhile (· = '(')
    if starts ['*', '*'] t then some (s.takeWhile (· = '('), t.drop 2) else none
  let rec withFlags : Text → Option (Text × Text)
    | '(' :: l =>
      match (flagsAt isWordChar ('(' :: l)).bind (fun f => (plain f.2).map (fun p => (f.1 ++ p.1, p.2))) with
      | some x => some x
      | none => (withFlags l).map (fun p => ('(' :: p.1, p.2))
    | _ => none
  (plain s).or (withFlags s)

/-- Stars at the end are removed; `prev` is the character before the text -/
def cutEnd (prev : Option Char) (s : Text) : Text :=
  let t := (s.reverse.dropWhile (· = ')')).reverse
  if starts ['*', '*'] t.reverse ∧ ((t.dropLast.dropLast.getLast?).or prev) ≠ some '\\' then
    t.dropLast.dropLast ++ (s.reverse.takeWhile (· = ')'))
  else s

/-- `RE_DEL_WRD_BOUNDS` (46-47, 143) -/
def cutStars (s : Text) : Text :=
  match frontStars s with
  | some (a, b) => a ++ cutEnd (some '*') b
  | none => cutEnd none s

/-- `wordBegin`: `False`, `True`, `'start'` -/
inductive Begin where
  | off
  | word
  | start
deriving DecidableEq

structure Built where
  regex : Text
  wordBegin : Bool
  wordEnd : Bool
  lineBegin : Bool
  lineEnd : Bool
deriving DecidableEq

/-- `(?=^|\b|\W)` (129) -/
def beginText : Text := "(?=^|\\b|\\W)".toList
/-- `^(?:\W{0,2})?` (131) -/
def startText : Text := "^(?:\\W{0,2})?".toList
/-- `(?=\b|\W|$)` (137) -/
def endText : Text := "(?=\\b|\\W|$)".toList

/-- `setRegex(regex, wordBegin, wordEnd)` (113-146) -/
def setRegex (space : Char → Bool) (b : Begin) (e : Bool) (regex : Text) : Built :=
  let r0 := strip space regex
  let gf := cutFlags none r0
  let r1 := (gf.map (·.2)).getD r0
  let boundBegin := decide (b ≠ .off) && !noBegin r1
  let boundEnd := e && !noEnd r1
  let r2 := if grouped none none r1 then r1 else group r1
  let r3 := if boundBegin then (if b = .start then startText ++ r2 else beginText ++ r2) else r2
  let r4 := if boundEnd then r3 ++ endText else r3
  let lb := (boundBegin && decide (b = .start)) || lineBegin r4
  let le := lineEnd r4
  let r5 := cutStars r4
  { regex := ((gf.map (·.1)).getD []) ++ r5, wordBegin := boundBegin && decide (b = .word), wordEnd := boundEnd, lineBegin := lb, lineEnd := le }

/-! ## What the bounds mean to `re`

A line, and whether a character is a word character (`\w`). A match of the expression in brackets goes from `i` to `j`. -/

/-- Word character at a position; none outside of the line -/
def wordAt (w : Char → Bool) (line : Text) (i : Nat) : Bool := ((line[i]?).map w).getD false

/-- Word character before a position -/
def wordBefore (w : Char → Bool) (line : Text) (i : Nat) : Bool := match i with
  | 0 => false
  | k + 1 => wordAt w line k

/-- `\b` -/
def boundary (w : Char → Bool) (line : Text) (i : Nat) : Bool := wordBefore w line i != wordAt w line i

/-- `\W` -/
def nonWord (w : Char → Bool) (line : Text) (i : Nat) : Bool := ((line[i]?).map (fun c => !w c)).getD false

/-- `$`: at the end, and before a newline at the end -/
def atEnd (line : Text) (i : Nat) : Bool := decide (i = line.length) || decide (line.drop i = ['\n'])

/-- `(?=^|\b|\W)` -/
def beginHolds (w : Char → Bool) (line : Text) (i : Nat) : Bool := decide (i = 0) || boundary w line i || nonWord w line i

/-- `^(?:\W{0,2})?` and then the date at `i` -/
def startHolds (w : Char → Bool) (line : Text) (i : Nat) : Bool := decide (i ≤ 2) && (List.range i).all (nonWord w line)

/-- `(?=\b|\W|$)` -/
def endHolds (w : Char → Bool) (line : Text) (j : Nat) : Bool := boundary w line j || nonWord w line j || atEnd line j

/-- A date of an expression `inner` that stands in the line from `i` to `j` is a match of the expression built -/
def matches_ (w : Char → Bool) (begin' : Option Begin) (end' : Bool) (inner : Text → Nat → Nat → Bool) (line : Text) (i j : Nat) : Bool :=
  inner line i j && (match begin' with
    | some .word => beginHolds w line i
    | some .start => startHolds w line i
    | _ => true) && (!end' || endHolds w line j)

end Verif.WordBounds
