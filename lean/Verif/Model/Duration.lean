import Verif.Py.Round

/-!
# Durations — `fail2ban/server/mytime.py` 130-235

Letters, digits and spaces are the ASCII ones. Of `eval`, sums and products of decimal numbers are modelled, with exact arithmetic; everything else (any other
Python expression, and errors) is `none`.
-/

namespace Verif.Duration

def isDigit (c : Char) : Bool := decide (48 ≤ c.toNat) && decide (c.toNat ≤ 57)
def isLetter (c : Char) : Bool := (decide (97 ≤ c.toNat) && decide (c.toNat ≤ 122)) || (decide (65 ≤ c.toNat) && decide (c.toNat ≤ 90))
/-- `\w` -/
def isWord (c : Char) : Bool := isLetter c || isDigit c || decide (c = '_')
/-- `\s` -/
def isSpace (c : Char) : Bool := c ∈ [' ', '\t', '\n', '\r', '\x0b', '\x0c']

/-- `_str2sec_prep.sub(r" \1", val)`: a space between a letter and a digit, lines 133, 171. `prev` is the character before. -/
def prep : Option Char → List Char → List Char
  | _, [] => []
  | prev, c :: cs => if isDigit c && prev.any isLetter then ' ' :: c :: prep (some c) cs else c :: prep (some c) cs

/-- `_str2sec_subpart % words` replaced, lines 137, 173-174: a word behind a digit or a space. `skip` characters belong to the word replaced last. -/
def subst (words : List String) (repl : List Char) : Nat → Option Char → List Char → List Char
  | _, _, [] => []
  | skip + 1, _, c :: cs => subst words repl skip (some c) cs
  | 0, prev, c :: cs =>
    let w := (c :: cs).takeWhile isWord
    if prev.any (fun p => isDigit p || isSpace p) && decide (String.ofList (w.map Char.toLower) ∈ words) then
      repl ++ subst words repl (w.length - 1) (some c) cs
    else c :: subst words repl 0 (some c) cs

/-- `_str2sec_parts`, lines 139-147; the alternatives of the regular expressions written out. -/
def parts : List (List String × String) :=
  [(["day", "days", "da", "d", "dd"], "*86400"),
   (["week", "weeks", "we", "wee", "w", "ww"], "*604800"),
   (["month", "months", "mo", "mon"], "*2629800.0"),
   (["year", "years", "ye", "yea", "y", "yy"], "*31557600.0"),
   (["second", "seconds", "se", "sec", "s", "ss"], "*1"),
   (["minute", "minutes", "mi", "min", "m", "mm"], "*60"),
   (["hour", "hours", "ho", "hou", "h", "hh"], "*3600")]

/-- `_str2sec_fini.sub(r"\1+\2", val)`, lines 135, 175: spaces between digits become `+`. `skip` characters were already consumed. -/
def fini : Nat → List Char → List Char
  | _, [] => []
  | skip + 1, _ :: cs => fini skip cs
  | 0, c :: cs =>
    let n := (cs.takeWhile isSpace).length
    match cs[n]? with
    | some d => if isDigit c && decide (n ≠ 0) && isDigit d then c :: '+' :: d :: fini (n + 1) cs else c :: fini 0 cs
    | none => c :: fini 0 cs

/-- Tokens of an expression. -/
inductive Tok where
  | num (v : Rat)
  | plus
  | minus
  | times
  | over
deriving DecidableEq

/-- Value of a run of digits. -/
def digits (l : List Char) : Nat := l.foldl (fun v c => 10 * v + (c.toNat - '0'.toNat)) 0

/-- A number without fraction; a leading zero is a SyntaxError unless all are zeros. -/
def integer (l : List Char) : Option Rat :=
  if 1 < l.length ∧ l.head? = some '0' ∧ digits l ≠ 0 then none else some (digits l : Rat)

/-- The tokens of an expression; `skip` characters belong to the last number. -/
def lex : Nat → List Char → Option (List Tok)
  | _, [] => some []
  | skip + 1, _ :: cs => lex skip cs
  | 0, c :: cs =>
    if isSpace c then lex 0 cs
    else if c = '+' then (lex 0 cs).map (Tok.plus :: ·)
    else if c = '-' then (lex 0 cs).map (Tok.minus :: ·)
    else if c = '*' then (lex 0 cs).map (Tok.times :: ·)
    else if c = '/' then (lex 0 cs).map (Tok.over :: ·)
    else if isDigit c then
      let i := (c :: cs).takeWhile isDigit
      let rest := (c :: cs).drop i.length
      if rest.head? = some '.' then
        let f := (rest.drop 1).takeWhile isDigit
        (lex (i.length + f.length) cs).map (Tok.num ((digits i : Rat) + (digits f : Rat) / ((10 ^ f.length : Nat) : Rat)) :: ·)
      else
        match integer i with
        | none => none
        | some v => (lex (i.length - 1) cs).map (Tok.num v :: ·)
    else none

mutual
/-- A number is expected, maybe with signs; `prod` is the product it belongs to. -/
def operand (sum : Rat) (prod : Option (Rat × Bool)) (sign : Rat) : List Tok → Option Rat
  | .num v :: r =>
    match prod with
    | none => operator sum (sign * v) r
    | some (p, true) => operator sum (p * (sign * v)) r
    | some (p, false) => if v = 0 then none else operator sum (p / (sign * v)) r
  | .plus :: r => operand sum prod sign r
  | .minus :: r => operand sum prod (-sign) r
  | _ => none
/-- An operator or the end is expected. -/
def operator (sum cur : Rat) : List Tok → Option Rat
  | [] => some (sum + cur)
  | .plus :: r => operand (sum + cur) none 1 r
  | .minus :: r => operand (sum + cur) none (-1) r
  | .times :: r => operand sum (some (cur, true)) 1 r
  | .over :: r => operand sum (some (cur, false)) 1 r
  | .num _ :: _ => none
end

/-- `eval(val)`, line 176 -/
def eval (l : List Char) : Option Rat := (lex 0 l).bind (operand 0 none 1)

/-- `str2seconds(val)`, lines 150-176, for a string. -/
def str2seconds (val : List Char) : Option Rat :=
  eval (fini 0 (parts.foldl (fun v p => subst p.1 p.2.toList 0 none v) (prep none val)))

/-- `str(n) + unit + ' '` -/
def group (n : Nat) (unit : Char) : List Char := Nat.toDigits 10 n ++ [unit, ' ']

/-- `str(seconds2str(sec))`, lines 178-235, for whole seconds that are not negative (rounding is exact, the code divides floats). -/
def seconds2str (sec : Nat) : List Char :=
  if 31536000 ≤ sec then
    let s := roundHalfEven sec 86400
    let r := group (s / 365) 'y'
    let s := s % 365
    let (r, s) := if 7 ≤ s then (r ++ group (s / 7) 'w', s % 7) else (r, s)
    (if s ≠ 0 then r ++ group s 'd' else r).dropLast
  else if 604800 ≤ sec then
    let s := roundHalfEven sec 3600
    let r := group (s / 168) 'w'
    let s := s % 168
    let (r, s) := if 24 ≤ s then (r ++ group (s / 24) 'd', s % 24) else (r, s)
    (if s ≠ 0 then r ++ group s 'h' else r).dropLast
  else if 86400 ≤ sec then
    let s := roundHalfEven sec 60
    let r := group (s / 1440) 'd'
    let s := s % 1440
    let (r, s) := if 60 ≤ s then (r ++ group (s / 60) 'h', s % 60) else (r, s)
    (if s ≠ 0 then r ++ group s 'm' else r).dropLast
  else if 3595 ≤ sec then
    let s := roundHalfEven sec 10
    let r := group (s / 360) 'h'
    let s := s % 360
    (if 6 ≤ s then r ++ group (s / 6) 'm' else r).dropLast
  else
    let (r, s) := if 60 ≤ sec then (group (sec / 60) 'm', sec % 60) else ([], sec)
    (if s ≠ 0 then r ++ group s 's' else if sec = 0 then ['0', ' '] else r).dropLast

end Verif.Duration
