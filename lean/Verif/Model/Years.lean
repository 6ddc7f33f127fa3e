/-!
# Years that are recognised, and times that are numbers — `fail2ban/server/strptime.py` (76-118: `_updateTimeRE`), `fail2ban/server/datetemplate.py` (232-284: `DateEpoch`)

Simplifications: the expression that is built for years is a tree of the kinds of expressions that occur (`Rx`) with `show` as its text. `\d` stands
for the digits 0 to 9 (Python knows more digits). `float` is taken as exact: a value is a fraction.
-/

namespace Verif.Years

abbrev Text := List Char

/-! ## Years -/

inductive Rx where
  /-- `abc` -/
  | lit (t : Text)
  /-- `[abc]` -/
  | cls (cs : List Char)
  /-- `(?:ab|cd)` -/
  | alt (ts : List Text)
  /-- a text and an expression -/
  | seq (t : Text) (r : Rx)

/-- Does the expression match exactly this text -/
def Rx.full : Rx → Text → Bool
  | .lit t, s => s == t
  | .cls cs, s => match s with | [c] => cs.contains c | _ => false
  | .alt ts, s => ts.contains s
  | .seq t r, s => t.isPrefixOf s && r.full (s.drop t.length)

def Rx.show : Rx → Text
  | .lit t => t
  | .cls cs => '[' :: cs ++ [']']
  | .alt ts => "(?:".toList ++ (['|'].intercalate ts) ++ [')']
  | .seq t r => t ++ r.show

/-- `for i in exprset: if c is None or f(i) == c: c = f(i) else: c = None; break` (86-91, 93-98) -/
def common (f : Text → Text) : Option Text → List Text → Option Text
  | c, [] => c
  | none, i :: l => common f (some (f i)) l
  | some c, i :: l => if f i = c then common f (some c) l else none

/-- `if c` -/
def truthy : Option Text → Bool
  | some (_ :: _) => true
  | _ => false

/-- 100-102; `"".join` of texts of one character in brackets -/
def leaf (l : List Text) : Rx :=
  if 1 < l.length then
    if 1 < (l.headD []).length then .alt l else .cls l.flatten
  else .lit l.flatten

/-- `grp` (82-102); each call removes a character at least -/
def grp : Nat → List Text → Rx
  | 0, l => leaf l
  | n + 1, l =>
    if 1 < l.length then
      let c1 := common (fun i => i.dropLast) none l
      let c := if truthy c1 then c1 else common (fun i => i.take 1) c1 l
      match c with
      | some (a :: t) => .seq (a :: t) (grp n (l.map (fun i => i.drop (t.length + 1))))
      | _ => leaf l
    else leaf l

/-- `str(year)[0:3]` -/
def cent (y : Nat) : Text := (Nat.toDigits 10 y).take 3

/-- `range(-1, n + 1, 3)` of offsets, as the years `base - 1 + 3 * j` up to `n` -/
def steps : Nat → Nat → Nat → List Nat
  | 0, _, _ => []
  | k + 1, y, n => if y ≤ n then y :: steps k (y + 3) n else []

def ltText : Text → Text → Bool
  | [], [] => false
  | [], _ :: _ => true
  | _ :: _, [] => false
  | a :: s, b :: t => a.toNat < b.toNat || (a == b && ltText s t)

/-- `sorted(list(set(...)))` by insertion -/
def insert (t : Text) : List Text → List Text
  | [] => [t]
  | s :: l => if t = s then s :: l else if ltText t s then t :: s :: l else s :: insert t l

def sortedSet (l : List Text) : List Text := l.foldr insert []

/-- The years whose decades are accepted (103-105): `now` the year of the start, `base` the year of `fromtimestamp(978393600)` or of the
alternate time in tests -/
def years (now base : Nat) : List Nat := [now - 1, now + 3] ++ steps (now + 1) (base - 1) now

/-- `_getYearCentRE()` (79-106) -/
def yearRx (now base : Nat) : Rx := grp 3 (sortedSet ((years now base).map cent))

def isDigit (c : Char) : Bool := '0'.toNat ≤ c.toNat && c.toNat ≤ '9'.toNat

/-- `%ExY`: `(?P<Y>%s\d)` (113-117): is this text a year -/
def year (now base : Nat) (t : Text) : Bool := !t.isEmpty && (yearRx now base).full t.dropLast && (t.getLast?.map isDigit).getD false

/-! ## Numbers of seconds -/

def digitVal (c : Char) : Nat := c.toNat - '0'.toNat

def num (t : Text) : Nat := t.foldl (fun n c => 10 * n + digitVal c) 0

/-- `float(v)` of digits with at most one dot: numerator and denominator -/
def float (v : Text) : Nat × Nat :=
  match v.span (· ≠ '.') with
  | (a, _ :: b) => (num (a ++ b), 10 ^ b.length)
  | (a, []) => (num a, 1)

/-- `DateEpoch.getDate` (275-284): the seconds as a fraction -/
def epoch (long : Bool) (v : Text) : Nat × Nat :=
  let f := float v
  if long && 13 ≤ v.length then
    if 16 ≤ v.length && !v.contains '.' then (f.1, f.2 * 1000000) else (f.1, f.2 * 1000)
  else f

end Verif.Years
