/-!
# Regular expressions of module `re`, as far as `helpers.py` 325-334 uses them

A match is tried with backtracking: alternatives from left to right, repetition as often as possible first. What follows an expression is given by a continuation, so the first
result is the match of `re`. A position is the text from there on.
-/

namespace Verif.Regex

abbrev Str := List Char

/-- Groups, the last one set first. -/
abbrev Caps := List (Nat × Str)

/-- Where a match ends, and its groups. -/
abbrev Res := Str × Caps

/-- What follows. -/
abbrev Cont := Str → Caps → Option Res

/-- Expressions: a class of characters, sequence, `|`, `*`, `?`, group, `$`, `(?=...)`. -/
inductive Re where
  | cls (p : Char → Bool)
  | seq (a b : Re)
  | alt (a b : Re)
  | star (r : Re)
  | opt (r : Re)
  | cap (n : Nat) (r : Re)
  | eos
  | ahead (r : Re)

/-- Repetition of `m`; a turn has to consume something. -/
def iter (m : Str → Caps → Cont → Option Res) : Nat → Str → Caps → Cont → Option Res
  | 0, s, c, k => k s c
  | n + 1, s, c, k =>
    match m s c (fun s' c' => if s'.length < s.length then iter m n s' c' k else none) with
    | some r => some r
    | none => k s c

/-- Match of an expression at a position, followed by `k`. `$` without MULTILINE matches at the end and before a newline at the end. -/
def Re.run : Re → Str → Caps → Cont → Option Res
  | .cls _, [], _, _ => none
  | .cls p, x :: xs, c, k => if p x then k xs c else none
  | .seq a b, s, c, k => a.run s c (fun s' c' => b.run s' c' k)
  | .alt a b, s, c, k =>
    match a.run s c k with
    | some r => some r
    | none => b.run s c k
  | .star r, s, c, k => iter r.run s.length s c k
  | .opt r, s, c, k =>
    match r.run s c k with
    | some r => some r
    | none => k s c
  | .cap n r, s, c, k => r.run s c (fun s' c' => k s' ((n, s.take (s.length - s'.length)) :: c'))
  | .eos, s, c, k => if s = [] ∨ s = ['\n'] then k s c else none
  | .ahead r, s, c, k => if (r.run s c (fun s c => some (s, c))).isSome then k s c else none

/-- A character. -/
def chr (x : Char) : Re := .cls (fun c => c = x)

/-- `.` with DOTALL -/
def any : Re := .cls (fun _ => true)

/-- `r+` -/
def plus (r : Re) : Re := .seq r (.star r)

/-- `match(s)` at the begin of a text -/
def Re.at (r : Re) (s : Str) : Option Res := r.run s [] (fun s c => some (s, c))

/-- `m.group(n)`; `none` is `None` -/
def group (n : Nat) (c : Caps) : Option Str := (c.find? (fun x => x.1 = n)).map (·.2)

/-- `finditer(s)`: text and groups of each match. Simplified: after a match of nothing the search goes on one character further (in Python a longer match may begin at the same
place; no expression of the model has both). -/
def finditer (r : Re) : Nat → Str → List (Str × Caps)
  | 0, _ => []
  | n + 1, s =>
    match r.at s, s with
    | some (_, c), [] => [([], c)]
    | some (s', c), _ :: t => (s.take (s.length - s'.length), c) :: (if s'.length < s.length then finditer r n s' else finditer r n t)
    | none, [] => []
    | none, _ :: t => finditer r n t

/-- All matches of a text. -/
def matches_ (r : Re) (s : Str) : List (Str × Caps) := finditer r (s.length + 1) s

end Verif.Regex
