/-!
# Search for the date of a line — `fail2ban/server/datedetector.py` 199-257, 321-459, 505-550

A template is what its regular expression finds: in the whole line (`search(line)`), and in a part of it (`search(line, pos, endpos)`), as the positions where the
match starts and ends. The counter `template.hits` is shared with other jails by the cache of templates, so whether it is zero is given by the environment of
each line. Weights are compared exactly, not as floating point numbers. Logging is left out.
-/

namespace Verif.Detector

/-- A `DateTemplate` (`datetemplate.py` 57-82, 166-176). -/
structure Template where
  name : String
  /-- `flags & (LINE_BEGIN|LINE_END)` -/
  anchored : Bool := false
  /-- `weight`: 1, or 100 for anchored defaults (lines 118-122) -/
  weight : Nat := 1
  /-- `matchDate(line)` -/
  search : List Char → Option (Nat × Nat)
  /-- `matchDate(line, pos, endpos)` -/
  searchIn : List Char → Nat → Nat → Option (Nat × Nat)

/-- `DateDetectorTemplate` (lines 199-219). -/
structure Entry where
  t : Template
  hits : Nat := 0
  lastUsed : Int := 0
  distance : Nat := 0x7fffffff

/-- `DateDetector` (lines 230-245). -/
structure State where
  /-- `__templates` -/
  entries : List Entry := []
  /-- `__lastPos[0]` -/
  lastPos : Nat := 1
  /-- `__lastPos[1]`: the character before the date -/
  before : Option Char := none
  /-- `__lastPos[2]`: the first character of the date -/
  first : Option Char := none
  /-- `__lastEndPos[0]` -/
  lastEnd : Nat := 0x7fffffff
  /-- `__lastEndPos[1]`: the last character of the date -/
  last : Option Char := none
  /-- `__lastEndPos[2]`: the character behind the date -/
  after : Option Char := none
  /-- `__lastTemplIdx`, `none` for 0x7fffffff -/
  lastIdx : Option Nat := none
  /-- `__firstUnused` -/
  firstUnused : Nat := 0

/-- What may differ from line to line. -/
structure Env where
  /-- `time.time()` -/
  now : Int
  /-- `template.hits` is not zero, by the name of the template -/
  shared : String → Bool
  /-- `str.isalnum` of one character -/
  alnum : Char → Bool

/-- `line[k-1:k]` -/
def charBefore (line : List Char) (k : Nat) : Option Char := if k = 0 then none else line[k - 1]?

/-- `line[k-1]`, `none` if it raises IndexError -/
def charLast (line : List Char) (k : Nat) : Option Char := if k = 0 then line.getLast? else line[k - 1]?

/-- The boundaries of the last date are the same in this line, lines 366-372. -/
def sameBounds (env : Env) (s : State) (line : List Char) : Bool :=
  (decide (charBefore line s.lastPos = s.before) || (decide (line[s.lastPos]? = s.first) && !s.first.any env.alnum)) &&
  (decide (line[s.lastEnd]? = s.after) || (decide (charBefore line s.lastEnd = s.last) && !s.last.any env.alnum))

/-- The last used template is tried first, lines 349-379: the match, and whether the template is left out in the search. -/
def tryLast (env : Env) (s : State) (line : List Char) (e : Entry) : Option (Nat × Nat) × Bool :=
  if e.t.anchored then (e.t.search line, true)
  else if sameBounds env s line then (e.t.searchIn line s.lastPos s.lastEnd, false)
  else (e.t.search line, true)

/-- The match of the last template is used at once, lines 384-388. -/
def keeps (s : State) (e : Entry) (m : Nat × Nat) : Bool :=
  decide (s.entries.length = 1) || e.t.anchored || (decide (m.1 = s.lastPos) && decide (m.2 = s.lastEnd))

/-- A match and the index of its template. -/
structure Cand where
  start : Nat
  stop : Nat
  idx : Nat
deriving DecidableEq, Repr

/-- `not self.__templates[i+1].template.hits`, line 419 -/
def nextUnused (env : Env) : List Entry → Bool
  | [] => false
  | e :: _ => !env.shared e.t.name

/-- The search stops with this match, lines 412-423 and 433. -/
def stops (env : Env) (s : State) (e : Entry) (rest : List Entry) (start : Nat) : Bool :=
  rest.isEmpty || e.t.anchored || (decide (start = 0) && decide (e.hits ≠ 0) && nextUnused env rest) ||
    !(decide (e.distance < start) || decide (s.lastPos < start))

/-- `if distance < found[1]: found = …`, lines 426-427 -/
def reserve (found : Option Cand) (c : Cand) : Option Cand :=
  match found with
  | none => if c.start < 0x7fffffff then some c else none
  | some f => if c.start < f.start then some c else some f

/-- The search through the templates, lines 397-440; `i` is the index of the first of the remaining templates. -/
def scan (env : Env) (s : State) (line : List Char) (skip : Option Nat) (found : Option Cand) (i : Nat) : List Entry → Option Cand
  | [] => found
  | e :: rest =>
    if skip = some i then scan env s line skip found (i + 1) rest
    else
      match e.t.search line with
      | none => scan env s line skip found (i + 1) rest
      | some m =>
        if stops env s e rest m.1 then some ⟨m.1, m.2, i⟩
        else scan env s line skip (reserve found ⟨m.1, m.2, i⟩) (i + 1) rest

/-- The whole search, lines 346-440. -/
def choose (env : Env) (s : State) (line : List Char) : Option Cand :=
  match s.lastIdx with
  | none => scan env s line none none 0 s.entries
  | some i =>
    match s.entries[i]? with
    | none => scan env s line none none 0 s.entries
    | some e =>
      let (m, ignore) := tryLast env s line e
      let skip := if ignore then some i else none
      match m with
      | none => scan env s line skip none 0 s.entries
      | some m =>
        if keeps s e m then some ⟨m.1, m.2, i⟩
        else scan env s line skip (some ⟨m.1, m.2, i⟩) 0 s.entries

/-- `weight > pweight` (lines 212-214, 530) -/
def heavier (x y : Entry) : Bool :=
  decide (y.hits * y.t.weight * max 1 x.distance < x.hits * x.t.weight * max 1 y.distance)

/-- `_moveable()`, lines 525-530 -/
def moveable (x y : Entry) : Bool := heavier x y || decide (y.lastUsed < x.lastUsed - 300)

/-- The new position of the template at `num`, lines 519-540. -/
def newPos (entries : List Entry) (firstUnused num : Nat) : Nat :=
  match entries[num]? with
  | none => num
  | some x =>
    let pos := if firstUnused < num then firstUnused else num / 2
    if (entries[pos]?).any (moveable x) then pos
    else if pos = num - 1 then num
    else if (entries[num - 1]?).any (moveable x) then num - 1
    else num

/-- `del templates[num]; templates[pos:0] = [ddtempl]`, lines 542-543 -/
def move (entries : List Entry) (num pos : Nat) : List Entry :=
  match entries[num]? with
  | none => entries
  | some x => (entries.eraseIdx num).take pos ++ x :: (entries.eraseIdx num).drop pos

/-- The loop correcting `__firstUnused`, lines 545-546. -/
def advance (entries : List Entry) (k : Nat) : Nat := k + ((entries.drop k).takeWhile (fun e => decide (e.hits ≠ 0))).length

/-- `_reorderTemplate(num)`, lines 505-550: templates, first unused and new index. -/
def reorder (entries : List Entry) (firstUnused num : Nat) : List Entry × Nat × Nat :=
  if num = 0 then (entries, firstUnused, num)
  else
    let pos := newPos entries firstUnused num
    if pos = num then (entries, firstUnused, num)
    else (move entries num pos, advance (move entries num pos) firstUnused, pos)

/-- `ddtempl.hits += 1; …`, lines 443-445 -/
def hit (env : Env) (entries : List Entry) (c : Cand) : List Entry :=
  entries.modify c.idx (fun e => { e with hits := e.hits + 1, lastUsed := env.now, distance := c.start })

/-- What `matchTime` gives. -/
inductive Result where
  /-- `(None, None)` -/
  | nothing
  /-- start and end of the match, and the template -/
  | date (start stop : Nat) (t : Template)
  /-- IndexError -/
  | error

/-- The winner is noted, lines 441-455. An IndexError of `line[distance]` or `line[endpos-1]` leaves the rest undone. -/
def accept (env : Env) (s : State) (line : List Char) (c : Cand) : State × Result :=
  match s.entries[c.idx]? with
  | none => (s, .error)
  | some e =>
    let entries := hit env s.entries c
    let fu := if s.firstUnused = c.idx then s.firstUnused + 1 else s.firstUnused
    match line[c.start]? with
    | none => ({ s with entries, firstUnused := fu }, .error)
    | some f =>
      match charLast line c.stop with
      | none => ({ s with entries, firstUnused := fu, lastPos := c.start, before := charBefore line c.start, first := some f }, .error)
      | some l =>
        let r := if s.lastIdx = some c.idx then (entries, fu, c.idx) else reorder entries fu c.idx
        ({ entries := r.1, firstUnused := r.2.1, lastIdx := some r.2.2
           lastPos := c.start, before := charBefore line c.start, first := some f
           lastEnd := c.stop, last := some l, after := line[c.stop]? }, .date c.start c.stop e.t)

/-- `if not len(self.__templates): self.addDefaultTemplate()`, lines 340-341; names of the default templates differ. -/
def ready (defaults : List Template) (s : State) : State :=
  if s.entries.isEmpty then { s with entries := defaults.map (fun t => { t }) } else s

/-- `matchTime(line)`, lines 321-459. -/
def matchTime (defaults : List Template) (env : Env) (s : State) (line : List Char) : State × Result :=
  let s := ready defaults s
  match choose env s line with
  | none => (s, .nothing)
  | some c => accept env s line c

/-- `_appendTemplate(template)`, lines 247-254; `none` for ValueError. -/
def append (s : State) (t : Template) (ignoreDup : Bool) : Option State :=
  if s.entries.any (fun e => e.t.name == t.name) then (if ignoreDup then some s else none)
  else some { s with entries := s.entries ++ [{ t }] }

/-- One line after the other. -/
def run (defaults : List Template) : State → List (Env × List Char) → State
  | s, [] => s
  | s, (env, line) :: rest => run defaults (matchTime defaults env s line).1 rest

end Verif.Detector
