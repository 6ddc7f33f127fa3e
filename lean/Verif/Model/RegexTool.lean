import Verif.Py.Dict

/-!
# The test tool `fail2ban-regex` — `fail2ban/client/fail2banregex.py`

The filter is a parameter: what it finds in a line and which lines it keeps is an arbitrary function of its state and the line (for the
real one see the models of the filter). Without `--debuggex`; statistics of the prefix expression and of dates are not modelled. A
`RegexException` out of `processLine` (529-531) is not modelled (the filter catches it).
-/

namespace Verif.RegexTool

abbrev Str := List Char

/-- An element of `test_lines`: line of a file or of the command line, or (from the journal) a tuple of three texts -/
inductive Item where
  | line (s : Str)
  | entry (a b c : Str)
deriving DecidableEq

/-- A line in the buffer of the filter -/
abbrev Buffered := Str × Str × Str

/-- A failure in the list returned by `processLine` -/
structure Found where
  /-- index of the expression, `match[0]` -/
  idx : Nat
  /-- identifier, `match[1]` -/
  id : String
  /-- truth of `match[3].get('nofail')` -/
  nofail : Bool
deriving DecidableEq

/-- What `processLine` does for a line -/
structure Result (σ : Type) where
  /-- list returned -/
  found : List Found
  /-- indexes of calls of `onIgnoreRegex` -/
  ignoredBy : List Nat
  /-- state of the filter after it -/
  next : σ

/-- The filter -/
structure Flt (σ : Type) where
  /-- `getMaxLines()` -/
  maxLines : Nat
  /-- `__lineBuffer` -/
  buffer : σ → List Buffered
  /-- `processLine` -/
  process : σ → Item → Result σ

/-- Options of the command line -/
structure Opts where
  /-- `_maxlines`: the option `--maxlines`, otherwise 20 (fail2banregex.py 248, 263-266) -/
  limit : Nat := 20
  printAllMatched : Bool := false
  printNoMissed : Bool := false
  printAllMissed : Bool := false
  printNoIgnored : Bool := false
  printAllIgnored : Bool := false

/-- `LineStats` (fail2banregex.py 221-234), hits of `RegexStat` (194-218) and the list of addresses with flag of each -/
structure Stats where
  tested : Int := 0
  matched : Int := 0
  missed : Int := 0
  ignored : Int := 0
  matchedLines : List Str := []
  missedLines : List Str := []
  ignoredLines : List Str := []
  /-- (index, identifier, flag) in the order of `appendIP`; hits of an expression are its entries -/
  hits : List (Nat × String × Bool) := []
  /-- indexes of ignored expressions in the order of `inc` -/
  ignoreHits : List Nat := []

/-- `c in '\r\n'` -/
def eol (c : Char) : Bool := c == '\r' || c == '\n'

/-- White space removed by `rstrip()` (ASCII) -/
def white (c : Char) : Bool := c == ' ' || c == '\t' || c == '\n' || c == '\r' || c == '\x0b' || c == '\x0c'

/-- `rstrip` of characters with `p` -/
def rstrip (p : Char → Bool) (s : Str) : Str := (s.reverse.dropWhile p).reverse

/-- Item after `line.rstrip('\r\n')` (fail2banregex.py 629) -/
def Item.stripped : Item → Item
  | .line s => .line (rstrip eol s)
  | i => i

/-- Whether the line is a comment or empty (fail2banregex.py 630); after `stripped` -/
def Item.skip : Item → Bool
  | .line s => s.head? == some '#' || s.isEmpty
  | .entry .. => false

/-- The text counted (fail2banregex.py 627) -/
def Item.text : Item → Str
  | .line s => s
  | .entry a b c => a ++ b ++ c

/-- `"".join(bufLine)` -/
def textOf (b : Buffered) : Str := b.1 ++ b.2.1 ++ b.2.2

/-- The loop over the matches (fail2banregex.py 502-515): entries for the statistics, failures kept, whether there is one with `nofail` -/
def foundLoop : List Found → List Found → Bool → List (Nat × String × Bool) → List Found × Bool × List (Nat × String × Bool)
  | [], ret, ign, hits => (ret, ign, hits)
  | f :: fs, ret, ign, hits =>
    let hits := hits ++ [(f.idx, f.id, decide (1 < ret.length))]
    if f.nofail then foundLoop fs ret true hits else foundLoop fs (ret ++ [f]) ign hits

/-- Loop over the lines that were in the buffer before (fail2banregex.py 533-551) -/
def bufLoop (o : Opts) (new : List Buffered) : List Buffered → Stats → Stats
  | [], st => st
  | b :: bs, st =>
    if b ∈ new then bufLoop o new bs st
    else bufLoop o new bs
      { st with
        missedLines := st.missedLines.erase (textOf b)
        matchedLines := if o.printAllMatched then st.matchedLines ++ [textOf b] else st.matchedLines
        matched := st.matched + 1
        missed := st.missed - 1 }

variable {σ : Type}

/-- `testRegex(line)` without `--out` (fail2banregex.py 493-555): list `ret`, whether the line is ignored, state of the filter, statistics -/
def testRegex (f : Flt σ) (o : Opts) (s : σ) (st : Stats) (i : Item) : List Found × Bool × σ × Stats :=
  let org := f.buffer s
  let full := decide (f.maxLines ≤ org.length)
  let r := f.process s i
  let l := foundLoop r.found [] false st.hits
  let st := { st with hits := l.2.2, ignoreHits := st.ignoreHits ++ r.ignoredBy }
  let st := if 1 < f.maxLines then bufLoop o (f.buffer r.next) (if full then org.drop 1 else org) st else st
  (l.1, l.2.1 || !r.ignoredBy.isEmpty, r.next, st)

/-- What is counted for a line (fail2banregex.py 639-657) -/
def count (o : Opts) (text : Str) (ret : List Found) (ign : Bool) (st : Stats) : Stats :=
  let st :=
    if ign then
      let st := { st with ignored := st.ignored + 1 }
      if !o.printNoIgnored && (o.printAllIgnored || decide (st.ignored ≤ (o.limit : Int) + 1)) then { st with ignoredLines := st.ignoredLines ++ [text] } else st
    else if 0 < ret.length then
      let st := { st with matched := st.matched + 1 }
      if o.printAllMatched then { st with matchedLines := st.matchedLines ++ [text] } else st
    else
      let st := { st with missed := st.missed + 1 }
      if !o.printNoMissed && (o.printAllMissed || decide (st.missed ≤ (o.limit : Int) + 1)) then { st with missedLines := st.missedLines ++ [text] } else st
  { st with tested := st.tested + 1 }

/-- One line of `process` (fail2banregex.py 624-657) -/
def one (f : Flt σ) (o : Opts) (s : σ) (st : Stats) (i : Item) : σ × Stats :=
  if i.stripped.skip then (s, st)
  else
    let r := testRegex f o s st i.stripped
    (r.2.2.1, count o i.stripped.text r.1 r.2.1 r.2.2.2)

/-- `process(test_lines)` without `--out` -/
def process (f : Flt σ) (o : Opts) : List Item → σ → Stats → σ × Stats
  | [], s, st => (s, st)
  | i :: is, s, st =>
    let r := one f o s st i
    process f o is r.1 r.2

/-- The failures kept (fail2banregex.py 504-517) -/
def kept (l : List Found) : List Found := l.filter (fun f => !f.nofail)

/-- `process(test_lines)` with `--out=id`: what is printed (fail2banregex.py 516-517, 560-563, 635-637) -/
def processOut (f : Flt σ) : List Item → σ → List String
  | [], _ => []
  | i :: is, s =>
    if i.stripped.skip then processOut f is s
    else
      let r := f.process s i.stripped
      (kept r.found).map (·.id) ++ processOut f is r.next

/-- What `printLines` prints -/
inductive Printed where
  /-- nothing -/
  | nothing
  /-- the lines -/
  | lines (l : List Str)
  /-- "too many to print" with the number -/
  | tooMany (n : Int)
deriving DecidableEq

/-- `printLines` (fail2banregex.py 661-690): number of lines, list of lines, `_print_all_` option; the list is printed by `pprint_list`
(82-89), which prints nothing for an empty list -/
def printLines (limit : Nat) (n : Int) (l : List Str) (all : Bool) : Printed :=
  if n ≠ 0 then
    if n < limit || all then (if l.isEmpty then .nothing else .lines (l.map (rstrip white)))
    else .tooMany n
  else .nothing

/-- The parts printed at the end (fail2banregex.py 755-760): matched, ignored, missed -/
def printed (o : Opts) (st : Stats) : Printed × Printed × Printed :=
  (if o.printAllMatched then printLines o.limit st.matched st.matchedLines o.printAllMatched else .nothing,
   if !o.printNoIgnored then printLines o.limit st.ignored st.ignoredLines o.printAllIgnored else .nothing,
   if !o.printNoMissed then printLines o.limit st.missed st.missedLines o.printAllMissed else .nothing)

end Verif.RegexTool
