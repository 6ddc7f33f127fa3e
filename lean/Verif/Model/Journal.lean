/-!
# Monitoring of the systemd journal — `fail2ban/server/filtersystemd.py`

First part: matches of the journal. Second part: the log line of an entry. Third part: the main loop.
-/

namespace Verif.Journal

/-! ## Matches -/

/-- Conditions of a `systemd.journal.Reader` (environment): alternatives that are complete, and the one that matches are added to. -/
structure Reader where
  terms : List (List String)
  cur : List String
  deriving DecidableEq

/-- `flush_matches()` (`sd_journal_flush_matches`) -/
def flushed : Reader := ⟨[], []⟩

/-- `add_match(m)` (`sd_journal_add_match`) -/
def Reader.addMatch (r : Reader) (m : String) : Reader := { r with cur := r.cur ++ [m] }

/-- `add_disjunction()` (`sd_journal_add_disjunction`): nothing if no match was added since the last one. -/
def Reader.addOr (r : Reader) : Reader := if r.cur = [] then r else ⟨r.terms ++ [r.cur], []⟩

/-- Name of the field of a match `FIELD=value`. -/
def field (m : String) : List Char := m.toList.takeWhile (fun c => c != '=')

/-- Does an entry (its data `FIELD=value`) fulfil an alternative? Matches of the same field are alternatives, those of different fields all have to hold (`sd_journal_add_match`). -/
def fulfils (t : List String) (e : List String) : Bool := t.all (fun m => t.any (fun m' => field m' = field m && e.contains m'))

/-- Does the reader give an entry? Without conditions it gives all. -/
def Reader.gives (r : Reader) (e : List String) : Bool :=
  let ts := r.terms ++ (if r.cur = [] then [] else [r.cur])
  ts.isEmpty || ts.any (fun t => fulfils t e)

/-- The filter: `__journal` and `__matches`. `valid` (environment) tells for which matches `add_match` raises no `ValueError`. -/
structure Matches where
  reader : Reader
  shown : List (List String)
  deriving DecidableEq

/-- A new filter (filtersystemd.py 54-62) -/
def noMatches : Matches := ⟨flushed, []⟩

/-- Elements of one match: `for match_element in match` (filtersystemd.py 113-115); `false` if one is refused. -/
def addElements (valid : String → Bool) (r : Reader) : List String → Reader × Bool
  | [] => (r, true)
  | m :: ms => if valid m then addElements valid (r.addMatch m) ms else (r, false)

/-- `for match in matches` (filtersystemd.py 111-116) -/
def addTerms (valid : String → Bool) (r : Reader) : List (List String) → Reader × Bool
  | [] => (r, true)
  | t :: ts =>
    let (r, ok) := addElements valid r t
    if ok then addTerms valid r.addOr ts else (r, false)

/-- `_addJournalMatches(matches)` (filtersystemd.py 107-117); `false` for a `ValueError`. -/
def Matches.addMatches (valid : String → Bool) (s : Matches) (ts : List (List String)) : Matches × Bool :=
  let r := if s.shown.isEmpty then s.reader else s.reader.addOr
  let (r, ok) := addTerms valid r ts
  if ok then (⟨r, s.shown ++ ts⟩, true) else ({ s with reader := r }, false)

/-- `resetJournalMatches()` (filtersystemd.py 146-157) -/
def Matches.reset (valid : String → Bool) (s : Matches) : Matches × Bool := Matches.addMatches valid ⟨flushed, []⟩ s.shown

/-- `newMatches` (filtersystemd.py 125-130): `done` are the matches that are complete, `cur` is the last. -/
def splitMatches : List (List String) → List String → List String → List (List String)
  | done, cur, [] => done ++ [cur]
  | done, cur, m :: ms => if m = "+" then splitMatches (done ++ [cur]) [] ms else splitMatches done (cur ++ [m]) ms

/-- `addJournalMatch(match)` (filtersystemd.py 124-140) -/
def Matches.add (valid : String → Bool) (s : Matches) (m : List String) : Matches × Bool :=
  match s.addMatches valid (splitMatches [] [] m) with
  | (s, true) => (s, true)
  | (s, false) => ((s.reset valid).1, false)

/-- `delJournalMatch(match)` (filtersystemd.py 164-177); `none` for all. -/
def Matches.del (valid : String → Bool) (s : Matches) : Option (List String) → Matches × Bool
  | none => if s.shown.isEmpty then (s, true) else Matches.reset valid { s with shown := [] }
  | some m => if m ∈ s.shown then Matches.reset valid { s with shown := s.shown.erase m } else (s, false)

/-- Commands `addjournalmatch`, `deljournalmatch` (transmitter.py 273-282), `clearAllParams()` (filter.py 1568-1570) on reload. -/
inductive Command
  | add (m : List String)
  | del (m : List String)
  | clear

/-- One command. -/
def Matches.command (valid : String → Bool) (s : Matches) : Command → Matches × Bool
  | .add m => s.add valid m
  | .del m => s.del valid (some m)
  | .clear => s.del valid none

/-- Several commands. -/
def Matches.commands (valid : String → Bool) (s : Matches) : List Command → Matches
  | [] => s
  | c :: cs => Matches.commands valid (s.command valid c).1 cs

/-! ## Log line of an entry -/

/-- Identifier of a process as it is in an entry: a number, a text, or something else with its `str`. -/
inductive Pid
  | num (n : Int)
  | text (s : List Char)
  | other (s : List Char)

/-- `MESSAGE`: a text or several. -/
inductive Msg
  | one (s : List Char)
  | list (l : List (List Char))

/-- An entry of the journal; texts are decoded already (`uni_decode`). Times are microseconds; `mono` is the text of `"[%12.6f]"` for the monotonic time, if there is one. -/
structure Entry where
  hostname : Option (List Char)
  ident : Option (List Char)
  comm : Option (List Char)
  syslogPid : Option Pid
  pid : Option Pid
  mono : Option (List Char)
  message : Option Msg
  source : Option Int
  received : Int

/-- Is a text there and not empty (`if v`)? -/
def text? : Option (List Char) → Option (List Char)
  | some [] => none
  | x => x

/-- Is an identifier of a process there and neither 0 nor empty? -/
def pid? : Option Pid → Option Pid
  | some (.num 0) => none
  | some (.text []) => none
  | x => x

/-- `"[%i]"`, or `"[%s]"` if it is no number (filtersystemd.py 223-230); `int0` is `int(v, 0)` for a text. -/
def showPid (int0 : List Char → Option Int) : Pid → List Char
  | .num n => '[' :: (toString n).toList ++ [']']
  | .text s => match int0 s with
    | some n => '[' :: (toString n).toList ++ [']']
    | none => '[' :: s ++ [']']
  | .other s => '[' :: s ++ [']']

/-- `getJrnEntTime(logentry)` (filtersystemd.py 195-200) -/
def Entry.time (e : Entry) : Int := e.source.getD e.received

/-- `" ".join(l)` -/
def joinSpace : List (List Char) → List Char
  | [] => []
  | [a] => a
  | a :: b :: l => a ++ ' ' :: joinSpace (b :: l)

/-- `logline.replace('\n', '\\n')` (filtersystemd.py 250) -/
def escape (s : List Char) : List Char := s.flatMap (fun c => if c = '\n' then ['\\', 'n'] else [c])

/-- `SYSLOG_IDENTIFIER`, else `_COMM` (filtersystemd.py 215-218) -/
def Entry.tag (e : Entry) : Option (List Char) := match text? e.ident with
  | some v => some v
  | none => text? e.comm

/-- `SYSLOG_PID`, else `_PID` (filtersystemd.py 220-223) -/
def Entry.process (e : Entry) : Option Pid := match pid? e.syslogPid with
  | some p => some p
  | none => pid? e.pid

/-- Tag with process and colon (filtersystemd.py 219-232) -/
def tagged (int0 : List Char → Option Int) (e : Entry) (v : List Char) : List Char :=
  (match e.process with
    | some p => v ++ showPid int0 p
    | none => v) ++ [':']

/-- `MESSAGE` (filtersystemd.py 238-242) -/
def Entry.text (e : Entry) : List Char := match e.message with
  | none => []
  | some (.one s) => s
  | some (.list l) => joinSpace l

/-- `_HOSTNAME` (filtersystemd.py 211-214) -/
def Entry.host (e : Entry) : List (List Char) := match text? e.hostname with
  | some h => [h]
  | none => []

/-- `formatJournalEntry(logentry)` (filtersystemd.py 208-250): line and time; `none` if an exception is raised (an entry of the kernel without a monotonic time). The text of the date is left out. -/
def format (int0 : List Char → Option Int) (e : Entry) : Option (List Char × Int) :=
  let els : Option (List (List Char)) := match e.tag with
    | none => some e.host
    | some v =>
      if tagged int0 e v = "kernel:".toList then
        match e.mono with
        | some m => some (e.host ++ [tagged int0 e v, m])
        | none => none
      else some (e.host ++ [tagged int0 e v])
  match els with
  | none => none
  | some els => some (escape (joinSpace (els ++ [e.text])), e.time)

end Verif.Journal
