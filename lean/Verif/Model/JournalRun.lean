/-!
# Main loop of monitoring of the systemd journal — `fail2ban/server/filtersystemd.py`

The journal is the list of entries that fulfil the matches; entries are added at its end (environment). The loop is split into steps, anything else can happen in between.
-/

namespace Verif.JournalRun

/-- An entry: time of receipt and time of the source (microseconds, `_SOURCE_REALTIME_TIMESTAMP`), and whether `formatJournalEntry` raises no exception. -/
structure Entry where
  received : Int
  source : Option Int
  good : Bool
  deriving DecidableEq

/-- `getJrnEntTime(logentry)` (filtersystemd.py 195-200) -/
def Entry.time (e : Entry) : Int := e.source.getD e.received

/-- Where the loop is: before waiting (line 314), before reading an entry (352), after the entries (385), ended. -/
inductive Phase
  | top
  | inner
  | tail
  | ended
  deriving DecidableEq

/-- `startTime` (filtersystemd.py 295, 303, 370): until the entry that was the last one at start, or the time until which old entries are expected. -/
inductive Start
  | first (time : Int) (cursor : Nat)
  | second (time : Int)
  deriving DecidableEq

/-- The filter. `pos` is the number of entries before the one that `get_next` gives, `line` the time of the last line if it is not pending yet, `pend` is `_pendDBUpdates`, `processed` are the indices of the entries given to `processLineAndAdd`, with `inOperation`. -/
structure Filter where
  phase : Phase
  active : Bool
  idle : Bool
  inOperation : Bool
  pos : Nat
  start : Start
  modified : Nat
  ticks : Nat
  line : Option Int
  pend : Option Int
  nextUpdate : Int
  processed : List (Nat × Bool)
  deriving DecidableEq

/-- Filter, journal, clock (`MyTime.time()`, microseconds), and the position in the database (without one `database` is false). -/
structure World where
  filter : Filter
  journal : List Entry
  now : Int
  database : Bool
  saved : Option Int
  deriving DecidableEq

/-- Position after `seek_realtime(t)` and `get_previous()` (environment): `get_previous` gives the last entry that is not after `t`, so the next one is the first after `t`. -/
def seek (t : Int) : List Entry → Nat
  | [] => 0
  | e :: es => if e.received ≤ t then seek t es + 1 else 0

/-- Start of `run()` (filtersystemd.py 275-313); `readable` is false if reading at the end of the journal raises `OSError`. -/
def begin (w : World) (findtime : Int) (readable : Bool) : World :=
  let f : Filter := ⟨.top, true, false, true, 0, .second w.now, 0, 0, none, none, 0, []⟩
  if readable && !w.journal.isEmpty then
    let t := if w.database then (w.saved.getD 0) else 0
    let t := max t (w.now - findtime)
    { w with filter := { f with inOperation := false, pos := seek t w.journal, start := .first w.now (w.journal.length - 1) } }
  else { w with filter := { f with pos := seek w.now w.journal } }

/-- Switch to operation for an entry (filtersystemd.py 363-372) -/
def operation (f : Filter) (now : Int) (i : Nat) (tm : Int) : Filter :=
  if f.inOperation then f
  else if tm ≥ now - 1000000 then { f with inOperation := true }
  else match f.start with
    | .first t c => if i = c ∨ tm > t then { f with start := .second (now * 2 - t) } else f
    | .second t => if tm > t then { f with inOperation := true } else f

/-- `_updateDBPending()` (filtersystemd.py 435-444, database.py 525-533) -/
def flush (w : World) : World := { w with filter := { w.filter with pend := none }, saved := w.filter.pend }

/-- What happens: a step of the loop (`fail`: `get_next` raises `OSError`), an entry is added to the journal, time goes on, `stop()`, idle is set or reset. -/
inductive Op
  | step (fail : Bool)
  | append (e : Entry)
  | clock (now : Int)
  | stop
  | idle (b : Bool)

/-- Before entries are read (filtersystemd.py 314-351): the loop is left if it is not active any more; then the journal is closed, and `onStop()` (446-453) updates the position. Waiting is left out, moving back and forth in the journal does not change the position. -/
def topStep (w : World) : World :=
  let f := w.filter
  if !f.active then
    let w := { w with filter := { f with phase := .ended } }
    if f.pend.isSome && w.database then flush w else w
  else if f.idle then { w with filter := { f with ticks := f.ticks + 1 } }
  else { w with filter := { f with modified := 0, phase := .inner } }

/-- One entry is read (filtersystemd.py 352-384). An exception of `formatJournalEntry` is caught, and the loop goes on (400-407); errors are not counted here. -/
def innerStep (w : World) (fail : Bool) : World :=
  let f := w.filter
  if !f.active then { w with filter := { f with phase := .tail } }
  else
    let f := { f with ticks := f.ticks + 1 }
    match if fail then none else w.journal[f.pos]? with
    | none => { w with filter := { f with inOperation := true, phase := .tail } }
    | some e =>
      if !e.good then { w with filter := { f with pos := f.pos + 1, phase := .top } }
      else
        let f := operation f w.now f.pos e.time
        let f := { f with line := some e.time, processed := f.processed ++ [(f.pos, f.inOperation)], pos := f.pos + 1, modified := f.modified + 1 }
        { w with filter := if f.modified ≥ 100 then { f with phase := .tail } else f }

/-- The position of the last line becomes pending (filtersystemd.py 390-392) -/
def pendLine (f : Filter) : Filter := match f.line with
  | some t => { f with pend := some t, line := none }
  | none => f

/-- After the entries (filtersystemd.py 385-399); `performSvc` is left out. -/
def tailStep (w : World) : World :=
  let f := { w.filter with modified := 0, phase := .top }
  if !w.database then { w with filter := f }
  else
    let f := pendLine f
    let w := { w with filter := f }
    if f.pend.isSome && (f.ticks % 100 == 0 || decide (w.now ≥ f.nextUpdate) || !f.active) then
      let w := flush w
      { w with filter := { w.filter with nextUpdate := w.now + 10000000 } }
    else w

/-- One thing that happens. -/
def step (w : World) : Op → World
  | .step fail => match w.filter.phase with
    | .top => topStep w
    | .inner => innerStep w fail
    | .tail => tailStep w
    | .ended => w
  | .append e => { w with journal := w.journal ++ [e] }
  | .clock t => { w with now := t }
  | .stop => { w with filter := { w.filter with active := false } }
  | .idle b => { w with filter := { w.filter with idle := b } }

/-- Several. -/
def run (w : World) : List Op → World
  | [] => w
  | o :: os => run (step w o) os

end Verif.JournalRun
