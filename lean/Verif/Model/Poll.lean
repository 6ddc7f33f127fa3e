import Verif.Py.Dict

/-!
# Polling of log files — `fail2ban/server/filterpoll.py`

What `os.stat` gives for a file is an argument. The content of a file is represented by a number that grows with each modification, and by the number up to which it was read.
-/

namespace Verif.Poll

/-- `st_mtime`, `st_ino`, `st_size`. -/
structure Stat where
  mtime : Int
  ino : Nat
  size : Nat
  deriving DecidableEq

/-- A filter with polling: `getLogPaths()`, `__prevStats` (`none` is `(0, None, None)`), `__file404Cnt`, `_errors`, `idle`. -/
structure Poll where
  logs : List String
  prev : Dict String (Option Stat)
  cnt : Dict String Nat
  errors : Nat
  idle : Bool

/-- `addLogPath(path)` (filter.py 1015-1032, filterpoll.py 66-68) -/
def Poll.addLog (s : Poll) (p : String) : Poll :=
  if p ∈ s.logs then s else { s with logs := s.logs ++ [p], prev := s.prev.insert p none, cnt := s.cnt.insert p 0 }

/-- `delLogPath(path)` (filter.py 1044-1051, filterpoll.py 75-77) -/
def Poll.delLog (s : Poll) (p : String) : Poll :=
  if p ∈ s.logs then { s with logs := s.logs.filter (fun q => q ≠ p), prev := s.prev.erase p, cnt := s.cnt.erase p } else s

/-- `commonError()` (filter.py 752-760) -/
def Poll.commonError (s : Poll) : Poll :=
  if s.errors + 1 ≥ 100 then { s with errors := (s.errors + 1) / 2, idle := true } else { s with errors := s.errors + 1 }

/-- `isModified(filename)` (filterpoll.py 135-173); `st` is the result of `os.stat`, `none` if it raises. -/
def Poll.isModified (s : Poll) (p : String) (st : Option Stat) : Bool × Poll :=
  match st with
  | some st =>
    if s.prev.get? p = some (some st) then (false, { s with cnt := s.cnt.insert p 0 })
    else (true, { s with cnt := s.cnt.insert p 0, prev := s.prev.insert p (some st) })
  | none =>
    if p ∉ s.logs ∨ s.prev.get? p = none then (false, s)
    else
      let n := (s.cnt.get? p).getD 0 + 1
      let s := { s with cnt := s.cnt.insert p n }.commonError
      (false, if n > 50 then s.delLog p else s)

/-- Filter and files: current `stat` and content of a file, what is read of it, what is still to be checked in this pass, and `modlst`. -/
structure World where
  filter : Poll
  stat : String → Option Stat
  version : String → Nat
  read : String → Nat
  todo : List String
  mods : List String

/-- What happens. -/
inductive Step where
  /-- a file is modified and has another `stat` then -/
  | write (p : String) (st : Stat)
  /-- a file cannot be looked at any more -/
  | vanish (p : String)
  /-- a log is added or removed by a command -/
  | add (p : String)
  | del (p : String)
  /-- `getModified` begins (filterpoll.py 82-86) -/
  | begin
  /-- the next file is checked -/
  | check
  /-- `getFailures` for the next modified file reads all of it, unless the filter is idle or has no such log (filterpoll.py 111-112, filter.py 1111-1177). Simplified: lines that are processed do not reduce the number of errors here (filter.py 744-745). -/
  | read
  /-- `getFailures` for the next modified file does not read all (file not opened, filter gets idle) -/
  | fail
  /-- `getFailures` raises, the rest of the list is lost (filterpoll.py 117-123) -/
  | raise

/-- A function changed at one place. -/
def update {V : Type} (f : String → V) (p : String) (v : V) : String → V := fun q => if q = p then v else f q

def step (w : World) : Step → World
  | .write p st => { w with stat := update w.stat p (some st), version := update w.version p (w.version p + 1) }
  | .vanish p => { w with stat := update w.stat p none }
  | .add p => { w with filter := w.filter.addLog p }
  | .del p => { w with filter := w.filter.delLog p }
  | .begin => if w.todo = [] ∧ w.mods = [] ∧ w.filter.idle = false then { w with todo := w.filter.logs } else w
  | .check =>
    match w.todo with
    | [] => w
    | p :: ps =>
      let (m, f) := w.filter.isModified p (w.stat p)
      { w with filter := f, todo := ps, mods := if m then w.mods ++ [p] else w.mods }
  | .read =>
    match w.todo, w.mods with
    | [], p :: ps => { w with mods := ps, read := if w.filter.idle = false ∧ p ∈ w.filter.logs then update w.read p (w.version p) else w.read }
    | _, _ => w
  | .fail =>
    match w.todo, w.mods with
    | [], _ :: ps => { w with mods := ps }
    | _, _ => w
  | .raise =>
    match w.todo, w.mods with
    | [], _ :: _ => { w with mods := [], filter := w.filter.commonError }
    | _, _ => w

def run (w : World) (l : List Step) : World := l.foldl step w

/-- A filter with logs, before the first pass. -/
def start (logs : List String) (stat : String → Option Stat) : World where
  filter := logs.foldl Poll.addLog ⟨[], Dict.empty, Dict.empty, 0, false⟩
  stat := stat
  version _ := 1
  read _ := 0
  todo := []
  mods := []

end Verif.Poll
