import Verif.Py.Dict

/-!
# Monitoring of log files by notification — `fail2ban/server/filterpyinotify.py`

The file system is an argument of the functions; what is done with watches and files is recorded in `out`. Times are microseconds. Descriptors of watches are left out.
-/

namespace Verif.Inotify

/-- What the filter does. -/
inductive Eff where
  | watchFile (p : String)
  | unwatchFile (p : String)
  | watchDir (p : String)
  | unwatchDir (p : String)
  /-- `getFailures(path)` -/
  | process (p : String)
  deriving DecidableEq

/-- Paths: `os.path.dirname`, `path.startswith(dir + sep)`, and the path before the suffix `-unknown-path`, if there is this suffix. -/
structure Paths where
  dirname : String → String
  under : String → String → Bool
  unknown : String → Option String

/-- The part up to and with the last `/`, and the rest (`p.rfind('/') + 1` in `posixpath.dirname`). -/
def splitSlash (p : List Char) : List Char × List Char :=
  ((p.reverse.dropWhile (· ≠ '/')).reverse, (p.reverse.takeWhile (· ≠ '/')).reverse)

/-- Python's `posixpath.dirname` -/
def posixDirname (p : String) : String :=
  let head := (splitSlash p.toList).1
  String.ofList (if head.all (· = '/') then head else (head.reverse.dropWhile (· = '/')).reverse)

/-- Paths of POSIX systems. -/
def posix : Paths where
  dirname := posixDirname
  under d p := (d.toList ++ ['/']).isPrefixOf p.toList
  unknown p := if "-unknown-path".toList.isSuffixOf p.toList then some (String.ofList (p.toList.take (p.toList.length - "-unknown-path".toList.length))) else none

/-- The file system at a time: `os.path.isfile`, `os.path.isdir`. -/
structure Fs where
  isfile : String → Bool
  isdir : String → Bool

/-- The filter: `__watchFiles`, `__watchDirs` (keys), `__pending` (time of retardation and `isDir`), `__pendingChkTime`, `__pendingMinTime`, `idle`, `active`. -/
structure Filter where
  files : List String
  dirs : List String
  pending : Dict String (Int × Option Bool)
  chkTime : Int
  minTime : Int
  idle : Bool
  active : Bool
  out : List Eff

/-- A new filter (filterpyinotify.py 72-82) -/
def new : Filter := ⟨[], [], Dict.empty, 0, 60000000, false, false, []⟩

/-- `Utils.DEFAULT_SLEEP_INTERVAL` (utils.py 60) -/
def interval : Int := 200000

/-- A minute, the limit of times between checks. -/
def minute : Int := 60000000

/-- `_process_file(path)` (filterpyinotify.py 130-137) -/
def Filter.process (s : Filter) (p : String) : Filter := if s.idle then s else { s with out := s.out ++ [.process p] }

/-- `_addPending(path, reason, isDir)` (filterpyinotify.py 139-146) -/
def Filter.addPending (s : Filter) (p : String) (isDir : Option Bool) : Filter :=
  if s.pending.contains p then s else { s with pending := s.pending.insert p (interval, isDir), minTime := 0 }

/-- `_delPending(path)` (filterpyinotify.py 148-151) -/
def Filter.delPending (s : Filter) (p : String) : Filter := { s with pending := s.pending.erase p }

/-- `_addDirWatcher(path_dir)` (filterpyinotify.py 243-250) -/
def Filter.addDir (s : Filter) (d : String) : Filter := if d ∈ s.dirs then s else { s with dirs := s.dirs ++ [d], out := s.out ++ [.watchDir d] }

/-- `_addFileWatcher(path)` (filterpyinotify.py 212-218) -/
def Filter.addFile (ps : Paths) (s : Filter) (p : String) : Filter :=
  let s := s.addDir (ps.dirname p)
  { s with files := if p ∈ s.files then s.files else s.files ++ [p], out := s.out ++ [.watchFile p] }

/-- `_delFileWatcher(path)` (filterpyinotify.py 220-241) -/
def Filter.delFile (s : Filter) (p : String) : Filter := if p ∈ s.files then { s with files := s.files.filter (fun q => q ≠ p), out := s.out ++ [.unwatchFile p] } else s

/-- `_delDirWatcher(path_dir)` (filterpyinotify.py 252-260) -/
def Filter.delDir (s : Filter) (d : String) : Filter := if d ∈ s.dirs then { s with dirs := s.dirs.filter (fun q => q ≠ d), out := s.out ++ [.unwatchDir d] } else s

/-- `_refreshWatcher(path, isDir=isDir)` (filterpyinotify.py 201-210) -/
def Filter.refresh (ps : Paths) (s : Filter) (p : String) (isDir : Bool) : Filter :=
  if isDir then (s.delDir p).addDir p else (s.delFile p).addFile ps p

/-- `_addLogPath(path)` (filterpyinotify.py 267-273) -/
def Filter.addLog (ps : Paths) (s : Filter) (p : String) : Filter :=
  let s := s.addFile ps p
  let s := if s.active then { s with minTime := 0 } else s
  s.addPending p none

/-- `_delLogPath(path)` (filterpyinotify.py 280-295) -/
def Filter.delLog (ps : Paths) (s : Filter) (p : String) : Filter :=
  let s := (s.delPending p).delFile p
  if s.files.any (fun k => ps.under (ps.dirname p) k) || ps.dirname p == "" then s else (s.delPending (ps.dirname p)).delDir (ps.dirname p)

/-! ## Events -/

/-- Kinds of events (`event.mask`); `created` also stands for `IN_MOVED_TO`, `gone` for `IN_MOVE_SELF` and `IN_DELETE_SELF`. -/
inductive Kind where
  | created (isDir : Bool)
  | ignored
  | gone
  | modified
  deriving DecidableEq

/-- End of `callback` for a file that is watched (filterpyinotify.py 118-128). -/
def Filter.fileEvent (fs : Fs) (s : Filter) (p : String) : Filter :=
  if !fs.isfile p then s.addPending p (some false) else if s.idle then s else s.process p

/-- The watch of a path was removed (filterpyinotify.py 103-117); `wf` is `isWF`. -/
def Filter.watchGone (ps : Paths) (fs : Fs) (s : Filter) (gone : Bool) (path : String) (wf : Bool) : Filter :=
  let isWD := decide (path ∈ s.dirs)
  let path' := if gone && !wf && !isWD then (ps.unknown path).getD path else path
  let isWD := decide (path' ∈ s.dirs)
  if isWD && (gone || !fs.isdir path') then s.addPending path' (some true)
  else if !wf then
    (s.dirs.filter (fun d => ps.under path' d && (gone || !fs.isdir d))).foldl (fun s d => s.addPending d (some true)) s
  else s

/-- `callback(event)` (filterpyinotify.py 84-128) -/
def Filter.callback (ps : Paths) (fs : Fs) (s : Filter) (kind : Kind) (path : String) : Filter :=
  let wf := decide (path ∉ s.dirs ∧ path ∈ s.files)
  match kind with
  | .created true => s
  | .created false => if wf then (s.refresh ps path false).fileEvent fs path else s
  | .ignored => let s := s.watchGone ps fs false path wf; if wf then s.fileEvent fs path else s
  | .gone => let s := s.watchGone ps fs true path wf; if wf then s.fileEvent fs path else s
  | .modified => if wf then s.fileEvent fs path else s

/-! ## Pending files and directories -/

/-- The variables of the loop: `__pending`, `minTime`, `found`. -/
structure Loop where
  pending : Dict String (Int × Option Bool)
  minTime : Int
  found : List (String × Option Bool)

/-- An entry of `__pending` in the loop (filterpyinotify.py 164-178); `elapsed` is `ntm - __pendingChkTime`. -/
def loopStep (fs : Fs) (elapsed : Int) (a : Loop) (x : String × (Int × Option Bool)) : Loop :=
  if elapsed < x.2.1 then { a with minTime := if a.minTime > x.2.1 then x.2.1 else a.minTime }
  else if !(if x.2.2 = some true then fs.isdir x.1 else fs.isfile x.1) then
    let r := if x.2.1 < minute then x.2.1 * 2 else x.2.1
    { a with pending := a.pending.insert x.1 (r, x.2.2), minTime := if a.minTime > r then r else a.minTime }
  else { a with found := a.found ++ [(x.1, x.2.2)] }

/-- A path that is found (filterpyinotify.py 182-199). -/
def Filter.foundPath (ps : Paths) (fs : Fs) (s : Filter) (x : String × Option Bool) : Filter :=
  let s := s.delPending x.1
  match x.2 with
  | none => s.process x.1
  | some false => (s.refresh ps x.1 false).process x.1
  | some true =>
    let s := s.refresh ps x.1 true
    (s.files.filter (fun f => ps.under x.1 f)).foldl (fun s f => if !fs.isfile f then s.addPending f (some false) else (s.refresh ps f false).process f) s

/-- `_checkPending()` (filterpyinotify.py 156-199). Simplified: time does not go on during a check. -/
def Filter.checkPending (ps : Paths) (fs : Fs) (now : Int) (s : Filter) : Filter :=
  if s.pending.items.isEmpty then s
  else if now < s.chkTime + s.minTime then s
  else
    let a := s.pending.items.foldl (loopStep fs (now - s.chkTime)) ⟨s.pending, minute, []⟩
    a.found.foldl (Filter.foundPath ps fs) { s with pending := a.pending, chkTime := now, minTime := a.minTime }

/-! ## A filter that runs -/

/-- The filter and the paths in `__logs` of `FileFilter`. -/
structure World where
  filter : Filter
  logs : List String

/-- What happens to a filter. -/
inductive Op where
  /-- a log is added or removed by a command -/
  | add (p : String)
  | del (p : String)
  /-- the thread is started (`active` is set) -/
  | start
  | idle (b : Bool)
  /-- an event of a watch -/
  | event (fs : Fs) (k : Kind) (p : String)
  /-- the loop of the thread comes to `_checkPending` (filterpyinotify.py 354-357) -/
  | check (fs : Fs) (now : Int)

/-- A step: `addLogPath` (filter.py 1015-1032), `delLogPath` (filter.py 1044-1051), or of the thread. -/
def step (ps : Paths) (w : World) : Op → World
  | .add p => if p ∈ w.logs then w else ⟨w.filter.addLog ps p, w.logs ++ [p]⟩
  | .del p => if p ∈ w.logs then ⟨w.filter.delLog ps p, w.logs.filter (fun q => q ≠ p)⟩ else w
  | .start => { w with filter := { w.filter with active := true } }
  | .idle b => { w with filter := { w.filter with idle := b } }
  | .event fs k p => { w with filter := w.filter.callback ps fs k p }
  | .check fs now => if w.filter.idle then w else { w with filter := w.filter.checkPending ps fs now }

def run (ps : Paths) (w : World) (l : List Op) : World := l.foldl (step ps) w

end Verif.Inotify
