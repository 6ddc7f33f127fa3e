import Verif.Model.Database

/-!
# Log files — `fail2ban/server/filter.py`: `FileContainer` (1332-1556), `FileFilter.addLogPath`, `getFailures`

A file is its inode number and its bytes at the moment it is looked at. Decoding is a parameter (`Codec`), `md5sum(..).hexdigest()` an
arbitrary function; the clock is in whole seconds. Not modelled: `doOpen` (fail2ban-regex), errors of reading an open file, errors of
`open` other than "not available", the search for the start time (`seekToTime`). One call of `readline` sees one content of the file;
the content may differ from call to call.
-/

namespace Verif

/-- bytes of a file -/
abbrev Bytes := List UInt8

/-- What is found at a path. -/
structure FileState where
  /-- `st_ino` -/
  ino : Nat
  /-- content -/
  data : Bytes
deriving DecidableEq, Repr

/-- An encoding: `decode(enc, 'strict')` (error: start and end), `decode(enc, 'replace')`, `encode(enc, 'replace')`. -/
structure Codec where
  strict : Bytes → Except (Nat × Nat) (List Char)
  replace : Bytes → List Char
  encode : List Char → Bytes

/-- `handler.readline()` on what is left of the file -/
def rawLine : Bytes → Bytes
  | [] => []
  | b :: r => if b = 10 then [b] else b :: rawLine r

/-- `r.rstrip('\r\n')` -/
def rstripNL (r : List Char) : List Char := (r.reverse.dropWhile (fun c => decide (c = '\r') || decide (c = '\n'))).reverse

/-- `b.rstrip(b'\r\n')` -/
def rstripNLBytes (r : Bytes) : Bytes := (r.reverse.dropWhile (fun c => decide (c = 13) || decide (c = 10))).reverse

/-- `FileContainer.decode_line` (filter.py 1463-1484) -/
def decodeLine (c : Codec) (line : Bytes) : List Char :=
  match c.strict line with
  | .ok r => r
  | .error (start, stop) =>
    if stop = line.length ∧ (line[start]? = some 10 ∨ line[start]? = some 13) then c.replace (line.take start) else c.replace line

/-- `FileContainer` (filter.py 1333-1366) -/
structure FileContainer where
  /-- `__pos` -/
  pos : Nat
  /-- `__hash`, empty if not known -/
  hash : String
  /-- `__hashNextTime` -/
  hashNextTime : Int
  /-- `__ino` -/
  ino : Nat
  /-- `inOperation` -/
  inOperation : Bool
  /-- `waitForLineEnd` -/
  waitForLineEnd : Bool := true
deriving DecidableEq, Repr

namespace FileContainer

/-- hash of the first line, empty if the line is not complete (lines 1355-1359, 1416-1420) -/
def firstHash (md5 : Bytes → String) (data : Bytes) : String :=
  let firstLine := rawLine data
  if firstLine ≠ rstripNLBytes firstLine then md5 firstLine else ""

/-- `FileContainer(filename, encoding, tail)` (lines 1334-1366) -/
def new (md5 : Bytes → String) (now : Int) (f : FileState) (tail : Bool) : FileContainer :=
  { pos := if f.data.length ≠ 0 ∧ tail then f.data.length else 0
    hash := if f.data.length ≠ 0 then firstHash md5 f.data else ""
    hashNextTime := now + 30
    ino := f.ino
    inOperation := tail }

/-- `open()` (lines 1402-1443) without `forcePos`; the flag says that there is something to read. -/
def open' (md5 : Bytes → String) (now : Int) (f : FileState) (s : FileContainer) : Bool × FileContainer :=
  let rotflg := decide (f.data.length < s.pos) || decide (f.ino ≠ s.ino)
  let check := rotflg || decide (s.hash.length = 0) || decide (s.hashNextTime < now)
  let myHash := if check then firstHash md5 f.data else s.hash
  let s := if check ∧ rawLine f.data ≠ rstripNLBytes (rawLine f.data) then { s with hashNextTime := now + 30 } else s
  let s :=
    if rotflg ∨ myHash ≠ s.hash then
      let s := if s.hash ≠ "" then { s with ino := f.ino, pos := 0 } else s
      { s with hash := myHash }
    else s
  (decide (¬ f.data.length ≤ s.pos), s)

/-- The loop that looks for the end of the line in the log encoding (lines 1514-1537): `b` was read so far, from position `pos` on.
`fuel` bounds the number of iterations, the number of bytes left suffices. -/
def fill (c : Codec) (wait : Bool) (data : Bytes) (pos : Nat) (b : Bytes) (l : List Char) : Nat → Option (List Char) × Nat
  | 0 => if wait then (none, pos) else (some l, pos + b.length)
  | fuel + 1 =>
    let r := rawLine (data.drop (pos + b.length))
    if r = [] then (if wait then (none, pos) else (some l, pos + b.length))
    else
      let b := b ++ r
      let r := decodeLine c b
      let e := r.idxOf '\n'
      if e < r.length ∧ e ≠ r.length - 1 then (some (r.take e), pos + (c.encode (r.take (e + 1))).length)
      else if rstripNL r ≠ r then (some (rstripNL r), pos + b.length)
      else fill c wait data pos b (rstripNL r) fuel

/-- `readline()` (lines 1486-1539) on a file with content `data` at position `pos`: the line and the new position. -/
def readline (c : Codec) (wait : Bool) (data : Bytes) (pos : Nat) : Option (List Char) × Nat :=
  let b := rawLine (data.drop pos)
  if b = [] then (none, pos)
  else
    let r := decodeLine c b
    if rstripNL r = r then fill c wait data pos b (rstripNL r) data.length else (some (rstripNL r), pos + b.length)

/-- The loop of `FileFilter.getFailures` (lines 1153-1164): what is handed to `processLineAndAdd` (with the value of `inOperation`), the
container and the position. Each element is the content of the file at a `readline` and whether the filter is still active after it; the
list ends where the filter gets idle. -/
def readLoop (c : Codec) (inOperation : Option Bool) : List (Bytes × Bool) → FileContainer → Nat →
    List (List Char × Bool) × FileContainer × Nat
  | [], s, pos => ([], s, pos)
  | (data, active) :: rest, s, pos =>
    let r := readline c s.waitForLineEnd data pos
    if active = false then ([], s, r.2)
    else
      match r.1 with
      | none => ([], { s with inOperation := true }, r.2)
      | some l =>
        let x := readLoop c inOperation rest s r.2
        ((l, inOperation.getD s.inOperation) :: x.1, x.2)

/-- `FileFilter.getFailures(filename, inOperation)` (lines 1111-1176) without the search for the start time: the file is found as `f`
(`none`: cannot be opened). -/
def getFailures (md5 : Bytes → String) (c : Codec) (now : Int) (f : Option FileState) (inOperation : Option Bool)
    (reads : List (Bytes × Bool)) (s : FileContainer) : List (List Char × Bool) × FileContainer :=
  match f with
  | none => ([], s)
  | some f =>
    let o := s.open' md5 now f
    if o.1 then
      let r := readLoop c inOperation reads o.2 o.2.pos
      (r.1, { r.2.1 with pos := r.2.2 })
    else ([], o.2)

/-- `FileFilter.addLogPath(path, tail)` for a path not monitored yet (lines 1020-1026): the container and the database. -/
def addLogPath (md5 : Bytes → String) (now : Int) (f : FileState) (tail : Bool) (jail path : String) (db : Option Db) :
    FileContainer × Option Db :=
  let s := new md5 now f tail
  match db with
  | none => (s, none)
  | some db =>
    match db.addLog jail path s.pos (some s.hash) with
    | (some (some last), db) => (if last ≠ 0 ∧ !tail then { s with pos := last.toNat } else s, some db)
    | (_, db) => (s, some db)

/-- `_updateDBPending` for this log (lines 1278-1288) -/
def store (s : FileContainer) (jail path : String) (db : Db) : Db := (db.updateLog jail path s.pos (some s.hash)).getD db

end FileContainer

end Verif
