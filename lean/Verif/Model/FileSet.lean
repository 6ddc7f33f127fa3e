import Verif.Model.IPAddr
import Verif.Model.Reader

/-!
# Ignored addresses from a file — `fail2ban/server/ipdns.py` 740-813 (`FileIPAddrSet`), `fail2ban/helpers.py` 285-306

Time in microseconds. What `os.stat` and `open` see is environment: a function of time.
-/

namespace Verif.FileSet

open Verif.Reader

/-- `[\#;]` -/
def mark (c : Char) : Bool := c = '#' || c = ';'

/-- `\s`; simplified: ASCII white space, as in `Reader.isSep` -/
def space (c : Char) : Bool := isSep c && c ≠ ','

/-- the text begins with a mark -/
def marked : Str → Bool
  | [] => false
  | c :: _ => mark c

/-- Where `re.sub` is: at the begin of a line, elsewhere, in a match. -/
inductive Mode
  | start
  | mid
  | comment
  deriving DecidableEq

/-- `removeComments(s)` (helpers.py 285-293): `(?m)(?:^|\s)[\#;].*` is removed; the white space may be the end of the line before. -/
def removeComments : Mode → Str → Str
  | _, [] => []
  | .comment, c :: cs =>
    if c = '\n' then (if marked cs then removeComments .comment cs else c :: removeComments .start cs)
    else removeComments .comment cs
  | .start, c :: cs =>
    if mark c then removeComments .comment cs
    else if space c && marked cs then removeComments .comment cs
    else c :: removeComments (if c = '\n' then .start else .mid) cs
  | .mid, c :: cs =>
    if space c && marked cs then removeComments .comment cs
    else c :: removeComments (if c = '\n' then .start else .mid) cs

/-- `splitwords(text, ignoreComments=True)` (helpers.py 296-306) -/
def entries (text : Str) : List Str := splitwords (removeComments .start text)

/-- `_list2set` of the words (lines 709-717, 793); `none` if `IPAddr` raises. -/
def parse (lib : NetLib) (text : Str) : Option IPAddrSet := ((entries text).mapM fun w => IPAddr.new lib w).map IPAddrSet.ofList

/-- `st_mtime, st_ino, st_size` -/
structure Stat where
  mtime : Int
  ino : Nat
  size : Nat
  deriving DecidableEq

/-- `FileIPAddrSet` (lines 740-753) -/
structure FileSet where
  /-- `_nextCheck` -/
  nextCheck : Int := 0
  /-- `_fileStats` -/
  stats : Option Stat := none
  /-- members -/
  set : IPAddrSet := ⟨[], false⟩

/-- a second -/
def second : Int := 1000000

/-- `maxUpdateLatency` (line 747) -/
def latency : Int := second

/-- An exception in `load` (line 796). -/
def failed (s : FileSet) : FileSet := { s with nextCheck := s.nextCheck + 60 * second }

/-- `_isModified()` (lines 768-783) at time `now`, `stat` is what `os.stat` gives (`none`: exception); the first component: whether to read the file. -/
def isModified (now : Int) (stat : Option Stat) (s : FileSet) : Bool × FileSet :=
  if now ≤ s.nextCheck then (false, s)
  else
    let s := { s with nextCheck := now + latency }
    match stat with
    | none => (false, failed s)
    | some st => if s.stats = some st then (false, s) else (true, { s with stats := some st })

/-- `set(ips)` of what was read, or the exception (lines 723-727, 791-798). -/
def take (lib : NetLib) (text : Option Str) (s : FileSet) : FileSet :=
  match text.bind (parse lib) with
  | none => failed s
  | some ips => { s with set := ips }

/-- `load()` (lines 785-798) -/
def load (lib : NetLib) (now : Int) (stat : Option Stat) (text : Option Str) (s : FileSet) : FileSet :=
  let r := isModified now stat s
  if r.1 then take lib text r.2 else r.2

/-- What there is at a time: `os.stat`, and the text (`none`: it cannot be read). -/
structure FileState where
  stat : Option Stat
  text : Option Str
  deriving DecidableEq

/-- One question at time `c.1`; a file that has to be read is read at time `c.2`. -/
def ask (lib : NetLib) (file : Int → FileState) (s : FileSet) (c : Int × Int) : FileSet := load lib c.1 (file c.1).stat (file c.2).text s

/-- `ip in set` (lines 808-813): the answer after loading. -/
def contains (lib : NetLib) (resolve : Str → List IPAddr) (s : FileSet) (x : IPAddr) : Bool := s.set.mem lib resolve x

/-! Jails share the set of a file (`DNSUtils.CACHE_fileToIp`, lines 236-247), and there is no lock. -/

/-- Steps of the threads. -/
inductive Step
  /-- a thread asks at a time; it finds that the file has to be read -/
  | look (now : Int) (stat : Option Stat)
  /-- it has read the file; the set is cleared (line 725) -/
  | clear
  /-- and filled (lines 726-727) -/
  | fill (ips : IPAddrSet)

/-- One step on the shared set. -/
def step (s : FileSet) : Step → FileSet
  | .look now stat => (isModified now stat s).2
  | .clear => { s with set := { s.set with ips := [] } }
  | .fill ips => { s with set := ips }

end Verif.FileSet
