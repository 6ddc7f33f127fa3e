import Verif.Model.FileContainer

/-!
# Search for the start time — `FileFilter.seekToTime` (filter.py 1182-1262)

The date detector is a function of the line: `none` if no template matches, `some none` if one matches but gives no time. The content of
the file does not change during the search. `foundPos` and `foundTime` are left out, they are only logged. The loop gets fuel and gives
`none` if that does not suffice; that it does is a theorem.
-/

namespace Verif

namespace FileContainer

/-- `seek(offs)` (lines 1445-1456): to the end of the line, but not at the beginning of the file -/
def seek (data : Bytes) (offs : Nat) : Nat := if offs ≠ 0 then offs + (rawLine (data.drop offs)).length else 0

/-- The search for a line with a time (lines 1208-1230), from `cur` on. Result: the time, `tell()`, `pos`, `nextp`. -/
def scan (c : Codec) (timeOf : List Char → Option (Option Int)) (data : Bytes) (maxp seekpos : Nat) :
    Nat → Nat → Nat → Option Nat → Option Int × Nat × Nat × Option Nat
  | lncntr, cur, pos, nextp =>
    let b := rawLine (data.drop cur)
    if b = [] then (none, cur, pos, nextp)
    else
      let cur := cur + b.length
      match timeOf (rstripNL (decodeLine c b)) with
      | some (some t) => (some t, cur, pos, nextp)
      | some none =>
        match lncntr with
        | 0 => (none, cur, pos, nextp)
        | n + 1 => scan c timeOf data maxp seekpos n cur pos nextp
      | none =>
        if maxp < cur then (none, cur, seekpos, some cur)
        else
          match lncntr with
          | 0 => (none, cur, cur, some cur)
          | n + 1 => scan c timeOf data maxp seekpos n cur cur (some cur)

/-- One try at position `p` (lines 1203-1246): `pos`, `minp` and `maxp` afterwards. -/
def probe (c : Codec) (timeOf : List Char → Option (Option Int)) (data : Bytes) (date : Int) (p minp maxp : Nat) : Nat × Nat × Nat :=
  let seekpos := seek data (p - 2)
  match scan c timeOf data maxp seekpos 5 seekpos seekpos none with
  | (some t, cur, pos, nextp) =>
    if date ≤ t then
      let pos := if pos = maxp then seekpos else pos
      (pos, minp, if pos < maxp then pos else maxp)
    else
      let pos := nextp.getD cur
      (pos, if minp < pos then pos else minp, maxp)
  | (none, _, pos, _) => (pos, minp, maxp)

/-- State of the loop. -/
structure SeekState where
  minp : Nat
  maxp : Nat
  /-- `tryPos` -/
  tryPos : Option Nat
  /-- `lastPos` -/
  lastPos : Int
  /-- `movecntr` -/
  movecntr : Nat
deriving DecidableEq, Repr

/-- One iteration of the loop (lines 1198-1258) with `maxp > minp`: the next state, and whether the loop goes on. -/
def seekStep (c : Codec) (timeOf : List Char → Option (Option Int)) (data : Bytes) (date : Int) (s : SeekState) : Bool × SeekState :=
  let r := probe c timeOf data date (s.tryPos.getD (s.minp + (s.maxp - s.minp) / 2)) s.minp s.maxp
  let s' : SeekState := { s with minp := r.2.1, maxp := r.2.2, tryPos := none }
  if (r.1 : Int) = s.lastPos then
    let s' := { s' with movecntr := s'.movecntr - 1 }
    if s'.movecntr = 0 then (false, s')
    else if (s'.minp : Int) ≠ s.lastPos then (true, { s' with lastPos := s'.minp, tryPos := some s'.minp })
    else (false, s')
  else (true, { s' with lastPos := r.1 })

/-- The loop. -/
def seekLoop (c : Codec) (timeOf : List Char → Option (Option Int)) (data : Bytes) (date : Int) : Nat → SeekState → Option Nat
  | 0, _ => none
  | fuel + 1, s =>
    if s.minp < s.maxp then
      let r := seekStep c timeOf data date s
      if r.1 then seekLoop c timeOf data date fuel r.2 else some r.2.minp
    else some s.minp

/-- `seekToTime(container, date)`: the position, from the position of the container on -/
def seekToTime (c : Codec) (timeOf : List Char → Option (Option Int)) (data : Bytes) (date : Int) (pos : Nat) (fuel : Nat) : Option Nat :=
  if data.length = 0 then some pos
  else seekLoop c timeOf data date fuel ⟨pos, data.length, some pos, -1, 3⟩

/-- The first `getFailures` after the log was added (lines 1134-1150), `seek` says whether to search; nothing if the search does not end. -/
def firstGetFailures (md5 : Bytes → String) (c : Codec) (timeOf : List Char → Option (Option Int)) (now findTime : Int) (f : FileState)
    (seek : Bool) (inOperation : Option Bool) (reads : List (Bytes × Bool)) (fuel : Nat) (s : FileContainer) :
    Option (List (List Char × Bool) × FileContainer) :=
  let o := s.open' md5 now f
  match (if seek then seekToTime c timeOf f.data (now - findTime) o.2.pos fuel else some o.2.pos) with
  | none => none
  | some p =>
    if o.1 then
      let r := readLoop c inOperation reads o.2 p
      some (r.1, { r.2.1 with pos := r.2.2 })
    else some ([], { o.2 with pos := p })

end FileContainer

end Verif
