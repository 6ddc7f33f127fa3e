import Verif.Model.Cache
import Verif.Model.IPAddr

/-!
# Matching of log lines — `fail2ban/server/filter.py` 762-990, `fail2ban/server/failregex.py` 270-386

Regular expressions are functions of the text searched (parameters). `checkAllRegex` is off and `ignorePending` on, as in the server (other values are
for the test tools). Logging is not modelled. The groups of a failure and its other entries (`users`, `matches`, ...) are held apart: no group is named
like one of these. A failure that is kept for a connection is the same object as the one reported; here it is written back.
-/

namespace Verif

/-- A line split at the time: text before, time, text after (filter.py 650). -/
structure TLine where
  pre : String
  time : String
  post : String
deriving DecidableEq

namespace TLine

/-- `"".join(v[::2])` -/
def text (l : TLine) : String := l.pre ++ l.post

/-- `Regex._tupleLinesBuf` (failregex.py 245-246) -/
def buf (ls : List TLine) : String := "\n".intercalate (ls.map text) ++ "\n"

end TLine

/-- groups of a match, `none` for a group without value -/
abbrev Groups := Dict String (Option String)

namespace Groups

/-- `fail.get(k)` -/
def val (g : Groups) (k : String) : Option String := (g.get? k).join

/-- truth of `fail.get(k)` -/
def truthy (g : Groups) (k : String) : Bool :=
  match g.val k with
  | some s => decide (s ≠ "")
  | none => false

/-- `g.update(h)` -/
def update (g h : Groups) : Groups := h.items.foldl (fun d kv => d.insert kv.1 kv.2) g

/-- `g.update(((k,v) for k,v in h.items() if v is not None))` -/
def updateSome (g h : Groups) : Groups := g.update (h.filter (fun _ v => v.isSome))

end Groups

/-- What a regular expression finds in a text. -/
structure RxMatch where
  /-- `getGroups()` -/
  groups : Groups
  /-- `lineCount1`, number of lines before the match -/
  first : Nat := 0
  /-- `lineCount2`, number of lines up to the end of the match -/
  last : Nat := 1
  /-- `getSkippedLines()` -/
  skipped : List String := []

/-- A regular expression. -/
abbrev Rx := String → Option RxMatch

/-- `_matchedTupleLines` and `_unmatchedTupleLines` -/
structure Parts where
  matched : List TLine
  unmatched : List TLine

/-- The inner loop over matched lines from `n` on (failregex.py 291-297): the line with the given text is moved; its position (from `n`), if there is one. -/
def takeLine (text : String) : List TLine → Option (Nat × TLine × List TLine)
  | [] => none
  | l :: ls => if l.text = text then some (0, l, ls) else (takeLine text ls).map (fun x => (x.1 + 1, x.2.1, l :: x.2.2))

/-- The loop over skipped lines (failregex.py 289-297). -/
def skipLines : List String → Nat → Parts → Parts
  | [], _, p => p
  | t :: ts, n, p =>
    match takeLine t (p.matched.drop n) with
    | none => skipLines ts n p
    | some (m, l, rest) => skipLines ts (n + m) ⟨p.matched.take n ++ rest, p.unmatched ++ [l]⟩

/-- Matched and unmatched lines (failregex.py 262-298). -/
def RxMatch.parts (m : RxMatch) (org : List TLine) : Parts :=
  if org.length ≤ 1 then ⟨org, []⟩
  else
    let p := skipLines m.skipped 0 ⟨(org.take m.last).drop m.first, org.take m.first⟩
    ⟨p.matched, p.unmatched ++ org.drop m.last⟩

/-- A failure (`fail`). -/
structure Fail where
  groups : Groups
  /-- `users`, without duplicates -/
  users : List String := []
  /-- `matches` -/
  lines : List TLine := []
  /-- `nofail-matches` -/
  nofailLines : List TLine := []
  /-- `mlfpending` -/
  pending : Bool := false
  /-- `ip` -/
  ip : Option IPAddr := none

/-- How the text of an address is given. -/
inductive AddrKind where
  | ip4
  | ip6
  /-- `defcidr` (filter.py 857-859) -/
  | default
deriving DecidableEq

/-- Configuration and environment of the search. -/
structure FindEnv where
  /-- `__failRegex` -/
  failRegex : List Rx
  /-- `__ignoreRegex` -/
  ignoreRegex : List Rx := []
  /-- `__prefRegex` -/
  prefRegex : Option Rx := none
  /-- `__lineBufferSize` -/
  maxLines : Nat := 1
  /-- `defcidr == IPAddr.CIDR_RAW` -/
  raw : Bool := false
  /-- `IPAddr(text, cidr)`, `none` if the prefix length is no number -/
  addr : String → AddrKind → Option String → Option IPAddr
  /-- `DNSUtils.textToIp(text, useDns)` -/
  textToIp : String → List IPAddr

/-- State of the search. -/
structure FindState where
  /-- `__lineBuffer` -/
  buffer : List TLine := []
  /-- `mlfidCache` (filter.py 162-167); an empty cache is as good as none -/
  conns : Cache String Fail := Cache.init 100 300

/-- A reported failure (`[failRegexIndex, fid, date, fail]`, filter.py 984): number of the regular expression, failure-id, data. -/
structure Report where
  index : Nat
  fid : IPAddr
  fail : Fail

namespace Find

/-- `_updateUsers(fail, user)` (filter.py 784-791); `users` is the one of `fail` -/
def updateUsers (users : List String) (user : Option String) : List String :=
  match user with
  | some u => if u ≠ "" then (if u ∈ users then users else users ++ [u]) else users
  | none => users

/-- Final part of `_mergeFailure` (filter.py 827-841): `nofail`, `forget` are the flags 1 and 2. -/
def mergeEnd (fail : Fail) (users : List String) (nofail forget : Bool) (lines : List TLine) : Fail :=
  let reset := fail.pending || decide (1 < users.length)
  let fail := { fail with pending := false }
  let fail := if reset then { fail with groups := (fail.groups.erase "nofail").erase "mlfgained" } else fail
  if !(nofail && !reset) then { fail with lines := fail.nofailLines ++ fail.lines ++ lines, nofailLines := [] }
  else if !forget then { fail with nofailLines := fail.nofailLines ++ lines }
  else fail

/-- `_mergeFailure(mlfid, fail, failRegex)` (filter.py 793-843): the failure kept for the connection (if any), the groups of the new one, and matched lines.
The result is the merged failure, and whether it is kept. -/
def mergeFailure (known : Option Fail) (g : Groups) (lines : List TLine) : Fail × Bool :=
  let gained := g.truthy "mlfgained"
  let g : Groups := if gained && !g.truthy "nofail" then g.insert "nofail" (g.val "mlfgained") else g
  let nofail := gained || g.truthy "nofail"
  let forget := g.truthy "mlfforget"
  let g : Groups := Dict.erase g "mlfforget"
  match known with
  | some k =>
    let users := updateUsers k.users (g.val "user")
    let was := k.groups.truthy "nofail" || k.groups.truthy "mlfgained"
    let k := { k with users, groups := (k.groups.erase "nofail").erase "mlfgained" }
    let k := if gained then { k with pending := false } else k
    let k := if !was && !k.pending then { k with lines := [] } else k
    let k := { k with groups := k.groups.updateSome g }
    (mergeEnd k users nofail forget lines, !forget)
  | none =>
    if !forget then
      let users := updateUsers [] (g.val "user")
      (mergeEnd { groups := g, users } users nofail forget lines, true)
    else (mergeEnd { groups := g } [] nofail forget lines, false)

/-- The failure-ids of a failure (filter.py 946-975): `none` if `int(cidr)` raises; no ids if there is no identifier. Returns the entry `ip`, too. -/
def identify (env : FindEnv) (g : Groups) : Option (Option (List IPAddr × Option IPAddr)) :=
  let raws (ip : String) (kind : AddrKind) (cidr : Option String) : Option (Option (List IPAddr × Option IPAddr)) :=
    match env.addr ip kind cidr with
    | none => none
    | some a =>
      match g.val "fid" with
      | none => some (some ([a], none))
      | some fid => if fid = ip then some (some ([a], none)) else (env.addr fid .default none).map (fun f => some ([f], some a))
  match g.val "ip4" with
  | some ip => raws ip .ip4 (g.val "cidr")
  | none =>
    match g.val "ip6" with
    | some ip => raws ip .ip6 (g.val "cidr")
    | none =>
      match g.val "dns" with
      | some ip => if env.raw then raws ip .default none else some (some (env.textToIp ip, none))
      | none =>
        match g.val "fid" with
        | some fid => raws fid .default none
        | none => some none

/-- the cached failure is changed in place -/
def modify (c : Cache String Fail) (k : String) (f : Fail) : Cache String Fail :=
  match c.cache.get? k with
  | some v => { c with cache := c.cache.insert k (f, v.2) }
  | none => c

/-- What happens to a match (filter.py 938-989). -/
inductive Outcome where
  /-- an exception that is not handled in the loop -/
  | error
  /-- `RegexException` by `getFailID()`: the next regular expression is tried -/
  | next
  /-- the failures found -/
  | done (r : List Report)

/-- A match that is not ignored (filter.py 938-986). `groups` are the ones of prefix and match. -/
def handle (env : FindEnv) (now : Int) (s : FindState) (i : Nat) (groups : Groups) (lines : List TLine) : Outcome × FindState :=
  match groups.val "mlfid" with
  | none =>
    match identify env groups with
    | none => (.error, s)
    | some none => (.next, s)
    | some (some (fids, ip)) => (.done (fids.map (fun fid => ⟨i, fid, { groups, lines, ip }⟩)), s)
  | some mlfid =>
    let (known, conns) := s.conns.get now mlfid
    let (fail, keep) := mergeFailure known groups lines
    let write (f : Fail) : FindState :=
      { s with conns :=
        if keep then (match known with | some _ => modify conns mlfid f | none => conns.set now mlfid f)
        else (match known with | some _ => conns.unset mlfid | none => conns) }
    if fail.groups.truthy "nofail" then (.done [], write fail)
    else
      match identify env fail.groups with
      | none => (.error, write fail)
      | some none => (.done [], write { fail with pending := true })
      | some (some (fids, ip)) =>
        let fail := if ip.isSome then { fail with ip } else fail
        (.done (fids.map (fun fid => ⟨i, fid, fail⟩)), write fail)

/-- `_ignoreLine(buf, orgBuffer, failRegex)` (filter.py 762-782): whether an expression matches -/
def ignored (env : FindEnv) (buf : String) : Bool := env.ignoreRegex.any (fun r => (r buf).isSome)

/-- The loop over the regular expressions (filter.py 892-989). `drop`: the line has no date, but dates are checked. -/
def loop (env : FindEnv) (now : Int) (drop : Bool) (org : List TLine) (pre : Groups) : List Rx → Nat → FindState → String → Option (List Report) × FindState
  | [], _, s, _ => (some [], s)
  | r :: rs, i, s, buf =>
    match r buf with
    | none => loop env now drop org pre rs (i + 1) s buf
    | some m =>
      let p := m.parts org
      if ignored env (if 1 < env.maxLines then TLine.buf p.matched else buf) then
        (some [], { s with buffer := p.unmatched })
      else if drop then loop env now drop org pre rs (i + 1) s buf
      else
        let s := { s with buffer := p.unmatched }
        match handle env now s i (pre.update m.groups) p.matched with
        | (.error, s) => (none, s)
        | (.done r, s) => (some r, s)
        | (.next, s) => loop env now drop org pre rs (i + 1) s (TLine.buf s.buffer)

/-- `findFailure(tupleLine, date, noDate)` (filter.py 853-990); `none` if an exception is raised -/
def findFailure (env : FindEnv) (now : Int) (drop : Bool) (s : FindState) (l : TLine) : Option (List Report) × FindState :=
  let org := if 1 < env.maxLines then (let b := s.buffer ++ [l]; b.drop (b.length - env.maxLines)) else [l]
  let s := { s with buffer := org }
  let buf := TLine.buf org
  if env.ignoreRegex.length + 2 < env.failRegex.length ∧ ignored env buf = true then (some [], s)
  else
    match env.prefRegex with
    | none => loop env now drop org Dict.empty env.failRegex 0 s buf
    | some pr =>
      match pr buf with
      | none => (some [], s)
      | some m =>
        let pre := m.groups.erase "content"
        if m.groups.truthy "content" then
          let b := [⟨"", "", (m.groups.val "content").getD ""⟩]
          loop env now drop org pre env.failRegex 0 { s with buffer := b } (TLine.buf b)
        else loop env now drop org pre env.failRegex 0 s buf

end Find

end Verif
