import Verif.Model.Command

/-!
# Formatted output of `fail2ban-regex --out` — `fail2ban/client/fail2banregex.py`: `_prepaireOutput` (557-617), the loop of `process`
with this option (620-637), what `testRegex` gives with it (499-517)

Values are the texts that `print` resp. `uni_string` make of them; a value `None` in a failure is the same as a missing one (both are printed
as `None`, and a ticket does not take it over). The identifier and the address print the same as values of the failure and as tags
(`BanTicket` makes an `IPAddr` of the identifier). Other tags of `ActionInfo` are given by the failure (`info`); exceptions while they are
calculated (e.g. `<bantime>`, for which a jail is needed) are not modelled. What the filter finds in a line is given by the environment, it
may depend on lines before. Each failure has a list of matched lines (filter.py 833-841, 938).
-/

namespace Verif

namespace RegexOut
open Tags Command

/-- `s.replace(old, new)` for a text `old` that is not empty; the number is how much of a match is still to be skipped. -/
def replaceAt (old new : Text) : Nat → Text → Text
  | _, [] => []
  | k + 1, _ :: s => replaceAt old new k s
  | 0, c :: s =>
    if old.isPrefixOf (c :: s) then new ++ replaceAt old new (old.length - 1) s else c :: replaceAt old new 0 s

def replace (old new s : Text) : Text := replaceAt old new 0 s

/-- A matched line: a string, or the parts before, of and behind its date. -/
inductive Line where
  | str (s : Text)
  | parts (l : List Text)
deriving DecidableEq

/-- `''.join(r for r in r)` if it is no string (lines 572-573, 613-614; `getMatches`, ticket.py 154-156) -/
def Line.text : Line → Text
  | .str s => s
  | .parts l => l.flatten

/-- An entry of the result of a line: `[regex, id, time, fail]`. -/
structure Fail where
  /-- `r[1]` -/
  fid : Text
  /-- `r[3]`, without `matches` -/
  fail : Text → Option Text
  /-- `r[3]['matches']` -/
  matches_ : List Line
  /-- the list of them as text -/
  listed : Text
  /-- other tags of `ActionInfo` -/
  info : Text → Option Text
  /-- the text of the format `row` (line 578) -/
  row : Text

/-- `"\n".join(l)` -/
def joinNl : List Text → Text
  | [] => []
  | [a] => a
  | a :: l => a ++ '\n' :: joinNl l

/-- `r[3].get(k)` -/
def Fail.get (f : Fail) (k : Text) : Option Text := if k = "matches".toList then some f.listed else f.fail k

/-- `r[3].get('ip', r[1])` (line 567; `getIP`, ticket.py 98-99) -/
def Fail.ip (f : Fail) : Text := (f.fail "ip".toList).getD f.fid

/-- `ticket.getData()` (ticket.py 56-60, 196-199), the value of the tag `F-*` -/
def Fail.data (f : Fail) (k : Text) : Option Text := (f.get k).or (if k = "failures".toList then some ['0'] else none)

/-- tags of `ActionInfo` (actions.py 374-401) -/
def Fail.tag (f : Fail) (n : Text) : Option Text :=
  if n = "ip".toList then some f.ip
  else if n = "fid".toList then some f.fid
  else if n = "matches".toList then some (joinNl (f.matches_.map Line.text))
  else f.info n

/-- `"\x00msg\x00"` -/
def mark : Text := ['\x00', 'm', 's', 'g', '\x00']

/-- `_escOut` (lines 585-589) -/
def escOut (t v : Text) : Text := if t ≠ "msg".toList then replace ['\x00'] ['\\', 'x', '0', '0'] v else v

/-- `_get_msg` (lines 597-602): value, and `wrap['NL']` afterwards -/
def getMsg (f : Fail) (nl : Bool) : Text × Bool :=
  if !nl && decide (f.matches_.length ≤ 1) then (joinNl (f.matches_.map Line.text), nl) else (mark, true)

/-- `substVal` (action.py 865-874) -/
def tagVal (h : Hosts) (get : Text → Option Text) (n : Text) : Option Text :=
  match get n with
  | some v => some (escOut n v)
  | none => addRepl h n

/-- `substTag` (action.py 883-889) for a tag of `FCUSTAG_CRE` -/
def capVal (data : Text → Option Text) (n : Text) : Option Text :=
  (fTag n).map (fun m => match data (mapTag2Opt m) with
    | some v => escOut ('F' :: '_' :: mapTag2Opt m) v
    | none => [])

/-- `replaceDynamicTags(ofmt, aInfo, escapeVal=_escOut)` (action.py 876-896) -/
def replaceTags (h : Hosts) (ofmt : Text) (get data : Text → Option Text) : Text :=
  let r := sub (tagVal h get) ofmt
  if '<' ∈ r then sub (capVal data) r else r

/-- the tag `<msg>` is met, so that `_get_msg` is called -/
def asksMsg (ofmt : Text) : Bool := decide (Piece.tag "msg".toList ∈ pieces ofmt)

/-- The first loop (lines 593-609): what is printed, and the rows kept for later. -/
def loop (h : Hosts) (ofmt : Text) : Bool → List Fail → List Text × List (Fail × Text)
  | _, [] => ([], [])
  | nl, f :: fs =>
    let m := getMsg f nl
    let nl := if asksMsg ofmt then m.2 else nl
    let v := replaceTags h ofmt (fun n => if n = "msg".toList then some m.1 else f.tag n) f.data
    let r := loop h ofmt nl fs
    if nl then (r.1, (f, v) :: r.2) else (v :: r.1, r.2)

/-- The second loop (lines 611-616). -/
def wrapped (rows : List (Fail × Text)) : List Text :=
  rows.flatMap (fun p => p.1.matches_.map (fun r => replace mark r.text p.2))

/-- `_out` of the extended format (lines 590-616) -/
def outTags (h : Hosts) (ofmt : Text) (ret : List Fail) : List Text :=
  let r := loop h ofmt false ret
  r.1 ++ wrapped r.2

/-- `_prepaireOutput` (lines 557-617): the lines printed for the failures of a line -/
def out (h : Hosts) (ofmt : Text) (ret : List Fail) : List Text :=
  if ofmt = "id".toList ∨ ofmt = "fid".toList then ret.map Fail.fid
  else if ofmt = "ip".toList then ret.map Fail.ip
  else if ofmt = "msg".toList then ret.flatMap (fun r => r.matches_.map Line.text)
  else if ofmt = "row".toList then ret.map Fail.row
  else if '<' ∉ ofmt then ret.map (fun r => (r.get ofmt).getD "None".toList)
  else outTags h ofmt ret

/-- A line given to the tool: of a file or an argument, or an entry of a journal. -/
inductive Input where
  | line (s : Text)
  | journal (parts : List Text)
deriving DecidableEq

/-- `line.rstrip('\r\n')` -/
def rstrip (s : Text) : Text := (s.reverse.dropWhile (fun c => c == '\r' || c == '\n')).reverse

/-- the input as it is processed; `none`: skipped (lines 625-633) -/
def taken : Input → Option Input
  | .journal p => some (.journal p)
  | .line s =>
    let s := rstrip s
    if s.head? = some '#' || s.isEmpty then none else some (.line s)

/-- `process` with `--out` (lines 620-637); `found` gives what `processLine` finds after the inputs `before`, with `nofail` of each. -/
def process (h : Hosts) (ofmt : Text) (found : List Input → Input → List (Bool × Fail)) : List Input → List Input → List Text
  | _, [] => []
  | before, i :: is =>
    match taken i with
    | none => process h ofmt found before is
    | some i =>
      let ret := ((found before i).filter (fun p => !p.1)).map Prod.snd
      (if 0 < ret.length then out h ofmt ret else []) ++ process h ofmt found (before ++ [i]) is

end RegexOut

end Verif
