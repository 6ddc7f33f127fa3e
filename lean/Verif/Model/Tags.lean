import Verif.Py.Dict

/-!
# Tags — `fail2ban/helpers.py`: `TAG_CRE` (366), `substituteRecursiveTags` (371-467)

Texts are lists of characters. The regular expression `<([^ <>]+)>` is modelled by `pieces`, that splits a text into tags and single
characters (matches cannot overlap, so this is what `search`, `sub` and `str.replace('<tag>', ..)` see). Dictionaries are plain ones, not
calling maps, all values are strings; `addrepl` is a function. Loops get fuel and give `none` if that does not suffice; that it does is a
theorem. `logSys` is left out.
-/

namespace Verif

abbrev Text := List Char

/-- A part of a text: a character, or a tag with its name. -/
inductive Piece where
  | chr (c : Char)
  | tag (name : Text)
deriving DecidableEq, Repr

namespace Tags

/-- may be part of the name of a tag: `[^ <>]` -/
def nameChar (c : Char) : Bool := decide (c ≠ ' ') && decide (c ≠ '<') && decide (c ≠ '>')

/-- The loop of `pieces`: `open'` is what follows a `<` (in reverse order) that may begin a tag. -/
def go : Option Text → Text → List Piece
  | none, [] => []
  | some n, [] => .chr '<' :: n.reverse.map .chr
  | none, c :: r => if c = '<' then go (some []) r else .chr c :: go none r
  | some n, c :: r =>
    if c = '<' then .chr '<' :: (n.reverse.map .chr ++ go (some []) r)
    else if c = '>' ∧ n ≠ [] then .tag n.reverse :: go none r
    else if nameChar c then go (some (c :: n)) r
    else .chr '<' :: (n.reverse.map .chr ++ .chr c :: go none r)

/-- All matches of `TAG_CRE` in a text, with the characters around. -/
def pieces (s : Text) : List Piece := go none s

/-- text of a piece -/
def pieceText : Piece → Text
  | .chr c => [c]
  | .tag n => '<' :: (n ++ ['>'])

/-- `TAG_CRE.sub(f, s)`; `none` of `f`: the match itself -/
def sub (f : Text → Option Text) (s : Text) : Text :=
  (pieces s).flatMap (fun p =>
    match p with
    | .chr c => [c]
    | .tag n => (f n).getD ('<' :: (n ++ ['>'])))

/-- `s.replace('<%s>' % n, r)` -/
def replaceAll (n r s : Text) : Text := sub (fun m => if m = n then some r else none) s

/-- first tag in pieces: offset and name -/
def firstTag : Nat → List Piece → Option (Nat × Text)
  | _, [] => none
  | i, .chr _ :: r => firstTag (i + 1) r
  | i, .tag n :: _ => some (i, n)

/-- `TAG_CRE.search(s, pos)`: start and name -/
def search (s : Text) (pos : Nat) : Option (Nat × Text) := firstTag pos (pieces (s.drop pos))

/-- `MAX_TAG_REPLACE_COUNT` (line 363) -/
def maxReplace : Nat := 25

/-- Definitions of tags. -/
abbrev Defs := Dict Text Text

/-- What `<rtag>` is replaced by (lines 428-436). -/
def repl (tags : Defs) (conditional : Text) (addrepl : Text → Option Text) (rtag : Text) : Option Text :=
  let r := if conditional ≠ [] then tags.get? (rtag ++ '?' :: conditional) else none
  match r with
  | some r => some r
  | none =>
    match tags.get? rtag with
    | some r => some r
    | none => addrepl rtag

/-- Outcome of a loop. -/
inductive Res (α : Type) where
  /-- the result -/
  | ok (a : α)
  /-- `ValueError`: self referencing definitions, with the tag and what was found in it -/
  | selfRef (tag found : Text)
  /-- more fuel is needed -/
  | fuel
deriving Repr, DecidableEq

/-- The inner loop (lines 412-448) for one tag: value and counters, from position `pos` on. -/
def replaceLoop (ignore : Text → Bool) (tags : Defs) (conditional : Text) (addrepl : Text → Option Text) (tag : Text) :
    Nat → Text → Dict Text Nat → Nat → Res (Text × Dict Text Nat)
  | 0, _, _, _ => .fuel
  | fuel + 1, value, rplc, pos =>
    match search value pos with
    | none => .ok (value, rplc)
    | some (start, rtag) =>
      if ignore rtag then replaceLoop ignore tags conditional addrepl tag fuel value rplc (start + rtag.length + 2)
      else if rtag = tag ∨ maxReplace < (rplc.get? rtag).getD 1 then .selfRef tag rtag
      else
        match repl tags conditional addrepl rtag with
        | none => replaceLoop ignore tags conditional addrepl tag fuel value rplc (start + rtag.length + 2)
        | some r =>
          replaceLoop ignore tags conditional addrepl tag fuel (replaceAll rtag r value)
            (rplc.insert rtag ((rplc.get? rtag).getD 0 + 1)) start

/-- State of the outer loop. -/
structure SubstState where
  tags : Defs
  /-- `done` -/
  done : List Text
  /-- `repCounts` -/
  repCounts : Dict Text (Dict Text Nat)
  /-- `repFlag` -/
  repFlag : Bool

/-- One tag (lines 402-461). -/
def substTag (ignore : Text → Bool) (conditional : Text) (addrepl : Text → Option Text) (fuel : Nat) (s : SubstState) (tag : Text) :
    Res SubstState :=
  if ignore tag ∨ tag ∈ s.done then .ok s
  else
    let orgval := (s.tags.get? tag).getD []
    match replaceLoop ignore s.tags conditional addrepl tag fuel orgval ((s.repCounts.get? tag).getD Dict.empty) 0 with
    | .fuel => .fuel
    | .selfRef a b => .selfRef a b
    | .ok (value, rplc) =>
      let again := decide (orgval ≠ value) && (search value 0).isSome
      .ok { tags := if orgval ≠ value then s.tags.insert tag value else s.tags
            done := if '<' ∈ value then s.done else tag :: s.done
            repCounts := if again || s.repCounts.contains tag then s.repCounts.insert tag rplc else s.repCounts
            repFlag := s.repFlag || again }

/-- One pass over all tags (lines 398-461). -/
def substPass (ignore : Text → Bool) (conditional : Text) (addrepl : Text → Option Text) (fuel : Nat) : List Text → SubstState → Res SubstState
  | [], s => .ok s
  | tag :: ks, s =>
    match substTag ignore conditional addrepl fuel s tag with
    | .ok s => substPass ignore conditional addrepl fuel ks s
    | .selfRef a b => .selfRef a b
    | .fuel => .fuel

/-- The outer loop (lines 396-464). -/
def substLoop (ignore : Text → Bool) (conditional : Text) (addrepl : Text → Option Text) (fuel : Nat) : Nat → SubstState → Res Defs
  | 0, _ => .fuel
  | n + 1, s =>
    match substPass ignore conditional addrepl fuel s.tags.keys { s with repFlag := false } with
    | .ok s => if s.repFlag then substLoop ignore conditional addrepl fuel n s else .ok s.tags
    | .selfRef a b => .selfRef a b
    | .fuel => .fuel

/-- `substituteRecursiveTags(inptags, conditional, ignore, addrepl)` -/
def substituteRecursiveTags (inptags : Defs) (conditional : Text) (ignore : Text → Bool) (addrepl : Text → Option Text) (fuel passes : Nat) :
    Res Defs :=
  substLoop ignore conditional addrepl fuel passes ⟨inptags, [], Dict.empty, false⟩

end Tags

end Verif
