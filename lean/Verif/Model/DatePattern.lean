import Verif.Model.Cache

/-!
# Templates of date patterns — `fail2ban/server/datedetector.py` (44-66: `_getPatternTemplate`, 256-296: `appendTemplate`)

Texts are lists of characters. A template is what it was built from. `str.upper` is a parameter, and so is whether a pattern is a valid format
(`DatePatternRegex` raises `TypeError` if not). Adding of the defaults is not modelled here (only that `addDefaultTemplate` is called; see `DefaultDates`).
-/

namespace Verif.DatePattern

abbrev Text := List Char

/-- What is outside -/
structure Lib where
  /-- `str.upper` -/
  upper : Text → Text
  /-- `DatePatternRegex(pattern)` does not raise -/
  valid : Text → Bool

inductive Template where
  /-- `DateEpoch(pattern=pattern, longFrm=long)` -/
  | epochIn (pattern : Text) (long : Bool)
  /-- `DateEpoch(lineBeginOnly=begin, longFrm=long)` -/
  | epoch (begin' long : Bool)
  /-- `DateTai64n(wordBegin=('start' if begin else False))` -/
  | tai64n (begin' : Bool)
  /-- `DatePatternRegex(pattern)` -/
  | regex (pattern : Text)
deriving DecidableEq

/-- `a in b` of texts -/
def inText (a : Text) : Text → Bool
  | [] => a.isEmpty
  | c :: l => a.isPrefixOf (c :: l) || inText a l

/-- The key of a pattern (datedetector.py 45-48, 272-274) -/
def keyOf (lib : Lib) (p : Text) : Text := if '%' ∈ p then p else lib.upper p

/-- `RE_EPOCH_PATTERN.search(pattern)`: `(?<!\\)\{L?EPOCH\}`, ignoring case -/
def hasEpoch : Option Char → Text → Bool
  | _, [] => false
  | prev, c :: l =>
    (decide (prev ≠ some '\\') && (("{epoch}".toList).isPrefixOf ((c :: l).map Char.toLower) || ("{lepoch}".toList).isPrefixOf ((c :: l).map Char.toLower))) ||
      hasEpoch (some c) l

/-- A new template (datedetector.py 51-63); `none` if it is not valid -/
def build (lib : Lib) (p key : Text) : Option Template :=
  let rest : Option Template :=
    if key = "TAI64N".toList ∨ key = "{^LN-BEG}TAI64N".toList ∨ key = "^TAI64N".toList then some (.tai64n (decide (key ≠ "TAI64N".toList)))
    else if lib.valid p then some (.regex p) else none
  if inText "EPOCH".toList key then
    if hasEpoch none p then some (.epochIn p (inText "LEPOCH".toList key))
    else if key = "EPOCH".toList ∨ key = "{^LN-BEG}EPOCH".toList ∨ key = "^EPOCH".toList then some (.epoch (decide (key ≠ "EPOCH".toList)) false)
    else if key = "LEPOCH".toList ∨ key = "{^LN-BEG}LEPOCH".toList ∨ key = "^LEPOCH".toList then some (.epoch (decide (key ≠ "LEPOCH".toList)) true)
    else rest
  else rest

abbrev Templates := Cache Text Template

/-- `_getPatternTemplate(pattern, key)` (datedetector.py 44-66) at time `t` -/
def getTemplate (lib : Lib) (c : Templates) (t : Int) (p key : Text) : Option Template × Templates :=
  let g := c.get t key
  match g.1 with
  | some x => (some x, g.2.set t key x)
  | none =>
    match build lib p key with
    | none => (none, g.2)
    | some x => (some x, g.2.set t key x)

/-- What `appendTemplate` adds -/
inductive Added where
  | template (x : Template)
  /-- `addDefaultTemplate(flt)` is called, for `{^LN-BEG}` or for `{DEFAULT}` -/
  | defaults (begin' : Bool)
  /-- the defaults within the pattern -/
  | within (pattern : Text)
  /-- `TypeError` -/
  | invalid
deriving DecidableEq

/-- `appendTemplate(pattern)` (datedetector.py 271-292) at time `t` -/
def append (lib : Lib) (c : Templates) (t : Int) (p : Text) : Added × Templates :=
  let key := keyOf lib p
  let g := c.get t key
  match g.1 with
  | some x => (.template x, g.2.set t key x)
  | none =>
    if key = "{^LN-BEG}".toList ∨ key = "{DEFAULT}".toList then (.defaults (decide (key = "{^LN-BEG}".toList)), g.2)
    else if inText "{DATE}".toList key then (.within p, g.2)
    else
      let r := getTemplate lib g.2 t (if key = "{NONE}".toList then "{UNB}^".toList else p) key
      match r.1 with
      | some x => (.template x, r.2.set t key x)
      | none => (.invalid, r.2)

/-- `DD_patternCache` -/
def cache0 : Templates := Cache.init 1000 3600

/-- A history: patterns of all jails, with times -/
def run (lib : Lib) (c : Templates) : List (Int × Text) → List Added × Templates
  | [] => ([], c)
  | (t, p) :: l =>
    let r := append lib c t p
    let q := run lib r.2 l
    (r.1 :: q.1, q.2)

end Verif.DatePattern
