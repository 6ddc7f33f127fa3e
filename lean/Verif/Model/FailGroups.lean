import Verif.Model.FailTags

/-!
# Groups of a match — `fail2ban/server/failregex.py`, `Regex.__init__`, `getGroups`, `FailRegex`

The compiled expression is a list of names of groups (`groupindex`), all different; a match is the value of each group (`groupdict`, with `get`: `None` for unknown names). Digits are those of
ASCII.
-/

namespace Verif.FailGroups

open Verif.FailTags

/-- A value in the dictionary of groups. -/
inductive Val
  | none
  | str (s : Str)
  | tup (vs : List Val)

/-- `groupdict()`, seen by `get`. -/
abbrev Dict := Str → Val

/-- Order of texts in Python. -/
def leB : Str → Str → Bool
  | [], _ => true
  | _ :: _, [] => false
  | a :: s, b :: t => if a.toNat < b.toNat then true else if a = b then leB s t else false

def insert (x : Str × Str) : List (Str × Str) → List (Str × Str)
  | [] => [x]
  | y :: l => if leB x.1 y.1 then x :: y :: l else y :: insert x l

/-- `list.sort()` of pairs whose first parts differ (failregex.py 153, 154) -/
def sort : List (Str × Str) → List (Str × Str)
  | [] => []
  | x :: l => insert x (sort l)

/-- `(.*?)(?:_\d+)?$` (115): the shortest text such that only `_` and digits, or nothing, follow. -/
def stem : Str → Str
  | [] => []
  | c :: s => if c = '_' && !s.isEmpty && s.all Char.isDigit then [] else c :: stem s

inductive Kind
  | alt
  | tuple
  deriving DecidableEq

/-- `COMPLNAME_CRE.match(k)` with `mapTag2Opt` (102-104, 115, 144-147), for names longer than `alt_`. -/
def complex (k : Str) : Option (Kind × Str) :=
  if k.length > 4 then
    if "alt_".toList.isPrefixOf k then some (.alt, mapTag (stem (k.drop 4)))
    else if "tuple_".toList.isPrefixOf k then some (.tuple, mapTag (stem (k.drop 6)))
    else none
  else none

/-- `_altValues` and `_tupleValues` (142-156) -/
def values (kind : Kind) (names : List Str) : List (Str × Str) :=
  sort (names.filterMap (fun k => match complex k with
    | some (g, n) => if g = kind then some (k, n) else none
    | none => none))

/-- Truth of a value in Python. -/
def truthy : Val → Bool
  | .none => false
  | .str s => !s.isEmpty
  | .tup vs => !vs.isEmpty

def put (f : Dict) (n : Str) (v : Val) : Dict := fun m => if m = n then v else f m

/-- Alternate values (failregex.py 308-312) -/
def merge : List (Str × Str) → Dict → Dict
  | [], f => f
  | (k, n) :: l, f => merge l (if truthy (f k) && !truthy (f n) then put f n (f k) else f)

/-- `t += (v,)` or `(t, v,)` (318-321) -/
def extend (t v : Val) : Val := match t with
  | .tup vs => .tup (vs ++ [v])
  | t => .tup [t, v]

/-- Tuples (failregex.py 314-322) -/
def combine : List (Str × Str) → Dict → Dict
  | [], f => f
  | (k, n) :: l, f => combine l (put f n (extend (f n) (f k)))

/-- `getGroups()` (161, 301-323): without complex names it is `groupdict()`, too. -/
def groups (names : List Str) (f : Dict) : Dict := combine (values .tuple names) (merge (values .alt names) f)

/-- `FAILURE_ID_GROPS`, `FAILURE_ID_PRESENTS` (399, 403) -/
def idGroups : List Str := ["fid".toList, "ip4".toList, "ip6".toList, "dns".toList]

def idPresents : List Str := idGroups ++ ["mlfid".toList]

/-- `FailRegex.__init__` (419-429): whether the expression is accepted; names of its groups and of those of `prefregex`. -/
def accepted (names : List Str) (pref : Option (List Str)) : Bool :=
  idPresents.any (fun g => names.contains g) || (match pref with
    | none => false
    | some p => idPresents.any (fun g => p.contains g))

/-- `getFailID(groups)` (439-454): the value of each group that exists, `none` if it took no part in the match; `none` is the exception. -/
def failId (m : Str → Option (Option Str)) : List Str → Option Str
  | [] => none
  | g :: gs => match m g with
    | none => failId m gs
    | some none => failId m gs
    | some (some v) => some v

end Verif.FailGroups
