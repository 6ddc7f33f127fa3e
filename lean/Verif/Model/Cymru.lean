/-!
# Status of a jail with information on networks — `fail2ban/server/banmanager.py` (133-259), `fail2ban/server/actions.py` (720-745)

`status jail cymru` asks the DNS service of Team Cymru for every banned address. Answers of the resolver are arbitrary and may change
from query to query. The list of bans is read twice (banmanager.py 101-103 without lock, 163-164), so it may change in between. Log messages and texts of
errors are left out. Sorting is by insertion.
-/

namespace Verif.Cymru

/-- A banned address: parts of an IPv4 address, hexadecimal digits of an IPv6 address, or something else. -/
inductive Addr where
  | v4 (parts : List String)
  | v6 (digits : List String)
  | raw
deriving DecidableEq

/-- `sep.join(l)` -/
def join (sep : String) : List String → String
  | [] => ""
  | [a] => a
  | a :: l => a ++ sep ++ join sep l

/-- `getPTR(…)` with the suffix of the service (ipdns.py 581-600, banmanager.py 169-172); `parts` is `ntoa.split(".")`, `digits` the characters of `hexdump` -/
def question : Addr → String
  | .v4 p => join "." p.reverse ++ ".origin.asn.cymru.com"
  | .v6 d => join "." d.reverse ++ ".origin6.asn.cymru.com"
  | .raw => ""

/-- Result of `resolver.query(question, "TXT")` -/
inductive Answer where
  /-- records as text -/
  | rows (l : List (List Char))
  | nxdomain
  /-- another exception -/
  | failed

/-- `text.split("|")` -/
def split : List Char → List (List Char)
  | [] => [[]]
  | c :: s =>
    if c = '|' then [] :: split s
    else match split s with
      | [] => [[c]]
      | p :: ps => (c :: p) :: ps

/-- characters removed by `strip("'\" ")` -/
def edge (c : Char) : Bool := c == '\'' || c == '"' || c == ' '

/-- `strip("'\" ")` -/
def strip (s : List Char) : List Char := ((s.dropWhile edge).reverse.dropWhile edge).reverse

/-- `handleBlankResult` (lines 132-137); `None` cannot occur -/
def blank (v : String) : String := if v = "" then "unknown" else v

/-- ASN, country and registry of a record (lines 182-189); `none` if it has not five fields (ValueError) -/
def fields (row : List Char) : Option (String × String × String) :=
  match (split row).map (fun p => String.ofList (strip p)) with
  | [asn, _, country, rir, _] => some (blank asn, blank country, blank rir)
  | _ => none

/-- Insertion into a sorted list without repetitions (`add` and `sorted` of a set). -/
def insert (x : String) : List String → List String
  | [] => [x]
  | y :: l => if x = y then y :: l else if x < y then x :: y :: l else y :: insert x l

/-- `', '.join(sorted(set(l)))` (lines 190-192) -/
def shown (l : List String) : String := join ", " (l.foldr insert [])

/-- All records of an answer, `none` if one is wrong. -/
def allFields : List (List Char) → Option (List (String × String × String))
  | [] => some []
  | r :: l =>
    match fields r with
    | none => none
    | some f => match allFields l with
      | none => none
      | some fs => some (f :: fs)

/-- What is listed for an address (lines 173-196); `none` if the loop ends (lines 197-208). -/
def entry : Answer → Option (String × String × String)
  | .nxdomain => some ("nxdomain", "nxdomain", "nxdomain")
  | .failed => none
  | .rows [] => none
  | .rows l =>
    match allFields l with
    | none => none
    | some fs => some (shown (fs.map (·.1)), shown (fs.map (·.2.1)), shown (fs.map (·.2.2)))

/-- The dictionary that is returned, and the questions asked. -/
structure Info where
  asn : List String
  country : List String
  rir : List String
  /-- there is a key `error` -/
  error : Bool
  asked : List String
deriving DecidableEq

/-- The loop over banned addresses (lines 166-213); `dns n q` is the answer to query number `n`. -/
def look (dns : Nat → String → Answer) : Nat → List Addr → Info
  | _, [] => ⟨[], [], [], false, []⟩
  | n, ip :: ips =>
    match entry (dns n (question ip)) with
    | none => ⟨[], [], [], true, [question ip]⟩
    | some e =>
      let i := look dns (n + 1) ips
      ⟨e.1 :: i.asn, e.2.1 :: i.country, e.2.2 :: i.rir, i.error, question ip :: i.asked⟩

/-- `getBanListExtendedCymruInfo` (lines 144-214); `installed` if `dns` can be imported -/
def info (installed : Bool) (dns : Nat → String → Answer) (ips : List Addr) : Info :=
  if installed then look dns 0 ips else ⟨["error"], ["error"], ["error"], true, []⟩

/-- A line of the status. -/
inductive Item where
  | currently (n : Nat)
  | total (n : Nat)
  | ips (l : List String)
  | asn (l : List String)
  | country (l : List String)
  | rir (l : List String)
deriving DecidableEq

/-- The status of actions: two numbers or lines. -/
inductive Status where
  | numbers (cur total : Nat)
  | lines (l : List Item)
deriving DecidableEq

/-- `Actions.status(flavor)` (actions.py 720-745) where `bans` are the banned addresses as
listed (`getBanList`), `later` the addresses at the second read (banmanager.py 163-164), `size` the result of `size()` -/
def status (installed : Bool) (dns : Nat → String → Answer) (flavor : String) (size : Nat) (bans : List String) (later : List Addr)
    (total : Nat) : Status :=
  if flavor = "stats" then .numbers size total
  else
    let i := info installed dns later
    .lines ([.currently (if flavor ≠ "short" then bans.length else size), .total total] ++ (if flavor ≠ "short" then [.ips bans] else []) ++
      (if flavor = "cymru" then [.asn i.asn, .country i.country, .rir i.rir] else []))

end Verif.Cymru
