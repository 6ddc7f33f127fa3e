/-!
# Tags of regular expressions — `fail2ban/server/failregex.py` 30-219

Texts are lists of characters. Rewriting of flags (`R_GLOB2LOCFLAGS`, 93-98, 137-139) and the check of the expression by module `re` are left out.
-/

namespace Verif.FailTags

abbrev Str := List Char

/-- `IPAddr.IP_4_RE` (ipdns.py 323) -/
def ip4re : Str := "(?:\\d{1,3}\\.){3}\\d{1,3}".toList

/-- `IPAddr.IP_6_RE` (ipdns.py 324) -/
def ip6re : Str := "(?:[0-9a-fA-F]{1,4}::?|:){1,7}(?:[0-9a-fA-F]{1,4}|(?<=:):)".toList

/-- `R_HOST[RI_IPV4]` (failregex.py 36) -/
def rIp4 : Str := "(?:::f{4,6}:)?(?P<ip4>".toList ++ ip4re ++ ")".toList

/-- `R_HOST[RI_IPV6]` (38) -/
def rIp6 : Str := "(?P<ip6>".toList ++ ip6re ++ ")".toList

/-- `R_HOST[RI_DNS]` (40) -/
def rDns : Str := "(?P<dns>[\\w\\-.^_]*\\w)".toList

/-- `R_HOST[RI_ADDR]` (58) -/
def rAddr : Str := "\\[?(?:".toList ++ rIp4 ++ "|".toList ++ rIp6 ++ ")\\]?".toList

/-- `R_HOST[RI_HOST]` (59) -/
def rHost : Str := "(?:".toList ++ rAddr ++ "|".toList ++ rDns ++ ")".toList

/-- `R_HOST[RI_CIDR]` (46) -/
def rCidr : Str := "(?P<cidr>\\d+)".toList

/-- `R_HOST[RI_SUBNET]` (60) -/
def rSubnet : Str := "\\[?(?:".toList ++ rIp4 ++ "|".toList ++ rIp6 ++ ")(?:/".toList ++ rCidr ++ ")?\\]?".toList

/-- `RH4TAG` (62-85) -/
def table : List (Str × Str) := [
  ("IP4".toList, rIp4), ("F-IP4/".toList, rIp4),
  ("IP6".toList, rIp6), ("F-IP6/".toList, rIp6),
  ("ADDR".toList, rAddr), ("F-ADDR/".toList, rAddr),
  ("CIDR".toList, rCidr), ("F-CIDR/".toList, rCidr),
  ("SUBNET".toList, rSubnet), ("F-SUBNET/".toList, rSubnet),
  ("DNS".toList, rDns), ("F-DNS/".toList, rDns),
  ("F-ID/".toList, "(?P<fid>\\S+)".toList),
  ("F-PORT/".toList, "(?P<fport>\\w+)".toList)]

/-- `tag.lower()` of a name; only names of ASCII characters get here from tags. -/
def lower (s : Str) : Str := s.map Char.toLower

/-- `mapTag2Opt` (100-102, `R_MAP` 88-91) -/
def mapTag (s : Str) : Str :=
  let s := lower s
  if s = "id".toList then "fid".toList
  else if s = "port".toList then "fport".toList
  else s

/-- `[\w\-]`. Letters that are not ASCII are left out: a tag with them is never known, and stays as it is also if it is taken as text. -/
def isName (c : Char) : Bool := c.isAlphanum || c = '_' || c = '-'

/-- `[/\w-]`: what can be in a tag. -/
def inTag (c : Char) : Bool := isName c || c = '/'

/-- `/?` at the beginning. -/
def cutHead (t : Str) : Str := match t with
  | '/' :: t => t
  | t => t

/-- `/?` at the end. -/
def cutLast (t : Str) : Str := match t.getLast? with
  | some '/' => t.dropLast
  | _ => t

/-- `/?[\w\-]+/?` for a text of such characters. -/
def isTag (t : Str) : Bool := !(cutLast (cutHead t)).isEmpty && (cutLast (cutHead t)).all isName

/-- `FTAG_CRE` (30) tried after a `<`: the text up to `>`, if it is the name of a tag. What can be in a tag cannot be its end, so there is one possibility only. -/
def tagAt (s : Str) : Option Str :=
  match s.dropWhile inTag with
  | '>' :: _ => if isTag (s.takeWhile inTag) then some (s.takeWhile inTag) else none
  | _ => none

/-- `[A-Z0-9_\-]` -/
def isCustom (c : Char) : Bool := c.isUpper || c.isDigit || c = '_' || c = '-'

/-- `F-([A-Z0-9_\-]+)` up to the end (`FCUSTNAME_CRE`, 32) -/
def custom (t : Str) : Option Str := match t with
  | 'F' :: '-' :: n => if !n.isEmpty && n.all isCustom then some n else none
  | _ => none

/-- `openTags` and the counter of `<SKIPLINES>` (175-178) -/
structure State where
  opened : List Str
  lines : Nat

/-- A tag as it was written. -/
def tagText (t : Str) : Str := '<' :: t ++ ['>']

/-- `substTag` (180-216); `dns` is whether `useDns` is not `no`. -/
def subst (dns : Bool) (st : State) (t : Str) : Str × State :=
  if t = "HOST".toList then (if dns then rHost else rAddr, st)
  else if t = "SKIPLINES".toList then
    ("\\n(?P<skiplines".toList ++ (toString st.lines).toList ++ ">(?:(?:.*\\n)*?))".toList, { st with lines := st.lines + 1 })
  else match table.lookup t with
    | some r => (r, st)
    | none => match t with
      | '/' :: t' => match custom t' with
        | some n => (if n ∈ st.opened then ")".toList else tagText t, st)
        | none => (tagText t, st)
      | _ => match custom t with
        | some n => ("(?P<".toList ++ mapTag n ++ ">".toList, { st with opened := n :: st.opened })
        | none => (tagText t, st)

/-- `FTAG_CRE.sub(substTag, regex)` (219), from a position on; `skip` characters belong to a tag. -/
def scan (dns : Bool) : Nat → State → Str → Str
  | _, _, [] => []
  | k + 1, st, _ :: s => scan dns k st s
  | 0, st, c :: s =>
    match if c = '<' then tagAt s else none with
    | some t => (subst dns st t).1 ++ scan dns (t.length + 1) (subst dns st t).2 s
    | none => c :: scan dns 0 st s

/-- `Regex._resolveHostTag(regex, useDns)` (173-219) -/
def resolve (dns : Bool) (s : Str) : Str := scan dns 0 ⟨[], 0⟩ s

end Verif.FailTags
