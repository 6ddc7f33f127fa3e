import Verif.Model.Tags

/-!
# Commands of actions — `fail2ban/server/action.py`: `CommandAction.escapeTag` (703-729), `replaceTag` (731-819),
`replaceDynamicTags` (824-895); `fail2ban/server/utils.py`: `Utils.buildShellCmd` (124-145)

The information on a ban (`aInfo`) is two functions: the values of tags as strings, and the values captured by the filter (`aInfo["F-*"]`).
Calling maps are replaced by the values they give; an exception while calculating one is not modelled. The cache of `replaceTag` is left
out (it keeps results). `\w` of regular expressions is a parameter `word`, host names are parameters. For `subprocess.Popen(.., shell=True)`
a string is the same as a list with that string only, so a command is a text and its arguments (`$0`, `$1`, ..).
-/

namespace Verif

namespace Command
open Tags

/-- `CommandAction.ESCAPE_CRE` (lines 700 and 821): the characters that are special for a shell -/
def specialChars : List Char :=
  ['\\', '#', '&', ';', '`', '|', '*', '?', '~', '<', '>', '^', '(', ')', '[', ']', '{', '}', '$', '\'', '"', '\n', '\r']

def special (c : Char) : Bool := decide (c ∈ specialChars)

/-- `ESCAPE_CRE.search(value)` -/
def hasSpecial (v : Text) : Bool := v.any special

/-- `escapeTag` (lines 722-729) -/
def escapeChar (c : Char) : Text :=
  if special c then ['\\', if c = '\n' then 'n' else if c = '\r' then 'r' else c] else [c]

def escapeTag (v : Text) : Text := v.flatMap escapeChar

/-- `_escapedTags` (line 316) -/
def escapedTags (n : Text) : Bool := decide (n ∈ ["matches".toList, "ipmatches".toList, "ipjailmatches".toList])

/-- `ADD_REPL_TAGS` (lines 60-70) -/
structure Hosts where
  fq : Text
  sh : Text

def addRepl (h : Hosts) (n : Text) : Option Text :=
  if n = "br".toList then some ['\n']
  else if n = "sp".toList then some [' ']
  else if n = "fq-hostname".toList then some h.fq
  else if n = "sh-hostname".toList then some h.sh
  else none

/-- `substVal` in `replaceTag` (lines 783-799); `none`: the match is kept -/
def substVal (h : Hosts) (subInfo : Defs) (conditional : Text) (n : Text) : Option Text :=
  match (if conditional ≠ [] then subInfo.get? (n ++ '?' :: conditional) else none) with
  | some v => some (if escapedTags n then escapeTag v else v)
  | none =>
    match subInfo.get? n with
    | some v => some (if escapedTags n then escapeTag v else v)
    | none => addRepl h n

/-- Result of `replaceTag`. -/
inductive Replaced where
  | ok (v : Text)
  /-- `ValueError`: "unexpected too long replacement interpolation" -/
  | tooLong (query : Text)
  /-- `ValueError` of `substituteRecursiveTags` -/
  | selfRef (tag found : Text)
  /-- more fuel is needed -/
  | fuel
deriving DecidableEq

/-- the loop of `replaceTag` (lines 802-814); `count` as there -/
def replaceTagLoop (h : Hosts) (subInfo : Defs) (conditional : Text) : Nat → Text → Replaced
  | 0, query => .tooLong query
  | count + 1, query =>
    let value := sub (substVal h subInfo conditional) query
    if value = query ∨ '<' ∉ value then .ok value
    else replaceTagLoop h subInfo conditional count value

/-- `replaceTag(query, aInfo, conditional, addrepl)` for a plain dictionary, without cache -/
def replaceTag (h : Hosts) (query : Text) (aInfo : Defs) (conditional : Text) (addrepl : Text → Option Text) (fuel passes : Nat) : Replaced :=
  if '<' ∉ query then .ok query
  else
    match substituteRecursiveTags aInfo conditional escapedTags addrepl fuel passes with
    | .fuel => .fuel
    | .selfRef a b => .selfRef a b
    | .ok subInfo => replaceTagLoop h subInfo conditional (maxReplace + 1) query

/-- Dynamic information: values of tags, and the ones captured by the filter. -/
structure Info where
  get : Text → Option Text
  data : Text → Option Text

/-- `'f2bV_%s' % ESCAPE_VN_CRE.sub('_', tag)` (line 864) -/
def varName (word : Char → Bool) (tag : Text) : Text := "f2bV_".toList ++ tag.map (fun c => if word c then c else '_')

/-- `escapeVal` (lines 857-867): what is put into the command, and the variables -/
def escapeVal (word : Char → Bool) (vars : Dict Text Text) (tag value : Text) : Text × Dict Text Text :=
  if hasSpecial value then ('$' :: varName word tag, vars.insert (varName word tag) value)
  else (value, vars)

/-- replacement of one match in the first substitution (lines 872-881) -/
def dynTag (word : Char → Bool) (h : Hosts) (info : Info) (vars : Dict Text Text) (n : Text) : Text × Dict Text Text :=
  match info.get n with
  | some v => escapeVal word vars n v
  | none => ((addRepl h n).getD ('<' :: (n ++ ['>'])), vars)

/-- `[A-Z0-9_\-]` -/
def fChar (c : Char) : Bool := ('A' ≤ c && c ≤ 'Z') || ('0' ≤ c && c ≤ '9') || c == '_' || c == '-'

/-- `FCUSTAG_CRE` (line 52) for a tag: the name behind `F-` -/
def fTag (n : Text) : Option Text :=
  match n with
  | 'F' :: '-' :: m => if m ≠ [] ∧ m.all fChar then some m else none
  | _ => none

/-- `str.lower()` for the characters of such a name -/
def lower (n : Text) : Text := n.map (fun c => if 'A' ≤ c && c ≤ 'Z' then Char.ofNat (c.toNat + 32) else c)

/-- `mapTag2Opt` (`failregex.py` 100-102) -/
def mapTag2Opt (n : Text) : Text :=
  if lower n = "id".toList then "fid".toList else if lower n = "port".toList then "fport".toList else lower n

/-- replacement of one match in the second substitution (lines 890-896) -/
def fCusTag (word : Char → Bool) (info : Info) (vars : Dict Text Text) (n : Text) : Text × Dict Text Text :=
  match fTag n with
  | none => ('<' :: (n ++ ['>']), vars)
  | some m =>
    match info.data (mapTag2Opt m) with
    | some v => escapeVal word vars ('F' :: '_' :: mapTag2Opt m) v
    | none => ([], vars)

/-- `TAG_CRE.sub(f, text)` for a function that collects variables -/
def subVars (f : Dict Text Text → Text → Text × Dict Text Text) : List Piece → Dict Text Text → Text × Dict Text Text
  | [], vars => ([], vars)
  | .chr c :: ps, vars => (c :: (subVars f ps vars).1, (subVars f ps vars).2)
  | .tag n :: ps, vars => ((f vars n).1 ++ (subVars f ps (f vars n).2).1, (subVars f ps (f vars n).2).2)

/-- A command for the shell. -/
structure Cmd where
  text : Text
  /-- `$0`, `$1`, .. -/
  args : List Text
deriving DecidableEq

/-- decimal digits -/
def digits (i : Nat) : Text := (toString i).toList

/-- the assignments in `buildShellCmd` (lines 140-143) -/
def varsStat : Nat → List Text → Text
  | _, [] => []
  | i, k :: ks => k ++ '=' :: '$' :: (digits i ++ ' ' :: varsStat (i + 1) ks)

/-- `buildShellCmd(realCmd, varsDict)` for a string -/
def buildShellCmd (cmd : Text) (vars : Dict Text Text) : Cmd :=
  { text := varsStat 0 vars.keys ++ '\n' :: cmd
    args := vars.values }

/-- The text and the variables of `replaceDynamicTags` before the command is built (lines 855-890). -/
def dynText (word : Char → Bool) (h : Hosts) (realCmd : Text) (info : Info) : Text × Dict Text Text :=
  let r := subVars (dynTag word h info) (pieces realCmd) Dict.empty
  if '<' ∈ r.1 then subVars (fCusTag word info) (pieces r.1) r.2 else r

/-- `replaceDynamicTags(realCmd, aInfo)` -/
def replaceDynamicTags (word : Char → Bool) (h : Hosts) (realCmd : Text) (info : Info) : Cmd :=
  let r := dynText word h realCmd info
  if r.2.size = 0 then ⟨r.1, []⟩ else buildShellCmd r.1 r.2

end Command

end Verif
