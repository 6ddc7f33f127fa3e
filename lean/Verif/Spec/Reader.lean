import Verif.Model.ReaderServer

/-! # What the commands of a configuration are for -/

namespace Verif.ReaderSpec

open Reader

/-- The lines of a text. -/
def IsLines (s : Str) (ls : List Str) : Prop := ls ≠ [] ∧ (∀ l ∈ ls, '\n' ∉ l) ∧ s = ['\n'].intercalate ls

/-- The regular expressions of an option: its lines that are not empty. -/
inductive Regexes : Option Val → List Str → Prop where
  | notGiven : Regexes none []
  | text (s : Str) (ls : List Str) : IsLines s ls → Regexes (some (.str s)) (ls.filter (· ≠ []))

/-- The value of an option. -/
def value (o : Opts) (k : String) : Option Val :=
  match o.get? k with
  | some (some v) => some v
  | _ => none

/-- Values of the option a command adds to the list `key` of a jail. -/
def addedBy (key : String) : Cmd → List Str
  | .set _ [some (.str k), some (.str r)] => if k = ("add" ++ key).toList then [r] else []
  | .multiSet _ k rs => if k = "add" ++ key then rs else []
  | _ => []

def added (key : String) (l : List Cmd) : List Str := l.flatMap (addedBy key)

/-- The option `key` is set. -/
def setBy (key : String) : Cmd → Option (Option Val)
  | .set _ [some (.str k), v] => if k = key.toList then some v else none
  | _ => none

/-- The value an option has after commands: the one set last. -/
def effective (key : String) (l : List Cmd) : Option (Option Val) := (l.filterMap (setBy key)).getLast?

/-- Commands that set a parameter of filter or jail (no log file, no action). -/
def isParam : Cmd → Bool
  | .set _ (k :: _) => decide (k ≠ arg "addlogpath".toList)
  | .multiSet .. => true
  | _ => false

def isLog : Cmd → Bool
  | .set _ (k :: _) => decide (k = arg "addlogpath".toList)
  | _ => false

def isAction : Cmd → Bool
  | .action .. => true
  | _ => false

/-- The jail of a command. -/
def target : Cmd → Option Str
  | .add j _ => some j
  | .set j _ => some j
  | .multiSet j _ _ => some j
  | .action j _ _ => some j
  | .start j => some j
  | .configError => none

/-- Options that are set before regular expressions are added. -/
def early (k : String) : Prop := k = "usedns" ∨ k = "maxlines" ∨ k = "prefregex"

/-- The command sets such an option. -/
def isEarly (c : Cmd) : Prop := ∃ k, early k ∧ setBy k c ≠ none

/-- The command adds a regular expression. -/
def isRegex (c : Cmd) : Prop := addedBy "failregex" c ≠ [] ∨ addedBy "ignoreregex" c ≠ []

/-- A line of `logpath` with path and option: split at the last space. -/
inductive PathOption : Str → Str → Str → Prop where
  | plain (p : Str) : ' ' ∉ p → PathOption p p "head".toList
  | option (p o : Str) : ' ' ∉ o → PathOption (p ++ ' ' :: o) p o

/-- Log files of lines of `logpath`, with option. -/
inductive Files (glob : Str → List Str) : List Str → List (Str × Str) → Prop where
  | nil : Files glob [] []
  | cons (l p o : Str) (ls : List Str) (fs : List (Str × Str)) : PathOption l p o → Files glob ls fs → Files glob (l :: ls) ((glob p).map (fun f => (f, o)) ++ fs)

/-- Log files of an option. -/
inductive LogFiles (glob : Str → List Str) : Option Val → List (Str × Str) → Prop where
  | text (s : Str) (ls : List Str) (fs : List (Str × Str)) : IsLines s ls → Files glob ls fs → LogFiles glob (some (.str s)) fs

/-- A log file that a command adds. -/
def logBy : Cmd → Option (Str × Str)
  | .set _ [k, some (.str f), some (.str o)] => if k = arg "addlogpath".toList then some (f, o) else none
  | _ => none

/-- Log files that commands add. -/
def logsOf (l : List Cmd) : List (Str × Str) := l.filterMap logBy

/-- Options of `convert` whose values are texts. -/
def textOpts : List String := ["failregex", "ignoreregex", "journalmatch", "logpath", "ignoreip"]

/-- These options have texts as values, if they have one. -/
def Typed (o : Opts) : Prop := ∀ k ∈ textOpts, ∀ v, o.get? k = some (some v) → ∃ s, v = .str s

/-- Separators of words: white space and comma. -/
def isSeparator (c : Char) : Prop := c = ' ' ∨ c = ',' ∨ c = '\n' ∨ c = '\t' ∨ c = '\r' ∨ c.toNat = 11 ∨ c.toNat = 12

/-- Words of a text: parts without separators, between separators. -/
inductive Words : Str → List Str → Prop where
  | nil : Words [] []
  | sep (c : Char) (s : Str) (ws : List Str) : isSeparator c → Words s ws → Words (c :: s) ws
  | last (w : Str) : w ≠ [] → (∀ c ∈ w, ¬isSeparator c) → Words w [w]
  | word (w s : Str) (c : Char) (ws : List Str) : w ≠ [] → (∀ c ∈ w, ¬isSeparator c) → isSeparator c → Words s ws → Words (w ++ c :: s) (w :: ws)

/-- Options of a filter (man jail.conf, filter files). -/
def filterTemplates : List Template :=
  [⟨"usedns", .string, none⟩, ⟨"prefregex", .string, none⟩, ⟨"ignoreregex", .string, none⟩, ⟨"failregex", .string, none⟩, ⟨"maxlines", .int, none⟩, ⟨"datepattern", .string, none⟩,
   ⟨"journalmatch", .string, none⟩]

/-- Options of a jail (man jail.conf) that are set as they are. -/
def ownTemplates : List Template :=
  [⟨"maxretry", .int, none⟩, ⟨"maxmatches", .int, none⟩, ⟨"findtime", .string, none⟩, ⟨"bantime", .string, none⟩, ⟨"bantime.increment", .bool, none⟩, ⟨"bantime.factor", .string, none⟩,
   ⟨"bantime.formula", .string, none⟩, ⟨"bantime.multipliers", .string, none⟩, ⟨"bantime.maxtime", .string, none⟩, ⟨"bantime.rndtime", .string, none⟩, ⟨"bantime.overalljails", .bool, none⟩,
   ⟨"ignorecommand", .string, none⟩, ⟨"ignoreself", .bool, none⟩, ⟨"ignorecache", .string, none⟩, ⟨"logtimezone", .string, none⟩, ⟨"logencoding", .string, none⟩]

/-- All options of a jail, with type and default. -/
def jailTemplates : List Template :=
  ownTemplates ++ filterTemplates ++
  [⟨"enabled", .bool, some (.bool false)⟩, ⟨"backend", .string, some (.str "auto".toList)⟩, ⟨"filter", .string, some (.str [])⟩, ⟨"action", .string, some (.str [])⟩,
   ⟨"skip_if_nologs", .bool, some (.bool false)⟩, ⟨"ignoreip", .string, none⟩, ⟨"logpath", .string, none⟩]

/-- A text as value of an option. -/
inductive Converts (env : Reader.Env) : Kind → Str → Val → Prop where
  | string (v : Str) : Converts env .string v (.str v)
  | int (v : Str) (i : Int) : env.toInt v = some i → Converts env .int v (.int i)
  | bool (v : Str) (b : Bool) : (b = true ↔ v.map Char.toLower ∈ ["1".toList, "on".toList, "true".toList, "yes".toList]) → Converts env .bool v (.bool b)

/-- What is read for an option: nothing, or a value (that may be `None`). -/
inductive Reads (env : Reader.Env) (get : String → Got) (given : String → Bool) (conv : Bool) (t : Template) : Option (Option Val) → Prop where
  /-- given elsewhere -/
  | given : given t.name = true → Reads env get given conv t none
  /-- as it is -/
  | text (v : Str) : given t.name = false → get t.name = .value v → conv = false → Reads env get given conv t (some (some (.str v)))
  | converted (v : Str) (x : Val) : given t.name = false → get t.name = .value v → conv = true → Converts env t.kind v x → Reads env get given conv t (some (some x))
  /-- a wrong value counts as the default -/
  | wrong (v : Str) : given t.name = false → get t.name = .value v → conv = true → (∀ x, ¬Converts env t.kind v x) → Reads env get given conv t (some t.default)
  | missing : given t.name = false → get t.name = .noOption → Reads env get given conv t (t.default.map some)
  | noSection : given t.name = false → get t.name = .noSection → Reads env get given conv t (some t.default)

/-- Where the value of an option of a filter is from: parameters, `[Init]`, nowhere if the jail has it, `[Definition]`. -/
inductive FilterValue (f : FilterSrc) (params jail vars : Opts) (k : String) : Option (Option Val) → Prop where
  | param (v : Option Val) : params.get? k = some v → FilterValue f params jail vars k (some v)
  | init (v : Str) : params.get? k = none → (k, v) ∈ f.initSection → FilterValue f params jail vars k (some (some (.str v)))
  | jail (v : Option Val) : params.get? k = none → k ∉ f.initSection.map Prod.fst → jail.get? k = some v → FilterValue f params jail vars k none
  | definition (v : Str) : params.get? k = none → k ∉ f.initSection.map Prod.fst → jail.get? k = none → f.get vars k = .value v → FilterValue f params jail vars k (some (some (.str v)))
  | missing : params.get? k = none → k ∉ f.initSection.map Prod.fst → jail.get? k = none → f.get vars k = .noOption → FilterValue f params jail vars k none
  | noSection : params.get? k = none → k ∉ f.initSection.map Prod.fst → jail.get? k = none → f.get vars k = .noSection → FilterValue f params jail vars k (some none)

/-- Addresses that a command adds to the ignored ones. -/
def ignoredBy : Cmd → List (Option Val)
  | .set _ (k :: vs) => if k = arg "addignoreip".toList then vs else []
  | _ => []

def ignored (l : List Cmd) : List (Option Val) := l.flatMap ignoredBy

/-- The options of the filter of a jail, as sent. -/
def FilterOpts (env : Reader.Env) (j : JailSrc) (fo : Opts) : Prop :=
  match j.filter with
  | none => fo = Dict.empty
  | some (o, i) => combined env o i = some fo

/-- Names of commands that add something. -/
def addNames : List String := ["addfailregex", "addignoreregex", "addjournalmatch", "addignoreip", "addlogpath"]

/-- Options of a jail have the names of the reader. -/
def Named (o : Opts) : Prop := ∀ k ∈ o.keys, k ∈ jailTemplates.map (·.name)

/-- Names of the actions of commands. -/
def actionsOf (l : List Cmd) : List Str := l.filterMap (fun c => match c with | .action _ n _ => some n | _ => none)

/-- Commands of actions of a jail. -/
def ActionsOk (j : JailSrc) : Prop := ∀ c ∈ j.actions, ∃ n x, c = .action j.name n x

end Verif.ReaderSpec
