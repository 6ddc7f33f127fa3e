import Verif.Py.Dict

/-!
# From the configuration to commands — `fail2ban/client/configreader.py` 246-418, `filterreader.py`, `jailreader.py`, `jailsreader.py`

What a section contains (after interpolation of `%(name)s`) is given by functions `get`; files and the substitution of tags are given by the environment.
Names of options are strings, values are lists of characters. Log messages are left out.
-/

namespace Verif.Reader

abbrev Str := List Char

/-- Values of options. -/
inductive Val where
  | str (s : Str)
  | int (i : Int)
  | bool (b : Bool)
deriving DecidableEq

/-- A dictionary of options; a value may be `None`. -/
abbrev Opts := Dict String (Option Val)

/-- `CONVERTER` (configreader.py 36-39) -/
inductive Kind where
  | string | int | bool
deriving DecidableEq

/-- `{name: [type, default]}` -/
structure Template where
  name : String
  kind : Kind
  default : Option Val := none
deriving DecidableEq

/-- Result of `get(section, option)`. -/
inductive Got where
  | value (v : Str)
  /-- `NoOptionError` -/
  | noOption
  /-- `NoSectionError` -/
  | noSection
deriving DecidableEq

/-- What is decided outside. -/
structure Env where
  /-- `int(v)`; `none` is a ValueError -/
  toInt : Str → Option Int
  /-- `shlex.split(match)`; `none` is an exception -/
  shlex : Str → Option (List Str)
  /-- `JailReader._glob(path)` (jailreader.py 80-92): existing files -/
  glob : Str → List Str
  /-- `substituteRecursiveTags` (helpers.py 372-446, modelled in `Model/Tags`); `none` is an exception -/
  subst : Opts → Option Opts

/-- `v.split(c)` -/
def split (c : Char) : Str → List Str
  | [] => [[]]
  | x :: xs =>
    if x = c then [] :: split c xs
    else match split c xs with
      | [] => [[x]]
      | l :: ls => (x :: l) :: ls

/-- `_as_bool(val)` (helpers.py 88-90) -/
def asBool (v : Str) : Bool := String.ofList (v.map Char.toLower) ∈ ["1", "on", "true", "yes"]

/-- `conv(v)`; `none` is a ValueError -/
def convertVal (env : Env) : Kind → Str → Option Val
  | .string, v => some (.str v)
  | .int, v => (env.toInt v).map .int
  | .bool, v => some (.bool (asBool v))

/-- One option of `getOptions` (configreader.py 261-289); `none` is an exception. -/
def readOpt (env : Env) (get : String → Got) (given : String → Bool) (shouldExist conv : Bool) (acc : Opts) (t : Template) : Option Opts :=
  if given t.name then some acc
  else match get t.name with
    | .value v =>
      if conv then
        match convertVal env t.kind v with
        | some x => some (acc.insert t.name (some x))
        | none => some (acc.insert t.name t.default)
      else some (acc.insert t.name (some (.str v)))
    | .noSection => if shouldExist then none else some (acc.insert t.name t.default)
    | .noOption => some (if t.default.isSome then acc.insert t.name t.default else acc)

/-- `ConfigReaderUnshared.getOptions(sec, options, pOptions, shouldExist, convert)` (configreader.py 255-290) -/
def getOptions (env : Env) (get : String → Got) (given : String → Bool) (shouldExist conv : Bool) : List Template → Opts → Option Opts
  | [], acc => some acc
  | t :: ts, acc => (readOpt env get given shouldExist conv acc t).bind (getOptions env get given shouldExist conv ts)

/-- `{**x, **y}` (helpers.py `_merge_dicts`) -/
def merge {V : Type} (x y : Dict String V) : Dict String V := y.items.foldl (fun d kv => d.insert kv.1 kv.2) x

/-- `FilterReader._configOpts` (filterreader.py 39-47) -/
def filterOpts : List Template :=
  [{ name := "usedns", kind := .string }, { name := "prefregex", kind := .string }, { name := "ignoreregex", kind := .string },
   { name := "failregex", kind := .string }, { name := "maxlines", kind := .int }, { name := "datepattern", kind := .string },
   { name := "journalmatch", kind := .string }]

/-- A filter: what its file contains, and the parameters given in the jail. -/
structure FilterSrc where
  /-- option of `[Definition]`, interpolated with variables -/
  get : Opts → String → Got
  /-- own options of `[Init]` in order, without `__name__`; empty if there is no such section -/
  initSection : List (String × Str)
  /-- `has_option('Definition', 'logtype', False)` -/
  hasLogtype : Bool
  /-- parameters `filter[name=value]` -/
  params : Opts

/-- `bool(v)` is false for an option not given -/
def falsy : Option (Option Val) → Bool
  | none => true
  | some none => true
  | some (some (.str s)) => s.isEmpty
  | some (some (.int i)) => i == 0
  | some (some (.bool b)) => !b

/-- `FilterReader.applyAutoOptions(backend)` (filterreader.py 56-62) -/
def autoOptions (f : FilterSrc) (systemd : Bool) : Opts :=
  if falsy (f.params.get? "logtype") && !f.hasLogtype then
    f.params.insert "logtype" (some (.str (if systemd then "journal".toList else "file".toList)))
  else f.params

/-- Options of `[Init]` (configreader.py 344-355). -/
def addInit (init : Opts) (kv : String × Str) : Opts :=
  let init := if "known/".toList.isPrefixOf kv.1.toList then init else init.insert ("known/" ++ kv.1) (some (.str kv.2))
  if init.contains kv.1 then init else init.insert kv.1 (some (.str kv.2))

/-- `DefinitionInitConfigReader.getOptions(pOpts)` (configreader.py 331-355): `_opts` and `_initOpts` -/
def filterGetOptions (env : Env) (f : FilterSrc) (pOpts init : Opts) : Option (Opts × Opts) :=
  let p := merge pOpts init
  (getOptions env (f.get p) p.contains false false filterOpts Dict.empty).map (fun o => (o, f.initSection.foldl addInit init))

/-- `convertOptions` (configreader.py 364-378): only `maxlines` of a filter is no string. -/
def convertOptions (env : Env) (o : Opts) : Opts :=
  match o.get? "maxlines" with
  | some (some (.str v)) => o.insert "maxlines" ((env.toInt v).map .int)
  | _ => o

/-- `getCombined()` (configreader.py 396-415); `none` is an exception -/
def combined (env : Env) (opts init : Opts) : Option Opts :=
  let c := merge opts init
  if c.items.isEmpty then some c else (env.subst c).map (convertOptions env)

/-- Commands. -/
inductive Cmd where
  | add (jail backend : Str)
  | set (jail : Str) (args : List (Option Val))
  | multiSet (jail : Str) (key : String) (values : List Str)
  /-- `set jail addaction ...` and the following `set` or `multi-set` of its properties, not looked into -/
  | action (jail name : Str) (cmd : List Str)
  | start (jail : Str)
  | configError
deriving DecidableEq

/-- `["set", jail, opt, value]` -/
def setCmd (jail : Str) (opt : String) (v : Option Val) : Cmd := .set jail [some (.str opt.toList), v]

/-- a string as argument -/
def arg (s : Str) : Option Val := some (.str s)

/-- `value.split('\n')` -/
def lines : Val → List Str
  | .str s => split '\n' s
  | _ => []

/-- `stream.insert(i, x)` -/
def insertAt {α : Type} : Nat → α → List α → List α
  | 0, x, l => x :: l
  | _ + 1, x, [] => [x]
  | n + 1, x, a :: l => a :: insertAt n x l

/-- `opt in ('datepattern')`: part of the text (filterreader.py 96) -/
def partOf (s : Str) : Str → Bool
  | [] => s.isEmpty
  | c :: cs => s.isPrefixOf (c :: cs) || partOf s cs

/-- Regular expressions, lines that are not empty (filterreader.py 80-89). -/
def regexCmds (jail : Str) (opt : String) (v : Val) : List Cmd :=
  let multi := (lines v).filter (fun l => !l.isEmpty)
  match multi with
  | [] => []
  | [r] => [.set jail [arg ("add" ++ opt).toList, arg r]]
  | _ => [.multiSet jail ("add" ++ opt) multi]

/-- `journalmatch` (filterreader.py 98-102); `none` is an exception -/
def journalCmds (env : Env) (jail : Str) : List Str → Option (List Cmd)
  | [] => some []
  | m :: ms =>
    if m.isEmpty then journalCmds env jail ms
    else match env.shlex m, journalCmds env jail ms with
      | some args, some cmds => some (.set jail (arg "addjournalmatch".toList :: args.map arg) :: cmds)
      | _, _ => none

/-- `FilterReader._fillStream(stream, opts, jailName)` (filterreader.py 73-103); `prio` is `prio0idx` -/
def fillStream (env : Env) (jail : Str) : List (String × Option Val) → Nat → List Cmd → Option (List Cmd)
  | [], _, stream => some stream
  | (_, none) :: os, prio, stream => fillStream env jail os prio stream
  | (opt, some v) :: os, prio, stream =>
    if opt = "failregex" ∨ opt = "ignoreregex" then fillStream env jail os prio (stream ++ regexCmds jail opt v)
    else if opt = "usedns" ∨ opt = "maxlines" ∨ opt = "prefregex" then
      fillStream env jail os (prio + 1) (insertAt (if opt = "usedns" then 0 else prio) (setCmd jail opt (some v)) stream)
    else if partOf opt.toList "datepattern".toList then fillStream env jail os prio (stream ++ [setCmd jail opt (some v)])
    else if opt = "journalmatch" then
      match journalCmds env jail (lines v) with
      | some cmds => fillStream env jail os prio (stream ++ cmds)
      | none => none
    else fillStream env jail os prio stream

/-- A jail as read. -/
structure JailSrc where
  name : Str
  /-- `__opts` -/
  opts : Opts
  /-- `__filter`: `_opts` and `_initOpts` -/
  filter : Option (Opts × Opts)
  /-- commands of the actions -/
  actions : List Cmd
  /-- `config-error` -/
  error : Bool := false

/-- The backend. -/
def backend (o : Opts) : Str :=
  match o.get? "backend" with
  | some (some (.str b)) => b
  | _ => "auto".toList

def isSystemd (b : Str) : Bool := "systemd".toList.isPrefixOf b

/-- `JailReader._configOpts1st` (jailreader.py 94-98) -/
def jailOpts1st : List Template :=
  [{ name := "enabled", kind := .bool, default := some (.bool false) }, { name := "backend", kind := .string, default := some (.str "auto".toList) },
   { name := "filter", kind := .string, default := some (.str []) }]

/-- `JailReader._configOpts` (jailreader.py 99-124) -/
def jailOpts : List Template :=
  [{ name := "enabled", kind := .bool, default := some (.bool false) }, { name := "backend", kind := .string, default := some (.str "auto".toList) },
   { name := "maxretry", kind := .int }, { name := "maxmatches", kind := .int }, { name := "findtime", kind := .string }, { name := "bantime", kind := .string },
   { name := "bantime.increment", kind := .bool }, { name := "bantime.factor", kind := .string }, { name := "bantime.formula", kind := .string },
   { name := "bantime.multipliers", kind := .string }, { name := "bantime.maxtime", kind := .string }, { name := "bantime.rndtime", kind := .string },
   { name := "bantime.overalljails", kind := .bool }, { name := "ignorecommand", kind := .string }, { name := "ignoreself", kind := .bool },
   { name := "ignoreip", kind := .string }, { name := "ignorecache", kind := .string }, { name := "filter", kind := .string, default := some (.str []) },
   { name := "logtimezone", kind := .string }, { name := "logencoding", kind := .string }, { name := "logpath", kind := .string },
   { name := "skip_if_nologs", kind := .bool, default := some (.bool false) }, { name := "action", kind := .string, default := some (.str []) }] ++ filterOpts

/-- Result of `JailReader.getOptions()`. -/
inductive Read where
  /-- an exception -/
  | raises
  | disabled
  | jail (j : JailSrc)

/-- A string option; no text if it is not given. -/
def strOpt (o : Opts) (k : String) : Str :=
  match o.get? k with
  | some (some (.str s)) => s
  | _ => []

/-- A jail that could not be read. -/
def errorJail (name : Str) (o : Opts) : Read := .jail { name, opts := o, filter := none, actions := [], error := true }

/-- `JailReader.getOptions()` (jailreader.py 130-230). `get1`, `get2` are the options of the section of the jail, before and after options of the filter were merged
as `known/...`. `filterOf` reads the filter (`none`: wrong definition or no file); `actionsOf` gives the commands of the actions (`none`: an error in a definition). -/
def readJail (env : Env) (force : Bool) (name : Str) (get1 get2 : String → Got) (filterOf : Str → Option FilterSrc) (actionsOf : Opts → Option (List Cmd)) : Read :=
  match getOptions env get1 (fun _ => false) true true jailOpts1st Dict.empty with
  | none => .raises
  | some o1 =>
    if !(force || decide (o1.get? "enabled" = some (some (.bool true)))) then .disabled
    else
      let flt := strOpt o1 "filter"
      if flt.isEmpty then
        match getOptions env get2 (fun _ => false) false true jailOpts Dict.empty with
        | none => .raises
        | some o2 =>
          match actionsOf o2 with
          | none => errorJail name o2
          | some acts => .jail { name, opts := o2, filter := none, actions := acts }
      else match filterOf flt with
        | none => errorJail name o1
        | some f =>
          match filterGetOptions env f o1 (autoOptions f (isSystemd (backend o1))), getOptions env get2 (fun _ => false) false true jailOpts Dict.empty with
          | some (_, init), some o2 =>
            match filterGetOptions env f o2 init, actionsOf o2 with
            | some fo, some acts => .jail { name, opts := o2, filter := some fo, actions := acts }
            | some _, none => errorJail name o2
            | none, _ => .raises
          | _, _ => .raises

/-- `path.rsplit(" ", 1)`: path and option (jailreader.py 273-274) -/
def pathTail (path : Str) : Str × Str :=
  match (split ' ' path).reverse with
  | tail :: p :: ps => ([' '].intercalate ((p :: ps).reverse), tail)
  | _ => (path, "head".toList)

/-- Files of a `logpath` (jailreader.py 272-283). -/
def logCmds (env : Env) (jail : Str) (v : Val) : List Cmd :=
  (lines v).flatMap (fun path => let (p, tail) := pathTail path; (env.glob p).map (fun f => .set jail [arg "addlogpath".toList, arg f, arg tail]))

/-- Characters `[\s,]` (helpers.py 295). Simplified: of `\s` only the ASCII white space `[ \t\n\r\v\f]`, not the further characters (`\x1c`-`\x1f`, `\x85`, no-break space…). -/
def isSep (c : Char) : Bool := c ∈ [' ', '\t', '\n', '\r', '\x0b', '\x0c', ',']

/-- `splitwords(s)` (helpers.py 295-306): what is between spaces and commas. -/
def splitwords : Str → List Str
  | [] => []
  | c :: cs =>
    if isSep c then splitwords cs
    else match cs with
      | [] => [[c]]
      | d :: _ =>
        if isSep d then [c] :: splitwords cs
        else match splitwords cs with
          | [] => [[c]]
          | w :: ws => (c :: w) :: ws

/-- `JailReader._ignoreOpts` (jailreader.py 125-128) -/
def ignoreOpts : List String :=
  ["action", "filter", "enabled", "backend", "skip_if_nologs", "usedns", "prefregex", "ignoreregex", "failregex", "maxlines", "datepattern", "journalmatch"]

/-- `splitwords(value)` of a value. -/
def words : Option Val → List Str
  | some (.str s) => splitwords s
  | _ => []

/-- An option that is neither handled elsewhere nor `logpath` (jailreader.py 294-297). -/
def plainCmds (jail : Str) (kv : String × Option Val) : List Cmd :=
  if kv.1 = "logpath" then []
  else if kv.1 = "ignoreip" then [.set jail (arg "addignoreip".toList :: (words kv.2).map arg)]
  else if kv.1 ∈ ignoreOpts then []
  else [setCmd jail kv.1 kv.2]

/-- Result of `JailReader.convert()`. -/
inductive Conv where
  /-- ValueError (no log file), or of `shlex`, or of the tags -/
  | raises
  /-- commands; whether the jail was skipped -/
  | cmds (l : List Cmd) (skipped : Bool)
deriving DecidableEq

/-- `JailReader.convert(allow_no_files)` (jailreader.py 242-301). -/
def convert (env : Env) (allowNoFiles : Bool) (j : JailSrc) : Conv :=
  if j.error then .cmds [.configError] true
  else
    let filterCmds := match j.filter with
      | none => some []
      | some (o, i) => (combined env o i).bind (fun c => fillStream env j.name c.items 0 [])
    match filterCmds.bind (fillStream env j.name j.opts.items 0) with
    | none => .raises
    | some stream =>
      let b := backend j.opts
      let logs := match j.opts.get? "logpath" with
        | some (some v) => if isSystemd b then none else some (logCmds env j.name v)
        | _ => none
      let skip := match j.opts.get? "skip_if_nologs" with
        | some (some (.bool s)) => s
        | _ => false
      if logs = some [] ∧ ¬allowNoFiles ∧ ¬skip then .raises
      else if logs = some [] ∧ skip then .cmds [.configError] true
      else .cmds (.add j.name b :: (stream ++ j.opts.items.flatMap (plainCmds j.name) ++ logs.getD [] ++ j.actions)) false

/-- `JailsReader.convert()` (jailsreader.py 96-117); `none` is an exception -/
def convertAll (env : Env) (allowNoFiles : Bool) : List JailSrc → Option (List Cmd × List Cmd)
  | [] => some ([], [])
  | j :: js =>
    match convert env allowNoFiles j, convertAll env allowNoFiles js with
    | .cmds l skipped, some (cmds, starts) => some (l ++ cmds, if skipped then starts else .start j.name :: starts)
    | _, _ => none

def jailsStream (env : Env) (allowNoFiles : Bool) (js : List JailSrc) : Option (List Cmd) :=
  (convertAll env allowNoFiles js).map (fun x => x.1 ++ x.2)

end Verif.Reader
