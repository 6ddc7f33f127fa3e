import Verif.Model.Reader
import Verif.Model.Options

/-!
# Reading of actions — `fail2ban/client/actionreader.py`, `jailreader.py` 185-220, and how the server takes their properties (`transmitter.py` 375-409)

Files and the substitution of tags are given by the environment, as in `Model/Reader`.
-/

namespace Verif.ActionReader

open Reader
open Options (Chars)

/-- `ActionReader._configOpts` (actionreader.py 39-53) -/
def actionOpts : List Template :=
  [{ name := "actionstart", kind := .string }, { name := "actionstart_on_demand", kind := .bool }, { name := "actionstop", kind := .string },
   { name := "actionflush", kind := .string }, { name := "actionreload", kind := .string }, { name := "actioncheck", kind := .string },
   { name := "actionrepair", kind := .string }, { name := "actionrepair_on_unban", kind := .bool }, { name := "actionban", kind := .string },
   { name := "actionprolong", kind := .string }, { name := "actionreban", kind := .string }, { name := "actionunban", kind := .string },
   { name := "norestored", kind := .bool }]

/-- What is added to the name of the file (actionreader.py 63-65). -/
def suffix (jail n : Str) : Str := if n = jail then [] else if jail.isPrefixOf n then n.drop jail.length else '-' :: n

/-- A parameter that is a text; `none` if it is not given. -/
def param (o : Opts) (k : String) : Option Str :=
  match o.get? k with
  | some (some (.str s)) => some s
  | _ => none

/-- `ActionReader.__init__` (actionreader.py 55-69): name of the action and parameters. -/
def initAction (file jail : Str) (o : Opts) : Str × Opts :=
  let (n, o) := match param o "name" with
    | some n => (n, o)
    | none => (jail, o.insert "name" (some (.str jail)))
  match param o "actname" with
  | some a => (a, o)
  | none => (file ++ suffix jail n, o.insert "actname" (some (.str (file ++ suffix jail n))))

/-- Options from `extractOptions` as parameters. -/
def toOpts (d : Dict Str Str) : Opts := d.items.foldl (fun o kv => o.insert (String.ofList kv.1) (some (.str kv.2))) Dict.empty

/-- A file of an action: options of `[Definition]`, interpolated with variables, and own options of `[Init]`. -/
structure ActionSrc where
  get : Opts → String → Got
  initSection : List (String × Str)

/-- An action of a jail as read. -/
inductive Job where
  /-- a module in Python: name, file and parameters -/
  | py (name file : Str) (opts : Dict Str Str)
  /-- name, `_opts` and `_initOpts` -/
  | file (name : Str) (opts init : Opts)

/-- `getOptions(pOpts)` of an action (configreader.py 331-355) -/
def actionGetOptions (env : Env) (a : ActionSrc) (jail params : Opts) : Option (Opts × Opts) :=
  let p := merge jail params
  (getOptions env (a.get p) p.contains false false actionOpts Dict.empty).map (fun o => (o, a.initSection.foldl addInit params))

/-- `actName.endswith(".py")` -/
def isPy (n : Str) : Bool := ".py".toList.isSuffixOf n

/-- An action (jailreader.py 196-215); `none` is a `JailDefError`. `actionOf` reads a file of an action. Simplified: the name of a module is its file without `.py` (`os.path.splitext`
keeps the whole name if there are only dots before). -/
def readAction (env : Env) (jail : Str) (jailOpts : Opts) (actionOf : Str → Option ActionSrc) (x : Str × Dict Str Str) : Option Job :=
  if isPy x.1 then some (.py ((x.2.get? "actname".toList).getD (x.1.take (x.1.length - 3))) x.1 (x.2.erase "actname".toList))
  else match actionOf x.1 with
    | none => none
    | some a =>
      let (name, params) := initAction x.1 jail (toOpts x.2)
      (actionGetOptions env a jailOpts params).map (fun oi => .file name oi.1 oi.2)

/-- All actions of a jail (jailreader.py 185-215). -/
def readActions (cc : Chars) (env : Env) (jail : Str) (jailOpts : Opts) (actionOf : Str → Option ActionSrc) (text : Str) : Option (List Job) :=
  (Options.readNames cc text).bind (Options.allSome (readAction env jail jailOpts actionOf))

/-- `convertOptions` for an option (configreader.py 361-374): only `bool` occurs besides strings -/
def convertOpt (o : Opts) (t : Template) : Opts :=
  match t.kind, o.get? t.name with
  | .bool, some (some (.str v)) => o.insert t.name (some (.bool (asBool v)))
  | _, _ => o

/-- `getCombined(ignore)` of an action (configreader.py 396-418) -/
def actionCombined (env : Env) (opts init : Opts) : Option Opts :=
  let c := merge opts init
  if c.items.isEmpty then some c else (env.subst c).map (fun o => actionOpts.foldl convertOpt o)

/-- Commands for an action. -/
inductive ActCmd where
  /-- `set jail addaction name`, for modules with file and options -/
  | add (jail name : Str) (py : Option (Str × Dict Str Str))
  | set (jail name : Str) (key : String) (v : Option Val)
  | multi (jail name : Str) (kvs : List (String × Option Val))

def isKnown (k : String) : Bool := "known/".toList.isPrefixOf k.toList

/-- Properties of an action (actionreader.py 89-96). -/
def props (comb init : Opts) : List (String × Option Val) :=
  comb.items.filter (fun kv => kv.1 ∈ actionOpts.map (·.name) && !isKnown kv.1) ++
  init.items.filter (fun kv => !(kv.1 ∈ actionOpts.map (·.name)) && !isKnown kv.1)

/-- `ActionReader.convert()` (actionreader.py 81-102), or the command of a module; `none` is an exception -/
def convertJob (env : Env) (jail : Str) : Job → Option (List ActCmd)
  | .py name file opts => some [.add jail name (some (file, opts))]
  | .file name opts init =>
    (actionCombined env opts init).map (fun c =>
      .add jail name none :: (match props c init with
        | [] => []
        | [kv] => [.set jail name kv.1 kv.2]
        | kvs => [.multi jail name kvs]))

/-- An action on the server: its attributes, `__properties` (cache of the attributes used as tags), methods that were called by commands, and whether it is a module. Simplified:
attributes of the class are left out. -/
structure Act where
  attrs : Dict String (Option Val)
  cache : Option (List (String × Option Val))
  calls : List String
  py : Bool

/-- What belongs to the server: names of methods (`callable(getattr(action, key, None))`) and `MyTime.str2seconds`. -/
structure SEnv where
  method : String → Bool
  secs : Option Val → Option Val

def isPrivate (k : String) : Bool := "_".toList.isPrefixOf k.toList

/-- `CommandAction.__setattr__` (action.py 357-371), with `WRAP_CMD_PARAMS` (283-286); `init` is `self.__init` -/
def setattr (se : SEnv) (init : Bool) (a : Act) (k : String) (v : Option Val) : Act :=
  if isPrivate k || init then { a with attrs := a.attrs.insert k v }
  else if k = "bantime" then a
  else { a with attrs := a.attrs.insert k (if k = "timeout" then se.secs v else v), cache := none }

/-- Values set by `clearAllParams` (action.py 323-341) -/
def defaults : List (String × Option Val) :=
  [("timeout", some (.int 60)), ("actionstart", some (.str [])), ("actionban", some (.str [])), ("actionreban", some (.str [])), ("actionunban", some (.str [])),
   ("actioncheck", some (.str [])), ("actionrepair", some (.str [])), ("actionflush", some (.str [])), ("actionstop", some (.str [])), ("actionreload", some (.str []))]

/-- `clearAllParams()` (action.py 318-343) -/
def clearAll (se : SEnv) (a : Act) : Act := defaults.foldl (fun a kv => setattr se true a kv.1 kv.2) a

/-- `CommandAction(jail, name)` (action.py 345-352) -/
def newAct (se : SEnv) : Act := clearAll se ⟨Dict.empty, none, [], false⟩

/-- `_properties` (action.py 385-400): the action with its cache filled, and the properties -/
def properties (a : Act) : Act × List (String × Option Val) :=
  match a.cache with
  | some p => (a, p)
  | none => ({ a with cache := some (a.attrs.items.filter (fun kv => !isPrivate kv.1)) }, a.attrs.items.filter (fun kv => !isPrivate kv.1))

/-- A property is set, or a method called if it has this name (transmitter.py 391-398 and 401-408). -/
def setProp (se : SEnv) (a : Act) (kv : String × Option Val) : Act :=
  if se.method kv.1 then { a with calls := a.calls ++ [kv.1] } else setattr se false a kv.1 kv.2

/-- Commands for actions of a jail on the server (transmitter.py 375-409, actions.py 131-149); `none` is an error. Simplified: what a called method does is left out; a module has no
method `reload` and takes its options for itself. -/
def runAct (se : SEnv) (reload : Bool) (s : Dict Str Act) : ActCmd → Option (Dict Str Act)
  | .add _ name py =>
    match s.get? name with
    | none => some (s.insert name (if py.isSome then ⟨Dict.empty, none, [], true⟩ else newAct se))
    | some a =>
      if !reload then none
      else if !a.py then some (s.insert name (clearAll se a))
      else some (s.insert name (if py.isSome then ⟨Dict.empty, none, [], true⟩ else newAct se))
  | .set _ name k v => (s.get? name).map (fun a => s.insert name (setProp se a (k, v)))
  | .multi _ name kvs => (s.get? name).map (fun a => s.insert name (kvs.foldl (setProp se) a))

def runActs (se : SEnv) (reload : Bool) : List ActCmd → Dict Str Act → Option (Dict Str Act)
  | [], s => some s
  | c :: cs, s => (runAct se reload s c).bind (runActs se reload cs)

/-- Commands of all actions of a jail (jailreader.py 292-297). -/
def convertJobs (env : Env) (jail : Str) (jobs : List Job) : Option (List ActCmd) := (Options.allSome (convertJob env jail) jobs).map List.flatten

end Verif.ActionReader
