/-!
# Settings of jails at run time — `fail2ban/server/transmitter.py` (`set`, `multi-set`, `get`), `server.py` wrappers, `filter.py`, `jail.py`

Exceptions are a flag next to the state, since a command may fail after it changed something. Commands for log files, the journal, actions and bans change other state (modelled elsewhere);
here they leave the settings as they are.
-/

namespace Verif.Settings

/-- Values of replies. -/
inductive Val
  | none
  | bool (b : Bool)
  | int (n : Int)
  | num (q : Rat)
  | str (s : String)
  | strs (l : List String)
  | ints (l : List Int)
  /-- the lambda `evformula` with what it captures: multipliers, factor, formula, maxtime, rndtime -/
  | formula (multipliers : List Int) (factor formula : String) (maxtime rndtime : Option Val)

/-- Library functions and what depends on the machine. -/
structure Env where
  /-- `int(s)` -/
  int : String → Option Int
  /-- `MyTime.str2seconds(s)` -/
  seconds : String → Option Rat
  /-- `s.lower()` -/
  lower : String → String
  /-- `Regex(s, useDns=...)` raises no exception -/
  okRegex : String → String → Bool
  /-- `FailRegex(s, prefRegex=..., multiline=..., useDns=...)` raises no exception -/
  okFail : Option String → Bool → String → String → Bool
  /-- `codecs.lookup(s)` raises no exception -/
  okCodec : String → Bool
  /-- `PREFER_ENC` -/
  preferEnc : String
  /-- `validateTimeZone(s)` raises no exception -/
  okZone : String → Bool
  /-- what `getDatePattern` shows after `setDatePattern(s)`, `none` if that raises an exception -/
  pattern : String → Option Val
  /-- what `ignoreCache` shows after it is set, `none` if that raises an exception -/
  cache : String → Option Val
  /-- `addIgnoreIP`, `delIgnoreIP` (see Model/Ignore) on the list shown -/
  addIgnore : List String → String → Option (List String)
  delIgnore : List String → String → Option (List String)
  /-- `eval(factor)` and `compile(formula)` raise no exception -/
  okFactor : String → Bool
  okFormula : String → Bool
  /-- `s.split(' ')` -/
  words : String → List String
  /-- other commands succeed with this value -/
  other : String → List String → Option Val

/-- A jail (jail.py 71-87) with its filter (filter.py 63-130). -/
structure Jail where
  filterIdle : Bool
  actionsIdle : Bool
  ignoreSelf : Bool
  ignoreIp : List String
  ignoreCommand : Val
  ignoreCache : Val
  encoding : String
  prefRegex : Option String
  failRegex : List String
  ignoreRegex : List String
  useDns : String
  findTime : Rat
  /-- `failManager.__maxTime` -/
  maxTime : Rat
  /-- what `getDatePattern` shows -/
  datePattern : Val
  timeZone : Option String
  /-- `dateDetector.default_tz` -/
  detectorZone : Option String
  maxMatches : Int
  maxRetry : Int
  maxLines : Int
  banTime : Int
  /-- `_banExtra` -/
  extra : String → Option Val

/-- A new jail (filter.py 63-130, failmanager.py 35-45, banmanager.py 43-60). -/
def Jail.new (env : Env) : Jail where
  filterIdle := false
  actionsIdle := false
  ignoreSelf := true
  ignoreIp := []
  ignoreCommand := .bool false
  ignoreCache := .none
  encoding := env.preferEnc
  prefRegex := none
  failRegex := []
  ignoreRegex := []
  useDns := "warn"
  findTime := 600
  maxTime := 600
  datePattern := .strs ["Default Detectors"]
  timeZone := none
  detectorZone := none
  maxMatches := 5
  maxRetry := 3
  maxLines := 1
  banTime := 600
  extra := fun _ => none

/-- `_as_bool(s)` (helpers.py 88-90) -/
def asBool (env : Env) (s : String) : Bool := ["1", "on", "true", "yes"].contains (env.lower s)

/-- `int(q)` of a number -/
def truncate (q : Rat) : Int := Int.tdiv q.num q.den

/-- `setUseDns` (filter.py 248-257) -/
def useDnsOf (env : Env) (s : String) : String := if ["yes", "warn", "no", "raw"].contains (env.lower s) then env.lower s else "no"

/-- `del l[i]`, with `IndexError` caught (filter.py 178-189, 219-230) -/
def delAt (l : List String) (i : Int) : List String :=
  if 0 ≤ i then l.eraseIdx i.toNat
  else if 0 ≤ i + l.length then l.eraseIdx (i + l.length).toNat
  else l

/-- `for value in command[2:]: addIgnoreIP(name, value)` (transmitter.py 230-234) -/
def addIgnores (env : Env) (j : Jail) : List String → Bool × Jail
  | [] => (true, j)
  | v :: vs => match env.addIgnore j.ignoreIp v with
    | none => (false, j)
    | some l => addIgnores env { j with ignoreIp := l } vs

/-- `addFailRegex` (filter.py 168-176) -/
def addFailRegex (env : Env) (j : Jail) (v : String) : Bool × Jail :=
  if env.okFail j.prefRegex (decide (j.maxLines > 1)) j.useDns v then (true, { j with failRegex := j.failRegex ++ [v] }) else (false, j)

/-- `addIgnoreRegex` (filter.py 206-212) -/
def addIgnoreRegex (env : Env) (j : Jail) (v : String) : Bool × Jail :=
  if env.okRegex j.useDns v then (true, { j with ignoreRegex := j.ignoreRegex ++ [v] }) else (false, j)

/-- `d[k] = v` or `del d[k]` -/
def upd (d : String → Option Val) (k : String) (v : Option Val) : String → Option Val := fun k' => if k' = k then v else d k'

/-- text of an option of `_banExtra`, or its default; options set by commands are texts -/
def textOf (d : String → Option Val) (k default : String) : String := match d k with
  | some (.str s) => s
  | _ => default

/-- `be.get('evmultipliers', [])`, unless somebody sets `bantime.evmultipliers` itself -/
def multipliersOf (d : String → Option Val) : List Int := match d "evmultipliers" with
  | some (.ints l) => l
  | _ => []

/-- Default of `formula` (jail.py 255) -/
def defaultFormula : String := "ban.Time * (1<<(ban.Count if ban.Count<20 else 20)) * banFactor"

/-- `[int(i) for i in value.split(' ')]` (jail.py 246) -/
def intList (env : Env) : List String → Option (List Int)
  | [] => some []
  | w :: ws => match env.int w, intList env ws with
    | some n, some l => some (n :: l)
    | _, _ => none

/-- The formula is prepared (jail.py 248-267). -/
def rebuild (env : Env) (be : String → Option Val) : Bool × (String → Option Val) :=
  if !env.okFactor (textOf be "factor" "1") then (false, be)
  else if (multipliersOf be).isEmpty && !env.okFormula (textOf be "formula" defaultFormula) then (false, be)
  else (true, upd be "evformula" (some (.formula (multipliersOf be) (textOf be "factor" "1") (textOf be "formula" defaultFormula) (be "maxtime") (be "rndtime"))))

/-- `evmultipliers` is set, and the formula prepared (jail.py 242-267). -/
def prepare (env : Env) (be : String → Option Val) (opt : String) (v : Option String) : Bool × (String → Option Val) :=
  if ["formula", "factor", "maxtime", "rndtime", "multipliers"].contains opt || (be "evformula").isNone then
    if opt = "multipliers" then
      match intList env ((v.map env.words).getD []) with
      | none => (false, be)
      | some l => rebuild env (upd be "evmultipliers" (some (.ints l)))
    else rebuild env be
  else (true, be)

/-- The value is stored, with its conversion (jail.py 226-241). -/
def store (env : Env) (be : String → Option Val) (opt : String) (v : Option String) : Bool × (String → Option Val) :=
  let be := upd be opt (v.map Val.str)
  if opt = "increment" then (true, upd be opt (some (.bool ((v.map (asBool env)).getD false))))
  else if opt = "maxtime" || opt = "rndtime" then
    match v with
    | none => (true, be)
    | some s => match env.seconds s with
      | none => (false, be)
      | some q => (true, upd be opt (some (.num q)))
  else (true, be)

/-- `setBanTimeExtra(opt, value)` (jail.py 225-267) -/
def setExtra (env : Env) (be : String → Option Val) (opt value : String) : Bool × (String → Option Val) :=
  let v := if value = "" then none else some value
  let r := store env be opt v
  if r.1 then prepare env r.2 opt v else r

/-- the option after `bantime.` -/
def extraName (opt : String) : Option String :=
  if "bantime.".toList.isPrefixOf opt.toList then some (String.ofList (opt.toList.drop 8)) else none

/-- Commands that do not change settings (transmitter.py 250-282, 354-357, 364-410). -/
def others : List String :=
  ["addlogpath", "dellogpath", "addjournalmatch", "deljournalmatch", "attempt", "banip", "unbanip", "addaction", "delaction", "action"]

/-- keep the jail if there is no new one -/
def orFail (j : Jail) : Option Jail → Bool × Jail
  | some j => (true, j)
  | none => (false, j)

/-- `set <jail> <opt> <value>` (transmitter.py 215-363; server.py 351-523; setters of filter.py 150-420; banmanager.py 68-69) -/
def setOne (env : Env) (j : Jail) (opt v : String) : Bool × Jail :=
  if opt = "idle" then
    if v = "on" then (true, { j with filterIdle := true, actionsIdle := true })
    else if v = "off" then (true, { j with filterIdle := false, actionsIdle := false })
    else (false, j)
  else if opt = "ignoreself" then (true, { j with ignoreSelf := asBool env v })
  else if opt = "delignoreip" then orFail j ((env.delIgnore j.ignoreIp v).map fun l => { j with ignoreIp := l })
  else if opt = "ignorecommand" then (true, { j with ignoreCommand := .str v })
  else if opt = "ignorecache" then orFail j ((env.cache v).map fun c => { j with ignoreCache := c })
  else if opt = "logencoding" then
    let e := if env.lower v = "auto" then env.preferEnc else v
    if env.okCodec e then (true, { j with encoding := e }) else (false, j)
  else if opt = "prefregex" then
    if v = "" then (true, { j with prefRegex := none })
    else if env.okRegex j.useDns v then (true, { j with prefRegex := some v })
    else (false, j)
  else if opt = "addfailregex" then addFailRegex env j v
  else if opt = "delfailregex" then orFail j ((env.int v).map fun i => { j with failRegex := delAt j.failRegex i })
  else if opt = "addignoreregex" then addIgnoreRegex env j v
  else if opt = "delignoreregex" then orFail j ((env.int v).map fun i => { j with ignoreRegex := delAt j.ignoreRegex i })
  else if opt = "usedns" then (true, { j with useDns := useDnsOf env v })
  else if opt = "findtime" then orFail j ((env.seconds v).map fun q => { j with findTime := q, maxTime := q })
  else if opt = "datepattern" then orFail j ((env.pattern v).map fun p => { j with datePattern := p, detectorZone := j.timeZone })
  else if opt = "logtimezone" then
    if env.okZone v then (true, { j with timeZone := some v, detectorZone := some v }) else (false, j)
  else if opt = "maxmatches" then orFail j ((env.int v).map fun n => { j with maxMatches := n })
  else if opt = "maxretry" then orFail j ((env.int v).map fun n => { j with maxRetry := n })
  else if opt = "maxlines" then
    match env.int v with
    | none => (false, j)
    | some n => if n ≤ 0 then (false, j) else (true, { j with maxLines := n })
  else if opt = "bantime" then orFail j ((env.seconds v).map fun q => { j with banTime := truncate q })
  else match extraName opt with
    | some o => let r := setExtra env j.extra o v; (r.1, { j with extra := r.2 })
    | none => (false, j)

/-- `set <jail> <opt> <values>` -/
def setArgs (env : Env) (j : Jail) (opt : String) (vs : List String) : Bool × Jail :=
  if opt = "addignoreip" then addIgnores env j vs
  else match vs with
    | [] => (false, j)
    | v :: _ => setOne env j opt v

/-- Values shown by `get <jail> <opt>` (transmitter.py 445-491); there is none for `idle`. -/
def shown (j : Jail) (opt : String) : Option Val :=
  if opt = "logencoding" then some (.str j.encoding)
  else if opt = "ignoreself" then some (.bool j.ignoreSelf)
  else if opt = "ignoreip" then some (.strs j.ignoreIp)
  else if opt = "ignorecommand" then some j.ignoreCommand
  else if opt = "ignorecache" then some j.ignoreCache
  else if opt = "prefregex" then some (.str (j.prefRegex.getD ""))
  else if opt = "failregex" then some (.strs j.failRegex)
  else if opt = "ignoreregex" then some (.strs j.ignoreRegex)
  else if opt = "usedns" then some (.str j.useDns)
  else if opt = "findtime" then some (.num j.findTime)
  else if opt = "datepattern" then some j.datePattern
  else if opt = "logtimezone" then some (match j.timeZone with | some z => .str z | none => .none)
  else if opt = "maxmatches" then some (.int j.maxMatches)
  else if opt = "maxretry" then some (.int j.maxRetry)
  else if opt = "maxlines" then some (.int j.maxLines)
  else if opt = "bantime" then some (.int j.banTime)
  else match extraName opt with
    | some o => some ((j.extra o).getD .none)
    | none => none

/-- The option whose value `set` replies (transmitter.py 215-363). -/
def replied (opt : String) : String :=
  if opt = "addignoreip" || opt = "delignoreip" then "ignoreip"
  else if opt = "addfailregex" || opt = "delfailregex" then "failregex"
  else if opt = "addignoreregex" || opt = "delignoreregex" then "ignoreregex"
  else opt

/-- Names taken for options of the server by `set` and `get` (transmitter.py 159-213, 415-443). -/
def serverSet : List String := ["loglevel", "logtarget", "syslogsocket", "allowipv6", "thread", "dbfile", "dbmaxmatches", "dbpurgeage"]
def serverGet : List String := ["loglevel", "logtarget", "syslogsocket", "thread", "dbfile", "dbmaxmatches", "dbpurgeage"]

/-- The jails of the server. -/
abbrev Server := String → Option Jail

/-- `self.__jails[name]` is changed. -/
def put (s : Server) (name : String) (j : Jail) : Server := fun n => if n = name then some j else s n

/-- `set <name> ...` (transmitter.py 156-411): reply, `none` if an exception is raised. `attempt`, and `addignoreip` without values, do not fail for an absent jail if `quiet`; this is left out. -/
def setCmd (env : Env) (quiet : Bool) (s : Server) (name : String) (args : List String) : Option Val × Server :=
  if serverSet.contains name then (env.other name args, s)
  else match args with
    | [] => (none, s)
    | opt :: vs => match s name with
      | none => (none, s)
      | some j =>
        if others.contains opt then (env.other opt vs, s)
        else
          let r := setArgs env j opt vs
          (if !r.1 then none
           else if quiet then some .none
           else if opt = "idle" then some (.bool (r.2.filterIdle || r.2.actionsIdle))
           else shown r.2 (replied opt), put s name r.2)

/-- several expressions of `multi-set <name> addfailregex|addignoreregex` (server.py 445-450, 461-466) -/
def addAll (f : Jail → String → Bool × Jail) (j : Jail) : List String → Bool × Jail
  | [] => (true, j)
  | v :: vs => let r := f j v; if r.1 then addAll f r.2 vs else r

/-- `multi-set <name> addfailregex|addignoreregex [...]` (transmitter.py 289-307) -/
def multiSet (env : Env) (s : Server) (name opt : String) (vs : List String) : Option Val × Server :=
  match s name with
  | none => (none, s)
  | some j =>
    let r := addAll (if opt = "addfailregex" then addFailRegex env else addIgnoreRegex env) j vs
    (if r.1 then some (.bool true) else none, put s name r.2)

/-- `get <name> <opt>` (transmitter.py 413-512) -/
def getCmd (env : Env) (s : Server) (name : String) (args : List String) : Option Val :=
  if serverGet.contains name then env.other name args
  else match args with
    | [] => none
    | opt :: vs => match s name with
      | none => none
      | some j => match shown j opt with
        | some v => some v
        | none => env.other opt vs

/-- Commands of clients. -/
inductive Cmd
  | set (quiet : Bool) (name : String) (args : List String)
  | multiSet (name : String) (fail : Bool) (vs : List String)
  | get (name : String) (args : List String)

/-- One command. -/
def exec (env : Env) (s : Server) : Cmd → Option Val × Server
  | .set q n a => setCmd env q s n a
  | .multiSet n f vs => multiSet env s n (if f then "addfailregex" else "addignoreregex") vs
  | .get n a => (getCmd env s n a, s)

/-- Many commands: the server afterwards. -/
def run (env : Env) (s : Server) : List Cmd → Server
  | [] => s
  | c :: cs => run env (exec env s c).2 cs

end Verif.Settings
