/-!
# Values of tags from other sections — `fail2ban/client/configparserinc.py` (113, 128-155), `fail2ban/client/configreader.py` (380-395)

Tags in a filter or action that are not options themselves are looked up with `getCombOption`; a name like `section/option` or
`known/option` is of another section. Parsed files are arbitrary, character classes of expressions and `lower` too.
-/

namespace Verif.CombOption

abbrev Str := List Char

/-- What `get` ends with. -/
inductive Got where
  | value (v : Str)
  /-- `NoSectionError` or `NoOptionError` -/
  | absent
  /-- `ValueError` -/
  | wrong
  /-- another exception, as `InterpolationError` -/
  | failed
deriving DecidableEq

/-- Parsed files, and functions of python; `ω` are options given to the reader. -/
structure Env (ω : Type) where
  /-- `\w` -/
  word : Char → Bool
  /-- `\s` -/
  space : Char → Bool
  lower : Str → Str
  /-- `get(section, option)` -/
  get : Str → Str → Got
  /-- `get(section, option, vars=…)` -/
  getVars : ω → Str → Str → Got

/-- Text up to the first `/`, and text after it. -/
def cut : Str → Option (Str × Str)
  | [] => none
  | c :: s => if c = '/' then some ([], s) else (cut s).map fun p => (c :: p.1, p.2)

/-- `$` also matches before a line break at the end. -/
def chomp (s : Str) : Str := if s.getLast? = some '\n' then s.dropLast else s

/-- `SECTION_OPTNAME_CRE.search(option)` (configparserinc.py 113): section and option -/
def parse {ω : Type} (env : Env ω) (s : Str) : Option (Str × Str) :=
  match cut s with
  | none => none
  | some (a, b) =>
    if a ≠ [] ∧ a.all (fun c => env.word c || c == '-') ∧ chomp b ≠ [] ∧ (chomp b).all (fun c => !env.space c && c != '>') then some (a, chomp b)
    else none

/-- Sections that are tried (lines 139-146). -/
def places {ω : Type} (env : Env ω) (section_ sec : Str) : List Str :=
  if env.lower sec = "known".toList then ["KNOWN/".toList ++ section_, section_]
  else if env.lower sec ≠ "default".toList then [sec] else ["DEFAULT".toList]

/-- The loop over them (lines 147-152); other exceptions leave it. -/
def firstOf {ω : Type} (env : Env ω) (opt : Str) (fallback : Got) : List Str → Got
  | [] => fallback
  | p :: ps => match env.get p opt with
    | .absent => firstOf env opt fallback ps
    | g => g

/-- `get_ex(section, option, vars=vars)` (lines 128-155) -/
def getEx {ω : Type} (env : Env ω) (vars : ω) (section_ option : Str) : Got :=
  match parse env option with
  | some (sec, opt) => firstOf env opt (env.getVars vars section_ option) (places env section_ sec)
  | none => env.getVars vars section_ option

/-- The reader: `_pOpts` and `_defCache`. -/
structure State (ω : Type) where
  opts : ω
  cache : Str → Option (Option Str)

/-- Answer of `getCombOption`. -/
inductive Answer where
  | is (v : Option Str)
  | raised
deriving DecidableEq

/-- `getCombOption(optname)` (configreader.py 381-395) -/
def comb {ω : Type} (env : Env ω) (s : State ω) (name : Str) : State ω × Answer :=
  match s.cache name with
  | some v => (s, .is v)
  | none =>
    match getEx env s.opts "Definition".toList name with
    | .value v => ({ s with cache := fun k => if k = name then some (some v) else s.cache k }, .is (some v))
    | .absent => ({ s with cache := fun k => if k = name then some none else s.cache k }, .is none)
    | .wrong => ({ s with cache := fun k => if k = name then some none else s.cache k }, .is none)
    | .failed => (s, .raised)

/-- Names asked one after the other. -/
def asks {ω : Type} (env : Env ω) : State ω → List Str → List Answer
  | _, [] => []
  | s, n :: ns => (comb env s n).2 :: asks env (comb env s n).1 ns

/-- `getOptions` sets `_pOpts` (configreader.py 346) and leaves the cache; it is called twice for the filter of a jail (jailreader.py 170, 183). -/
def setOpts {ω : Type} (s : State ω) (o : ω) : State ω := { s with opts := o }

end Verif.CombOption
