import Verif.Py.Dict

/-!
# Reading configuration files — `fail2ban/client/configparserinc.py`, `fail2ban/client/configreader.py` 205-244

How a single file is parsed (Python's `ConfigParser.read`) is given by the environment, as are names of files. A value is a sequence of literal text,
escaped percent signs and references `%(name)s` or `%(section/name)s`. Syntax errors of files and of references (among them names not in lower case) are not modelled, nor are caches of
parsed files (`_cfg_share`), except that `C45_seen` shows that the cache of include lists makes no difference.
-/

namespace Verif

/-- Parts of a value. -/
inductive Tok where
  | lit (s : String)
  /-- `%%` -/
  | pct
  /-- `%(name)s`; the name may be `section/option` -/
  | ref (name : String)
deriving DecidableEq

/-- A raw value. -/
abbrev Value := List Tok

/-- options of a section -/
abbrev Section := Dict String Value

/-- `_defaults` and `_sections` -/
structure Cfg where
  defaults : Section
  sections : Dict String Section

/-- A parsed file, with the values of `before` and `after` of its section `INCLUDES` split into lines. -/
structure CfgFile where
  cfg : Cfg
  before : List String := []
  after : List String := []

/-- Files. -/
structure FileSys where
  /-- `none`: cannot be read (or decoded) -/
  parse : String → Option CfgFile
  /-- `os.path.isfile`, `os.path.exists` -/
  isFile : String → Bool
  /-- `os.path.splitext(filename)[0] + '.local'` -/
  localName : String → String
  /-- path of an included file: absolute or relative to the directory of the including one (configparserinc.py 281-284) -/
  resolve : String → String → String
  /-- `glob.glob('%s/*.conf' % config_dir)` -/
  globConf : String → List String
  /-- `glob.glob('%s/*.local' % config_dir)` -/
  globLocal : String → List String

namespace Config

/-- `_expandConfFilesWithLocal(filenames)` (configparserinc.py 63-72) -/
def expandLocal (fs : FileSys) (names : List String) : List String :=
  names.flatMap (fun f => if fs.localName f ∉ names ∧ fs.isFile (fs.localName f) then [f, fs.localName f] else [f])

/-- results appended; `none` is an exception -/
def concat (f : String → Option (List String)) : List String → Option (List String)
  | [] => some []
  | x :: xs => (f x).bind (fun a => (concat f xs).map (fun b => a ++ b))

/-- `__getIncludesUncached(resource, seen)` (configparserinc.py 258-291); `none`: the recursion is deeper than the first argument. -/
def includes (fs : FileSys) : Nat → List String → String → Option (List String)
  | 0, _, _ => none
  | n + 1, seen, res =>
    match fs.parse res with
    | none => some []
    | some c =>
      let sub := fun r => if r ∈ seen then some [] else concat (includes fs n (seen ++ [res])) (expandLocal fs [r])
      (concat sub (c.before.map (fs.resolve res))).bind (fun b =>
        (concat sub (c.after.map (fs.resolve res))).map (fun a => b ++ [res] ++ a))

/-- `_getIncludes(filenames)` (configparserinc.py 237-256) -/
def getIncludes (fs : FileSys) (n : Nat) (seen : List String) (names : List String) : Option (List String) :=
  concat (includes fs n seen) (expandLocal fs names)

/-- word character -/
def isWord (c : Char) : Bool := c.isAlphanum || c = '_'

/-- `CONDITIONAL_RE` (configparserinc.py 117): name and condition of a section like `Init?family=inet6` -/
def conditional (name : String) : Option (String × String) :=
  let base := name.toList.takeWhile isWord
  let rest := name.toList.dropWhile isWord
  match base, rest with
  | [], _ => none
  | b, '?' :: c :: r => some (String.ofList b, String.ofList ('?' :: c :: r))
  | _, _ => none

/-- `dict.update` -/
def update (d s : Section) : Section := s.items.foldl (fun d kv => d.insert kv.1 kv.2) d

/-- options renamed, for a conditional section (configparserinc.py 345-352) -/
def suffixed (s : Section) (cond : String) : Section := s.items.foldl (fun d kv => d.insert (kv.1 ++ cond) kv.2) Dict.empty

/-- The section that is merged (configparserinc.py 340-352). -/
def target (n : String) (s : Section) : String × Section :=
  match conditional n with
  | some (base, cond) => (base, suffixed s cond)
  | none => (n, s)

/-- `merge_section(section, options, '')` (configparserinc.py 371-379) -/
def mergeSection (c : Cfg) (n : String) (opts : Section) : Cfg :=
  { c with sections := c.sections.insert n (update ((c.sections.get? n).getD Dict.empty) opts) }

/-- One section of a file is merged (configparserinc.py 353-361). -/
def mergeOne (c : Cfg) (n : String) (s : Section) : Cfg :=
  match c.sections.get? n with
  | some s2 =>
    let c := mergeSection c ("KNOWN/" ++ n) (s2.filter (fun k _ => s.contains k))
    { c with sections := c.sections.insert n (update s2 s) }
  | none => { c with sections := c.sections.insert n s }

/-- One file is merged (configparserinc.py 338-361). -/
def mergeFile (c : Cfg) (f : Cfg) : Cfg :=
  f.sections.items.foldl (fun c ns => mergeOne c (target ns.1 ns.2).1 (target ns.1 ns.2).2) { c with defaults := update c.defaults f.defaults }

/-- All files of the list are merged (configparserinc.py 330-363); also the files read. -/
def mergeFiles (fs : FileSys) : List String → Cfg → List String × Cfg
  | [], c => ([], c)
  | f :: rest, c =>
    match fs.parse f with
    | none => mergeFiles fs rest c
    | some x => let y := mergeFiles fs rest (mergeFile c x.cfg); (f :: y.1, y.2)

/-- `read(filenames)` with includes (configparserinc.py 313-363) -/
def read (fs : FileSys) (n : Nat) (names : List String) (c : Cfg) : Option (List String × Cfg) :=
  (getIncludes fs n [] names).map (fun l => mergeFiles fs l c)

/-- nothing read -/
def empty : Cfg := ⟨Dict.empty, Dict.empty⟩

/-- insertion into a sorted list -/
def insertSorted (x : String) : List String → List String
  | [] => [x]
  | y :: l => if x ≤ y then x :: y :: l else y :: insertSorted x l

/-- `sorted` -/
def sorted : List String → List String
  | [] => []
  | x :: l => insertSorted x (sorted l)

/-- The files of a name (configreader.py 212-224). -/
def configFiles (fs : FileSys) (base : String) : List String :=
  ([base ++ ".conf"] ++ sorted (fs.globConf (base ++ ".d")) ++ [base ++ ".local"] ++
    sorted (fs.globLocal (base ++ ".d"))).filter fs.isFile

/-- `ConfigReaderUnshared.read(filename)` (configreader.py 205-244): result and what was read -/
def readName (fs : FileSys) (n : Nat) (base : String) : Option (Bool × Cfg) :=
  let files := configFiles fs base
  if files = [] then some (false, empty)
  else
    (read fs n files empty).map (fun x =>
      (decide ((∀ f ∈ files, f ∈ x.1) ∧ x.1 ≠ []), x.2))

/-! ## Values -/

/-- Errors of `get`. -/
inductive GetError where
  | noSection
  | noOption
  /-- a reference to a name that does not exist -/
  | missing
  /-- `MAX_INTERPOLATION_DEPTH` is exceeded -/
  | depth
deriving DecidableEq

/-- The mapping of references: variables, options of the section, defaults (Python's `_unify_values`). -/
structure Names where
  vars : Section
  sec : Section
  defaults : Section

/-- lookup -/
def Names.get? (m : Names) (k : String) : Option Value := (m.vars.get? k).or ((m.sec.get? k).or (m.defaults.get? k))

/-- assignment to the mapping -/
def Names.set (m : Names) (k : String) (v : Value) : Names := { m with vars := m.vars.insert k v }

/-- `SECTION_OPTSUBST_CRE` (configparserinc.py 115): section and option of a name; names are assumed to be in lower case -/
def sectionRef (name : String) : Option (String × String) :=
  let sec := name.toList.takeWhile (fun c => isWord c || c = '-')
  let rest := name.toList.dropWhile (fun c => isWord c || c = '-')
  match sec, rest with
  | [], _ => none
  | b, '/' :: c :: r => some (String.ofList b, String.ofList (c :: r))
  | _, _ => none

/-- The value of `sec/opt` in section `cur` (configparserinc.py 171-201). -/
def sectionOption (c : Cfg) (cur sec opt : String) : Option Value :=
  if sec.toLower ≠ "default" then
    if sec.toLower = "known" then ((c.sections.get? ("KNOWN/" ++ cur)).bind (·.get? opt)).or (c.defaults.get? opt)
    else
      match c.sections.get? sec with
      | none => none
      | some s => (s.get? opt).or (c.defaults.get? opt)
  else c.defaults.get? opt

/-- `_map_section_options` (configparserinc.py 157-212) -/
def mapSectionOptions (c : Cfg) (cur : String) : Value → Names → Names
  | [], m => m
  | .ref name :: rest, m =>
    match sectionRef name with
    | none => mapSectionOptions c cur rest m
    | some (sec, opt) =>
      if (m.get? name).isSome then mapSectionOptions c cur rest m
      else
        match sectionOption c cur sec opt with
        | none => mapSectionOptions c cur rest m
        | some v => mapSectionOptions c cur rest (m.set name v)
  | _ :: rest, m => mapSectionOptions c cur rest m

/-- whether a `%` is in the value -/
def hasPercent (v : Value) : Bool := v.any (fun | .lit _ => false | _ => true)

/-- text of a value without percent signs -/
def plain (v : Value) : List String := v.map (fun | .lit s => s | .pct => "%" | .ref _ => "")

/-- The loop of Python's `BasicInterpolation._interpolate_some`; `sub` is the recursive call. -/
def interpolateLoop (sub : Value → Names → Except GetError (List String)) (m : Names) : Value → Except GetError (List String)
  | [] => .ok []
  | .lit s :: rest => (interpolateLoop sub m rest).map (fun r => s :: r)
  | .pct :: rest => (interpolateLoop sub m rest).map (fun r => "%" :: r)
  | .ref name :: rest =>
    match m.get? name with
    | none => .error .missing
    | some v =>
      match (if hasPercent v then sub v m else .ok (plain v)) with
      | .error e => .error e
      | .ok a => (interpolateLoop sub m rest).map (fun r => a ++ r)

/-- `_interpolate_some` (configparserinc.py 52-59); the first argument is the number of levels left. -/
def interpolate (c : Cfg) (cur : String) : Nat → Value → Names → Except GetError (List String)
  | 0, _, _ => .error .depth
  | n + 1, v, m => interpolateLoop (interpolate c cur n) (mapSectionOptions c cur v (m.set "__name__" [.lit cur])) v

/-- `MAX_INTERPOLATION_DEPTH` of Python's `configparser` -/
def maxDepth : Nat := 10

/-- `get(section, option, vars=vars)` (Python's `ConfigParser.get`); the text is the concatenation of the result. -/
def get (c : Cfg) (vars : Section) (sec opt : String) : Except GetError (List String) :=
  match (if sec = "DEFAULT" then some Dict.empty else c.sections.get? sec) with
  | none => .error .noSection
  | some s =>
    match (Names.mk vars s c.defaults).get? opt with
    | none => .error .noOption
    | some v => interpolate c sec maxDepth v ⟨vars, s, c.defaults⟩

end Config

end Verif
