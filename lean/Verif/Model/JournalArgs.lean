import Verif.Py.Dict
import Verif.Model.Reader

/-!
# Options of the backend `systemd` — `fail2ban/server/filtersystemd.py` 54-100

`backend = systemd[journalpath=…, journalfiles=…, journalflags=…, namespace=…]`: the options (`extractOptions`, all are texts) become arguments of `journal.Reader`.

Simplifications: options that are lists, which only tests give, are left out. That `journal.Reader` itself raises an exception is decided outside, and not modelled here.
-/

namespace Verif.JournalArgs

open Reader (Str splitwords)

/-- What is outside. -/
structure Env where
  /-- `glob.glob(pattern)` -/
  glob : Str → List Str
  /-- `int(text)`; `none` is a ValueError -/
  toInt : Str → Option Int
  /-- `os.getenv("F2B_SYSTEMD_DEFAULT_FLAGS")` -/
  defaultFlags : Option Str

/-- Arguments of `journal.Reader` besides `converters`; `none` if not given -/
structure Args where
  path : Option Str := none
  files : Option (List Str) := none
  flags : Option Int := none
  namespace_ : Option Str := none
deriving DecidableEq

/-- `list(set(files))`; the order is left open by Python -/
def unique : List Str → List Str
  | [] => []
  | f :: fs => if f ∈ fs then unique fs else f :: unique fs

/-- `files.extend(glob.glob(p))` for the words (lines 78-84) -/
def expand (env : Env) (v : Str) : List Str := unique ((splitwords v).flatMap env.glob)

/-- `'files' not in args or not len(args['files'])` (line 92) -/
def noFiles : Option (List Str) → Bool
  | none => true
  | some l => l.isEmpty

/-- The same for the path -/
def noPath : Option Str → Bool
  | none => true
  | some p => p.isEmpty

/-- `int(os.getenv("F2B_SYSTEMD_DEFAULT_FLAGS", 4))` (line 93) -/
def default (env : Env) : Option Int :=
  match env.defaultFlags with
  | none => some 4
  | some v => env.toInt v

/-- `args['flags']` (lines 88-93): outer `none` is a ValueError -/
def flagsOf (env : Env) (given : Option Str) (path : Option Str) (files : Option (List Str)) : Option (Option Int) :=
  match given with
  | some v => (env.toInt v).map some
  | none => if noFiles files && noPath path then (default env).map some else some none

/-- `_getJournalArgs(kwargs)` (lines 64-100): the arguments, and what is left in `kwargs` -/
def getArgs (env : Env) (kw : Dict Str Str) : Option (Args × Dict Str Str) :=
  let path := kw.get? "journalpath".toList
  let kw1 := kw.erase "journalpath".toList
  let files := (kw1.get? "journalfiles".toList).map (expand env)
  let kw2 := kw1.erase "journalfiles".toList
  match flagsOf env (kw2.get? "journalflags".toList) path files with
  | none => none
  | some flags =>
    let kw3 := kw2.erase "journalflags".toList
    some (⟨path, files, flags, kw3.get? "namespace".toList⟩, kw3.erase "namespace".toList)

/-- `FilterSystemd(jail, **kwargs)` (lines 54-62): `Filter.__init__` takes `useDns` only (filter.py 65), others are a TypeError; `none` is an exception -/
def create (env : Env) (kw : Dict Str Str) : Option Args :=
  match getArgs env kw with
  | none => none
  | some (a, left) => if left.keys.all (fun k => k = "useDns".toList) then some a else none

end Verif.JournalArgs
