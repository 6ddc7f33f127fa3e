import Verif.Model.Options

/-!
# What the argument `REGEX` of `fail2ban-regex` names — `fail2ban/client/fail2banregex.py` 330-375, 393-420

A jail, a filter of a directory of configuration, a file of its own, or an expression. Paths are texts as they are given to the functions of `posixpath`.

Simplifications: `os.path.isfile` and `os.path.exists` of files are the same; files that are included by others (`before`, `after`) are left out, and that a file exists means that
it can be read. The directory of configuration exists. With `--verbose` errors are raised again instead of `return False`; this is the same here.
-/

namespace Verif.RegexName

abbrev Str := List Char

open Options (Chars extractOptions)

/-! Module `posixpath` -/

/-- `p[i:]` with `i = p.rfind('/') + 1` (`os.path.basename`) -/
def basename (p : Str) : Str := (p.reverse.takeWhile (· ≠ '/')).reverse

/-- `p[:i]` -/
def head (p : Str) : Str := (p.reverse.dropWhile (· ≠ '/')).reverse

/-- `p.rstrip('/')` -/
def rstrip (p : Str) : Str := (p.reverse.dropWhile (· = '/')).reverse

/-- `os.path.dirname(p)`: without slashes at the end, unless there are only slashes -/
def dirname (p : Str) : Str := if (head p).all (· = '/') then head p else rstrip (head p)

/-- `os.path.join(a, b)` -/
def join (a b : Str) : Str :=
  if b.head? = some '/' then b
  else if a = [] ∨ a.getLast? = some '/' then a ++ b
  else a ++ '/' :: b

/-- `os.path.splitext(t)[0]` of a name without `/`: up to the last dot, if there is something else than dots before -/
def stem (t : Str) : Str :=
  match t.reverse.dropWhile (· ≠ '.') with
  | [] => t
  | _ :: a => if a.all (· = '.') then t else a.reverse

/-- `os.path.splitext(p)[0]` -/
def root (p : Str) : Str := head p ++ stem (basename p)

/-! The argument -/

/-- `[\w/_\-.]` -/
def nameChar (cc : Chars) (c : Char) : Bool := cc.word c || c = '/' || c = '_' || c = '-' || c = '.'

/-- `$` with flag `m` -/
def lineEnd : Str → Bool
  | [] => true
  | c :: _ => c = '\n'

/-- `.*\]$` with flags `ms` -/
def closes : Str → Bool
  | [] => false
  | c :: cs => (c = ']' && lineEnd cs) || closes cs

/-- `(?:\[.*\])?$` -/
def rest (s : Str) : Bool :=
  lineEnd s ||
    match s with
    | [] => false
    | c :: cs => c = '[' && closes cs

/-- `/{0,3}[\w/_\-.]+(?:\[.*\])?$`: neither a new line nor `[` is in the class, so that the greedy `+` takes all there are -/
def looksAt (cc : Chars) (s : Str) : Bool := !(s.takeWhile (nameChar cc)).isEmpty && rest (s.dropWhile (nameChar cc))

/-- Behind a new line -/
def looksBelow (cc : Chars) : Str → Bool
  | [] => false
  | c :: cs => (c = '\n' && looksAt cc cs) || looksBelow cc cs

/-- `re.search(r'(?ms)^/{0,3}[\w/_\-.]+(?:\[.*\])?$', value)` (line 340) -/
def looks (cc : Chars) (s : Str) : Bool := looksAt cc s || looksBelow cc s

/-- `\.(?:conf|local)$` -/
def extAt (s : Str) : Bool :=
  (".conf".toList.isPrefixOf s && lineEnd (s.drop 5)) || (".local".toList.isPrefixOf s && lineEnd (s.drop 6))

/-- The same somewhere -/
def hasExt : Str → Bool
  | [] => false
  | c :: cs => extAt (c :: cs) || hasExt cs

/-- `re.search(r'(?ms)(?:/|\.(?:conf|local)$)', fltName)` (line 343) -/
def noJail (n : Str) : Bool := n.contains '/' || hasExt n

/-- `"." in fltName[~5:]` (lines 350, 396) -/
def dotted (n : Str) : Bool := (n.drop (n.length - 6)).contains '.'

/-- `tryNames` (lines 350-353) -/
def tryNames (n : Str) : List Str := if dotted n then [n] else [n, n ++ ".conf".toList, n ++ ".local".toList]

/-- What is found outside. -/
structure Env where
  cc : Chars
  /-- `self._opts.config` -/
  config : Str
  /-- whether `jail.conf` and the like have such a section (jailreader.py 65-72); `none` is an exception other than NoJailError -/
  jail : Str → Option Bool
  isFile : Str → Bool
  /-- `os.path.abspath` -/
  abspath : Str → Str
  /-- `sorted(glob.glob('%s/*.conf' % dir))` and the same for `.local`: directory and suffix -/
  glob : Str → Str → List Str

def filterD : Str := "filter.d".toList

/-- The loop over the names (lines 354-366): the file, and `basedir` after the loop -/
def find (env : Env) (basedir : Str) : List Str → Option Str × Str
  | [] => (none, basedir)
  | f :: fs =>
    let r :=
      if dirname f = filterD then (join basedir f, basedir)
      else if !f.contains '/' then
        (if basename basedir = filterD then join basedir f else join (join basedir filterD) f, basedir)
      else (f, dirname f)
    if env.isFile r.1 then (some r.1, r.2) else find env r.2 fs

/-- What is tested. -/
inductive Target where
  /-- `return False` (lines 367-371) -/
  | error
  /-- the jail (lines 378-392) -/
  | jail (name : Str) (opts : Dict Str Str)
  /-- `FilterReader(name, basedir=basedir).read()` (lines 394-402, 411-416) -/
  | standard (basedir name : Str) (opts : Dict Str Str)
  /-- `FilterReader(file).readexplicit()` (lines 403-408, 411-420) -/
  | explicit (file : Str) (opts : Dict Str Str)
  /-- the argument itself is the expression (lines 475-477) -/
  | regex
deriving DecidableEq

/-- A filter (lines 350-366, 393-408) -/
def filterOf (env : Env) (n : Str) (opts : Dict Str Str) : Target :=
  match find env env.config (tryNames n) with
  | (none, _) => .regex
  | (some _, b) =>
    if b = env.config ∨ basename b = filterD ∨ (!dotted n && !n.contains '/') = true then
      .standard (if basename b = filterD then dirname b else b) (stem (basename n)) opts
    else .explicit (if n.head? = some '/' then n else env.abspath n) opts

/-- `readRegex(value, 'fail')` up to where commands are made (lines 330-420) -/
def resolve (env : Env) (value : Str) : Target :=
  if looks env.cc value then
    match extractOptions env.cc value with
    | none => .error
    | some (n, opts) =>
      if noJail n then filterOf env n opts
      else match env.jail n with
        | none => .error
        | some true => .jail n opts
        | some false => filterOf env n opts
  else .regex

/-- Files that are read for a filter: `ConfigReaderUnshared.read` (configreader.py 205-228) of `join("filter.d", name)` (filterreader.py 49-51), or the file and its `.local`
(configreader.py 331-334, configparserinc.py 63-72) -/
def files (env : Env) : Target → List Str
  | .standard b n _ =>
    let base := join (rstrip b) (join filterD n)
    ([base ++ ".conf".toList] ++ env.glob (base ++ ".d".toList) ".conf".toList ++ [base ++ ".local".toList] ++ env.glob (base ++ ".d".toList) ".local".toList).filter env.isFile
  | .explicit f _ =>
    ([f] ++ if root f ++ ".local".toList = f then [] else [root f ++ ".local".toList]).filter env.isFile
  | _ => []

/-- "ERROR: failed to load filter" (lines 424-426): nothing was read -/
def loads (env : Env) (t : Target) : Bool := !(files env t).isEmpty

end Verif.RegexName
