import Verif.Model.IPAddr
import Verif.Model.Cache

/-!
# Ignore list of a jail — `fail2ban/server/filter.py` 436-446, 509-621

External parts are parameters of each query (`IgnoreEnv`): own addresses, name resolution, content of `file:` sets (after their load
on demand), the ignore command and the substituted key of the cache.
-/

namespace Verif

open IPAddr

/-- Element of `__ignoreIpList`: a network or name, or a file set (`FileIPAddrSet`). -/
inductive IgnItem where
  | net (x : IPAddr)
  | file (name : Str)
deriving DecidableEq, Repr

/-- Ignore configuration and cache of a filter (filter.py 82-90). -/
structure Ignore where
  /-- `__ignoreSelf` -/
  ignoreSelf : Bool := true
  /-- `__ignoreIpSet` -/
  ipSet : List IPAddr := []
  /-- `__ignoreIpList` -/
  ipList : List IgnItem := []
  /-- `__ignoreCommand` is set -/
  command : Bool := false
  /-- `__ignoreCache` (the cache, not the key) -/
  cache : Option (Cache Str Bool) := none

/-- The world seen by one query. -/
structure IgnoreEnv where
  lib : NetLib
  /-- `DNSUtils.getSelfIPs()` -/
  selfIPs : IPAddrSet
  /-- `DNSUtils.dnsToIp` -/
  resolve : Str → List IPAddr
  /-- content of a file set -/
  file : Str → IPAddrSet
  /-- exit code of the ignore command for this address, `none` if it could not be executed at all (then an exception is raised, since
  `executeCmd` returns no pair; utils.py 226) -/
  command : IPAddr → Option Int
  /-- the cache key after substitution of tags -/
  key : IPAddr → Str

namespace Ignore

/-- `ip in self.__ignoreIpSet` (lines 522, 597): a Python `set`, same hash (text) and equal -/
def inSet (lib : NetLib) (l : List IPAddr) (x : IPAddr) : Bool :=
  l.any (fun y => decide (x.ntoa lib = y.ntoa lib) && x.eq y)

/-- `ip.isInNet(net)` for an element of the list (lines 600-601, ipdns.py 623-624) -/
def inItem (env : IgnoreEnv) (x : IPAddr) : IgnItem → Bool
  | .net n => x.isInNet env.resolve n
  | .file f => (env.file f).mem env.lib env.resolve x

/-- The checks without cache (lines 591-621): the result, whether it is stored in the cache, `none` if an exception is raised.
A hit in `__ignoreIpSet` is not stored (lines 597-599). The command's codes 0 and 1 are successes (line 613), only 0 accepts. -/
def decision (env : IgnoreEnv) (g : Ignore) (x : IPAddr) : Option (Bool × Bool) :=
  if g.ignoreSelf && env.selfIPs.mem env.lib env.resolve x then some (true, true)
  else if inSet env.lib g.ipSet x then some (true, false)
  else if g.ipList.any (inItem env x) then some (true, true)
  else if g.command then
    match env.command x with
    | some code => some (decide (code = 0), true)
    | none => none
  else some (false, true)

/-- `_inIgnoreIPList(ip, ticket)` at time `now` (lines 575-621); `none` if an exception is raised. -/
def inIgnoreIPList (env : IgnoreEnv) (now : Int) (g : Ignore) (x : IPAddr) : Option Bool × Ignore :=
  match g.cache with
  | none =>
    match decision env g x with
    | some (v, _) => (some v, g)
    | none => (none, g)
  | some c =>
    let (v, c) := c.get now (env.key x)
    let g := { g with cache := some c }
    match v with
    | some v => (some v, g)
    | none =>
      match decision env g x with
      | some (v, true) => (some v, { g with cache := some (c.set now (env.key x) v) })
      | some (v, false) => (some v, g)
      | none => (none, g)

/-- text after `file:` and up to two slashes, if the string has this form: `^file:/{0,2}(.*)$` (ipdns.py 743) -/
def fileName (s : Str) : Option Str :=
  match s with
  | 'f' :: 'i' :: 'l' :: 'e' :: ':' :: '/' :: '/' :: r => some r
  | 'f' :: 'i' :: 'l' :: 'e' :: ':' :: '/' :: r => some r
  | 'f' :: 'i' :: 'l' :: 'e' :: ':' :: r => some r
  | _ => none

/-- `ip in self.__ignoreIpList` for an `IPAddr` (line 522): elements are compared one after another; the comparison with a file set
raises (`re.match` of a non-string, ipdns.py 764; with Python before 3.9 the set is not hashable). `none` if it raises. -/
def inList (x : IPAddr) : List IgnItem → Option Bool
  | [] => some false
  | .net n :: rest => if n.eq x then some true else inList x rest
  | .file _ :: _ => none

/-- `addIgnoreIP(ipstr)` (lines 509-531); `none` if an exception is raised (state unchanged). -/
def addIgnoreIP (lib : NetLib) (g : Ignore) (s : Str) : Option Ignore :=
  if s = [] then some g
  else
    match fileName s with
    | some f => some { g with ipList := g.ipList ++ [.file f] }
    | none =>
      match IPAddr.new lib s with
      | none => none
      | some ip =>
        if inSet lib g.ipSet ip then some g
        else
          match inList ip g.ipList with
          | none => none
          | some true => some g
          | some false =>
            if ip.isSingle then some { g with ipSet := g.ipSet ++ [ip] }
            else some { g with ipList := g.ipList ++ [.net ip] }

/-- `item == s` for an element of the list and a string (ipdns.py 506-518, 759-766); `none` if the comparison raises. -/
def itemEqStr (lib : NetLib) (s : Str) : IgnItem → Option Bool
  | .net n => (IPAddr.new lib s).map (fun y => n.eq y)
  | .file f =>
    match fileName s with
    | some f' => some (decide (f = f'))
    | none => some false

/-- `self.__ignoreIpList.remove(s)`; `none` if an exception is raised, in particular if there is no such element. -/
def removeItem (lib : NetLib) (s : Str) : List IgnItem → Option (List IgnItem)
  | [] => none
  | i :: rest =>
    match itemEqStr lib s i with
    | none => none
    | some true => some rest
    | some false => (removeItem lib s rest).map (i :: ·)

/-- `delIgnoreIP(ip)` for a string (lines 533-549). The string is found in the set only if it is the text of a member (hash); the member
is then compared by `IPAddr(s)`. -/
def delIgnoreIP (lib : NetLib) (g : Ignore) (s : Str) : Option Ignore :=
  if (fileName s).isSome then (removeItem lib s g.ipList).map (fun l => { g with ipList := l })
  else
    match IPAddr.new lib s with
    | none => none
    | some y =>
      let same := fun (x : IPAddr) => decide (x.ntoa lib = s) && x.eq y
      if g.ipSet.any same then some { g with ipSet := g.ipSet.filter (fun x => !same x) }
      else (removeItem lib s g.ipList).map (fun l => { g with ipList := l })

/-- `delIgnoreIP()` (lines 535-538): clear all -/
def clearIgnoreIP (g : Ignore) : Ignore := { g with ipSet := [], ipList := [] }

end Ignore

end Verif
