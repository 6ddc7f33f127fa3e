import Verif.Model.Ignore

/-!
# The ignore command for crawlers — `config/filter.d/ignorecommands/apache-fakegooglebot`

The command of jail apache-fakegooglebot (jail.conf 349): an address is ignored if its name is one of Google and the name has this address.

Simplifications: the answers of the name service are parameters (`Answers`). The thread that asks for the name has answered in time or not.
`float(timeout)` is a parameter. An exception of `th.join` for an infinite time is left out.
-/

namespace Verif.Googlebot

open Verif Verif.IPAddr

/-- Result of `DNSUtils.ipToName(ip)` (ipdns.py 117-129) -/
inductive Name where
  | name (h : Str)
  /-- `None` -/
  | unknown
  /-- a ValueError, like UnicodeError -/
  | raises
deriving DecidableEq

structure Answers where
  lib : NetLib
  /-- `ipToName` -/
  reverse : Str → Name
  /-- the thread of lines 29-33 has ended in time -/
  inTime : Bool
  /-- `dnsToIp` -/
  forward : Str → List IPAddr
  /-- `float(s)`: is it a number, and not zero -/
  number : Str → Option Bool

/-- `$` -/
def atEnd (s : Str) : Bool := s == [] || s == ['\n']

/-- What is left after a prefix -/
def after : Str → Str → Option Str
  | [], s => some s
  | _ :: _, [] => none
  | p :: ps, c :: s => if p = c then after ps s else none

/-- `\.com$` matches here -/
def com (s : Str) : Bool :=
  match after ".com".toList s with
  | none => false
  | some r => atEnd r

/-- `\.google(bot)?\.com$` matches here -/
def domain (s : Str) : Bool :=
  match after ".google".toList s with
  | none => false
  | some r =>
    match after "bot".toList r with
    | none => com r
    | some r' => com r' || com r

/-- `re.match(r'.*\.google(bot)?\.com$', host)` (line 38); `.` is no newline -/
def isName : Str → Bool
  | [] => domain []
  | c :: s => domain (c :: s) || (c ≠ '\n' && isName s)

/-- `ip in host_ips` (line 41): `host_ips` is a set of addresses, `ip` a text. A member has the hash of its text (ipdns.py 541-543) and is compared with `IPAddr(ip)` (506-518) -/
def member (lib : NetLib) (ip : Str) (ips : List IPAddr) : Bool :=
  ips.any (fun y => decide (y.ntoa lib = ip) && match IPAddr.new lib ip with
    | some x => y.eq x
    | none => false)

/-- Truth of `host` and the rest of `is_googlebot` (38-41) -/
def check (a : Answers) (ip : Str) : Name → Option Bool
  | .raises => none
  | .unknown => some false
  | .name h => some (!h.isEmpty && isName h && member a.lib ip (a.forward h))

/-- `is_googlebot(ip, timeout)` (24-41); `limited` is whether the timeout is not zero. An exception in the thread leaves `None`. `none` is a ValueError -/
def isGooglebot (a : Answers) (ip : Str) (limited : Bool) : Option Bool :=
  if limited then
    if a.inTime then
      match a.reverse ip with
      | .raises => check a ip .unknown
      | n => check a ip n
    else check a ip .unknown
  else check a ip (a.reverse ip)

/-- `process_args(argv)` (11-20), `argv` without the name of the program; `none` is a ValueError -/
def processArgs (lib : NetLib) : List Str → Option (Str × Option Str)
  | [ip] => (IPAddr.new lib ip).bind (fun x => if x.isValid then some (ip, none) else none)
  | [ip, t] => (IPAddr.new lib ip).bind (fun x => if x.isValid then some (ip, some t) else none)
  | _ => none

/-- `float(timeout or 0)` is not zero (27); the default is 55 -/
def limited (a : Answers) : Option Str → Option Bool
  | none => some true
  | some t => if t = [] then some false else a.number t

/-- Exit code (43-49) -/
def exitCode (a : Answers) (args : List Str) : Int :=
  match processArgs a.lib args with
  | none => 2
  | some (ip, t) =>
    match limited a t with
    | none => 2
    | some l =>
      match isGooglebot a ip l with
      | none => 2
      | some true => 0
      | some false => 1

/-- The filter with `ignorecommand = …/apache-fakegooglebot <ip>`; `<ip>` is the text of the address -/
def withCommand (env : IgnoreEnv) (a : Answers) : IgnoreEnv := { env with command := fun x => some (exitCode a [x.ntoa env.lib]) }

end Verif.Googlebot
