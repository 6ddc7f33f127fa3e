import Verif.Py.Dict

/-!
# IP addresses and networks — `fail2ban/server/ipdns.py`, class `IPAddr`, `IPAddrSet`, `DNSUtils.textToIp`

Strings are lists of characters. The C library (`socket.inet_pton`, `socket.inet_ntop`) is a parameter (`NetLib`), so is the
name resolution. Not modelled: the object cache `CACHE_OBJ` (line 336; it returns an object made from the same arguments, see
C39), the cached `_maskplen`, `__add__`, pickling. `\d` of the regular expressions is taken to be `[0-9]`.
-/

namespace Verif

/-- string -/
abbrev Str := List Char

/-- `socket.inet_pton`/`inet_ntop` for `AF_INET` (32 bit numbers) and `AF_INET6` (128 bit numbers). -/
structure NetLib where
  /-- `struct.unpack("!L", inet_pton(AF_INET, s))`, `none` if it raises -/
  pton4 : Str → Option Nat
  /-- same for `AF_INET6` (`(hi << 64) | lo`) -/
  pton6 : Str → Option Nat
  /-- `inet_ntop(AF_INET, struct.pack("!L", a))` -/
  ntop4 : Nat → Str
  /-- same for `AF_INET6` -/
  ntop6 : Nat → Str

/-- `_family`: `AF_UNSPEC`, `AF_INET`, `AF_INET6` or `CIDR_RAW` -/
inductive Family where
  | unspec | inet | inet6 | raw
deriving DecidableEq, Repr

/-- numeric value of the family: AF_UNSPEC = 0, AF_INET = 2, AF_INET6 = 10 (Linux), CIDR_RAW = -2 (line 338) -/
def Family.num : Family → Int
  | .unspec => 0
  | .inet => 2
  | .inet6 => 10
  | .raw => -2

/-- argument `cidr` of `IPAddr(...)` (lines 338-344): `CIDR_UNSPEC`, `CIDR_RAW`, `FAM_IPv4`/`FAM_IPv6`, or a prefix length -/
inductive Cidr where
  | unspec
  | raw
  | fam (v6 : Bool)
  | len (n : Nat)
deriving DecidableEq, Repr

/-- `IPAddr` (line 333) -/
structure IPAddr where
  /-- `_family` -/
  family : Family
  /-- `_addr` -/
  addr : Nat
  /-- `_plen` -/
  plen : Nat
  /-- `_raw` -/
  raw : Str
deriving DecidableEq, Repr

namespace IPAddr

/-- Python's `a & ~m` for non-negative `a`, `m`: clears the bits of `m` -/
def andNot (a m : Nat) : Nat := a ^^^ (a &&& m)

/-- `0xFFFFFFFF` -/
def m4 : Nat := 0xFFFFFFFF

/-- `0xFFFFFFFFFFFFFFFFFFFFFFFFFFFFFFFF` -/
def m6 : Nat := 0xFFFFFFFFFFFFFFFFFFFFFFFFFFFFFFFF

/-- `IP6_4COMPAT = IPAddr("::ffff:0:0", 96)` (line 697): address 0xFFFF00000000, prefix length 96 -/
def compatAddr : Nat := 0xFFFF00000000

/-- `self.isInNet(IPAddr.IP6_4COMPAT)` for an IPv6 address (lines 441, 619-639) -/
def isCompat (a : Nat) : Bool := decide (andNot a (m6 >>> 96) = compatAddr)

/-- the branch for `AF_INET` of `__init` (lines 416-424) -/
def init4 (raw : Str) (a : Nat) (cidr : Cidr) : IPAddr :=
  match cidr with
  | .len n => { family := .inet, addr := andNot a (m4 >>> n), plen := n, raw }
  | _ => { family := .inet, addr := a, plen := 32, raw }

/-- the branch for `AF_INET6` of `__init` (lines 426-445); `lo & 0xFFFFFFFF` -/
def init6 (raw : Str) (a : Nat) (cidr : Cidr) : IPAddr :=
  match cidr with
  | .len n => { family := .inet6, addr := andNot a (m6 >>> n), plen := n, raw }
  | _ =>
    if isCompat a then { family := .inet, addr := a &&& m4, plen := 32, raw }
    else { family := .inet6, addr := a, plen := 128, raw }

/-- `__init(ipstr, cidr)` (lines 391-447): try the families in question, IPv4 first. -/
def init (lib : NetLib) (ipstr : Str) (cidr : Cidr) : IPAddr :=
  match cidr with
  | .raw => { family := .raw, addr := 0, plen := 0, raw := ipstr }
  | _ =>
    let p4 := if cidr = .fam true then none else lib.pton4 ipstr
    let p6 := if cidr = .fam false then none else lib.pton6 ipstr
    match p4 with
    | some a => init4 ipstr a cidr
    | none =>
      match p6 with
      | some a => init6 ipstr a cidr
      | none => { family := .unspec, addr := 0, plen := 0, raw := ipstr }

/-! ### regular expressions -/

/-- `[0-9]` -/
def isDig (c : Char) : Bool := '0' ≤ c && c ≤ '9'

/-- `[0-9a-fA-F]` -/
def isHex (c : Char) : Bool := isDig c || ('a' ≤ c && c ≤ 'f') || ('A' ≤ c && c ≤ 'F')

/-- `\d{1,3}` (whole string) -/
def isDig13 (s : Str) : Bool := decide (1 ≤ s.length) && decide (s.length ≤ 3) && s.all isDig

/-- pieces of a string between the separators `c` -/
def splitOn (c : Char) : Str → List Str
  | [] => [[]]
  | a :: s =>
    match splitOn c s with
    | [] => [[]]
    | p :: ps => if a = c then [] :: p :: ps else (a :: p) :: ps

/-- `IP_4_RE` = `(?:\d{1,3}\.){3}\d{1,3}` matches the whole string (line 323) -/
def isIp4Re (s : Str) : Bool :=
  let ps := splitOn '.' s
  decide (ps.length = 4) && ps.all isDig13

/-- what may remain after `[0-9a-fA-F]{1,n}` -/
def hexRest : Nat → Str → List Str
  | 0, _ => []
  | _, [] => []
  | n + 1, c :: s => if isHex c then s :: hexRest n s else []

/-- what may remain after `[0-9a-fA-F]{1,4}::?|:` -/
def groupRest (s : Str) : List Str :=
  (hexRest 4 s).flatMap (fun r =>
    match r with
    | ':' :: ':' :: r' => [r', ':' :: r']
    | ':' :: r' => [r']
    | _ => []) ++
  (match s with
   | ':' :: r => [r]
   | _ => [])

/-- `[0-9a-fA-F]{1,4}|(?<=:):` (whole string; the character before is always a colon, since each group ends with one) -/
def isTail (s : Str) : Bool := s == [':'] || (decide (1 ≤ s.length) && decide (s.length ≤ 4) && s.all isHex)

/-- `(?:[0-9a-fA-F]{1,4}::?|:){1,n+1}(?:[0-9a-fA-F]{1,4}|(?<=:):)` (whole string) -/
def isIp6ReN : Nat → Str → Bool
  | 0, s => (groupRest s).any isTail
  | n + 1, s => (groupRest s).any (fun r => isTail r || isIp6ReN n r)

/-- `IP_6_RE` matches the whole string (line 324) -/
def isIp6Re (s : Str) : Bool := isIp6ReN 6 s

/-- The text before the `/` and the text after it, if there is exactly one slash. -/
def splitSlash (s : Str) : Option (Str × Str) :=
  match splitOn '/' s with
  | [a, b] => some (a, b)
  | _ => none

/-- a trailing newline is ignored by `$` -/
def dropNl (s : Str) : Str := if s.getLast? = some '\n' then s.dropLast else s

/-- value of a string of decimal digits: `int(s)` -/
def decNat (s : Str) : Nat := s.foldl (fun n c => 10 * n + (c.toNat - '0'.toNat)) 0

/-! ### netmasks -/

/-- `__getMaskMap()` (lines 653-663): the loop body for `i`; `m = 2^(i+1) - 1`. -/
def maskStep (mmap : Dict Nat Nat) (i : Nat) : Dict Nat Nat :=
  let m := 2 ^ (i + 1) - 1
  let mmap := if i < 32 then mmap.insert (m ^^^ m4) (32 - 1 - i) else mmap
  mmap.insert (m ^^^ m6) (128 - 1 - i)

/-- `MAP_ADDR2MASKPLEN` (lines 653-665) -/
def maskMap : Dict Nat Nat :=
  (List.range 128).foldl maskStep (((Dict.empty.insert m6 128).insert m4 32).insert 0 0)

/-- `maskplen` (lines 667-676), `none` for the raised `ValueError` -/
def maskplen (x : IPAddr) : Option Nat := maskMap.get? x.addr

/-- `__wrap_ipstr` (lines 369-389). `none` if `masktoplen` raises. The mask is made by `IPAddr(mask)` (line 684), whose text
contains no slash. -/
def wrapIpstr (lib : NetLib) (ipstr : Str) : Option (Str × Cidr) :=
  let ipstr := if 2 < ipstr.length ∧ ipstr.head? = some '[' ∧ ipstr.getLast? = some ']' then ipstr.tail.dropLast else ipstr
  match splitSlash (dropNl ipstr) with
  | none => some (ipstr, .unspec)
  | some (a, b) =>
    if (isIp4Re a || isIp6Re a) = false then some (ipstr, .unspec)
    else if b ≠ [] ∧ b.all isDig = true then some (a, .len (decNat b))
    else if isIp4Re b || isIp6Re b then
      match (init lib b .unspec).maskplen with
      | some n => some (a, .len n)
      | none => none
    else some (ipstr, .unspec)

/-- `IPAddr(ipstr)` and `IPAddr(ipstr, cidr)` (lines 346-367) without the object cache; `none` if it raises. -/
def new (lib : NetLib) (ipstr : Str) (cidr : Cidr := .unspec) : Option IPAddr :=
  match cidr with
  | .unspec =>
    match wrapIpstr lib ipstr with
    | some (s, c) => some (init lib s c)
    | none => none
  | c => some (init lib ipstr c)

/-! ### methods -/

/-- `isValid` (lines 494-498) -/
def isValid (x : IPAddr) : Bool := decide (x.family ≠ .unspec)

/-- `isIPv4` -/
def isIPv4 (x : IPAddr) : Bool := decide (x.family = .inet)

/-- `isIPv6` -/
def isIPv6 (x : IPAddr) : Bool := decide (x.family = .inet6)

/-- `isSingle` (lines 500-504) -/
def isSingle (x : IPAddr) : Bool :=
  match x.family with
  | .inet => decide (x.plen = 32)
  | .inet6 => decide (x.plen = 128)
  | _ => false

/-- `__eq__` for two `IPAddr` objects (lines 506-518) -/
def eq (x y : IPAddr) : Bool :=
  if x.family ≠ y.family then false
  else if x.family = .unspec then decide (x.raw = y.raw)
  else decide (x.addr = y.addr) && decide (x.plen = y.plen)

/-- `__lt__` for two `IPAddr` objects (line 529) -/
def lt (x y : IPAddr) : Bool := decide (x.family.num < y.family.num) || decide (x.addr < y.addr)

/-- decimal text of a number: `"%d" % n` -/
def dec (n : Nat) : Str := Nat.toDigits 10 n

/-- `ntoa` (lines 559-579), also the text `str(ip)` and the hash -/
def ntoa (lib : NetLib) (x : IPAddr) : Str :=
  match x.family with
  | .inet => lib.ntop4 x.addr ++ (if x.plen ≠ 0 ∧ x.plen < 32 then '/' :: dec x.plen else [])
  | .inet6 => lib.ntop6 x.addr ++ (if x.plen ≠ 0 ∧ x.plen < 128 then '/' :: dec x.plen else [])
  | _ => x.raw

/-- `isInNet(net)` (lines 619-639); `resolve` is `DNSUtils.dnsToIp`. A set membership test `self in ips` compares by equality
(addresses found by resolution are valid, equal ones have the same hash). -/
def isInNet (resolve : Str → List IPAddr) (x net : IPAddr) : Bool :=
  if net.isValid = false ∧ net.raw ≠ [] then (resolve net.raw).any (fun y => x.eq y)
  else if x.family ≠ net.family then false
  else
    match x.family with
    | .inet => decide (andNot x.addr (m4 >>> net.plen) = net.addr)
    | .inet6 => decide (andNot x.addr (m6 >>> net.plen) = net.addr)
    | _ => false

/-- `contains(ip)` (lines 641-644) -/
def contains (resolve : Str → List IPAddr) (net x : IPAddr) : Bool := x.eq net || x.isInNet resolve net

/-- `"%0nx" % a`: lower case hexadecimal, at least `n` digits -/
def hexPad (n : Nat) (a : Nat) : Str :=
  let d := Nat.toDigits 16 a
  List.replicate (n - d.length) '0' ++ d

/-- `hexdump` (lines 547-556) -/
def hexdump (x : IPAddr) : Str :=
  match x.family with
  | .inet => hexPad 8 x.addr
  | .inet6 => hexPad 32 x.addr
  | _ => []

/-- `sep.join(l)` -/
def join (sep : Str) : List Str → Str
  | [] => []
  | [a] => a
  | a :: l => a ++ sep ++ join sep l

/-- `getPTR()` (lines 581-600) without suffix -/
def getPTR (lib : NetLib) (x : IPAddr) : Str :=
  match x.family with
  | .inet => join ['.'] (splitOn '.' (x.ntoa lib)).reverse ++ ".in-addr.arpa.".toList
  | .inet6 => join ['.'] (x.hexdump.reverse.map (fun c => [c])) ++ ".ip6.arpa.".toList
  | _ => []

/-- what follows an optional `[` -/
def afterBracket (t : Str) : Str := if t.head? = some '[' then t.tail else t

/-- `searchIP(text)` (lines 686-695): the whole text is an IPv4, or an IPv6 in optional brackets. -/
def searchIP (text : Str) : Option Str :=
  let t := dropNl text
  if isIp4Re t then some t
  else
    let a := afterBracket t
    let b := if a.getLast? = some ']' then a.dropLast else a
    if isIp6Re b then some b else none

/-- the address written in the text, if it is a valid one (lines 142-148) -/
def plainIps (lib : NetLib) (text : Str) : List IPAddr :=
  match searchIP text with
  | some s =>
    match new lib s with
    | some ip => if ip.isValid then [ip] else []
    | none => []
  | none => []

/-- `DNSUtils.textToIp(text, useDns)` (lines 139-160): the set of addresses and whether the name was resolved (`dnsToIp`
called). `useDns` is true for "yes" and "warn". -/
def textToIp (lib : NetLib) (resolve : Str → List IPAddr) (text : Str) (useDns : Bool) : List IPAddr × Bool :=
  let ipList := plainIps lib text
  if useDns && ipList.isEmpty then (resolve text, true) else (ipList, false)

end IPAddr

/-- `IPAddrSet` (lines 700-737): the members and whether there is something other than single addresses. -/
structure IPAddrSet where
  /-- members -/
  ips : List IPAddr
  /-- `hasSubNet` (as truth value) -/
  hasSubNet : Bool
deriving DecidableEq, Repr

namespace IPAddrSet

open IPAddr

/-- `IPAddrSet(ips)` (lines 704-717), `set(ips)` (lines 723-727) -/
def ofList (l : List IPAddr) : IPAddrSet := ⟨l, l.any (fun x => !x.isSingle)⟩

/-- `add(ip)` (lines 729-732) -/
def add (s : IPAddrSet) (x : IPAddr) : IPAddrSet := ⟨s.ips ++ [x], s.hasSubNet || !x.isSingle⟩

/-- `ip in s` (lines 734-737). A member is found directly if it is equal and has the same hash, i.e. the same text. -/
def mem (lib : NetLib) (resolve : Str → List IPAddr) (s : IPAddrSet) (x : IPAddr) : Bool :=
  s.ips.any (fun y => decide (x.ntoa lib = y.ntoa lib) && x.eq y) ||
    (s.hasSubNet && s.ips.any (fun n => n.contains resolve x))

end IPAddrSet

end Verif
