import Verif.Model.Cache

/-!
# Names, addresses and own addresses — `fail2ban/server/ipdns.py`, class `DNSUtils`

What is asked outside (resolver, network interfaces, host name) is a function of the time of the question; a question takes no
time. A set is a list (its order and multiplicity mean nothing). The type `A` of addresses is arbitrary. A name is an `Option`,
since `getfqdn` may return `None`, which is then used like a name.
-/

namespace Verif.Dns

open Verif

/-- Name of a host, `none` for Python's `None`. -/
abbrev Name := Option String

/-- An element of the list given by `getifaddrs` of the C library: without address (null pointer), with an address of another family
than IPv4 and IPv6, or with an address -/
inductive IfAddr (A : Type) where
  | null
  | other
  | addr (a : A)

/-- What is asked outside. -/
structure Net (A : Type) where
  /-- valid addresses given by `socket.getaddrinfo` for a name and the family IPv4 (`false`) or IPv6 (`true`) before it ends or
  raises (ipdns.py 98-109) -/
  resolve : Int → Name → Bool → List A
  /-- `socket.gethostbyaddr(ip)[0]`, `none` if it fails -/
  reverse : Int → String → Option String
  /-- `socket.gethostname()`, `none` if it raises -/
  hostname : Int → Option String
  /-- non-empty canonical names given by `socket.getaddrinfo` for a name, `none` if it raises `socket.error` -/
  canonical : Int → String → Option (List String)
  /-- `socket.getfqdn(name)` of Python, `none` if it raises -/
  pyFqdn : Int → String → Option String
  /-- list given by `getifaddrs`, `none` if it fails or is not available (ipdns.py 820-866, 900-903, 914-917) -/
  ifaddrs : Int → Option (List (IfAddr A))
  /-- `_IPv6IsSupportedBySystem()` (ipdns.py 252-281), `none` if unknown -/
  system6 : Int → Option Bool
  /-- whether the text of an address contains a colon -/
  six : A → Bool

/-- Keys of `CACHE_nameToIp`: a name, or one of the tuples in ipdns.py 195, 214 and 290 -/
inductive NKey where
  | name (n : Name)
  | interfaces
  | selfIps
  | ipv6
  deriving DecidableEq

/-- Values of `CACHE_nameToIp` -/
inductive NVal (A : Type) where
  | ips (l : List A)
  | flag (b : Bool)

/-- Keys of `CACHE_ipToName`: text of an address, or one of the tuples in ipdns.py 158 and 177 -/
inductive HKey where
  | ip (s : String)
  | host (fqdn : Bool)
  | self
  deriving DecidableEq

/-- Values of `CACHE_ipToName` -/
inductive HVal where
  | name (n : Name)
  | names (l : List Name)

/-- The caches (ipdns.py 81-82) and the setting `_IPv6IsAllowed` (249) -/
structure St (A : Type) where
  names : Cache NKey (NVal A)
  hosts : Cache HKey HVal
  setting : Option Bool

/-- Time to live of entries (ipdns.py 81-82) -/
def ttl : Int := 5 * 60

/-- State at start (ipdns.py 81-82, 249), with some setting -/
def init {A : Type} (setting : Option Bool) : St A := ⟨Cache.init 1000 ttl, Cache.init 1000 ttl, setting⟩

/-- A set of addresses found in the cache -/
def asIps {A : Type} : Option (NVal A) → Option (List A)
  | some (.ips l) => some l
  | _ => none

/-- A flag found in the cache -/
def asFlag {A : Type} : Option (NVal A) → Option Bool
  | some (.flag b) => some b
  | _ => none

/-- A name found in the cache, also `None` -/
def asName : Option HVal → Option Name
  | some (.name n) => some n
  | _ => none

/-- A set of names found in the cache -/
def asNames : Option HVal → Option (List Name)
  | some (.names l) => some l
  | _ => none

variable {A : Type}

/-- `CACHE_nameToIp.get(k)` -/
def getN (t : Int) (s : St A) (k : NKey) : Option (NVal A) × St A :=
  ((s.names.get t k).1, { s with names := (s.names.get t k).2 })

/-- `CACHE_nameToIp.set(k, v)` -/
def setN (t : Int) (s : St A) (k : NKey) (v : NVal A) : St A := { s with names := s.names.set t k v }

/-- `CACHE_ipToName.get(k)` -/
def getH (t : Int) (s : St A) (k : HKey) : Option HVal × St A :=
  ((s.hosts.get t k).1, { s with hosts := (s.hosts.get t k).2 })

/-- `CACHE_ipToName.set(k, v)` -/
def setH (t : Int) (s : St A) (k : HKey) (v : HVal) : St A := { s with hosts := s.hosts.set t k v }

/-- Addresses of a name of the allowed families (ipdns.py 96-109) -/
def families (net : Net A) (t : Int) (n : Name) (six : Bool) : List A :=
  net.resolve t n false ++ if six then net.resolve t n true else []

/-- `dnsToIp(dns)` (ipdns.py 87-114), `allowed` is `IPv6IsAllowed()` -/
def dnsToIpWith (net : Net A) (allowed : St A → Bool × St A) (t : Int) (s : St A) (n : Name) : List A × St A :=
  let r := getN t s (.name n)
  match asIps r.1 with
  | some l => (l, r.2)
  | none =>
    let a := allowed r.2
    let l := families net t n a.1
    (l, setN t a.2 (.name n) (.ips l))

/-- `ipToName(ip)` (ipdns.py 117-129) -/
def ipToName (net : Net A) (t : Int) (s : St A) (ip : String) : Name × St A :=
  let r := getH t s (.ip ip)
  match asName r.1 with
  | some n => (n, r.2)
  | none => (net.reverse t ip, setH t r.2 (.ip ip) (.name (net.reverse t ip)))

/-- The loop of `getfqdn` (ipdns.py 59-66): the first name that begins with the prefix, otherwise the first one, otherwise `None` -/
def prefer (pre : List Char) (l : List String) : Name :=
  match l.find? (fun a => pre.isPrefixOf a.toList) with
  | some a => some a
  | none => l.head?

/-- `getfqdn()` (ipdns.py 46-70); outer `none` if it raises. The test `if names` (57) is always true, since `names` is a generator. -/
def getfqdn (net : Net A) (t : Int) : Option Name :=
  match net.hostname t with
  | none => (net.pyFqdn t "").map some
  | some h =>
    match net.canonical t h with
    | some l => some (prefer (h.toList ++ ['.']) l)
    | none => (net.pyFqdn t h).map some

/-- Ways to get the own name in order (ipdns.py 163-171) -/
def ownName (net : Net A) (t : Int) (fqdn : Bool) : Name :=
  let full := getfqdn net t
  let short := (net.hostname t).map some
  if fqdn then (full.or short).getD (some "") else (short.or full).getD (some "")

/-- `getHostname(fqdn)` (ipdns.py 155-174); `None` in the cache counts as missing -/
def getHostname (net : Net A) (t : Int) (s : St A) (fqdn : Bool) : Name × St A :=
  let r := getH t s (.host fqdn)
  match asName r.1 with
  | some (some n) => (some n, r.2)
  | _ => (ownName net t fqdn, setH t r.2 (.host fqdn) (.name (ownName net t fqdn)))

/-- `getSelfNames()` (ipdns.py 180-192) -/
def getSelfNames (net : Net A) (t : Int) (s : St A) : List Name × St A :=
  let r := getH t s .self
  match asNames r.1 with
  | some l => (l, r.2)
  | none =>
    let a := getHostname net t r.2 false
    let b := getHostname net t a.2 true
    let l := ([some "localhost", a.1, b.1].filter (fun n => decide (n ≠ some ""))).eraseDups
    (l, setH t b.2 .self (.names l))

/-- The generator `_NetworkInterfacesAddrs` over the list (ipdns.py 906-910, 876-897) read to its end; `none` if it raises, as it does
at a null pointer (`ifa.ifa_addr.contents`, 877) -/
def addrs : List (IfAddr A) → Option (List A)
  | [] => some []
  | .null :: _ => none
  | .other :: l => addrs l
  | .addr a :: l => (addrs l).map (a :: ·)

/-- Addresses of the interfaces, nothing if there is an exception (ipdns.py 205-208) -/
def interfaces (net : Net A) (t : Int) : List A := ((net.ifaddrs t).bind addrs).getD []

/-- `getNetIntrfIPs()` (ipdns.py 198-211) -/
def getNetIntrfIPs (net : Net A) (t : Int) (s : St A) : List A × St A :=
  let r := getN t s .interfaces
  match asIps r.1 with
  | some l => (l, r.2)
  | none =>
    let l := interfaces net t
    (l, setN t r.2 .interfaces (.ips l))

/-- The loop over the own names (ipdns.py 226-230) -/
def selfLoop (net : Net A) (allowed : St A → Bool × St A) (t : Int) : List Name → List A → St A → List A × St A
  | [], l, s => (l, s)
  | n :: ns, l, s =>
    let r := dnsToIpWith net allowed t s n
    selfLoop net allowed t ns (l ++ r.1) r.2

/-- `getSelfIPs()` (ipdns.py 217-233), `allowed` is `IPv6IsAllowed()` -/
def selfIpsWith (net : Net A) (allowed : St A → Bool × St A) (t : Int) (s : St A) : List A × St A :=
  let r := getN t s .selfIps
  match asIps r.1 with
  | some l => (l, r.2)
  | none =>
    let i := getNetIntrfIPs net t r.2
    let n := getSelfNames net t i.2
    let x := selfLoop net allowed t n.1 i.1 n.2
    (x.1, setN t x.2 .selfIps (.ips x.1))

/-- `IPv6IsAllowed()` called by `getSelfIPs` called by `IPv6IsAllowed` (ipdns.py 294-295): there the setting is not `None`. -/
def setOnly (s : St A) : Bool × St A := (s.setting.getD true, s)

/-- Own addresses while `IPv6IsAllowed` detects (ipdns.py 304-308). `other` is what other threads do meanwhile, after the own
addresses are determined and before the setting is reset. -/
def detect (net : Net A) (t : Int) (other : St A → St A) (s : St A) : List A × St A :=
  let r := selfIpsWith net setOnly t { s with setting := some true }
  (r.1, { other r.2 with setting := none })

/-- Detection if the system does not tell (ipdns.py 301-309) -/
def guess (net : Net A) (t : Int) (s : St A) : Bool × St A :=
  let i := getNetIntrfIPs net t s
  let r := if i.1.isEmpty then detect net t id i.2 else i
  (r.1.any net.six, r.2)

/-- `IPv6IsAllowed()` (ipdns.py 293-311) -/
def ipv6IsAllowed (net : Net A) (t : Int) (s : St A) : Bool × St A :=
  match s.setting with
  | some b => (b, s)
  | none =>
    let r := getN t s .ipv6
    match asFlag r.1 with
    | some b => (b, r.2)
    | none =>
      let v := match net.system6 t with
        | some b => (b, r.2)
        | none => guess net t r.2
      (v.1, setN t v.2 .ipv6 (.flag v.1))

/-- `dnsToIp(dns)` -/
def dnsToIp (net : Net A) (t : Int) (s : St A) (n : Name) : List A × St A := dnsToIpWith net (ipv6IsAllowed net t) t s n

/-- `getSelfIPs()` -/
def getSelfIPs (net : Net A) (t : Int) (s : St A) : List A × St A := selfIpsWith net (ipv6IsAllowed net t) t s

/-- What may be called; `allow` is `setIPv6IsAllowed` (ipdns.py 284-287), `clear` is `clearCaches` (server.py 291-294) -/
inductive Op where
  | dnsToIp (n : Name)
  | ipToName (ip : String)
  | getHostname (fqdn : Bool)
  | getSelfNames
  | getNetIntrfIPs
  | getSelfIPs
  | ipv6IsAllowed
  | allow (v : Option Bool)
  | clear

/-- One call at time `t` -/
def step (net : Net A) (t : Int) (s : St A) : Op → St A
  | .dnsToIp n => (dnsToIp net t s n).2
  | .ipToName ip => (ipToName net t s ip).2
  | .getHostname f => (getHostname net t s f).2
  | .getSelfNames => (getSelfNames net t s).2
  | .getNetIntrfIPs => (getNetIntrfIPs net t s).2
  | .getSelfIPs => (getSelfIPs net t s).2
  | .ipv6IsAllowed => (ipv6IsAllowed net t s).2
  | .allow v => { s with setting := v }
  | .clear => { s with names := s.names.clear, hosts := s.hosts.clear }

/-- Calls one after another -/
def run (net : Net A) : List (Int × Op) → St A → St A
  | [], s => s
  | c :: l, s => run net l (step net c.1 s c.2)

end Verif.Dns
