import Verif.Lemmas.Dns

set_option linter.unusedSimpArgs false

/-!
# C93 — Names and own addresses are not older than the caches allow

Part of `ipdns.py`: `DNSUtils` with its caches. A history is any sequence of calls in the order of time, beginning with empty caches
and any setting for IPv6.
-/

namespace Verif.Dns

open Verif Verif.DnsSpec

variable {A : Type}

/-! ## Examples -/

/-- Host `www`, name `www.example.org`, address 1 of the interface and (from time 1 on) 7; 50 is an IPv6 address. -/
def exampleNet : Net Nat where
  resolve := fun t n six =>
    if n = some "localhost" then (if six then [51] else [10])
    else if n = some "www.example.org" then (if six then [50] else [if t < 100 then 2 else 3]) else []
  reverse := fun _ ip => if ip = "192.0.2.1" then some "a.example.org" else none
  hostname := fun _ => some "www"
  canonical := fun _ _ => some ["proxy.example.org", "www.example.org"]
  pyFqdn := fun _ _ => some "other"
  ifaddrs := fun t => some (if t < 1 then [.other, .addr 1] else [.addr 1, .addr 7])
  system6 := fun _ => none
  six := fun a => decide (50 ≤ a)

/-- Without IPv6: own addresses are those of the interface, of `localhost` and of the full name. -/
example : (getSelfIPs exampleNet 5 (init none)).1 = [1, 7, 10, 2] := by decide +kernel

/-- With IPv6 -/
example : (getSelfIPs exampleNet 5 (init (some true))).1 = [1, 7, 10, 51, 2, 50] := by decide +kernel

/-- A name resolved at time 50 keeps its old address until time 349. -/
example : (dnsToIp exampleNet 349 (run exampleNet [(50, .dnsToIp (some "www.example.org"))] (init none)) (some "www.example.org")).1 = [2] ∧
    (dnsToIp exampleNet 350 (run exampleNet [(50, .dnsToIp (some "www.example.org"))] (init none)) (some "www.example.org")).1 = [3] := by
  decide +kernel

/-- The full name is the one that begins with the short name; a failed reverse lookup is an answer, too. -/
example : (getHostname exampleNet 0 (init none) true).1 = some "www.example.org" ∧ (getHostname exampleNet 0 (init none) false).1 = some "www" ∧
    (ipToName exampleNet 0 (init none) "192.0.2.1").1 = some "a.example.org" ∧ (ipToName exampleNet 0 (init none) "192.0.2.2").1 = none := by
  decide +kernel

/-! ## Freshness -/

/-- **C93 (names to addresses).** After every history, the addresses given for a name are those the resolver gave for it less than five
minutes ago (nothing added, nothing lost, also if there were none). -/
theorem C93_resolved (net : Net A) (v : Option Bool) (l : List (Int × Op)) (now : Int) (ho : InOrder now l) (n : Name) :
    ∃ u b, Within 300 now u ∧ Answer net u n b (dnsToIp net now (run net l (init v)) n).1 := by
  have h := inv_history (P := fun _ => True) net now l v ho (fun c _ => by unfold Keeps; split <;> trivial) (by cases v <;> simp [Keeps])
  obtain ⟨_, u, b, hu, _, he⟩ := inv_dnsToIp (allows_ipv6 _ net now) h n
  exact ⟨u, b, hu, by unfold dnsToIp; rw [he]; exact mem_families net u n b⟩

/-- **C93 (setting for IPv6).** If IPv6 is set to on or off (and only to that), names are resolved accordingly, also the own ones, and
`IPv6IsAllowed` says so. -/
theorem C93_allowed (net : Net A) (b : Bool) (l : List (Int × Op)) (now : Int) (ho : InOrder now l)
    (hl : ∀ c ∈ l, ∀ v, c.2 = .allow v → v = some b) (n : Name) :
    (∃ u, Within 300 now u ∧ Answer net u n b (dnsToIp net now (run net l (init (some b))) n).1) ∧
    OwnAddresses (· = b) net 600 600 900 now (getSelfIPs net now (run net l (init (some b)))).1 ∧
    (ipv6IsAllowed net now (run net l (init (some b)))).1 = b := by
  have h := inv_history (P := (· = b)) net now l (some b) ho (fun c hc => by
    have := hl c hc
    cases e : c.2 with
    | allow v => cases this v e; exact rfl
    | _ => trivial) rfl
  obtain ⟨_, u, b', hu, hb, he⟩ := inv_dnsToIp (allows_ipv6 _ net now) h n
  refine ⟨⟨u, hu, ?_⟩, (inv_selfIps (allows_ipv6 _ net now) h).2, (inv_ipv6 h).2.1⟩
  unfold dnsToIp; rw [he, ← hb]; exact mem_families net u n b'

/-- **C93 (addresses to names).** The name given for an address, or that there is none, is what the resolver said less than five minutes
ago. -/
theorem C93_reverse (net : Net A) (v : Option Bool) (l : List (Int × Op)) (now : Int) (ho : InOrder now l) (ip : String) :
    ∃ u, Within 300 now u ∧ (ipToName net now (run net l (init v)) ip).1 = net.reverse u ip := by
  have h := inv_history (P := fun _ => True) net now l v ho (fun c _ => by unfold Keeps; split <;> trivial) (by cases v <;> simp [Keeps])
  exact (inv_ipToName h ip).2

/-- **C93 (name of the host).** The name of the host (`<fq-hostname>`, `<sh-hostname>`) is the one of less than five minutes ago. -/
theorem C93_hostname (net : Net A) (v : Option Bool) (l : List (Int × Op)) (now : Int) (ho : InOrder now l) (fqdn : Bool) :
    ∃ u, Within 300 now u ∧ OwnName net u fqdn (getHostname net now (run net l (init v)) fqdn).1 := by
  have h := inv_history (P := fun _ => True) net now l v ho (fun c _ => by unfold Keeps; split <;> trivial) (by cases v <;> simp [Keeps])
  exact (inv_getHostname h fqdn).2

/-- **C93 (own names).** The own names are `localhost` and the names of the host of less than ten minutes ago. -/
theorem C93_names (net : Net A) (v : Option Bool) (l : List (Int × Op)) (now : Int) (ho : InOrder now l) :
    OwnNames net 600 now (getSelfNames net now (run net l (init v))).1 := by
  have h := inv_history (P := fun _ => True) net now l v ho (fun c _ => by unfold Keeps; split <;> trivial) (by cases v <;> simp [Keeps])
  exact (inv_getSelfNames h).2.1

/-- **C93 (own addresses).** The own addresses are those of the interfaces of less than ten minutes ago, and those the resolver gave less
than ten minutes ago for `localhost` and the names of the host of less than fifteen minutes ago. -/
theorem C93_self (net : Net A) (v : Option Bool) (l : List (Int × Op)) (now : Int) (ho : InOrder now l) :
    OwnAddresses (fun _ => True) net 600 600 900 now (getSelfIPs net now (run net l (init v))).1 := by
  have h := inv_history (P := fun _ => True) net now l v ho (fun c _ => by unfold Keeps; split <;> trivial) (by cases v <;> simp [Keeps])
  exact (inv_selfIps (allows_ipv6 _ net now) h).2

/-- **C93 (own address is recognized).** An address that was on an interface for the last ten minutes is known as own, and so is an address
that is the one of `localhost` for ten minutes or of the name of the host, the same for fifteen minutes. -/
theorem C93_recognized (net : Net A) (v : Option Bool) (l : List (Int × Op)) (now : Int) (ho : InOrder now l) (a : A) :
    ((∀ u, Within 600 now u → OnInterface net u a) → a ∈ (getSelfIPs net now (run net l (init v))).1) ∧
    ((∀ u, Within 600 now u → a ∈ net.resolve u (some "localhost") false) → a ∈ (getSelfIPs net now (run net l (init v))).1) ∧
    (∀ h, h ≠ "" → (∀ u, Within 900 now u → net.hostname u = some h) → (∀ u, Within 600 now u → a ∈ net.resolve u (some h) false) →
      a ∈ (getSelfIPs net now (run net l (init v))).1) ∧
    (∀ f, f ≠ some "" → (∀ u, Within 900 now u → ∀ m, FullName net u m ↔ m = f) → (∀ u, Within 600 now u → a ∈ net.resolve u f false) →
      a ∈ (getSelfIPs net now (run net l (init v))).1) := by
  obtain ⟨u, names, at_, h1, ⟨u1, u2, x, y, n1, n2, n3, n4, n5⟩, h3, h4⟩ := C93_self net v l now ho
  refine ⟨fun h => (h4 a).2 (.inl (h u h1)), fun h => ?_, fun hn hne hh hr => ?_, fun f hf hh hr => ?_⟩
  · have hm := (n5 (some "localhost")).2 ⟨.inl rfl, by simp⟩
    exact (h4 a).2 (.inr ⟨_, hm, .inl (h _ (h3 _ hm).1)⟩)
  · have hx : x = some hn := by
      unfold OwnName at n3
      rw [if_neg (by simp), hh u1 n1] at n3
      rcases n3 with ⟨z, hz, hz2⟩ | ⟨hz, _⟩
      · cases hz; exact hz2
      · cases hz
    have hm := (n5 (some hn)).2 ⟨.inr (.inl hx.symm), by simpa using hne⟩
    exact (h4 a).2 (.inr ⟨_, hm, .inl (hr _ (h3 _ hm).1)⟩)
  · have hy : y = f := by
      unfold OwnName at n4
      rw [if_pos rfl] at n4
      rcases n4 with h | ⟨h, _⟩
      · exact (hh u2 n2 y).1 h
      · exact absurd ⟨f, (hh u2 n2 f).2 rfl⟩ h
    have hm := (n5 f).2 ⟨.inr (.inr hy.symm), hf⟩
    exact (h4 a).2 (.inr ⟨_, hm, .inl (hr _ (h3 _ hm).1)⟩)

/-- **C93 (nothing else is taken as own).** Only addresses that were on an interface less than ten minutes ago or were given by the
resolver less than ten minutes ago for `localhost` or a name of the host (one of less than fifteen minutes ago). -/
theorem C93_only (net : Net A) (v : Option Bool) (l : List (Int × Op)) (now : Int) (ho : InOrder now l) (a : A)
    (h : a ∈ (getSelfIPs net now (run net l (init v))).1) :
    (∃ u, Within 600 now u ∧ OnInterface net u a) ∨
    ∃ n u b, Within 600 now u ∧ AddressOf net u n b a ∧ n ≠ some "" ∧
      (n = some "localhost" ∨ ∃ w fqdn, Within 900 now w ∧ OwnName net w fqdn n) := by
  obtain ⟨u, names, at_, h1, ⟨u1, u2, x, y, n1, n2, n3, n4, n5⟩, h3, h4⟩ := C93_self net v l now ho
  rcases (h4 a).1 h with h | ⟨n, hn, h⟩
  · exact .inl ⟨u, h1, h⟩
  · refine .inr ⟨n, _, _, (h3 n hn).1, h, ((n5 n).1 hn).2, ?_⟩
    rcases ((n5 n).1 hn).1 with e | e | e
    · exact .inl e
    · exact .inr ⟨u1, false, n1, e ▸ n3⟩
    · exact .inr ⟨u2, true, n2, e ▸ n4⟩

/-- **C93 (detection of IPv6).** Without setting, what `IPv6IsAllowed` says is what was found less than five minutes ago. -/
theorem C93_detected (net : Net A) (v : Option Bool) (l : List (Int × Op)) (now : Int) (ho : InOrder now l)
    (hs : (run net l (init v)).setting = none) : Detected net now (ipv6IsAllowed net now (run net l (init v))).1 := by
  have h := inv_history (P := fun _ => True) net now l v ho (fun c _ => by unfold Keeps; split <;> trivial) (by cases v <;> simp [Keeps])
  obtain ⟨u, hu, h6⟩ := (inv_ipv6 h).2.2.2 hs
  refine ⟨u, hu, ?_⟩
  rcases h6 with h6 | ⟨h6, m, hb, ⟨hm, w, hw, he⟩ | ⟨⟨w, hw, he⟩, hown⟩⟩
  · exact .inl h6
  · refine .inr ⟨h6, w, hw, .inl ⟨?_, ?_⟩⟩
    · cases m with
      | nil => exact absurd rfl hm
      | cons a m => exact ⟨a, (mem_interfaces net w a).1 (by rw [← he]; simp)⟩
    · rw [hb, List.any_eq_true, he]
      simp only [mem_interfaces]
  · refine .inr ⟨h6, w, hw, .inr ⟨?_, m, hown, ?_⟩⟩
    · rintro ⟨a, ha⟩
      rw [← mem_interfaces, he] at ha; cases ha
    · rw [hb, List.any_eq_true]

/-! ## After clearing the caches -/

/-- The outside world as it is at time `t`, for ever -/
def frozen (net : Net A) (t : Int) : Net A where
  resolve := fun _ => net.resolve t
  reverse := fun _ => net.reverse t
  hostname := fun _ => net.hostname t
  canonical := fun _ => net.canonical t
  pyFqdn := fun _ => net.pyFqdn t
  ifaddrs := fun _ => net.ifaddrs t
  system6 := fun _ => net.system6 t
  six := net.six

theorem frozen_loop (net : Net A) (t : Int) (f g : St A → Bool × St A) (h : ∀ s, f s = g s) (ns : List Name) : ∀ l s,
    selfLoop net f t ns l s = selfLoop (frozen net t) g t ns l s := by
  obtain rfl : f = g := funext h
  induction ns with
  | nil => exact fun _ _ => rfl
  | cons n ns ih => exact fun l s => ih _ _

theorem frozen_self (net : Net A) (t : Int) (f g : St A → Bool × St A) (h : ∀ s, f s = g s) (s : St A) :
    selfIpsWith net f t s = selfIpsWith (frozen net t) g t s := by
  unfold selfIpsWith
  dsimp only
  cases asIps (getN t s .selfIps).1 with
  | some l => rfl
  | none =>
    dsimp only
    rw [frozen_loop net t f g h]
    rfl

theorem frozen_ipv6 (net : Net A) (t : Int) (s : St A) : ipv6IsAllowed net t s = ipv6IsAllowed (frozen net t) t s := by
  have hd : ∀ s, detect net t id s = detect (frozen net t) t id s := by
    intro s
    unfold detect
    rw [frozen_self net t setOnly setOnly (fun _ => rfl)]
  have hg : ∀ s, guess net t s = guess (frozen net t) t s := by
    intro s
    unfold guess
    simp only [hd]
    rfl
  unfold ipv6IsAllowed
  simp only [hg]
  rfl

/-- **C93 (reload).** When the caches were just cleared (as by `reload`), own addresses and addresses of names are the current ones. -/
theorem C93_current (net : Net A) (s : St A) (hs : s.names.maxTime = 300) (hs2 : s.hosts.maxTime = 300) (now : Int) (n : Name) :
    OwnAddresses (fun _ => True) net 1 1 1 now (getSelfIPs net now (step net now s .clear)).1 ∧
    ∃ b, Answer net now n b (dnsToIp net now (step net now s .clear) n).1 := by
  have h : Inv (fun _ => True) (frozen net now) now (step net now s .clear) :=
    ⟨hs, hs2, (by intro k v e h; cases h), (by intro k v e h; cases h), fun _ _ => trivial, fun _ _ => trivial⟩
  have w1 : Within 1 now now := within_now 1 now (by decide)
  constructor
  · have e : getSelfIPs net now (step net now s .clear) = getSelfIPs (frozen net now) now (step net now s .clear) :=
      frozen_self net now _ _ (frozen_ipv6 net now) _
    rw [e]
    obtain ⟨u, names, at_, h1, ⟨u1, u2, x, y, n1, n2, n3, n4, n5⟩, h3, h4⟩ := (inv_selfIps (allows_ipv6 _ (frozen net now) now) h).2
    exact ⟨now, names, fun n => (now, (at_ n).2), w1, ⟨now, now, x, y, w1, w1, n3, n4, n5⟩, fun _ _ => ⟨w1, trivial⟩, h4⟩
  · obtain ⟨_, u, b, _, _, he⟩ := inv_dnsToIp (allows_ipv6 _ (frozen net now) now) h n
    refine ⟨b, ?_⟩
    have e : dnsToIp net now (step net now s .clear) n = dnsToIp (frozen net now) now (step net now s .clear) n := by
      unfold dnsToIp
      rw [show ipv6IsAllowed net now = ipv6IsAllowed (frozen net now) now from funext (frozen_ipv6 net now)]
      rfl
    rw [e]
    unfold dnsToIp
    rw [he]
    exact mem_families net now n b

/-- **C93 (asked once).** After every history, a name that was just asked for, or whose address was, is not asked for again in the next
five minutes: the answer is the same whatever the resolver would say then. -/
theorem C93_once (net net' : Net A) (v : Option Bool) (l : List (Int × Op)) (now t : Int) (ho : InOrder now l) (ht : t < now + 300)
    (n : Name) (ip : String) :
    ((getN now (run net l (init v)) (.name n)).1 = none →
      (dnsToIp net' t (dnsToIp net now (run net l (init v)) n).2 n).1 = (dnsToIp net now (run net l (init v)) n).1) ∧
    ((getH now (run net l (init v)) (.ip ip)).1 = none →
      (ipToName net' t (ipToName net now (run net l (init v)) ip).2 ip).1 = (ipToName net now (run net l (init v)) ip).1) := by
  have h := inv_history (P := fun _ => True) net now l v ho (fun c _ => by unfold Keeps; split <;> trivial) (by cases v <;> simp [Keeps])
  generalize run net l (init v) = s at h
  have stored : ∀ {K V : Type} [DecidableEq K] (c : Cache K V) (k : K) (x : V), c.maxTime = 300 → ((c.set now k x).get t k).1 = some x := by
    intro K V _ c k x hc
    have hg : (c.set now k x).cache.get? k = some (x, now + 300) := by
      unfold Cache.set
      dsimp only
      rw [Dict.get?_insert_self, hc]
    rw [Cache.get_fst]
    unfold Cache.lookup
    rw [hg]
    dsimp only
    rw [if_pos ht]
  constructor
  · intro hn
    have i1 := ((inv_ipv6 (inv_getN h (.name n)).1).1).nttl
    have e : dnsToIp net now s n = (families net now n (ipv6IsAllowed net now (getN now s (.name n)).2).1,
        setN now (ipv6IsAllowed net now (getN now s (.name n)).2).2 (.name n)
          (.ips (families net now n (ipv6IsAllowed net now (getN now s (.name n)).2).1))) := by
      unfold dnsToIp dnsToIpWith
      dsimp only
      rw [hn]
      rfl
    rw [e]
    unfold dnsToIp dnsToIpWith
    dsimp only
    have hg := stored (ipv6IsAllowed net now (getN now s (.name n)).2).2.names (.name n)
      (.ips (families net now n (ipv6IsAllowed net now (getN now s (.name n)).2).1)) i1
    unfold setN
    unfold getN at hg ⊢
    dsimp only at hg ⊢
    rw [hg]
    rfl
  · intro hn
    have i1 := (inv_getH h (.ip ip)).1.httl
    have e : ipToName net now s ip = (net.reverse now ip, setH now (getH now s (.ip ip)).2 (.ip ip) (.name (net.reverse now ip))) := by
      unfold ipToName
      dsimp only
      rw [hn]
      rfl
    rw [e]
    unfold ipToName
    dsimp only
    have hg := stored (getH now s (.ip ip)).2.hosts (.ip ip) (.name (net.reverse now ip)) i1
    unfold setH
    unfold getH at hg ⊢
    dsimp only at hg ⊢
    rw [hg]
    rfl

/-! ## What does not hold -/

/-- **C93, refuted: own addresses are not older than five minutes.** Interfaces asked for the detection of IPv6 at time 0, own addresses
determined at 299, used at 598: an address that is on the interface since time 1 is not known as own. -/
theorem C93_refuted_five : ∃ (net : Net Nat) (l : List (Int × Op)) (a : Nat), InOrder 598 l ∧ (∀ u, 1 ≤ u → OnInterface net u a) ∧
    a ∉ (getSelfIPs net 598 (run net l (init none))).1 := by
  refine ⟨exampleNet, [(0, .ipv6IsAllowed), (299, .getSelfIPs)], 7, by simp [InOrder], fun u hu => ⟨[.addr 1, .addr 7], ?_, by simp, by simp⟩, by decide +kernel⟩
  show some _ = some _
  rw [if_neg (by omega)]

/-- **C93, refuted: an address on an interface is known as own.** One interface without address is enough to lose the addresses of
all others. -/
theorem C93_refuted_null : ∃ (net : Net Nat) (a : Nat), (∀ u, ∃ l, net.ifaddrs u = some l ∧ .addr a ∈ l) ∧
    a ∉ (getSelfIPs net 0 (init none)).1 :=
  ⟨{ exampleNet with ifaddrs := fun _ => some [.addr 1, .null] }, 1, fun _ => ⟨_, rfl, by simp⟩, by decide +kernel⟩

/-- **C93, refuted: without IPv6 no IPv6 addresses.** After IPv6 is switched off, a name still has the IPv6 addresses from before. -/
theorem C93_refuted_switched : ∃ (net : Net Nat) (l : List (Int × Op)) (n : Name) (a : Nat), InOrder 2 l ∧
    (run net l (init (some true))).setting = some false ∧ (∀ u, a ∉ net.resolve u n false) ∧
    a ∈ (dnsToIp net 2 (run net l (init (some true))) n).1 :=
  ⟨exampleNet, [(0, .dnsToIp (some "localhost")), (1, .allow (some false))], some "localhost", 51, by simp [InOrder], by decide +kernel,
    fun _ => by simp [exampleNet], by decide +kernel⟩

/-- **C93, refuted: the setting for IPv6 is kept.** A setting made by another thread while `IPv6IsAllowed` detects is lost. -/
theorem C93_refuted_lost (net : Net A) (t : Int) (s : St A) (b : Bool) :
    (detect net t (fun s => step net t s (.allow (some b))) s).2.setting = none := rfl

/-- **C93, refuted: there is always a name.** If the resolver answers without canonical name, the full name of the host is `None`,
although Python knows one. -/
theorem C93_refuted_fqdn : ∃ net : Net Nat, (∀ u h, net.pyFqdn u h = some "www.example.org") ∧ (getHostname net 0 (init none) true).1 = none :=
  ⟨{ exampleNet with canonical := fun _ _ => some [], pyFqdn := fun _ _ => some "www.example.org" }, fun _ _ => rfl, by decide +kernel⟩

end Verif.Dns
