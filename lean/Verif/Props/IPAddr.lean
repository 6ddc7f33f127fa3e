import Verif.Lemmas.NetLibSample

/-! # Properties of addresses and networks (C30, C31, C32, C50) -/

namespace Verif

open IPAddr Spec.IP

/-- An IPv4 address `a` (object made from a text without prefix length). -/
abbrev ip4 (a : Nat) : IPAddr := init4 [] a .unspec
/-- The IPv4 network `b/n`. -/
abbrev net4 (b n : Nat) : IPAddr := init4 [] b (.len n)
/-- An IPv6 address `a` (object made from a text without prefix length). -/
abbrev ip6 (a : Nat) : IPAddr := init6 [] a .unspec
/-- The IPv6 network `b/n`. -/
abbrev net6 (b n : Nat) : IPAddr := init6 [] b (.len n)

/-! ## C30: membership -/

theorem contains_inet (resolve : Str → List IPAddr) (x net : IPAddr) (hx : x.family = .inet) (hn : net.family = .inet) :
    net.contains resolve x = (decide (x.addr = net.addr) && decide (x.plen = net.plen) ||
      decide (andNot x.addr (m4 >>> net.plen) = net.addr)) := by
  simp [contains, eq, isInNet, isValid, hx, hn]

theorem contains_inet6 (resolve : Str → List IPAddr) (x net : IPAddr) (hx : x.family = .inet6) (hn : net.family = .inet6) :
    net.contains resolve x = (decide (x.addr = net.addr) && decide (x.plen = net.plen) ||
      decide (andNot x.addr (m6 >>> net.plen) = net.addr)) := by
  simp [contains, eq, isInNet, isValid, hx, hn]

/-- **C30 (IPv4).** An IPv4 address is in the IPv4 network `b/n` exactly if the first `n` bits agree. -/
theorem C30_ipv4 (resolve : Str → List IPAddr) (a b n : Nat) (ha : a < 2 ^ 32) (hb : b < 2 ^ 32) :
    (net4 b n).contains resolve (ip4 a) = true ↔ SamePrefix 32 n a b := by
  rw [contains_inet _ _ _ rfl rfl]
  simp only [init4, m4_eq, Bool.or_eq_true, Bool.and_eq_true, decide_eq_true_eq]
  constructor
  · rintro (⟨h1, h2⟩ | h)
    · subst h2
      rw [samePrefix_all 32 32 a b (Nat.le_refl _) ha hb]
      have h0 : andNot b ((2 ^ 32 - 1) >>> 32) = b := by
        have : (2 ^ 32 - 1) >>> 32 = 0 := by decide
        rw [this]; simp [andNot]
      rw [h1, h0]
    · exact (mask_eq_iff 32 n a b ha hb).1 h
  · intro h
    exact .inr ((mask_eq_iff 32 n a b ha hb).2 h)

/-- **C30 (IPv6).** An IPv6 address (not an IPv4-mapped one) is in the IPv6 network `b/n` exactly if the first `n` bits agree. -/
theorem C30_ipv6 (resolve : Str → List IPAddr) (a b n : Nat) (ha : a < 2 ^ 128) (hb : b < 2 ^ 128) (hc : a / 2 ^ 32 ≠ 0xFFFF) :
    (net6 b n).contains resolve (ip6 a) = true ↔ SamePrefix 128 n a b := by
  have hx : ip6 a = { family := .inet6, addr := a, plen := 128, raw := [] } := by
    simp only [init6]
    rw [if_neg (fun h => hc ((isCompat_iff a ha).1 h))]
  rw [hx, contains_inet6 _ _ _ rfl rfl]
  simp only [init6, m6_eq, Bool.or_eq_true, Bool.and_eq_true, decide_eq_true_eq]
  constructor
  · rintro (⟨h1, h2⟩ | h)
    · subst h2
      rw [samePrefix_all 128 128 a b (Nat.le_refl _) ha hb]
      have h0 : andNot b ((2 ^ 128 - 1) >>> 128) = b := by
        have : (2 ^ 128 - 1) >>> 128 = 0 := by decide
        rw [this]; simp [andNot]
      rw [h1, h0]
    · exact (mask_eq_iff 128 n a b ha hb).1 h
  · intro h
    exact .inr ((mask_eq_iff 128 n a b ha hb).2 h)

/-- **C30 (families).** Addresses are never in a network of the other family; IPv4-mapped IPv6 addresses are IPv4 addresses, hence
never in an IPv6 network. -/
theorem C30_family (resolve : Str → List IPAddr) (a b n : Nat) :
    (a < 2 ^ 32 → (net6 b n).contains resolve (ip4 a) = false) ∧
    (a < 2 ^ 128 → a / 2 ^ 32 ≠ 0xFFFF → (net4 b n).contains resolve (ip6 a) = false) ∧
    (a < 2 ^ 128 → a / 2 ^ 32 = 0xFFFF → (net6 b n).contains resolve (ip6 a) = false) := by
  refine ⟨fun _ => ?_, fun ha hc => ?_, fun ha hc => ?_⟩
  · simp [contains, eq, isInNet, isValid, init4, init6]
  · have : isCompat a = false := by
      cases h : isCompat a with
      | false => rfl
      | true => exact absurd ((isCompat_iff a ha).1 h) hc
    simp [contains, eq, isInNet, isValid, init4, init6, this]
  · have : isCompat a = true := (isCompat_iff a ha).2 hc
    simp [contains, eq, isInNet, isValid, init6, this]

example : (net4 0xC0A80000 16).contains (fun _ => []) (ip4 0xC0A8FF01) = true ∧
    (net4 0xC0A80000 16).contains (fun _ => []) (ip4 0xC0A90001) = false ∧
    (net6 (0x20010db8 * 2 ^ 96) 32).contains (fun _ => []) (ip6 (0x20010db8 * 2 ^ 96 + 1)) = true := by decide

/-- **C30 (networks, partial).** A network `a/p` that is not larger than `b/n` is reported to be inside of it exactly if all its
addresses are inside. *Missing:* larger networks, for which the report may be wrong, see below. -/
theorem C30_networks_partial (resolve : Str → List IPAddr) (a b n p : Nat) (ha : a < 2 ^ 32) (hb : b < 2 ^ 32) (hnp : n ≤ p) :
    (net4 b n).contains resolve (net4 a p) = true ↔
      ∀ x, x < 2 ^ 32 → (net4 a p).contains resolve (ip4 x) = true → (net4 b n).contains resolve (ip4 x) = true := by
  have h1 : (net4 b n).contains resolve (net4 a p) = true ↔ SamePrefix 32 n a b := by
    rw [contains_inet _ _ _ rfl rfl]
    simp only [init4, m4_eq, Bool.or_eq_true, Bool.and_eq_true, decide_eq_true_eq]
    rw [mask_mask 32 n p a hnp, mask_eq_iff 32 n a b ha hb]
    constructor
    · rintro (⟨h, h2⟩ | h)
      · subst h2; exact (mask_eq_iff 32 p a b ha hb).1 h
      · exact h
    · exact .inr
  rw [h1]
  constructor
  · intro h x hx hxa
    rw [C30_ipv4 resolve x a p hx ha] at hxa
    rw [C30_ipv4 resolve x b n hx hb]
    intro i hi hw
    rw [hxa i (by omega) hw, h i hi hw]
  · intro h
    have := h a ha ((C30_ipv4 resolve a a p ha ha).2 (samePrefix_refl _ _ _))
    exact (C30_ipv4 resolve a b n ha hb).1 this

/-- **C30 (networks, refuted).** A network is reported to be inside a smaller one: 10.0.0.0/8 "in" 10.0.0.0/24, although
10.1.0.0 is in the former and not in the latter. -/
theorem C30_refuted_larger_network (resolve : Str → List IPAddr) :
    (net4 0x0A000000 24).contains resolve (net4 0x0A000000 8) = true ∧
    (net4 0x0A000000 8).contains resolve (ip4 0x0A010000) = true ∧
    (net4 0x0A000000 24).contains resolve (ip4 0x0A010000) = false := by
  rw [contains_inet _ _ _ rfl rfl, contains_inet _ _ _ rfl rfl, contains_inet _ _ _ rfl rfl]
  decide

theorem eq_valid_iff (x y : IPAddr) (hx : x.family = .inet ∨ x.family = .inet6) :
    x.eq y = true ↔ x.family = y.family ∧ x.addr = y.addr ∧ x.plen = y.plen := by
  unfold eq
  by_cases hf : x.family = y.family
  · rw [if_neg (by simp [hf]), if_neg (by rcases hx with h | h <;> simp [h])]
    simp [hf]
  · rw [if_pos hf]; simp [hf]

theorem eq_text (lib : NetLib) (x y : IPAddr) (hx : x.family = .inet ∨ x.family = .inet6) (h : x.eq y = true) :
    x.ntoa lib = y.ntoa lib := by
  obtain ⟨h1, h2, h3⟩ := (eq_valid_iff x y hx).1 h
  rcases hx with hx | hx <;> simp only [ntoa, ← h1, hx, h2, h3]

theorem single_contains (resolve : Str → List IPAddr) (x y : IPAddr) (hx : x.isSingle = true) (hy : y.isSingle = true)
    (h : y.contains resolve x = true) : x.eq y = true := by
  unfold contains at h
  rw [Bool.or_eq_true] at h
  rcases h with h | h
  · exact h
  · unfold isInNet at h
    cases hyf : y.family with
    | unspec => simp [isSingle, hyf] at hy
    | raw => simp [isSingle, hyf] at hy
    | inet =>
      rw [if_neg (by simp [isValid, hyf])] at h
      by_cases hf : x.family = y.family
      · rw [if_neg (by simp [hf])] at h
        have hxf : x.family = .inet := by rw [hf, hyf]
        have hpl : y.plen = 32 := by simpa [isSingle, hyf] using hy
        have hpx : x.plen = 32 := by simpa [isSingle, hxf] using hx
        rw [hxf, hpl] at h
        have h0 : m4 >>> 32 = 0 := by decide
        simp only [h0, andNot, Nat.and_zero, Nat.xor_zero, decide_eq_true_eq] at h
        exact (eq_valid_iff x y (.inl hxf)).2 ⟨hf, h, by rw [hpl, hpx]⟩
      · rw [if_pos hf] at h; cases h
    | inet6 =>
      rw [if_neg (by simp [isValid, hyf])] at h
      by_cases hf : x.family = y.family
      · rw [if_neg (by simp [hf])] at h
        have hxf : x.family = .inet6 := by rw [hf, hyf]
        have hpl : y.plen = 128 := by simpa [isSingle, hyf] using hy
        have hpx : x.plen = 128 := by simpa [isSingle, hxf] using hx
        rw [hxf, hpl] at h
        have h0 : m6 >>> 128 = 0 := by decide
        simp only [h0, andNot, Nat.and_zero, Nat.xor_zero, decide_eq_true_eq] at h
        exact (eq_valid_iff x y (.inr hxf)).2 ⟨hf, h, by rw [hpl, hpx]⟩
      · rw [if_pos hf] at h; cases h

/-- **C30 (sets).** A single address is in a set of addresses, networks and names exactly if it is in (or equal to) a member; also
for sets extended one by one. -/
theorem C30_set (lib : NetLib) (resolve : Str → List IPAddr) (l more : List IPAddr) (x : IPAddr) (hx : x.isSingle = true) :
    (more.foldl IPAddrSet.add (IPAddrSet.ofList l)).mem lib resolve x = true ↔ ∃ n ∈ l ++ more, n.contains resolve x = true := by
  have hfam : x.family = .inet ∨ x.family = .inet6 := by
    unfold isSingle at hx
    cases h : x.family <;> simp_all
  have hfold : ∀ s : IPAddrSet, (s.hasSubNet = s.ips.any (fun x => !x.isSingle)) →
      (more.foldl IPAddrSet.add s).ips = s.ips ++ more ∧
      (more.foldl IPAddrSet.add s).hasSubNet = (s.ips ++ more).any (fun x => !x.isSingle) := by
    induction more with
    | nil => intro s h; simp [h]
    | cons y more ih =>
      intro s h
      rw [List.foldl_cons]
      obtain ⟨h1, h2⟩ := ih (s.add y) (by simp [IPAddrSet.add, h])
      rw [h1, h2]
      simp [IPAddrSet.add]
  obtain ⟨h1, h2⟩ := hfold (IPAddrSet.ofList l) rfl
  unfold IPAddrSet.mem
  rw [h1, h2]
  have : (IPAddrSet.ofList l).ips = l := rfl
  rw [this, Bool.or_eq_true, Bool.and_eq_true, List.any_eq_true, List.any_eq_true, List.any_eq_true]
  constructor
  · rintro (⟨y, hy, h⟩ | ⟨_, n, hn, h⟩)
    · simp only [Bool.and_eq_true] at h
      exact ⟨y, hy, by simp [contains, h.2]⟩
    · exact ⟨n, hn, h⟩
  · rintro ⟨n, hn, h⟩
    by_cases hs : n.isSingle = true
    · refine .inl ⟨n, hn, ?_⟩
      have he := single_contains resolve x n hx hs h
      simp [he, eq_text lib x n hfam he]
    · exact .inr ⟨⟨n, hn, by simp [hs]⟩, n, hn, h⟩

example : (IPAddrSet.ofList [ip4 1, net4 0xC0A80000 16]).mem Sample.lib (fun _ => []) (ip4 0xC0A80005) = true ∧
    (IPAddrSet.ofList [ip4 1, net4 0xC0A80000 16]).mem Sample.lib (fun _ => []) (ip4 1) = true ∧
    (IPAddrSet.ofList [ip4 1, net4 0xC0A80000 16]).mem Sample.lib (fun _ => []) (ip4 2) = false := by decide +kernel

/-- **C30 (names).** A host name in a list (text that is no address) contains exactly the valid addresses it resolves to. -/
theorem C30_names (resolve : Str → List IPAddr) (net x : IPAddr) (hn : net.family = .unspec) (hr : net.raw ≠ [])
    (hx : x.family ≠ .unspec) : net.contains resolve x = true ↔ ∃ y ∈ resolve net.raw, x.eq y = true := by
  have h1 : x.eq net = false := by
    unfold eq
    rw [hn, if_pos hx]
  have h2 : net.isValid = false ∧ net.raw ≠ [] := ⟨by simp [isValid, hn], hr⟩
  unfold contains isInNet
  rw [h1, if_pos h2, Bool.false_or, List.any_eq_true]

example : (⟨.unspec, 0, 0, "host".toList⟩ : IPAddr).contains (fun s => if s = "host".toList then [ip4 7, ip4 8] else []) (ip4 8) = true ∧
    (⟨.unspec, 0, 0, "host".toList⟩ : IPAddr).contains (fun s => if s = "host".toList then [ip4 7, ip4 8] else []) (ip4 9) = false := by
  decide +kernel

/-! ## C31: normalization -/

/-- **C31 (mapped addresses).** An IPv6 address is treated as an IPv4 address exactly if its upper 96 bits are those of
`::ffff:0:0/96`, and it is then the address given by its lower 32 bits. -/
theorem C31_mapped (a : Nat) (ha : a < 2 ^ 128) :
    ((ip6 a).family = .inet ↔ a / 2 ^ 32 = 0xFFFF) ∧
    (∀ b, b < 2 ^ 32 → ((ip6 a).eq (ip4 b) = true ↔ a = 0xFFFF * 2 ^ 32 + b)) := by
  by_cases hc : a / 2 ^ 32 = 0xFFFF
  · have h : isCompat a = true := (isCompat_iff a ha).2 hc
    have hx : ip6 a = { family := .inet, addr := a % 2 ^ 32, plen := 32, raw := [] } := by
      simp only [init6]
      rw [if_pos h, and_m4]
    rw [hx]
    refine ⟨by simp [hc], ?_⟩
    intro b hb
    rw [eq_valid_iff _ _ (.inl rfl)]
    simp only [init4, and_true, true_and]
    omega
  · have hx : ip6 a = { family := .inet6, addr := a, plen := 128, raw := [] } := by
      simp only [init6]
      rw [if_neg (fun h => hc ((isCompat_iff a ha).1 h))]
    rw [hx]
    refine ⟨by simp [hc], ?_⟩
    intro b hb
    rw [eq_valid_iff _ _ (.inr rfl)]
    simp only [init4]
    constructor
    · rintro ⟨h, _⟩; cases h
    · intro h; exfalso; omega

example : (ip6 (0xFFFF * 2 ^ 32 + 0x7F000001)).eq (ip4 0x7F000001) = true := by decide

/-- **C31 (networks).** Two networks are the same exactly if their prefix lengths agree and their first bits up to this length. -/
theorem C31_network (a b n k : Nat) :
    (a < 2 ^ 32 → b < 2 ^ 32 → ((net4 a n).eq (net4 b k) = true ↔ n = k ∧ SamePrefix 32 n a b)) ∧
    (a < 2 ^ 128 → b < 2 ^ 128 → ((net6 a n).eq (net6 b k) = true ↔ n = k ∧ SamePrefix 128 n a b)) := by
  constructor
  · intro ha hb
    rw [eq_valid_iff _ _ (.inl rfl)]
    simp only [init4, true_and, m4_eq]
    constructor
    · rintro ⟨h1, h2⟩; subst h2; exact ⟨rfl, (mask_eq_iff _ _ _ _ ha hb).1 h1⟩
    · rintro ⟨h1, h2⟩; subst h1; exact ⟨(mask_eq_iff _ _ _ _ ha hb).2 h2, rfl⟩
  · intro ha hb
    rw [eq_valid_iff _ _ (.inr rfl)]
    simp only [init6, true_and, m6_eq]
    constructor
    · rintro ⟨h1, h2⟩; subst h2; exact ⟨rfl, (mask_eq_iff _ _ _ _ ha hb).1 h1⟩
    · rintro ⟨h1, h2⟩; subst h1; exact ⟨(mask_eq_iff _ _ _ _ ha hb).2 h2, rfl⟩

/-- **C31 (equality).** Equality of addresses and names is an equivalence relation, and equal ones have the same text, hence the same
hash (raw identifiers excepted, see below). -/
theorem C31_equality (lib : NetLib) :
    (∀ x : IPAddr, x.eq x = true) ∧ (∀ x y : IPAddr, x.eq y = y.eq x) ∧
    (∀ x y z : IPAddr, x.eq y = true → y.eq z = true → x.eq z = true) ∧
    (∀ x y : IPAddr, x.family ≠ .raw → x.eq y = true → x.ntoa lib = y.ntoa lib) := by
  refine ⟨?_, ?_, ?_, ?_⟩
  · intro x; simp [eq]
  · intro x y
    unfold eq
    by_cases h : x.family = y.family
    · have h1 : ¬ (y.family ≠ y.family) := fun e => e rfl
      rw [h, if_neg h1, if_neg h1]
      by_cases hu : y.family = .unspec
      · rw [if_pos hu, if_pos hu]; simp only [eq_comm]
      · rw [if_neg hu, if_neg hu]; simp only [eq_comm]
    · rw [if_pos h, if_pos (fun e => h e.symm)]
  · intro x y z h1 h2
    unfold eq at *
    by_cases h : x.family = y.family
    · by_cases h' : y.family = z.family
      · rw [if_neg (by simp [h])] at h1
        rw [if_neg (by simp [h'])] at h2
        rw [if_neg (by simp [h, h'])]
        by_cases hu : x.family = .unspec
        · rw [if_pos hu] at h1 ⊢
          rw [if_pos (by rw [← h, hu])] at h2
          simp only [decide_eq_true_eq] at *
          rw [h1, h2]
        · rw [if_neg hu] at h1 ⊢
          rw [if_neg (by rw [← h]; exact hu)] at h2
          simp only [Bool.and_eq_true, decide_eq_true_eq] at *
          exact ⟨h1.1.trans h2.1, h1.2.trans h2.2⟩
      · rw [if_pos h'] at h2; cases h2
    · rw [if_pos h] at h1; cases h1
  · intro x y hr h
    cases hf : x.family with
    | inet => exact eq_text lib x y (.inl hf) h
    | inet6 => exact eq_text lib x y (.inr hf) h
    | raw => exact absurd hf hr
    | unspec =>
      unfold eq at h
      by_cases h' : x.family = y.family
      · rw [if_neg (by simp [h']), if_pos hf] at h
        have hy : y.family = .unspec := by rw [← h', hf]
        simp only [ntoa, hf, hy]
        simpa using h
      · rw [if_pos h'] at h; cases h

/-- **C31 (refuted for raw identifiers).** Any two raw identifiers compare equal (their texts, i.e. hashes, differ). -/
theorem C31_refuted_raw (lib : NetLib) : ∀ s t : Str, ((IPAddr.init lib s .raw).eq (IPAddr.init lib t .raw)) = true := by
  intro s t; rfl

/-- **C31 (given family).** If the family is given, the text is an address exactly if it is one of this family (an IPv4-mapped IPv6
text becomes an IPv4 address nevertheless); otherwise IPv4 is tried first. A raw identifier is never parsed. -/
theorem C31_given_family (lib : NetLib) (s : Str) :
    (∃ x, IPAddr.new lib s (.fam false) = some x ∧
      (∀ a, lib.pton4 s = some a → x.family = .inet ∧ x.addr = a ∧ x.plen = 32) ∧ (lib.pton4 s = none → x.family = .unspec ∧ x.raw = s)) ∧
    (∃ x, IPAddr.new lib s (.fam true) = some x ∧
      (∀ a, lib.pton6 s = some a → x.eq (ip6 a) = true) ∧ (lib.pton6 s = none → x.family = .unspec ∧ x.raw = s)) ∧
    IPAddr.new lib s .raw = some ⟨.raw, 0, 0, s⟩ := by
  refine ⟨⟨_, rfl, ?_, ?_⟩, ⟨_, rfl, ?_, ?_⟩, rfl⟩
  · intro a ha; simp [init, ha, init4]
  · intro ha; simp [init, ha]
  · intro a ha
    have h : IPAddr.init lib s (.fam true) = init6 s a (.fam true) := by simp [init, ha]
    rw [h]
    simp only [ip6, init6]
    by_cases hc : isCompat a = true
    · rw [if_pos hc, if_pos hc]; simp [eq]
    · rw [if_neg hc, if_neg hc]; simp [eq]
  · intro ha; simp [init, ha]

/-- **C31 (brackets).** A text in brackets means the same as the text itself. -/
theorem C31_brackets (lib : NetLib) (s : Str) (h0 : s ≠ []) (h1 : ¬ (s.head? = some '[' ∧ s.getLast? = some ']')) :
    IPAddr.new lib ('[' :: (s ++ [']'])) = IPAddr.new lib s := by
  have hw : wrapIpstr lib ('[' :: (s ++ [']'])) = wrapIpstr lib s := by
    unfold wrapIpstr
    have hb : 2 < ('[' :: (s ++ [']'])).length ∧ ('[' :: (s ++ [']'])).head? = some '[' ∧
        ('[' :: (s ++ [']'])).getLast? = some ']' := by
      refine ⟨?_, rfl, ?_⟩
      · have : 0 < s.length := List.length_pos_iff.2 h0
        simp; omega
      · rw [← List.cons_append, List.getLast?_append]; rfl
    have hn : ¬ (2 < s.length ∧ s.head? = some '[' ∧ s.getLast? = some ']') := fun h => h1 h.2
    have ht : ('[' :: (s ++ [']'])).tail.dropLast = s := by simp
    dsimp only
    rw [if_pos hb, if_neg hn, ht]
  simp only [IPAddr.new, hw]

example : (IPAddr.new Sample.lib "[1.2.3.4]".toList).map (·.addr) = some 0x01020304 ∧
    (IPAddr.new Sample.lib "1.2.3.4".toList (.fam true)).map (·.family) = some .unspec := by decide +kernel

theorem dec_inj (n k : Nat) (h : dec n = dec k) : n = k := by
  rw [← (dec_spec n).1, ← (dec_spec k).1, h]

theorem ntop_ne_nil (lib : NetLib) (hl : Lawful lib) (a : Nat) (ha : a < 2 ^ 32) : lib.ntop4 a ≠ [] := by
  intro h
  have := hl.re4 a ha
  rw [h] at this
  revert this; decide

theorem ntop6_ne_nil (lib : NetLib) (a : Nat) (h : isIp6Re (lib.ntop6 a) = true) : lib.ntop6 a ≠ [] := by
  intro h'
  rw [h'] at h
  revert h; decide

/-- **C31 (text and back, IPv4).** The text of an IPv4 address, or network with prefix length 1 to 32, is read back as the same
address or network. -/
theorem C31_text_roundtrip4 (lib : NetLib) (hl : Lawful lib) (a n : Nat) (ha : a < 2 ^ 32) (hn : 1 ≤ n) (hn2 : n ≤ 32) :
    ∃ y, IPAddr.new lib ((net4 a n).ntoa lib) = some y ∧ y.eq (net4 a n) = true := by
  let b := andNot a (m4 >>> n)
  have hb : b < 2 ^ 32 := andNot_le _ _ _ ha
  have hc := hl.clean4 b hb
  have hno : '/' ∉ lib.ntop4 b ∧ '\n' ∉ lib.ntop4 b ∧ '[' ∉ lib.ntop4 b :=
    ⟨fun h => (clean_ne _ (hc _ h)).1 rfl, fun h => (clean_ne _ (hc _ h)).2.1 rfl, fun h => (clean_ne _ (hc _ h)).2.2 rfl⟩
  by_cases h32 : n = 32
  · subst h32
    have ht : (net4 a 32).ntoa lib = lib.ntop4 b := by simp [ntoa, init4, b]
    rw [ht]
    refine ⟨init4 (lib.ntop4 b) b .unspec, ?_, ?_⟩
    · simp only [IPAddr.new]
      rw [wrap_plain lib _ hno.1 hno.2.2]
      simp [init, hl.rt4 b hb]
    · rw [eq_valid_iff _ _ (.inl rfl)]
      exact ⟨rfl, rfl, rfl⟩
  · have ht : (net4 a n).ntoa lib = lib.ntop4 b ++ '/' :: dec n := by
      have h1 : n ≠ 0 ∧ n < 32 := by omega
      simp only [ntoa, init4]
      rw [if_pos h1]
    rw [ht]
    refine ⟨init4 (lib.ntop4 b) b (.len n), ?_, ?_⟩
    · simp only [IPAddr.new]
      rw [wrap_slash lib _ _ hno.1 (dec_clean n).1 hno.2.2 (ntop_ne_nil lib hl b hb) hno.2.1 (dec_clean n).2 (.inl (hl.re4 b hb))]
      rw [if_pos ⟨(dec_spec n).2.2, (dec_spec n).2.1⟩, (dec_spec n).1]
      simp [init, hl.rt4 b hb]
    · rw [eq_valid_iff _ _ (.inl rfl)]
      refine ⟨rfl, ?_, rfl⟩
      simp only [init4, b, m4_eq]
      exact mask_idem 32 n a

/-- **C31 (text and back, IPv6).** The text of an IPv6 network with prefix length 1 to 127 outside of `::/96` and `::ffff:0:0/96`, and
of every single IPv6 address, is read back as the same. -/
theorem C31_text_roundtrip6 (lib : NetLib) (hl : Lawful lib) (a n : Nat) (ha : a < 2 ^ 128) :
    (1 ≤ n → n ≤ 128 → andNot a (m6 >>> n) / 2 ^ 32 ≠ 0 → andNot a (m6 >>> n) / 2 ^ 32 ≠ 0xFFFF →
      ∃ y, IPAddr.new lib ((net6 a n).ntoa lib) = some y ∧ y.eq (net6 a n) = true) ∧
    (a / 2 ^ 32 ≠ 0xFFFF → ∃ y, IPAddr.new lib ((ip6 a).ntoa lib) = some y ∧ y.eq (ip6 a) = true) := by
  have hno : ∀ b, b < 2 ^ 128 → '/' ∉ lib.ntop6 b ∧ '\n' ∉ lib.ntop6 b ∧ '[' ∉ lib.ntop6 b := by
    intro b hb
    have hc := hl.clean6 b hb
    exact ⟨fun h => (clean_ne _ (hc _ h)).1 rfl, fun h => (clean_ne _ (hc _ h)).2.1 rfl,
      fun h => (clean_ne _ (hc _ h)).2.2 rfl⟩
  have hplain : ∀ b, b < 2 ^ 128 → b / 2 ^ 32 ≠ 0xFFFF → IPAddr.new lib (lib.ntop6 b) =
      some { family := .inet6, addr := b, plen := 128, raw := lib.ntop6 b } := by
    intro b hb hc
    simp only [IPAddr.new]
    rw [wrap_plain lib _ (hno b hb).1 (hno b hb).2.2]
    simp only [init, hl.disj b hb, hl.rt6 b hb, reduceCtorEq, if_false, init6]
    rw [if_neg (fun h => hc ((isCompat_iff b hb).1 h))]
  constructor
  · intro hn hn2 h1 h2
    let b := andNot a (m6 >>> n)
    have hb : b < 2 ^ 128 := andNot_le _ _ _ ha
    by_cases h128 : n = 128
    · subst h128
      have ht : (net6 a 128).ntoa lib = lib.ntop6 b := by simp [ntoa, init6, b]
      rw [ht]
      refine ⟨_, hplain b hb h2, ?_⟩
      rw [eq_valid_iff _ _ (.inr rfl)]
      exact ⟨rfl, rfl, rfl⟩
    · have ht : (net6 a n).ntoa lib = lib.ntop6 b ++ '/' :: dec n := by
        have h1 : n ≠ 0 ∧ n < 128 := by omega
        simp only [ntoa, init6]
        rw [if_pos h1]
      have hre := hl.re6 b hb h1 h2
      rw [ht]
      refine ⟨init6 (lib.ntop6 b) b (.len n), ?_, ?_⟩
      · simp only [IPAddr.new]
        rw [wrap_slash lib _ _ (hno b hb).1 (dec_clean n).1 (hno b hb).2.2 (ntop6_ne_nil lib b hre) (hno b hb).2.1
          (dec_clean n).2 (.inr hre)]
        rw [if_pos ⟨(dec_spec n).2.2, (dec_spec n).2.1⟩, (dec_spec n).1]
        simp [init, hl.disj b hb, hl.rt6 b hb]
      · rw [eq_valid_iff _ _ (.inr rfl)]
        refine ⟨rfl, ?_, rfl⟩
        simp only [init6, b, m6_eq]
        exact mask_idem 128 n a
  · intro hc
    have hx : ip6 a = { family := .inet6, addr := a, plen := 128, raw := [] } := by
      simp only [init6]
      rw [if_neg (fun h => hc ((isCompat_iff a ha).1 h))]
    rw [hx]
    have ht : ({ family := .inet6, addr := a, plen := 128, raw := [] } : IPAddr).ntoa lib = lib.ntop6 a := by simp [ntoa]
    rw [ht]
    exact ⟨_, hplain a ha hc, by rw [eq_valid_iff _ _ (.inr rfl)]; exact ⟨rfl, rfl, rfl⟩⟩

/-- **C31 (text is unique).** Addresses and networks (prefix length 1 to 32, respectively 128) with the same text are equal. -/
theorem C31_text_unique (lib : NetLib) (hl : Lawful lib) (a b n k : Nat) (ha : a < 2 ^ 32) (hb : b < 2 ^ 32)
    (hn : 1 ≤ n ∧ n ≤ 32) (hk : 1 ≤ k ∧ k ≤ 32) (h : (net4 a n).ntoa lib = (net4 b k).ntoa lib) :
    (net4 a n).eq (net4 b k) = true := by
  obtain ⟨y, h1, h2⟩ := C31_text_roundtrip4 lib hl a n ha hn.1 hn.2
  obtain ⟨z, h3, h4⟩ := C31_text_roundtrip4 lib hl b k hb hk.1 hk.2
  rw [h, h3] at h1
  have hyz : z = y := Option.some.inj h1
  subst hyz
  have hs := (C31_equality lib).2.1 z (net4 a n)
  rw [h2] at hs
  exact (C31_equality lib).2.2.1 _ _ _ hs.symm h4

/-- **C31 (refuted for prefix length 0).** The network 0.0.0.0/0 has the text (and hash) of the address 0.0.0.0, but is not equal
to it, so its text is read back as something else. -/
theorem C31_refuted_everything (lib : NetLib) :
    (net4 0 0).ntoa lib = (ip4 0).ntoa lib ∧ (net4 0 0).eq (ip4 0) = false := by
  constructor
  · simp [ntoa, init4, andNot]
  · decide

/-- **C31 (refuted for IPv4-mapped networks).** The IPv6 network ::ffff:127.0.0.1/128 has the text of an IPv6 address which is read
back as the IPv4 address 127.0.0.1, not equal to the network. -/
theorem C31_refuted_mapped_network (lib : NetLib) (hl : Lawful lib) :
    ∃ y, IPAddr.new lib ((net6 (0xFFFF * 2 ^ 32 + 0x7F000001) 128).ntoa lib) = some y ∧
      y.eq (net6 (0xFFFF * 2 ^ 32 + 0x7F000001) 128) = false ∧ y.eq (ip4 0x7F000001) = true := by
  have hb : 0xFFFF * 2 ^ 32 + 0x7F000001 < 2 ^ 128 := by decide
  generalize hbb : (0xFFFF * 2 ^ 32 + 0x7F000001) = b at *
  have h0 : m6 >>> 128 = 0 := by decide
  have ht : (net6 b 128).ntoa lib = lib.ntop6 b := by
    simp [ntoa, init6, h0, andNot]
  have hc := hl.clean6 b hb
  rw [ht]
  refine ⟨init6 (lib.ntop6 b) b .unspec, ?_, ?_, ?_⟩
  · simp only [IPAddr.new]
    rw [wrap_plain lib _ (fun h => (clean_ne _ (hc _ h)).1 rfl) (fun h => (clean_ne _ (hc _ h)).2.2 rfl)]
    simp [init, hl.disj b hb, hl.rt6 b hb]
  · subst hbb
    generalize lib.ntop6 _ = s
    rfl
  · subst hbb
    generalize lib.ntop6 _ = s
    rfl

example : Lawful Sample.lib := Sample.lawful

example : (net4 0xC0A81234 16).ntoa Sample.lib = "192.168.0.0/16".toList ∧
    IPAddr.new Sample.lib "192.168.18.52/16".toList = some (init4 "192.168.18.52".toList 0xC0A81234 (.len 16)) := by decide +kernel

/-! ## C32: netmasks -/

/-- **C32 (IPv4).** A text `address/mask` with an IPv4 netmask means the same as `address/n` with `n` the number of one bits, if the
mask consists of `n` one bits followed by zero bits; any other mask is an error. -/
theorem C32_ipv4 (lib : NetLib) (s m : Str) (mask : Nat) (hs : isIp4Re s = true ∨ isIp6Re s = true) (hm : isIp4Re m = true)
    (hp : lib.pton4 m = some mask) (hlt : mask < 2 ^ 32) (hs2 : ∀ c ∈ s, isHex c = true ∨ c = '.' ∨ c = ':')
    (hm2 : ∀ c ∈ m, isHex c = true ∨ c = '.' ∨ c = ':') (hd : '.' ∈ m) :
    (∀ n, IsMask 32 n mask → IPAddr.new lib (s ++ '/' :: m) = IPAddr.new lib (s ++ '/' :: dec n)) ∧
    ((∀ n, ¬ IsMask 32 n mask) → IPAddr.new lib (s ++ '/' :: m) = none) := by
  have hne : s ≠ [] := by rintro rfl; revert hs; decide
  have hmd : m.all isDig = false := by
    cases h : m.all isDig with
    | false => rfl
    | true => have := List.all_eq_true.1 h _ hd; revert this; decide
  have c1 : '/' ∉ s := fun h => (clean_ne _ (hs2 _ h)).1 rfl
  have c2 : '\n' ∉ s := fun h => (clean_ne _ (hs2 _ h)).2.1 rfl
  have c3 : '[' ∉ s := fun h => (clean_ne _ (hs2 _ h)).2.2 rfl
  have c4 : '/' ∉ m := fun h => (clean_ne _ (hm2 _ h)).1 rfl
  have c5 : '\n' ∉ m := fun h => (clean_ne _ (hm2 _ h)).2.1 rfl
  have hw := wrap_slash lib s m c1 c4 c3 hne c2 c5 hs
  rw [if_neg (by rw [hmd]; simp), if_pos (by rw [hm]; rfl)] at hw
  have hi : (init lib m .unspec).maskplen = maskMap.get? mask := by
    simp [init, hp, init4, maskplen]
  rw [hi] at hw
  constructor
  · intro n hn
    have h4 := (isMask_iff 32 n mask).1 hn
    rw [(maskMap_get mask n).2 (.inr h4)] at hw
    have hw2 := wrap_slash lib s (dec n) c1 (dec_clean n).1 c3 hne c2 (dec_clean n).2 hs
    rw [if_pos ⟨(dec_spec n).2.2, (dec_spec n).2.1⟩, (dec_spec n).1] at hw2
    simp only [IPAddr.new]
    rw [hw, hw2]
  · intro hn
    have : maskMap.get? mask = none := by
      cases h : maskMap.get? mask with
      | none => rfl
      | some n =>
        exfalso
        rcases (maskMap_get mask n).1 h with ⟨h1, h2⟩ | ⟨h1, h2⟩
        · by_cases h0 : n = 0
          · subst h0
            exact hn 0 ((isMask_iff 32 0 mask).2 ⟨by omega, by rw [h2]⟩)
          · have hx : 2 ^ (128 - n) ≤ 2 ^ 127 := Nat.pow_le_pow_right (by decide) (by omega)
            have hy : 2 ^ 128 = 2 * 2 ^ 127 := by decide
            have hz : (2 : Nat) ^ 32 ≤ 2 ^ 127 := by decide
            omega
        · exact hn n ((isMask_iff 32 n mask).2 ⟨h1, h2⟩)
    rw [this] at hw
    simp only [IPAddr.new]
    rw [hw]

/-- **C32 (IPv6, partial).** The same for masks written as IPv6 address: contiguous 128-bit masks are equivalent to their prefix length,
every other mask is an error *except* those equal to a 32-bit mask. *Missing:* the statement "exactly the contiguous 128-bit
masks", which is false, see below. -/
theorem C32_ipv6_partial (x : IPAddr) (n : Nat) :
    x.maskplen = some n ↔ IsMask 128 n x.addr ∨ IsMask 32 n x.addr := by
  rw [isMask_iff, isMask_iff]
  exact maskMap_get x.addr n

/-- **C32 (refuted for IPv6).** `::ffff:ff00` (the number 2^32 - 2^8), which is not a contiguous 128-bit mask, is accepted as prefix
length 24. -/
theorem C32_refuted_ipv6 : (ip6 0xFFFFFF00).family = .inet6 ∧ (ip6 0xFFFFFF00).maskplen = some 24 ∧ ∀ n, ¬ IsMask 128 n 0xFFFFFF00 := by
  refine ⟨by decide, (maskMap_get _ 24).2 (.inr (by decide)), ?_⟩
  intro n h
  have h' := ((isMask_iff 128 n _).1 h)
  have h1 := (h.2.2 0 (by omega))
  by_cases h0 : n = 0
  · subst h0
    have := h'.2
    revert this; decide
  · have := h1.2 (by omega)
    revert this; decide

/-- **C32 (refuted for misspelled masks).** If the mask has the form of an IPv4 address, but is none (255.255.255.256), it is accepted
as prefix length 0: 192.168.0.0/255.255.255.256 contains every IPv4 address. -/
theorem C32_refuted_invalid_mask (resolve : Str → List IPAddr) :
    Sample.lib.pton4 "255.255.255.256".toList = none ∧
    ∃ net, IPAddr.new Sample.lib "192.168.0.0/255.255.255.256".toList = some net ∧
      ∀ a, a < 2 ^ 32 → net.contains resolve (ip4 a) = true := by
  refine ⟨by decide +kernel, init4 "192.168.0.0".toList 0xC0A80000 (.len 0), by decide +kernel, ?_⟩
  intro a ha
  rw [contains_inet _ _ _ rfl rfl]
  simp only [init4, Bool.or_eq_true, decide_eq_true_eq]
  right
  have := (mask_eq_iff 32 0 a 0xC0A80000 ha (by decide)).2 (fun i hi => by omega)
  rw [← m4_eq] at this
  rw [this]

example : IPAddr.new Sample.lib "10.0.0.1/255.255.0.0".toList = IPAddr.new Sample.lib "10.0.0.1/16".toList ∧
    IPAddr.new Sample.lib "10.0.0.1/255.0.255.0".toList = none := by decide +kernel

/-! ## C50: text to addresses -/

/-- **C50 (no lookup for addresses).** A text that is an IP address (IPv4 or IPv6, the latter possibly in brackets) gives exactly this
address, without asking the name service. -/
theorem C50_plain (lib : NetLib) (hl : Lawful lib) (resolve : Str → List IPAddr) (useDns : Bool) (a : Nat) (ha : a < 2 ^ 32) :
    ∃ y, textToIp lib resolve (lib.ntop4 a) useDns = ([y], false) ∧ y.eq (ip4 a) = true := by
  have hc := hl.clean4 a ha
  have hs : searchIP (lib.ntop4 a) = some (lib.ntop4 a) := by
    unfold searchIP
    dsimp only
    rw [dropNl_of _ (fun h => (clean_ne _ (hc _ h)).2.1 rfl), if_pos (hl.re4 a ha)]
  have hn : IPAddr.new lib (lib.ntop4 a) = some (init4 (lib.ntop4 a) a .unspec) := by
    simp only [IPAddr.new]
    rw [wrap_plain lib _ (fun h => (clean_ne _ (hc _ h)).1 rfl) (fun h => (clean_ne _ (hc _ h)).2.2 rfl)]
    simp [init, hl.rt4 a ha]
  refine ⟨init4 (lib.ntop4 a) a .unspec, ?_, ?_⟩
  · simp [textToIp, plainIps, hs, hn, isValid, init4]
  · rw [eq_valid_iff _ _ (.inl rfl)]
    exact ⟨rfl, rfl, rfl⟩

/-- **C50 (IPv6 in brackets).** -/
theorem C50_plain6 (lib : NetLib) (hl : Lawful lib) (resolve : Str → List IPAddr) (useDns : Bool) (a : Nat) (ha : a < 2 ^ 128)
    (h1 : a / 2 ^ 32 ≠ 0) (h2 : a / 2 ^ 32 ≠ 0xFFFF) (h4 : isIp4Re (lib.ntop6 a) = false) (t : Str)
    (ht : t = lib.ntop6 a ∨ t = '[' :: (lib.ntop6 a ++ [']'])) :
    ∃ y, textToIp lib resolve t useDns = ([y], false) ∧ y.eq (ip6 a) = true := by
  have hc := hl.clean6 a ha
  have hre := hl.re6 a ha h1 h2
  have hnl : '\n' ∉ lib.ntop6 a := fun h => (clean_ne _ (hc _ h)).2.1 rfl
  have hbr : '[' ∉ lib.ntop6 a := fun h => (clean_ne _ (hc _ h)).2.2 rfl
  have hbl : ¬ (lib.ntop6 a).getLast? = some ']' := by
    intro h
    have := hc _ (List.mem_of_getLast? h)
    revert this; decide
  have hs : searchIP t = some (lib.ntop6 a) := by
    unfold searchIP
    dsimp only
    rcases ht with rfl | rfl
    · rw [dropNl_of _ hnl, h4]
      simp only [Bool.false_eq_true, if_false]
      have hm : afterBracket (lib.ntop6 a) = lib.ntop6 a := by
        unfold afterBracket
        rw [if_neg (fun h => hbr (List.mem_of_head? h))]
      rw [hm, if_neg hbl, if_pos hre]
    · have hn' : '\n' ∉ '[' :: (lib.ntop6 a ++ [']']) := by simp [hnl]
      rw [dropNl_of _ hn']
      have h44 : isIp4Re ('[' :: (lib.ntop6 a ++ [']'])) = false := by
        cases h : isIp4Re ('[' :: (lib.ntop6 a ++ [']'])) with
        | false => rfl
        | true =>
          exfalso
          have hsp' : ∃ p ps, splitOn '.' ('[' :: (lib.ntop6 a ++ [']'])) = ('[' :: p) :: ps := by
            simp only [splitOn]
            cases hsp : splitOn '.' (lib.ntop6 a ++ [']']) with
            | nil => exact absurd hsp (splitOn_ne_nil _ _)
            | cons p ps => exact ⟨p, ps, by simp⟩
          obtain ⟨p, ps, hsp'⟩ := hsp'
          unfold isIp4Re at h
          rw [hsp'] at h
          have : isDig '[' = false := by decide
          simp [isDig13, this] at h
      rw [h44]
      simp only [Bool.false_eq_true, if_false]
      have hm : afterBracket ('[' :: (lib.ntop6 a ++ [']'])) = lib.ntop6 a ++ [']'] := by simp [afterBracket]
      have hg : (lib.ntop6 a ++ [']']).getLast? = some ']' := by simp
      rw [hm, if_pos hg, List.dropLast_concat, if_pos hre]
  have hn : IPAddr.new lib (lib.ntop6 a) = some { family := .inet6, addr := a, plen := 128, raw := lib.ntop6 a } := by
    simp only [IPAddr.new]
    rw [wrap_plain lib _ (fun h => (clean_ne _ (hc _ h)).1 rfl) hbr]
    simp only [init, hl.disj a ha, hl.rt6 a ha, reduceCtorEq, if_false, init6]
    rw [if_neg (fun h => h2 ((isCompat_iff a ha).1 h))]
  refine ⟨{ family := .inet6, addr := a, plen := 128, raw := lib.ntop6 a }, ?_, ?_⟩
  · simp [textToIp, plainIps, hs, hn, isValid]
  · have hx : ip6 a = { family := .inet6, addr := a, plen := 128, raw := [] } := by
      simp only [init6]
      rw [if_neg (fun h => h2 ((isCompat_iff a ha).1 h))]
    rw [hx, eq_valid_iff _ _ (.inr rfl)]
    exact ⟨rfl, rfl, rfl⟩

/-- **C50 (usedns).** The name service is asked only if it is allowed and the text is no valid address; if it is not allowed a text that is
no address gives nothing. Every address returned is valid, if the name service returns valid ones only. -/
theorem C50_usedns (lib : NetLib) (resolve : Str → List IPAddr) (text : Str) :
    (textToIp lib resolve text false).2 = false ∧
    (∀ u, (textToIp lib resolve text u).2 = true → u = true ∧ (textToIp lib resolve text u).1 = resolve text ∧
      (textToIp lib resolve text false).1 = []) ∧
    (searchIP text = none → (textToIp lib resolve text false).1 = [] ∧ textToIp lib resolve text true = (resolve text, true)) ∧
    (∀ u, (∀ y ∈ resolve text, y.isValid = true) → ∀ y ∈ (textToIp lib resolve text u).1, y.isValid = true) := by
  refine ⟨?_, ?_, ?_, ?_⟩
  · simp [textToIp]
  · intro u
    unfold textToIp
    dsimp only
    generalize plainIps lib text = l
    cases u with
    | false => simp
    | true => cases l <;> simp
  · intro h
    simp [textToIp, plainIps, h]
  · intro u hr y hy
    unfold textToIp at hy
    dsimp only at hy
    split at hy
    · exact hr y hy
    · unfold plainIps at hy
      cases hs : searchIP text with
      | none => rw [hs] at hy; cases hy
      | some s =>
        rw [hs] at hy
        dsimp only at hy
        cases hn : IPAddr.new lib s with
        | none => rw [hn] at hy; cases hy
        | some ip =>
          rw [hn] at hy
          dsimp only at hy
          split at hy
          · rename_i hv
            simp at hy
            rw [hy]; exact hv
          · cases hy

example : (textToIp Sample.lib (fun _ => [ip4 5]) "1.2.3.4".toList true).1.map IPAddr.addr = [0x01020304] ∧
    textToIp Sample.lib (fun _ => [ip4 5]) "example.com".toList true = ([ip4 5], true) ∧
    textToIp Sample.lib (fun _ => [ip4 5]) "1.2.3.400".toList false = ([], false) := by decide +kernel

end Verif
