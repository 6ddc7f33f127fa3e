import Verif.Spec.Filter
import Verif.Lemmas.NetLibSample
import Verif.Props.Cache
import Verif.Props.IPAddr

/-! # Properties of the ignore list and the ignore cache (C33, C34) -/

namespace Verif

open IPAddr Spec.Filt Spec.IP

namespace Ignore

theorem listed_iff (env : IgnoreEnv) (g : Ignore) (x : IPAddr) :
    Listed env g x ↔ (g.ignoreSelf && env.selfIPs.mem env.lib env.resolve x) = true ∨ inSet env.lib g.ipSet x = true ∨
      g.ipList.any (inItem env x) = true := by
  unfold Listed inSet
  simp only [List.any_eq_true, Bool.and_eq_true, decide_eq_true_eq]
  constructor
  · rintro (h | ⟨y, hy, h1, h2⟩ | ⟨n, hn, h⟩ | ⟨f, hf, h⟩)
    · exact .inl h
    · exact .inr (.inl ⟨y, hy, h2, h1⟩)
    · exact .inr (.inr ⟨_, hn, h⟩)
    · exact .inr (.inr ⟨_, hf, h⟩)
  · rintro (h | ⟨y, hy, h2, h1⟩ | ⟨i, hi, h⟩)
    · exact .inl h
    · exact .inr (.inl ⟨y, hy, h1, h2⟩)
    · cases i with
      | net n => exact .inr (.inr (.inl ⟨n, hi, h⟩))
      | file f => exact .inr (.inr (.inr ⟨f, hi, h⟩))

/-- the decision by cases -/
theorem decision_cases (env : IgnoreEnv) (g : Ignore) (x : IPAddr) :
    (Listed env g x ∧ ∃ b, decision env g x = some (true, b)) ∨
    (¬ Listed env g x ∧ g.command = true ∧ ∃ code, env.command x = some code ∧ decision env g x = some (decide (code = 0), true)) ∨
    (¬ Listed env g x ∧ g.command = true ∧ env.command x = none ∧ decision env g x = none) ∨
    (¬ Listed env g x ∧ g.command = false ∧ decision env g x = some (false, true)) := by
  rw [listed_iff]
  unfold decision
  by_cases h1 : (g.ignoreSelf && env.selfIPs.mem env.lib env.resolve x) = true
  · rw [if_pos h1]; exact .inl ⟨.inl h1, _, rfl⟩
  · rw [if_neg h1]
    by_cases h2 : inSet env.lib g.ipSet x = true
    · rw [if_pos h2]; exact .inl ⟨.inr (.inl h2), _, rfl⟩
    · rw [if_neg h2]
      by_cases h3 : g.ipList.any (inItem env x) = true
      · rw [if_pos h3]; exact .inl ⟨.inr (.inr h3), _, rfl⟩
      · rw [if_neg h3]
        have hn : ¬ ((g.ignoreSelf && env.selfIPs.mem env.lib env.resolve x) = true ∨ inSet env.lib g.ipSet x = true ∨
            g.ipList.any (inItem env x) = true) := by
          rintro (h | h | h)
          · exact h1 h
          · exact h2 h
          · exact h3 h
        by_cases h4 : g.command = true
        · rw [if_pos h4]
          cases hc : env.command x with
          | some code => exact .inr (.inl ⟨hn, h4, code, rfl, rfl⟩)
          | none => exact .inr (.inr (.inl ⟨hn, h4, rfl, rfl⟩))
        · rw [if_neg h4]
          exact .inr (.inr (.inr ⟨hn, by simpa using h4, rfl⟩))

theorem decision_true (env : IgnoreEnv) (g : Ignore) (x : IPAddr) :
    (decision env g x).map Prod.fst = some true ↔ Ignored env g x := by
  unfold Ignored
  rcases decision_cases env g x with ⟨h1, b, h2⟩ | ⟨h1, h2, code, h3, h4⟩ | ⟨h1, h2, h3, h4⟩ | ⟨h1, h2, h3⟩
  · rw [h2]; exact ⟨fun _ => .inl h1, fun _ => rfl⟩
  · rw [h4, h3]
    simp only [Option.map_some, Option.some.injEq, decide_eq_true_eq]
    exact ⟨fun h => .inr ⟨h2, h⟩, fun h => by
      rcases h with h | h
      · exact absurd h h1
      · exact h.2⟩
  · rw [h4, h3]
    exact ⟨fun h => by simp at h, fun h => by
      rcases h with h | h
      · exact absurd h h1
      · simp at h⟩
  · rw [h3, h2]
    exact ⟨fun h => by simp at h, fun h => by
      rcases h with h | h
      · exact absurd h h1
      · simp at h⟩

theorem decision_none (env : IgnoreEnv) (g : Ignore) (x : IPAddr) :
    decision env g x = none ↔ ¬ Listed env g x ∧ g.command = true ∧ env.command x = none := by
  rcases decision_cases env g x with ⟨h1, b, h2⟩ | ⟨h1, h2, code, h3, h4⟩ | ⟨h1, h2, h3, h4⟩ | ⟨h1, h2, h3⟩
  · rw [h2]; exact ⟨fun h => (by cases h), fun h => absurd h1 h.1⟩
  · rw [h4, h3]; exact ⟨fun h => (by cases h), fun h => (by cases h.2.2)⟩
  · exact ⟨fun _ => ⟨h1, h2, h3⟩, fun _ => h4⟩
  · rw [h3, h2]; exact ⟨fun h => (by cases h), fun h => (by cases h.2.1)⟩

/-- a decision that is not stored is a hit in the set of addresses -/
theorem decision_unstored (env : IgnoreEnv) (g : Ignore) (x : IPAddr) (v : Bool) (h : decision env g x = some (v, false)) :
    v = true := by
  rcases decision_cases env g x with ⟨h1, b, h2⟩ | ⟨h1, h2, code, h3, h4⟩ | ⟨h1, h2, h3, h4⟩ | ⟨h1, h2, h3⟩
  · rw [h2] at h; cases h; rfl
  · rw [h4] at h; cases h
  · rw [h4] at h; cases h
  · rw [h3] at h; cases h

theorem decision_cache (env : IgnoreEnv) (g : Ignore) (x : IPAddr) (c : Option (Cache Str Bool)) :
    decision env { g with cache := c } x = decision env g x := rfl

theorem in_nocache (env : IgnoreEnv) (now : Int) (g : Ignore) (x : IPAddr) (hc : g.cache = none) :
    g.inIgnoreIPList env now x = ((decision env g x).map Prod.fst, g) := by
  unfold inIgnoreIPList
  rw [hc]
  dsimp only
  cases decision env g x with
  | none => rfl
  | some v => rfl

end Ignore

open Ignore

/-- **C33 (decision).** Without a cache, an address is ignored exactly if it is an own one, listed, inside a listed network, name or file,
or the ignore command exits with 0; it is not ignored exactly if it is not listed and there is no command, or the command exits with another
code; otherwise (the command cannot be executed) the query fails. The query changes nothing. -/
theorem C33_decision (env : IgnoreEnv) (now : Int) (g : Ignore) (x : IPAddr) (hc : g.cache = none) :
    ((g.inIgnoreIPList env now x).1 = some true ↔ Ignored env g x) ∧
    ((g.inIgnoreIPList env now x).1 = some false ↔
      ¬ Listed env g x ∧ (g.command = true → ∃ code, env.command x = some code ∧ code ≠ 0)) ∧
    ((g.inIgnoreIPList env now x).1 = none ↔ ¬ Listed env g x ∧ g.command = true ∧ env.command x = none) ∧
    (g.inIgnoreIPList env now x).2 = g := by
  rw [in_nocache env now g x hc]
  refine ⟨decision_true env g x, ?_, ?_, rfl⟩
  · rcases decision_cases env g x with ⟨h1, b, h2⟩ | ⟨h1, h2, code, h3, h4⟩ | ⟨h1, h2, h3, h4⟩ | ⟨h1, h2, h3⟩
    · rw [h2]; exact ⟨fun h => by simp at h, fun h => absurd h1 h.1⟩
    · rw [h4, h3]
      simp only [Option.map_some, Option.some.injEq, decide_eq_false_iff_not]
      constructor
      · intro h; exact ⟨h1, fun _ => ⟨code, rfl, h⟩⟩
      · rintro ⟨_, h⟩
        obtain ⟨c', hc', hne⟩ := h h2
        rw [hc']; exact hne
    · rw [h4, h3]
      constructor
      · intro h; simp at h
      · rintro ⟨_, h⟩
        obtain ⟨c', hc', _⟩ := h h2
        cases hc'
    · rw [h3, h2]
      exact ⟨fun _ => ⟨h1, fun h => by cases h⟩, fun _ => rfl⟩
  · rw [← decision_none]
    cases decision env g x <;> simp

/-- **C34 (hit).** If the cache has a fresh answer under the key of the address, that is the answer, whatever the lists, the command and the rest of the
world say, and nothing changes. -/
theorem C34_hit (env : IgnoreEnv) (now : Int) (g : Ignore) (c : Cache Str Bool) (x : IPAddr) (v : Bool) (hc : g.cache = some c)
    (h : c.lookup now (env.key x) = some v) : g.inIgnoreIPList env now x = (some v, g) := by
  unfold inIgnoreIPList
  rw [hc]
  have hg : c.get now (env.key x) = (some v, c) := by
    unfold Cache.lookup at h
    unfold Cache.get
    cases hk : c.cache.get? (env.key x) with
    | none => rw [hk] at h; cases h
    | some w =>
      rw [hk] at h
      dsimp only at h ⊢
      by_cases hw : now < w.2
      · rw [if_pos hw] at h ⊢; rw [h]
      · rw [if_neg hw] at h; cases h
  dsimp only
  rw [hg]
  cases g
  cases hc
  rfl

/-- answer and cache of a miss -/
theorem Ignore.in_miss (env : IgnoreEnv) (now : Int) (g : Ignore) (c : Cache Str Bool) (x : IPAddr) (hc : g.cache = some c)
    (h : c.lookup now (env.key x) = none) :
    (g.inIgnoreIPList env now x).1 = (decision env g x).map Prod.fst ∧
    (g.inIgnoreIPList env now x).2.cache = some (match decision env g x with
      | some (v, true) => (c.get now (env.key x)).2.set now (env.key x) v
      | _ => (c.get now (env.key x)).2) ∧
    { (g.inIgnoreIPList env now x).2 with cache := g.cache } = g := by
  have hg : c.get now (env.key x) = (none, (c.get now (env.key x)).2) := by
    rw [← Cache.get_fst] at h
    rw [← h]
  unfold inIgnoreIPList
  rw [hc]
  dsimp only
  rw [hg]
  dsimp only
  rw [decision_cache]
  rcases hd : decision env g x with _ | ⟨v, b⟩
  · exact ⟨rfl, rfl, by cases g; cases hc; rfl⟩
  · cases b
    · exact ⟨rfl, rfl, by cases g; cases hc; rfl⟩
    · exact ⟨rfl, rfl, by cases g; cases hc; rfl⟩

/-- the configuration is untouched by queries -/
theorem Ignore.in_cfg (env : IgnoreEnv) (now : Int) (g : Ignore) (x : IPAddr) :
    { (g.inIgnoreIPList env now x).2 with cache := g.cache } = g ∧
    ((g.inIgnoreIPList env now x).2.cache = none ↔ g.cache = none) := by
  cases hc : g.cache with
  | none => rw [in_nocache env now g x hc]; exact ⟨by cases g; cases hc; rfl, by simp [hc]⟩
  | some c =>
    cases hl : c.lookup now (env.key x) with
    | some v => rw [C34_hit env now g c x v hc hl]; exact ⟨by cases g; cases hc; rfl, by simp [hc]⟩
    | none =>
      obtain ⟨_, h2, h3⟩ := in_miss env now g c x hc hl
      rw [hc] at h3
      exact ⟨h3, by rw [h2]; simp⟩

/-- what is in the cache after a history of queries -/
theorem Ignore.cacheAfter_inv (n : Nat) (m : Int) (qs : List Query) (k : Str) (w : Bool × Int)
    (h : (cacheAfter (Cache.init n m) qs).cache.get? k = some w) :
    ∃ q ∈ qs, q.env.key q.ip = k ∧ w.2 = q.now + m ∧ (decision q.env q.cfg q.ip).map Prod.fst = some w.1 := by
  have gen : ∀ (qs : List Query) (c : Cache Str Bool) (P : Query → Prop), c.maxTime = m →
      (∀ k w, c.cache.get? k = some w →
        ∃ q, P q ∧ q.env.key q.ip = k ∧ w.2 = q.now + m ∧ (decision q.env q.cfg q.ip).map Prod.fst = some w.1) →
      ∀ k w, (cacheAfter c qs).cache.get? k = some w →
        ∃ q, (P q ∨ q ∈ qs) ∧ q.env.key q.ip = k ∧ w.2 = q.now + m ∧ (decision q.env q.cfg q.ip).map Prod.fst = some w.1 := by
    intro qs
    induction qs with
    | nil =>
      intro c P _ hP k w hw
      obtain ⟨q, h1, h2⟩ := hP k w hw
      exact ⟨q, .inl h1, h2⟩
    | cons q qs ih =>
      intro c P hm hP k w hw
      simp only [cacheAfter] at hw
      cases hl : c.lookup q.now (q.env.key q.ip) with
      | some v =>
        rw [C34_hit q.env q.now { q.cfg with cache := some c } c q.ip v rfl hl] at hw
        obtain ⟨q', h1, h2⟩ := ih c P hm hP k w hw
        rcases h1 with h1 | h1
        · exact ⟨q', .inl h1, h2⟩
        · exact ⟨q', .inr (List.mem_cons_of_mem _ h1), h2⟩
      | none =>
        rw [(in_miss q.env q.now { q.cfg with cache := some c } c q.ip rfl hl).2.1, decision_cache] at hw
        have hget : ∀ k w, (c.get q.now (q.env.key q.ip)).2.cache.get? k = some w → c.cache.get? k = some w := by
          intro k w hw
          rcases Cache.get_state c q.now (q.env.key q.ip) with h | h
          · rw [h] at hw; exact hw
          · rw [h.1] at hw
            simp only [Cache.unset] at hw
            rw [Dict.get?_erase] at hw
            split at hw
            · cases hw
            · exact hw
        have hmax : (c.get q.now (q.env.key q.ip)).2.maxTime = m := by
          rcases Cache.get_state c q.now (q.env.key q.ip) with h | h
          · rw [h]; exact hm
          · rw [h.1]; exact hm
        have key : ∀ c', c'.maxTime = m → (∀ k w, c'.cache.get? k = some w → c.cache.get? k = some w ∨
            (q.env.key q.ip = k ∧ w.2 = q.now + m ∧ (decision q.env q.cfg q.ip).map Prod.fst = some w.1)) →
            (cacheAfter c' qs).cache.get? k = some w →
            ∃ q', (P q' ∨ q' ∈ q :: qs) ∧ q'.env.key q'.ip = k ∧ w.2 = q'.now + m ∧
              (decision q'.env q'.cfg q'.ip).map Prod.fst = some w.1 := by
          intro c' hm' hc' hw'
          obtain ⟨q', h1, h2⟩ := ih c' (fun q' => P q' ∨ q' = q) hm' (by
            intro k w hkw
            rcases hc' k w hkw with h | h
            · obtain ⟨q', h1, h2⟩ := hP k w h
              exact ⟨q', .inl h1, h2⟩
            · exact ⟨q, .inr rfl, h⟩) k w hw'
          refine ⟨q', ?_, h2⟩
          rcases h1 with (h1 | h1) | h1
          · exact .inl h1
          · exact .inr (by rw [h1]; exact List.mem_cons_self)
          · exact .inr (List.mem_cons_of_mem _ h1)
        rcases hd : decision q.env q.cfg q.ip with _ | ⟨v, b⟩
        · rw [hd] at hw
          exact key _ hmax (fun k w h => .inl (hget k w h)) hw
        · rw [hd] at hw
          cases b
          · exact key _ hmax (fun k w h => .inl (hget k w h)) hw
          · dsimp only at hw
            refine key ((c.get q.now (q.env.key q.ip)).2.set q.now (q.env.key q.ip) v) hmax (fun k w h => ?_) hw
            rcases Cache.set_get _ _ _ _ _ _ h with ⟨h1, h2⟩ | ⟨_, h2⟩
            · right
              rw [h2, hmax, hd]
              exact ⟨h1.symm, rfl, rfl⟩
            · exact .inl (hget k w h2)
  obtain ⟨q, h1, h2⟩ := gen qs (Cache.init n m) (fun _ => False) rfl (fun k w h => (by cases h)) k w h
  rcases h1 with h1 | h1
  · exact absurd h1 id
  · exact ⟨q, h1, h2⟩

/-- **C34 (soundness).** With a cache, whatever configuration and world each query saw: the answer to a query is the one the lists and the command give now,
or the one they gave in an earlier query with the same key, less than `max-time` ago. -/
theorem C34_sound (n : Nat) (m : Int) (qs : List Query) (q : Query) (v : Bool)
    (h : (({ q.cfg with cache := some (cacheAfter (Cache.init n m) qs) } : Ignore).inIgnoreIPList q.env q.now q.ip).1 = some v) :
    (({ q.cfg with cache := none } : Ignore).inIgnoreIPList q.env q.now q.ip).1 = some v ∨
    ∃ q' ∈ qs, q'.env.key q'.ip = q.env.key q.ip ∧ q.now < q'.now + m ∧
      (({ q'.cfg with cache := none } : Ignore).inIgnoreIPList q'.env q'.now q'.ip).1 = some v := by
  have hnc : ∀ q : Query, (({ q.cfg with cache := none } : Ignore).inIgnoreIPList q.env q.now q.ip).1 =
      (decision q.env q.cfg q.ip).map Prod.fst := by
    intro q; rw [in_nocache _ _ _ _ rfl]; rfl
  rw [hnc]
  cases hl : (cacheAfter (Cache.init n m) qs).lookup q.now (q.env.key q.ip) with
  | none =>
    left
    rw [(in_miss _ _ _ _ _ rfl hl).1, decision_cache] at h
    exact h
  | some u =>
    right
    rw [C34_hit _ _ _ _ _ u rfl hl] at h
    have hu : u = v := by simpa using h
    subst hu
    unfold Cache.lookup at hl
    cases hk : (cacheAfter (Cache.init n m) qs).cache.get? (q.env.key q.ip) with
    | none => rw [hk] at hl; cases hl
    | some w =>
      rw [hk] at hl
      dsimp only at hl
      by_cases hw : q.now < w.2
      · rw [if_pos hw] at hl
        obtain ⟨q', h1, h2, h3, h4⟩ := cacheAfter_inv n m qs _ w hk
        refine ⟨q', h1, h2, by rw [← h3]; exact hw, ?_⟩
        rw [hnc, h4]; exact hl
      · rw [if_neg hw] at hl; cases hl

/-- **C34 (transparency).** If neither the configuration nor the world changed, and the key tells apart addresses with different answers, the cache
is invisible. -/
theorem C34_transparent (n : Nat) (m : Int) (g : Ignore) (env : IgnoreEnv) (qs : List (Int × IPAddr)) (now : Int) (x : IPAddr)
    (hkey : ∀ y z, env.key y = env.key z →
      (({ g with cache := none } : Ignore).inIgnoreIPList env now y).1 = (({ g with cache := none } : Ignore).inIgnoreIPList env now z).1) :
    (({ g with cache := some (cacheAfter (Cache.init n m) (qs.map (fun q => ⟨q.1, env, g, q.2⟩))) } : Ignore).inIgnoreIPList
      env now x).1 = (({ g with cache := none } : Ignore).inIgnoreIPList env now x).1 := by
  have hnc : ∀ t y, (({ g with cache := none } : Ignore).inIgnoreIPList env t y).1 = (decision env g y).map Prod.fst := by
    intro t y; rw [in_nocache _ _ _ _ rfl]; rfl
  cases h : (({ g with cache := some (cacheAfter (Cache.init n m) (qs.map (fun q => ⟨q.1, env, g, q.2⟩))) } : Ignore).inIgnoreIPList
      env now x).1 with
  | none =>
    cases hl : (cacheAfter (Cache.init n m) (qs.map (fun q => (⟨q.1, env, g, q.2⟩ : Query)))).lookup now (env.key x) with
    | some u => rw [C34_hit _ _ _ _ _ u rfl hl] at h; cases h
    | none =>
      rw [(in_miss _ _ _ _ _ rfl hl).1, decision_cache] at h
      rw [hnc]; exact h.symm
  | some v =>
    rcases C34_sound n m _ ⟨now, env, g, x⟩ v h with h1 | ⟨q', h1, h2, _, h4⟩
    · exact h1.symm
    · obtain ⟨⟨t, y⟩, _, rfl⟩ := List.mem_map.1 h1
      dsimp only at h2 h4
      rw [hnc] at h4
      rw [hkey x y h2.symm, hnc]
      exact h4.symm

/-- **C34 (the command is not asked again).** Directly after an answer that did not come from the plain address list, a query with the same key
before the time is over gets the same answer, whatever the lists and the command say then. -/
theorem C34_reuse (env env' : IgnoreEnv) (now now' : Int) (g g' : Ignore) (c : Cache Str Bool) (x y : IPAddr) (v : Bool)
    (hc : g.cache = some c) (h : (g.inIgnoreIPList env now x).1 = some v) (hn : inSet env.lib g.ipSet x = false)
    (hself : c.lookup now (env.key x) = none) (hk : env'.key y = env.key x) (ht : now' < now + c.maxTime)
    (hg' : g'.cache = (g.inIgnoreIPList env now x).2.cache) : (g'.inIgnoreIPList env' now' y).1 = some v := by
  obtain ⟨h1, h2, _⟩ := in_miss env now g c x hc hself
  rw [h1] at h
  have hd : decision env g x = some (v, true) := by
    rcases hd : decision env g x with _ | ⟨u, b⟩
    · rw [hd] at h; cases h
    · rw [hd] at h
      have hu : u = v := by simpa using h
      cases b
      · exfalso
        unfold decision at hd
        rw [hn] at hd
        split at hd
        · cases hd
        · simp only [Bool.false_eq_true, if_false] at hd
          split at hd
          · cases hd
          · split at hd
            · split at hd
              · cases hd
              · cases hd
            · cases hd
      · rw [hu]
  rw [hd] at h2
  dsimp only at h2
  have hmax : (c.get now (env.key x)).2.maxTime = c.maxTime := by
    rcases Cache.get_state c now (env.key x) with h | h
    · rw [h]
    · rw [h.1]; rfl
  have hl : ((c.get now (env.key x)).2.set now (env.key x) v).lookup now' (env'.key y) = some v := by
    unfold Cache.lookup Cache.set
    dsimp only
    rw [Dict.get?_insert, if_pos hk, hmax]
    dsimp only
    rw [if_pos ht]
  rw [C34_hit env' now' g' _ y v (by rw [hg', h2]) hl]

/-! ## Changing the list -/

/-- Invariant of the two containers: the set holds single addresses, the list networks and names. -/
def Ignore.WF (g : Ignore) : Prop :=
  (∀ y ∈ g.ipSet, y.isSingle = true) ∧ (∀ n, IgnItem.net n ∈ g.ipList → n.isSingle = false)

theorem Ignore.eq_single (x y : IPAddr) (h : x.eq y = true) : x.isSingle = y.isSingle := by
  unfold IPAddr.eq at h
  by_cases hf : x.family = y.family
  · rw [if_neg (by simp [hf])] at h
    cases hx : x.family with
    | unspec => simp [isSingle, hx, ← hf]
    | raw => simp [isSingle, hx, ← hf]
    | inet =>
      rw [if_neg (by simp [hx])] at h
      simp only [Bool.and_eq_true, decide_eq_true_eq] at h
      simp [isSingle, hx, ← hf, h.2]
    | inet6 =>
      rw [if_neg (by simp [hx])] at h
      simp only [Bool.and_eq_true, decide_eq_true_eq] at h
      simp [isSingle, hx, ← hf, h.2]
  · rw [if_pos hf] at h; cases h

theorem Ignore.eq_isInNet (resolve : Str → List IPAddr) (x n m : IPAddr) (hn : n.eq m = true) :
    x.isInNet resolve n = x.isInNet resolve m := by
  unfold IPAddr.eq at hn
  by_cases hf : n.family = m.family
  · rw [if_neg (by simp [hf])] at hn
    by_cases hu : n.family = .unspec
    · rw [if_pos hu] at hn
      have hr : n.raw = m.raw := by simpa using hn
      have hv : n.isValid = m.isValid := by simp [isValid, hf]
      have hmu : m.family = .unspec := by rw [← hf, hu]
      unfold isInNet
      rw [hv, hr, hf]
      by_cases hc : m.isValid = false ∧ m.raw ≠ []
      · rw [if_pos hc, if_pos hc]
      · rw [if_neg hc, if_neg hc]
        by_cases hx : x.family ≠ m.family
        · rw [if_pos hx, if_pos hx]
        · rw [if_neg hx, if_neg hx]
          have : x.family = .unspec := by
            rw [hmu] at hx; simpa using hx
          rw [this]
    · rw [if_neg hu] at hn
      simp only [Bool.and_eq_true, decide_eq_true_eq] at hn
      have hv : n.isValid = true := by simp [isValid, hu]
      have hv' : m.isValid = true := by simp [isValid, ← hf, hu]
      unfold isInNet
      have e1 : ¬ (n.isValid = false ∧ n.raw ≠ []) := by simp [hv]
      have e2 : ¬ (m.isValid = false ∧ m.raw ≠ []) := by simp [hv']
      rw [if_neg e1, if_neg e2, hf, hn.1, hn.2]
  · rw [if_pos hf] at hn; cases hn

theorem Ignore.inList_true (x : IPAddr) (l : List IgnItem) (h : inList x l = some true) : ∃ n, IgnItem.net n ∈ l ∧ n.eq x = true := by
  induction l with
  | nil => cases h
  | cons i l ih =>
    cases i with
    | net n =>
      simp only [inList] at h
      by_cases hn : n.eq x = true
      · exact ⟨n, List.mem_cons_self, hn⟩
      · rw [if_neg hn] at h
        obtain ⟨m, h1, h2⟩ := ih h
        exact ⟨m, List.mem_cons_of_mem _ h1, h2⟩
    | file f => cases h

theorem Ignore.new_not_raw (lib : NetLib) (s : Str) (ip : IPAddr) (h : IPAddr.new lib s = some ip) : ip.family ≠ .raw := by
  unfold IPAddr.new at h
  dsimp only at h
  cases hw : wrapIpstr lib s with
  | none => rw [hw] at h; cases h
  | some p =>
    obtain ⟨t, c⟩ := p
    rw [hw] at h
    have hip : init lib t c = ip := by simpa using h
    have hc : c ≠ .raw := by
      unfold wrapIpstr at hw
      dsimp only at hw
      generalize (if 2 < s.length ∧ s.head? = some '[' ∧ s.getLast? = some ']' then s.tail.dropLast else s) = q at hw
      cases hs : splitSlash (dropNl q) with
      | none => rw [hs] at hw; cases hw; intro h; cases h
      | some ab =>
        obtain ⟨a, b⟩ := ab
        rw [hs] at hw
        dsimp only at hw
        split at hw
        · cases hw; intro h; cases h
        · split at hw
          · cases hw; intro h; cases h
          · split at hw
            · split at hw
              · cases hw; intro h; cases h
              · cases hw
            · cases hw; intro h; cases h
    rw [← hip]
    unfold init
    cases c with
    | raw => exact absurd rfl hc
    | unspec =>
      dsimp only
      split
      · simp [init4]
      · split
        · simp only [init6]; split <;> simp
        · simp
    | fam v =>
      dsimp only
      split
      · simp [init4]
      · split
        · simp only [init6]; split <;> simp
        · simp
    | len n =>
      dsimp only
      split
      · simp [init4]
      · split
        · simp [init6]
        · simp

/-- **C33 (adding).** Adding the text of an address, network or name has, if it succeeds, exactly the effect that the addresses equal to it, in the network
or of that name are ignored in addition (nothing changes if it was there already); the containers stay well-formed. -/
theorem C33_add (env : IgnoreEnv) (g g' : Ignore) (s : Str) (ip : IPAddr) (hw : g.WF) (h0 : s ≠ []) (hf : fileName s = none)
    (hip : IPAddr.new env.lib s = some ip) (h : addIgnoreIP env.lib g s = some g') :
    g'.WF ∧ g'.ignoreSelf = g.ignoreSelf ∧ g'.command = g.command ∧ g'.cache = g.cache ∧
    (∀ x : IPAddr, x.family ≠ .raw → (Listed env g' x ↔ Listed env g x ∨
      (if ip.isSingle = true then x.eq ip = true else x.isInNet env.resolve ip = true))) := by
  have hnr := new_not_raw env.lib s ip hip
  unfold addIgnoreIP at h
  rw [if_neg h0, hf] at h
  dsimp only at h
  rw [hip] at h
  dsimp only at h
  have heqt : ∀ x : IPAddr, x.family ≠ .raw → x.eq ip = true → x.ntoa env.lib = ip.ntoa env.lib :=
    fun x hx he => (C31_equality env.lib).2.2.2 x ip hx he
  by_cases hs : inSet env.lib g.ipSet ip = true
  · rw [if_pos hs] at h
    cases h
    refine ⟨hw, rfl, rfl, rfl, ?_⟩
    intro x hx
    refine ⟨.inl, ?_⟩
    rintro (h | h)
    · exact h
    · unfold inSet at hs
      rw [List.any_eq_true] at hs
      obtain ⟨y, hy, hxy⟩ := hs
      simp only [Bool.and_eq_true, decide_eq_true_eq] at hxy
      have hsing : ip.isSingle = true := by rw [eq_single _ _ hxy.2]; exact hw.1 y hy
      rw [if_pos hsing] at h
      refine .inr (.inl ⟨y, hy, ?_, ?_⟩)
      · exact (C31_equality env.lib).2.2.1 x ip y h hxy.2
      · rw [heqt x hx h, hxy.1]
  · rw [if_neg hs] at h
    cases hl : inList ip g.ipList with
    | none => rw [hl] at h; cases h
    | some b =>
      rw [hl] at h
      cases b with
      | true =>
        cases h
        refine ⟨hw, rfl, rfl, rfl, ?_⟩
        intro x hx
        refine ⟨.inl, ?_⟩
        rintro (h | h)
        · exact h
        · obtain ⟨n, h1, h2⟩ := inList_true ip g.ipList hl
          have hns : ip.isSingle = false := by rw [← eq_single _ _ h2]; exact hw.2 n h1
          rw [if_neg (by simp [hns])] at h
          refine .inr (.inr (.inl ⟨n, h1, ?_⟩))
          rw [eq_isInNet env.resolve x n ip h2]; exact h
      | false =>
        dsimp only at h
        by_cases hsing : ip.isSingle = true
        · rw [if_pos hsing] at h
          cases h
          refine ⟨⟨?_, hw.2⟩, rfl, rfl, rfl, ?_⟩
          · intro y hy
            rcases List.mem_append.1 hy with hy | hy
            · exact hw.1 y hy
            · rw [List.mem_singleton] at hy; rw [hy]; exact hsing
          · intro x hx
            rw [if_pos hsing]
            constructor
            · rintro (h | ⟨y, hy, h1, h2⟩ | h)
              · exact .inl (.inl h)
              · rcases List.mem_append.1 hy with hy | hy
                · exact .inl (.inr (.inl ⟨y, hy, h1, h2⟩))
                · rw [List.mem_singleton] at hy
                  rw [hy] at h1; exact .inr h1
              · exact .inl (.inr (.inr h))
            · rintro ((h | ⟨y, hy, h1⟩ | h) | h)
              · exact .inl h
              · exact .inr (.inl ⟨y, List.mem_append_left _ hy, h1⟩)
              · exact .inr (.inr h)
              · exact .inr (.inl ⟨ip, by simp, h, heqt x hx h⟩)
        · rw [if_neg hsing] at h
          cases h
          refine ⟨⟨hw.1, ?_⟩, rfl, rfl, rfl, ?_⟩
          · intro n hn
            rcases List.mem_append.1 hn with hn | hn
            · exact hw.2 n hn
            · rw [List.mem_singleton] at hn; cases hn; simpa using hsing
          · intro x hx
            rw [if_neg hsing]
            constructor
            · rintro (h | h | ⟨n, hn, h⟩ | ⟨f, hf, h⟩)
              · exact .inl (.inl h)
              · exact .inl (.inr (.inl h))
              · rcases List.mem_append.1 hn with hn | hn
                · exact .inl (.inr (.inr (.inl ⟨n, hn, h⟩)))
                · rw [List.mem_singleton] at hn; cases hn; exact .inr h
              · rcases List.mem_append.1 hf with hf | hf
                · exact .inl (.inr (.inr (.inr ⟨f, hf, h⟩)))
                · rw [List.mem_singleton] at hf; cases hf
            · rintro ((h | h | ⟨n, hn, h⟩ | ⟨f, hf, h⟩) | h)
              · exact .inl h
              · exact .inr (.inl h)
              · exact .inr (.inr (.inl ⟨n, List.mem_append_left _ hn, h⟩))
              · exact .inr (.inr (.inr ⟨f, List.mem_append_left _ hf, h⟩))
              · exact .inr (.inr (.inl ⟨ip, by simp, h⟩))

/-- **C33 (adding a file).** A `file:` entry makes the addresses in the file ignored, nothing else changes. -/
theorem C33_add_file (env : IgnoreEnv) (g : Ignore) (s f : Str) (h0 : s ≠ []) (hf : fileName s = some f) :
    ∃ g', addIgnoreIP env.lib g s = some g' ∧ ∀ x, Listed env g' x ↔ Listed env g x ∨ (env.file f).mem env.lib env.resolve x = true := by
  refine ⟨{ g with ipList := g.ipList ++ [.file f] }, ?_, ?_⟩
  · unfold addIgnoreIP; rw [if_neg h0, hf]
  · intro x
    constructor
    · rintro (h | h | ⟨n, hn, h⟩ | ⟨f', hf', h⟩)
      · exact .inl (.inl h)
      · exact .inl (.inr (.inl h))
      · rcases List.mem_append.1 hn with hn | hn
        · exact .inl (.inr (.inr (.inl ⟨n, hn, h⟩)))
        · rw [List.mem_singleton] at hn; cases hn
      · rcases List.mem_append.1 hf' with hf' | hf'
        · exact .inl (.inr (.inr (.inr ⟨f', hf', h⟩)))
        · rw [List.mem_singleton] at hf'; cases hf'; exact .inr h
    · rintro ((h | h | ⟨n, hn, h⟩ | ⟨f', hf', h⟩) | h)
      · exact .inl h
      · exact .inr (.inl h)
      · exact .inr (.inr (.inl ⟨n, List.mem_append_left _ hn, h⟩))
      · exact .inr (.inr (.inr ⟨f', List.mem_append_left _ hf', h⟩))
      · exact .inr (.inr (.inr ⟨f, by simp, h⟩))

/-- **C33 (adding, refuted).** Once the list starts with a file entry, no further address that is not in the set of addresses can be added. -/
theorem C33_refuted_add_after_file (lib : NetLib) (g : Ignore) (f s : Str) (rest : List IgnItem) (ip : IPAddr) (h0 : s ≠ [])
    (hf : fileName s = none) (hip : IPAddr.new lib s = some ip) (hs : inSet lib g.ipSet ip = false) (hg : g.ipList = .file f :: rest) :
    addIgnoreIP lib g s = none := by
  unfold addIgnoreIP
  rw [if_neg h0, hf]
  dsimp only
  rw [hip]
  dsimp only
  rw [hs, hg]
  rfl

theorem Ignore.removeItem_some (lib : NetLib) (s : Str) (l l' : List IgnItem) (h : removeItem lib s l = some l') :
    ∃ a i b, l = a ++ i :: b ∧ l' = a ++ b ∧ itemEqStr lib s i = some true ∧ ∀ j ∈ a, itemEqStr lib s j = some false := by
  induction l generalizing l' with
  | nil => cases h
  | cons i l ih =>
    simp only [removeItem] at h
    cases he : itemEqStr lib s i with
    | none => rw [he] at h; cases h
    | some b =>
      rw [he] at h
      cases b with
      | true => cases h; exact ⟨[], i, l, rfl, rfl, he, fun j hj => (by cases hj)⟩
      | false =>
        dsimp only at h
        cases hr : removeItem lib s l with
        | none => rw [hr] at h; cases h
        | some r =>
          rw [hr] at h
          have h' : i :: r = l' := by simpa using h
          obtain ⟨a, j, b, h1, h2, h3, h4⟩ := ih r hr
          refine ⟨i :: a, j, b, by rw [h1]; rfl, by rw [← h', h2]; rfl, h3, ?_⟩
          intro k hk
          rcases List.mem_cons.1 hk with rfl | hk
          · exact he
          · exact h4 k hk

/-- **C33 (removing).** Removing a text either removes exactly the address in the set with this text, or exactly the first equal entry of the list of
networks, names and files; nothing else changes. -/
theorem C33_del (lib : NetLib) (g g' : Ignore) (s : Str) (h : delIgnoreIP lib g s = some g') :
    g'.ignoreSelf = g.ignoreSelf ∧ g'.command = g.command ∧ g'.cache = g.cache ∧
    ((∃ y, IPAddr.new lib s = some y ∧ g'.ipList = g.ipList ∧ (∃ x ∈ g.ipSet, x.ntoa lib = s ∧ x.eq y = true) ∧
        ∀ x, x ∈ g'.ipSet ↔ x ∈ g.ipSet ∧ ¬ (x.ntoa lib = s ∧ x.eq y = true)) ∨
     (g'.ipSet = g.ipSet ∧ ∃ a i b, g.ipList = a ++ i :: b ∧ g'.ipList = a ++ b ∧
        (∀ n, i = .net n → ∃ y, IPAddr.new lib s = some y ∧ n.eq y = true) ∧ (∀ f, i = .file f → fileName s = some f))) := by
  have hlist : ∀ r, removeItem lib s g.ipList = some r → ∃ a i b, g.ipList = a ++ i :: b ∧ r = a ++ b ∧
        (∀ n, i = .net n → ∃ y, IPAddr.new lib s = some y ∧ n.eq y = true) ∧ (∀ f, i = .file f → fileName s = some f) := by
    intro r hr
    obtain ⟨a, i, b, h1, h2, h3, _⟩ := removeItem_some lib s _ _ hr
    refine ⟨a, i, b, h1, h2, ?_, ?_⟩
    · intro n hn
      rw [hn] at h3
      simp only [itemEqStr] at h3
      cases hy : IPAddr.new lib s with
      | none => rw [hy] at h3; cases h3
      | some y => rw [hy] at h3; exact ⟨y, rfl, by simpa using h3⟩
    · intro f hf
      rw [hf] at h3
      simp only [itemEqStr] at h3
      cases hy : fileName s with
      | none => rw [hy] at h3; cases h3
      | some f' =>
        rw [hy] at h3
        have : f = f' := by simpa using h3
        rw [this]
  unfold delIgnoreIP at h
  by_cases hf : (fileName s).isSome = true
  · rw [if_pos hf] at h
    cases hr : removeItem lib s g.ipList with
    | none => rw [hr] at h; cases h
    | some r =>
      rw [hr] at h
      cases h
      exact ⟨rfl, rfl, rfl, .inr ⟨rfl, hlist r hr⟩⟩
  · rw [if_neg hf] at h
    cases hy : IPAddr.new lib s with
    | none => rw [hy] at h; cases h
    | some y =>
      rw [hy] at h
      dsimp only at h
      by_cases hs : (g.ipSet.any (fun x => decide (x.ntoa lib = s) && x.eq y)) = true
      · rw [if_pos hs] at h
        cases h
        refine ⟨rfl, rfl, rfl, .inl ⟨y, rfl, rfl, ?_, ?_⟩⟩
        · obtain ⟨x, h1, h2⟩ := List.any_eq_true.1 hs
          simp only [Bool.and_eq_true, decide_eq_true_eq] at h2
          exact ⟨x, h1, h2⟩
        · intro x
          simp only [List.mem_filter, Bool.not_eq_true', Bool.and_eq_false_iff, decide_eq_false_iff_not, not_and, Bool.not_eq_true]
          refine ⟨fun h => ⟨h.1, fun h1 => ?_⟩, fun h => ⟨h.1, ?_⟩⟩
          · rcases h.2 with h2 | h2
            · exact absurd h1 h2
            · exact h2
          · by_cases h1 : x.ntoa lib = s
            · exact .inr (h.2 h1)
            · exact .inl h1
      · rw [if_neg hs] at h
        cases hr : removeItem lib s g.ipList with
        | none => rw [hr] at h; cases h
        | some r =>
          rw [hr] at h
          cases h
          exact ⟨rfl, rfl, rfl, .inr ⟨rfl, by rw [← hy]; exact hlist r hr⟩⟩

/-- **C33 (clearing).** After clearing nothing is listed but the own addresses. -/
theorem C33_clear (env : IgnoreEnv) (g : Ignore) (x : IPAddr) :
    Listed env g.clearIgnoreIP x ↔ g.ignoreSelf = true ∧ env.selfIPs.mem env.lib env.resolve x = true := by
  simp [Listed, clearIgnoreIP]

/-- **C34 (not stored).** An own-address, network, file or command decision is stored in the cache; that an address is in the address set is not. -/
theorem C34_stored (env : IgnoreEnv) (now : Int) (g : Ignore) (c : Cache Str Bool) (x : IPAddr) (hc : g.cache = some c)
    (hl : c.lookup now (env.key x) = none) (hself : ¬ (g.ignoreSelf = true ∧ env.selfIPs.mem env.lib env.resolve x = true)) :
    ((∃ y ∈ g.ipSet, x.eq y = true ∧ x.ntoa env.lib = y.ntoa env.lib) →
      (g.inIgnoreIPList env now x).2.cache = some (c.get now (env.key x)).2) ∧
    ((¬ ∃ y ∈ g.ipSet, x.eq y = true ∧ x.ntoa env.lib = y.ntoa env.lib) → ∀ v, (g.inIgnoreIPList env now x).1 = some v →
      (g.inIgnoreIPList env now x).2.cache = some ((c.get now (env.key x)).2.set now (env.key x) v)) := by
  have hs : Ignore.inSet env.lib g.ipSet x = true ↔ ∃ y ∈ g.ipSet, x.eq y = true ∧ x.ntoa env.lib = y.ntoa env.lib := by
    unfold Ignore.inSet
    rw [List.any_eq_true]
    constructor
    · rintro ⟨y, h1, h2⟩
      rw [Bool.and_eq_true, decide_eq_true_eq] at h2
      exact ⟨y, h1, h2.2, h2.1⟩
    · rintro ⟨y, h1, h2, h3⟩
      exact ⟨y, h1, by rw [Bool.and_eq_true, decide_eq_true_eq]; exact ⟨h3, h2⟩⟩
  have hself' : ¬ (g.ignoreSelf && env.selfIPs.mem env.lib env.resolve x) = true := by
    rw [Bool.and_eq_true]; exact hself
  have hget : (c.get now (env.key x)).1 = none := by rw [← hl]; exact Cache.get_fst c now (env.key x)
  have hdec : ∀ c', Ignore.decision env { g with cache := c' } x = Ignore.decision env g x := fun c' => rfl
  unfold Ignore.inIgnoreIPList
  rw [hc]
  dsimp only
  rw [hget]
  dsimp only
  rw [hdec]
  constructor
  · intro h
    have : Ignore.decision env g x = some (true, false) := by
      unfold Ignore.decision
      rw [if_neg hself', if_pos (hs.2 h)]
    rw [this]
  · intro h v
    unfold Ignore.decision
    rw [if_neg hself', if_neg (fun h' => h (hs.1 h'))]
    split
    · rename_i w heq
      intro h1
      cases h1
      rfl
    · rename_i w heq
      split at heq
      · cases heq
      · split at heq
        · split at heq <;> cases heq
        · cases heq
    · intro h1; cases h1

/-- **C33 (empty entry).** An empty entry is skipped. -/
theorem C33_add_empty (lib : NetLib) (g : Ignore) : Ignore.addIgnoreIP lib g [] = some g := rfl

/-! ### examples -/

namespace Ignore.Ex

/-- a world: own address 1.1.1.1, the name "h" is 2.2.2.2, the command accepts 3.3.3.3 and cannot be executed for 4.4.4.4 -/
def env : IgnoreEnv where
  lib := Sample.lib
  selfIPs := IPAddrSet.ofList [ip4 0x01010101]
  resolve := fun s => if s = ['h'] then [ip4 0x02020202] else []
  file := fun f => if f = "/x".toList then IPAddrSet.ofList [net4 0x0A000000 8] else IPAddrSet.ofList []
  command := fun x => if x.addr = 0x03030303 then some 0 else if x.addr = 0x04040404 then none else some 1
  key := fun x => x.ntoa Sample.lib

/-- configuration: 5.5.5.5, 192.168.0.0/16, h, file:/x -/
def cfg : Ignore where
  command := true
  ipSet := [⟨.inet, 0x05050505, 32, "5.5.5.5".toList⟩]
  ipList := [.net ⟨.inet, 0xC0A80000, 16, "192.168.0.0".toList⟩, .net ⟨.unspec, 0, 0, ['h']⟩, .file "/x".toList]

end Ignore.Ex

open Ignore.Ex in
example : (["5.5.5.5", "192.168.0.0/16", "h", "file:///x"].foldlM (fun (g : Ignore) s => addIgnoreIP Sample.lib g s.toList)
      { command := true }).map (fun g => (g.ipSet, g.ipList)) = some (cfg.ipSet, cfg.ipList) ∧
    [0x01010101, 0x02020202, 0x03030303, 0x04040404, 0x05050505, 0xC0A80102, 0x0A010203, 0x06060606].map
      (fun a => (cfg.inIgnoreIPList env 0 (ip4 a)).1) =
      [some true, some true, some true, none, some true, some true, some true, some false] ∧
    (addIgnoreIP Sample.lib cfg "5.5.5.5".toList).isSome = true ∧ (addIgnoreIP Sample.lib cfg "7.7.7.7".toList).isNone = true := by
  decide +kernel

example : Ignore.Ex.cfg.WF := by
  refine ⟨by decide +kernel, fun n hn => ?_⟩
  simp only [Ignore.Ex.cfg, List.mem_cons, IgnItem.net.injEq, reduceCtorEq, List.not_mem_nil, or_false] at hn
  rcases hn with rfl | rfl <;> rfl

open Ignore.Ex in
example : let c := cacheAfter (Cache.init 10 60) [⟨0, env, { command := true }, ip4 0x03030303⟩]
    (({ cache := some c } : Ignore).inIgnoreIPList env 59 (ip4 0x03030303)).1 = some true ∧
    (({ cache := some c } : Ignore).inIgnoreIPList env 60 (ip4 0x03030303)).1 = some false := by
  decide +kernel

open Ignore.Ex in
example : (delIgnoreIP Sample.lib cfg "5.5.5.5".toList).map (fun g => (g.ipSet.length, g.ipList.length)) = some (0, 3) ∧
    (delIgnoreIP Sample.lib cfg "192.168.0.0/16".toList).map (fun g => (g.ipSet.length, g.ipList.length)) = some (1, 2) ∧
    (delIgnoreIP Sample.lib cfg "file:/x".toList).isNone = true ∧
    (delIgnoreIP Sample.lib cfg "file:///x".toList).map (fun g => (g.ipSet.length, g.ipList.length)) = some (1, 2) := by
  decide +kernel

end Verif
