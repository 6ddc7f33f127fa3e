import Verif.Props.Actions

/-! # Reload of the actions of a jail (C47) -/

namespace Verif

open Actions Spec.Act Spec.Ban

theorem flushLoop_names (env : Env) (l : List (String × Action)) (left : List String) (s : Actions) :
    ∃ fl, (flushLoop env l left s).2.2.trace = s.trace ++ fl ∧
      ∀ c ∈ fl, ∃ k ∈ l.map Prod.fst, c = Call.flush k ∨ c = Call.check k := by
  induction l generalizing left s with
  | nil => exact ⟨[], by simp [flushLoop], by simp⟩
  | cons kv l ih =>
    obtain ⟨n, a⟩ := kv
    have wk : ∀ left s1 pre, s1.trace = s.trace ++ pre → (∀ c ∈ pre, c = Call.flush n ∨ c = Call.check n) →
        ∃ fl, (flushLoop env l left s1).2.2.trace = s.trace ++ fl ∧
          ∀ c ∈ fl, ∃ k ∈ ((n, a) :: l).map Prod.fst, c = Call.flush k ∨ c = Call.check k := by
      intro left s1 pre h1 h2
      obtain ⟨fl, e1, e2⟩ := ih left s1
      refine ⟨pre ++ fl, by rw [e1, h1, List.append_assoc], ?_⟩
      intro c hc
      rcases List.mem_append.1 hc with hc | hc
      · exact ⟨n, by simp, h2 c hc⟩
      · obtain ⟨k, hk, e⟩ := e2 c hc
        exact ⟨k, by rw [List.map_cons]; exact List.mem_cons_of_mem _ hk, e⟩
    simp only [flushLoop]
    have ht1 := call_trace env s n (.flush n)
    split
    · split
      · have ht2 := call_trace env (s.call env n (.flush n)).2 n (.check n)
        rw [ht1] at ht2
        split
        · split
          · exact ⟨[.flush n, .check n], by rw [ht2]; simp, by simp⟩
          · exact wk _ _ [.flush n, .check n] (by rw [ht2]; simp) (by simp)
        · exact wk _ _ [.flush n] ht1 (by simp)
      · split
        · exact wk _ _ [.flush n] ht1 (by simp)
        · exact wk _ _ [.flush n] ht1 (by simp)
    · exact wk _ _ [] (by simp) (by simp)

/-- **C47 (cleanup).** Removing some actions only: the ban list and the configuration stay, each of these actions that
supports it gets one flush, and those left (cannot flush, flush returned false, or flush raised an exception and there is no
consistency check) get one unban per banned address. No other action gets a call. -/
theorem C47_flush_some (env : Env) (s : Actions) (acts : List (String × Action)) (hnd : (acts.map Prod.fst).Nodup) (n : Nat)
    (s' : Actions) (h : s.flushBan env false (some acts) = (n, false, s')) :
    s'.bm = s.bm ∧ config s' = config s ∧
    ∃ fl left, s'.trace = s.trace ++ fl ++ unbanCalls left (s.bm.banList.values.map Ticket.id) ∧
      (∀ c ∈ fl, ∃ k ∈ acts.map Prod.fst, c = Call.flush k ∨ c = Call.check k) ∧
      fl.filter isFlush = (acts.filter (fun kv => kv.2.canFlush)).map (fun kv => Call.flush kv.1) ∧
      left.Sublist (acts.map Prod.fst) ∧
      ∀ kv ∈ acts, (kv.1 ∈ left ↔ (kv.2.canFlush = false ∨
        ∃ p q, fl = p ++ Call.flush kv.1 :: q ∧
          (((env (s.trace ++ p ++ [Call.flush kv.1])).raised = true ∧ kv.2.canCheck = false) ∨
           ((env (s.trace ++ p ++ [Call.flush kv.1])).raised = false ∧
            (env (s.trace ++ p ++ [Call.flush kv.1])).ret = false)))) := by
  unfold flushBan at h
  dsimp only at h
  obtain ⟨hs, fl, htr, hall, hrest⟩ := flushLoop_spec env acts hnd [] s
  obtain ⟨fl', htr', hnames⟩ := flushLoop_names env acts [] s
  have hee : fl' = fl := by rw [htr] at htr'; exact (List.append_cancel_left htr').symm
  subst hee
  simp only [Option.getD_some] at h
  generalize flushLoop env acts [] s = r at *
  obtain ⟨left, b, s1⟩ := r
  cases b with
  | true => simp at h
  | false =>
    obtain ⟨hf, add, hadd, hsub, hiff⟩ := hrest rfl
    simp only [List.nil_append] at hadd
    subst hadd
    simp only [Prod.mk.injEq, true_and, Bool.false_and, Bool.false_eq_true, if_false] at h
    obtain ⟨_, hs'⟩ := h
    dsimp only at hs htr
    obtain ⟨k1, k2⟩ := unbanTickets_spec env (some left) s.bm.banList.values s1
    rw [hs'] at k1 k2
    refine ⟨by rw [k2.bm, hs.bm], by rw [k2.config, hs.config], fl', left, ?_, hnames, hf, hsub, hiff⟩
    rw [k1, htr]; rfl

theorem reloadLoop_spec (env : Env) (names : List String) (s s' : Actions) (h : reloadLoop env names s = (false, s')) :
    Same s s' ∧ s'.trace = s.trace ++ (names.filter (fun k => decide (k ∈ s.actions.keys))).map Call.reload := by
  induction names generalizing s with
  | nil => simp only [reloadLoop, Prod.mk.injEq, true_and] at h; subst h; exact ⟨Same.refl s, by simp⟩
  | cons k names ih =>
    simp only [reloadLoop] at h
    by_cases hc : s.actions.contains k = true
    · rw [if_pos hc] at h
      have hk := (Dict.contains_iff _ _).1 hc
      have hs1 := call_same env s k (.reload k)
      have ht1 := call_trace env s k (.reload k)
      generalize s.call env k (.reload k) = q at *
      obtain ⟨o, s1⟩ := q
      dsimp only at h hs1 ht1
      split at h
      · simp at h
      · obtain ⟨i1, i2⟩ := ih s1 h
        refine ⟨hs1.trans i1, ?_⟩
        rw [i2, ht1, hs1.keys, List.filter_cons_of_pos (by simpa using hk)]
        simp
    · rw [if_neg hc] at h
      have hk : k ∉ s.actions.keys := fun hm => hc ((Dict.contains_iff _ _).2 hm)
      obtain ⟨i1, i2⟩ := ih s h
      exact ⟨i1, by rw [i2, List.filter_cons_of_neg (by simpa using hk)]⟩

/-- **C47.** The end of a reload without an exception: each action recorded for the reload is reloaded once; exactly the
actions recorded stay, in their order; the ban list does not change; every other action first gets its bans removed (as in
C47_flush_some, for all addresses of the ban list) and then its stop, in reverse order; and only these get such calls. -/
theorem C47_reload_end (env : Env) (s s' : Actions) (names : List String) (hr : s.reloading = some names)
    (h : s.reloadEnd env = (false, s')) :
    let gone := s.actions.keys.filter (fun k => decide (k ∉ names))
    s'.actions.keys = s.actions.keys.filter (fun k => decide (k ∈ names)) ∧ s'.bm = s.bm ∧ s'.reloading = none ∧
    ∃ mid, s'.trace = s.trace ++ (names.filter (fun k => decide (k ∈ s.actions.keys))).map Call.reload ++ mid ++
        gone.reverse.map Call.stop ∧
      (∀ c ∈ mid, ∃ k ∈ gone, c = .flush k ∨ c = .check k ∨ ∃ x ∈ s.bm.banList.values.map Ticket.id, c = .unban k x) ∧
      (∀ kv ∈ s.actions.items, kv.1 ∉ names → kv.2.canFlush = false →
        ∀ x ∈ s.bm.banList.values.map Ticket.id, Call.unban kv.1 x ∈ mid) ∧
      (∀ kv ∈ s.actions.items, kv.1 ∉ names → kv.2.canFlush = true → Call.flush kv.1 ∈ mid) := by
  intro gone
  unfold reloadEnd at h
  rw [hr] at h
  dsimp only at h
  cases hl : reloadLoop env names s with
  | mk b s1 =>
    rw [hl] at h
    cases b with
    | true => simp at h
    | false =>
      dsimp only at h
      obtain ⟨hs, ht⟩ := reloadLoop_spec env names s s1 hl
      have hgone : (s1.actions.items.filter (fun kv => !(names.contains kv.1))).map Prod.fst = gone := by
        have : gone = s1.actions.keys.filter (fun k => decide (k ∉ names)) := by rw [hs.keys]
        rw [this]
        unfold Dict.keys
        rw [List.filter_map]
        congr 1
        apply List.filter_congr
        intro kv _
        by_cases hm : kv.1 ∈ names <;> simp [hm]
      have hkeep : ∀ k, k ∈ gone ↔ k ∈ s.actions.keys ∧ k ∉ names := by
        intro k; simp [gone, List.mem_filter]
      -- statically equal entries
      have hstat : ∀ kv ∈ s.actions.items, ∃ kv' ∈ s1.actions.items, kv'.1 = kv.1 ∧ kv'.2.canFlush = kv.2.canFlush := by
        intro kv hkv
        have : (kv.1, static kv.2) ∈ config s1 := by
          rw [hs.config]; exact List.mem_map.2 ⟨kv, hkv, rfl⟩
        obtain ⟨kv', h1, h2⟩ := List.mem_map.1 this
        have e1 : kv'.1 = kv.1 := (Prod.mk.inj h2).1
        have e2 : static kv'.2 = static kv.2 := (Prod.mk.inj h2).2
        have e3 : (static kv'.2).canFlush = (static kv.2).canFlush := by rw [e2]
        exact ⟨kv', h1, e1, e3⟩
      generalize hd : s1.actions.items.filter (fun kv => !(names.contains kv.1)) = delacts at *
      by_cases he : delacts = []
      · rw [if_neg (by simp [he])] at h
        simp only [Prod.mk.injEq, true_and] at h
        subst h
        have hg : gone = [] := by rw [← hgone, he]; rfl
        have hin : ∀ k ∈ s.actions.keys, k ∈ names := by
          intro k hk
          apply Classical.byContradiction
          intro hn
          have := (hkeep k).2 ⟨hk, hn⟩
          rw [hg] at this; cases this
        refine ⟨?_, hs.bm, rfl, [], ?_, by simp, ?_, ?_⟩
        · show s1.actions.keys = _
          rw [hs.keys]; symm; rw [List.filter_eq_self]
          intro k hk; simpa using hin k hk
        · rw [hg]; simpa using ht
        · intro kv hkv hn
          exact absurd (hin kv.1 (List.mem_map_of_mem (f := Prod.fst) hkv)) hn
        · intro kv hkv hn
          exact absurd (hin kv.1 (List.mem_map_of_mem (f := Prod.fst) hkv)) hn
      · rw [if_pos he] at h
        have hnd : (delacts.map Prod.fst).Nodup := by
          rw [← hd]; exact Dict.nodup_filter _ s1.actions.nodup _
        cases hfl : s1.flushBan env false (some delacts) with
        | mk n q =>
          obtain ⟨b, s2⟩ := q
          rw [hfl] at h
          cases b with
          | true => simp at h
          | false =>
            dsimp only at h
            simp only [Prod.mk.injEq, true_and] at h
            obtain ⟨f1, f2, fl, left, f3, f4, f5, f6, f7⟩ := C47_flush_some env s1 delacts hnd n s2 hfl
            obtain ⟨k1, k2, k3⟩ := stopLoop_spec env (delacts.map Prod.fst).reverse s2
            have hk2 : s2.actions.keys = s.actions.keys := by
              rw [← config_keys, f2, config_keys, hs.keys]
            rw [← h]
            unfold stopActions
            rw [Option.getD_some]
            refine ⟨?_, ?_, rfl, fl ++ unbanCalls left (s.bm.banList.values.map Ticket.id), ?_, ?_, ?_, ?_⟩
            · rw [k3, hk2, hgone]
              apply List.filter_congr
              intro k hk
              by_cases hm : k ∈ names
              · simp [hkeep, hm]
              · simp [hkeep, hk, hm]
            · rw [k2, f1, hs.bm]
            · rw [k1, f3, ht, hgone, hs.bm]; simp
            · intro c hc
              rw [List.mem_append] at hc
              rcases hc with hc | hc
              · obtain ⟨k, hk, e⟩ := f4 c hc
                rw [hgone] at hk
                rcases e with e | e
                · exact ⟨k, hk, .inl e⟩
                · exact ⟨k, hk, .inr (.inl e)⟩
              · simp only [unbanCalls, List.mem_flatMap, List.mem_map] at hc
                obtain ⟨x, hx, k, hk, rfl⟩ := hc
                refine ⟨k, by rw [← hgone]; exact f6.subset hk, .inr (.inr ⟨x, ?_, rfl⟩)⟩
                simpa using hx
            · intro kv hkv hn hcf x hx
              obtain ⟨kv', m1, m2, m3⟩ := hstat kv hkv
              have hm : kv' ∈ delacts := by
                rw [← hd, List.mem_filter]; exact ⟨m1, by rw [m2]; simpa using hn⟩
              have := (f7 kv' hm).2 (.inl (by rw [m3]; exact hcf))
              rw [m2] at this
              refine List.mem_append_right _ ?_
              simp only [unbanCalls, List.mem_flatMap, List.mem_map]
              exact ⟨x, List.mem_map.1 hx, kv.1, this, rfl⟩
            · intro kv hkv hn hcf
              obtain ⟨kv', m1, m2, m3⟩ := hstat kv hkv
              have hm : kv' ∈ delacts := by
                rw [← hd, List.mem_filter]; exact ⟨m1, by rw [m2]; simpa using hn⟩
              refine List.mem_append_left _ ?_
              have : Call.flush kv'.1 ∈ fl.filter isFlush := by
                rw [f5]; exact List.mem_map.2 ⟨kv', List.mem_filter.2 ⟨hm, by rw [m3]; exact hcf⟩, rfl⟩
              rw [m2] at this
              exact (List.mem_filter.1 this).1

/-- **Reload drops new actions**: an action added to a running jail during its reload is not among the recorded ones, so the
end of the reload stops and removes it. Here "fw" is kept, "mail" is obsolete, and "new", which the new configuration
contains, is removed as well. -/
theorem C47_new_action_dropped :
    let s := exActs.reloadBegin
    let s := ((s.add "fw" {} true).getD s)
    let s := ((s.add "new" {} true).getD s)
    (s.reloadEnd exEnv).1 = false ∧ (s.reloadEnd exEnv).2.actions.keys = ["fw"] ∧
      (s.reloadEnd exEnv).2.trace = [.reload "fw", .stop "new", .stop "mail"] := by decide

/-- with the ban of "a" in place, the removed "mail" gets its unban, "fw" no call but its reload -/
example :
    let s := (checkBanLoop exEnv 1000 [exTicket "a" 1000 none] [] 0 exActs).2.2.2
    let s := (s.reloadBegin.add "fw" {} true).getD s
    (s.reloadEnd exEnv).2.trace = s.trace ++ [.reload "fw", .unban "mail" "a", .stop "mail"] ∧
      (s.reloadEnd exEnv).2.bm.banList.keys = ["a"] := by decide

/-- **C47 (add).** An action name cannot be added twice outside of a reload. -/
theorem C47_add_twice (s : Actions) (name : String) (a : Action) (h : name ∈ s.actions.keys) : s.add name a false = none := by
  obtain ⟨old, ho⟩ := (Dict.mem_keys_iff _ _).1 h
  simp [add, ho]

/-- **C47 (add new).** A new action is appended after the existing ones, which stay as they are. -/
theorem C47_add_new (s : Actions) (name : String) (a : Action) (reload : Bool) (h : name ∉ s.actions.keys) :
    ∃ s', s.add name a reload = some s' ∧ s'.actions.items = s.actions.items ++ [(name, a)] ∧ s'.bm = s.bm ∧
      s'.trace = s.trace := by
  refine ⟨{ s with actions := s.actions.insert name a }, ?_, Dict.items_insert_of_not_mem _ h _, rfl, rfl⟩
  simp [add, (Dict.get?_eq_none_iff _ _).2 h]

end Verif
