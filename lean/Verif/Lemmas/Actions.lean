import Verif.Spec.Actions
import Verif.Lemmas.BanManager

/-! # Lemmas about the actions model -/

namespace Verif.Actions

open Verif.Spec.Act Verif.Spec.Ban

/-- everything a call leaves alone, apart from trace and epochs -/
structure Same (s s' : Actions) : Prop where
  bm : s'.bm = s.bm
  config : config s' = config s
  observer : s'.observer = s.observer
  hasDb : s'.hasDb = s.hasDb
  lastCheck : s'.lastCheck = s.lastCheck
  reloading : s'.reloading = s.reloading
  epoch : s.banEpoch ≤ s'.banEpoch

theorem Same.refl (s : Actions) : Same s s := ⟨rfl, rfl, rfl, rfl, rfl, rfl, Nat.le_refl _⟩

theorem Same.trans {a b c : Actions} (h : Same a b) (k : Same b c) : Same a c :=
  ⟨k.bm.trans h.bm, k.config.trans h.config, k.observer.trans h.observer, k.hasDb.trans h.hasDb,
   k.lastCheck.trans h.lastCheck, k.reloading.trans h.reloading, Nat.le_trans h.epoch k.epoch⟩

theorem config_keys (s : Actions) : (config s).map Prod.fst = s.actions.keys := by
  simp [config, Dict.keys, List.map_map, Function.comp_def]

theorem Same.keys {a b : Actions} (h : Same a b) : b.actions.keys = a.actions.keys := by
  rw [← config_keys, ← config_keys, h.config]

theorem banners_config (s : Actions) (r : Bool) : banners (config s) r = banners s.actions.items r := by
  unfold banners config
  rw [List.filter_map, List.map_map]
  rfl

theorem put_map {β : Type} (l : List (String × Action)) (k : String) (a : Action) (f : Action → β)
    (hf : ∀ a', (k, a') ∈ l → f a' = f a) (hk : k ∈ l.map Prod.fst) :
    (Dict.put k a l).map (fun kv => (kv.1, f kv.2)) = l.map (fun kv => (kv.1, f kv.2)) := by
  induction l with
  | nil => cases hk
  | cons b l ih =>
    obtain ⟨b1, b2⟩ := b
    simp only [Dict.put]
    split
    · rename_i he
      subst he
      simp only [List.map_cons, hf b2 List.mem_cons_self]
    · rename_i he
      simp only [List.map_cons]
      rw [ih (fun a' ha' => hf a' (List.mem_cons_of_mem _ ha'))]
      simp only [List.map_cons, List.mem_cons] at hk
      rcases hk with hk | hk
      · exact absurd hk.symm he
      · exact hk

theorem call_outcome (env : Env) (s : Actions) (n : String) (c : Call) :
    (s.call env n c).1 = env (s.trace ++ [c]) := by
  unfold call; dsimp only; split <;> rfl

theorem call_trace (env : Env) (s : Actions) (n : String) (c : Call) :
    (s.call env n c).2.trace = s.trace ++ [c] := by
  unfold call; dsimp only; split <;> rfl

theorem call_same (env : Env) (s : Actions) (n : String) (c : Call) : Same s (s.call env n c).2 := by
  unfold call
  dsimp only
  split
  · exact ⟨rfl, rfl, rfl, rfl, rfl, rfl, Nat.le_refl _⟩
  · refine ⟨rfl, ?_, rfl, rfl, rfl, rfl, Nat.le_add_right _ _⟩
    unfold config
    dsimp only
    split
    · rename_i a ha
      refine put_map _ _ _ static ?_ ?_
      · intro a' ha'
        have h1 := (Dict.get?_eq_some_iff s.actions n a).1 ha
        have h2 := (Dict.get?_eq_some_iff s.actions n a').2 ha'
        rw [ha] at h2
        cases h2
        rfl
      · exact (Dict.mem_keys_iff s.actions n).2 ⟨_, ha⟩
    · rfl

theorem banLoop_spec (env : Env) (fid : Fid) (r : Bool) (l : List (String × Action)) (s : Actions) :
    (banLoop env fid r l s).trace = s.trace ++ (banners l r).map (fun a => Call.ban a fid) ∧ Same s (banLoop env fid r l s) := by
  induction l generalizing s with
  | nil => simp [banLoop, banners, Same.refl]
  | cons kv l ih =>
    obtain ⟨n, a⟩ := kv
    simp only [banLoop]
    by_cases h : (r && a.norestored) = true
    · rw [if_pos h]
      have := ih s
      simp only [banners, List.filter_cons, h, Bool.not_true, Bool.false_eq_true, if_false] at this ⊢
      exact this
    · rw [if_neg h]
      have h1 := ih (s.call env n (.ban n fid)).2
      rw [call_trace] at h1
      refine ⟨?_, (call_same env s n _).trans h1.2⟩
      rw [h1.1]
      have hf : (!(r && a.norestored)) = true := by cases r <;> simp_all
      simp only [banners, List.filter_cons, hf, if_true, List.map_cons, List.append_assoc, List.singleton_append]

theorem unbanLoop_spec (env : Env) (fid : Fid) (l : List String) (s : Actions) :
    (unbanLoop env fid l s).trace = s.trace ++ l.map (fun a => Call.unban a fid) ∧ Same s (unbanLoop env fid l s) := by
  induction l generalizing s with
  | nil => simp [unbanLoop, Same.refl]
  | cons n l ih =>
    simp only [unbanLoop]
    have h1 := ih (s.call env n (.unban n fid)).2
    rw [call_trace] at h1
    refine ⟨?_, (call_same env s n _).trans h1.2⟩
    rw [h1.1]; simp

theorem unBan_spec (env : Env) (s : Actions) (fid : Fid) (acts : Option (List String)) :
    (s.unBan env fid acts).trace = s.trace ++ (acts.getD s.actions.keys).map (fun a => Call.unban a fid) ∧
    Same s (s.unBan env fid acts) := unbanLoop_spec env fid _ s

theorem unbanTickets_spec (env : Env) (acts : Option (List String)) (l : List Ticket) (s : Actions) :
    (unbanTickets env acts l s).trace = s.trace ++ unbanCalls (acts.getD s.actions.keys) (l.map Ticket.id) ∧
    Same s (unbanTickets env acts l s) := by
  induction l generalizing s with
  | nil => simp [unbanTickets, unbanCalls, Same.refl]
  | cons t l ih =>
    simp only [unbanTickets]
    have h0 := unBan_spec env s t.id acts
    have h1 := ih (s.unBan env t.id acts)
    refine ⟨?_, h0.2.trans h1.2⟩
    rw [h1.1, h0.1, h0.2.keys]
    simp [unbanCalls]

theorem rebanLoop_spec (env : Env) (fid : Fid) (l : List String) (s : Actions) :
    (∃ done, done <+: l ∧ (rebanLoop env fid l s).2.trace = s.trace ++ done.map (fun a => Call.reban a fid) ∧
      ((rebanLoop env fid l s).1 = true → done = l)) ∧ Same s (rebanLoop env fid l s).2 := by
  induction l generalizing s with
  | nil => exact ⟨⟨[], List.prefix_refl _, by simp [rebanLoop], fun _ => rfl⟩, Same.refl s⟩
  | cons n l ih =>
    simp only [rebanLoop]
    have hs := call_same env s n (.reban n fid)
    have ht := call_trace env s n (.reban n fid)
    by_cases h : (s.call env n (.reban n fid)).1.raised = true
    · rw [if_pos h]
      exact ⟨⟨[n], ⟨l, rfl⟩, by simp [ht], by simp⟩, hs⟩
    · rw [if_neg h]
      obtain ⟨⟨done, hp, htr, hd⟩, hs2⟩ := ih (s.call env n (.reban n fid)).2
      refine ⟨⟨n :: done, List.cons_prefix_cons.2 ⟨rfl, hp⟩, by rw [htr, ht]; simp, fun e => by rw [hd e]⟩, hs.trans hs2⟩

theorem checkLoop_spec (env : Env) (l : List (String × Action)) (s : Actions) :
    (∃ done : List String, done.Sublist (l.map Prod.fst) ∧ (checkLoop env l s).2.trace = s.trace ++ done.map Call.check) ∧
    Same s (checkLoop env l s).2 := by
  induction l generalizing s with
  | nil => exact ⟨⟨[], List.Sublist.refl _, by simp [checkLoop]⟩, Same.refl s⟩
  | cons kv l ih =>
    obtain ⟨n, a⟩ := kv
    simp only [checkLoop]
    by_cases hc : a.canCheck = true
    · rw [if_pos hc]
      have hs := call_same env s n (.check n)
      have ht := call_trace env s n (.check n)
      by_cases h : (s.call env n (.check n)).1.raised = true
      · rw [if_pos h]
        exact ⟨⟨[n], by simp, by simp [ht]⟩, hs⟩
      · rw [if_neg h]
        obtain ⟨⟨done, hp, htr⟩, hs2⟩ := ih (s.call env n (.check n)).2
        exact ⟨⟨n :: done, hp.cons_cons n, by rw [htr, ht]; simp⟩, hs.trans hs2⟩
    · rw [if_neg hc]
      obtain ⟨⟨done, hp, htr⟩, hs2⟩ := ih s
      exact ⟨⟨done, hp.cons n, htr⟩, hs2⟩

theorem checkLoop_noraise (env : Env) (henv : ∀ tr a, (env (tr ++ [.check a])).raised = false)
    (l : List (String × Action)) (s : Actions) : (checkLoop env l s).1 = false := by
  induction l generalizing s with
  | nil => rfl
  | cons kv l ih =>
    obtain ⟨n, a⟩ := kv
    simp only [checkLoop]
    split
    · rw [call_outcome, henv]
      simp only [Bool.false_eq_true, if_false]; exact ih _
    · exact ih _

end Verif.Actions

namespace Verif.Actions

open Verif.Spec.Act Verif.Spec.Ban

/-! ## marking tickets -/

theorem updTicket_trace (s : Actions) (fid : Fid) (f : Ticket → Ticket) :
    (s.updTicket fid f).trace = s.trace ∧ (s.updTicket fid f).actions = s.actions ∧
    (s.updTicket fid f).observer = s.observer ∧ (s.updTicket fid f).hasDb = s.hasDb ∧
    (s.updTicket fid f).banEpoch = s.banEpoch ∧ (s.updTicket fid f).reloading = s.reloading ∧
    (s.updTicket fid f).lastCheck = s.lastCheck := by
  unfold updTicket; split <;> exact ⟨rfl, rfl, rfl, rfl, rfl, rfl, rfl⟩

theorem updTicket_get? (s : Actions) (fid : Fid) (f : Ticket → Ticket) (x : Fid) :
    (s.updTicket fid f).bm.banList.get? x = (s.bm.banList.get? x).map (fun t => if x = fid then f t else t) := by
  unfold updTicket
  cases hg : s.bm.banList.get? fid with
  | none =>
    dsimp only
    by_cases e : x = fid
    · subst e; rw [hg]; rfl
    · simp [e]
  | some t =>
    dsimp only
    rw [Dict.get?_insert]
    by_cases e : x = fid
    · subst e; rw [hg]; simp
    · simp [e]

theorem updTicket_keys (s : Actions) (fid : Fid) (f : Ticket → Ticket) :
    (s.updTicket fid f).bm.banList.keys = s.bm.banList.keys := by
  unfold updTicket
  cases hg : s.bm.banList.get? fid with
  | none => rfl
  | some t => exact Dict.keys_insert_of_mem _ ((Dict.mem_keys_iff _ _).2 ⟨_, hg⟩) _

theorem updTicket_bm (s : Actions) (fid : Fid) (f : Ticket → Ticket) :
    (s.updTicket fid f).bm.banTime = s.bm.banTime ∧ (s.updTicket fid f).bm.banTotal = s.bm.banTotal ∧
    (s.updTicket fid f).bm.nextUnban = s.bm.nextUnban := by
  unfold updTicket; split <;> exact ⟨rfl, rfl, rfl⟩

/-! ## flush -/

theorem flushLoop_spec (env : Env) (l : List (String × Action)) (hnd : (l.map Prod.fst).Nodup) (left : List String)
    (s : Actions) :
    Same s (flushLoop env l left s).2.2 ∧
    ∃ fl, (flushLoop env l left s).2.2.trace = s.trace ++ fl ∧ (∀ c ∈ fl, isFlushOrCheck c = true) ∧
      ((flushLoop env l left s).2.1 = false →
        fl.filter isFlush = (l.filter (fun kv => kv.2.canFlush)).map (fun kv => Call.flush kv.1) ∧
        ∃ add, (flushLoop env l left s).1 = left ++ add ∧ add.Sublist (l.map Prod.fst) ∧
          ∀ kv ∈ l, (kv.1 ∈ add ↔ (kv.2.canFlush = false ∨
            ∃ p q, fl = p ++ Call.flush kv.1 :: q ∧
              (((env (s.trace ++ p ++ [Call.flush kv.1])).raised = true ∧ kv.2.canCheck = false) ∨
               ((env (s.trace ++ p ++ [Call.flush kv.1])).raised = false ∧
                (env (s.trace ++ p ++ [Call.flush kv.1])).ret = false))))) := by
  induction l generalizing left s with
  | nil =>
    refine ⟨Same.refl s, [], by simp [flushLoop], by simp, fun _ => ⟨rfl, [], by simp [flushLoop], List.Sublist.refl _, by simp⟩⟩
  | cons hd l ih =>
    obtain ⟨n, a⟩ := hd
    simp only [List.map_cons, List.nodup_cons] at hnd
    obtain ⟨hn, hnd⟩ := hnd
    -- general step: `pre` are the calls made for the head, `keep` says whether the head is left for single unbans
    have step : ∀ (s1 : Actions) (pre : List Call) (keep : Bool), Same s s1 → s1.trace = s.trace ++ pre →
        (∀ c ∈ pre, isFlushOrCheck c = true) →
        pre.filter isFlush = (if a.canFlush then [Call.flush n] else []) →
        (a.canFlush = true → pre.head? = some (Call.flush n)) →
        (keep = true ↔ (a.canFlush = false ∨
          (((env (s.trace ++ [Call.flush n])).raised = true ∧ a.canCheck = false) ∨
            ((env (s.trace ++ [Call.flush n])).raised = false ∧ (env (s.trace ++ [Call.flush n])).ret = false)))) →
        Same s (flushLoop env l (if keep then left ++ [n] else left) s1).2.2 ∧
        ∃ fl, (flushLoop env l (if keep then left ++ [n] else left) s1).2.2.trace = s.trace ++ fl ∧
          (∀ c ∈ fl, isFlushOrCheck c = true) ∧
          ((flushLoop env l (if keep then left ++ [n] else left) s1).2.1 = false →
            fl.filter isFlush = (((n, a) :: l).filter (fun kv => kv.2.canFlush)).map (fun kv => Call.flush kv.1) ∧
            ∃ add, (flushLoop env l (if keep then left ++ [n] else left) s1).1 = left ++ add ∧
              add.Sublist (((n, a) :: l).map Prod.fst) ∧
              ∀ kv ∈ (n, a) :: l, (kv.1 ∈ add ↔ (kv.2.canFlush = false ∨
                ∃ p q, fl = p ++ Call.flush kv.1 :: q ∧
                  (((env (s.trace ++ p ++ [Call.flush kv.1])).raised = true ∧ kv.2.canCheck = false) ∨
                   ((env (s.trace ++ p ++ [Call.flush kv.1])).raised = false ∧
                    (env (s.trace ++ p ++ [Call.flush kv.1])).ret = false))))) := by
      intro s1 pre keep hsame htr hpre hfil hhead hkeep
      obtain ⟨hs2, fl, hfl, hall, hrest⟩ := ih hnd (if keep then left ++ [n] else left) s1
      refine ⟨hsame.trans hs2, pre ++ fl, by rw [hfl, htr, List.append_assoc], ?_, ?_⟩
      · intro c hc
        rcases List.mem_append.1 hc with h | h
        · exact hpre c h
        · exact hall c h
      · intro hr
        obtain ⟨hflt, add, hadd, hsub, hiff⟩ := hrest hr
        have hnofl : Call.flush n ∉ fl := by
          intro hc
          have h1 : Call.flush n ∈ fl.filter isFlush := List.mem_filter.2 ⟨hc, rfl⟩
          rw [hflt, List.mem_map] at h1
          obtain ⟨kv, hkv, he⟩ := h1
          have : kv.1 = n := by cases he; rfl
          exact hn (this ▸ List.mem_map_of_mem (f := Prod.fst) (List.mem_filter.1 hkv).1)
        have hnadd : n ∉ add := fun h => hn (hsub.subset h)
        refine ⟨?_, (if keep then [n] else []) ++ add, ?_, ?_, ?_⟩
        · rw [List.filter_append, hfil, hflt, List.filter_cons]
          by_cases hc : a.canFlush = true
          · simp only [hc, if_true, List.map_cons, List.singleton_append]
          · simp only [hc, if_false, Bool.false_eq_true, List.nil_append]
        · rw [hadd]; cases keep <;> simp
        · rw [List.map_cons]
          cases keep
          · simpa using hsub.cons n
          · simpa using hsub.cons_cons n
        · intro kv hkv
          rcases List.mem_cons.1 hkv with rfl | hkv
          · -- head
            have hmem : n ∈ (if keep = true then [n] else []) ++ add ↔ keep = true := by
              cases keep <;> simp [hnadd]
            rw [hmem, hkeep]
            by_cases hc : a.canFlush = true
            · have hh := hhead hc
              obtain ⟨pre', hpre'⟩ : ∃ pre', pre = Call.flush n :: pre' := by
                cases pre with
                | nil => simp at hh
                | cons c pre' => simp only [List.head?_cons, Option.some.injEq] at hh; exact ⟨pre', by rw [hh]⟩
              have hfp : pre'.filter isFlush = [] := by
                rw [hpre', hc, List.filter_cons] at hfil
                simpa [isFlush] using hfil
              constructor
              · rintro (h | h)
                · exact Or.inl h
                · refine Or.inr ⟨[], pre' ++ fl, by rw [hpre']; rfl, ?_⟩
                  simpa using h
              · rintro (h | ⟨p, q, hpq, h⟩)
                · exact Or.inl h
                · right
                  have : p = [] := by
                    cases p with
                    | nil => rfl
                    | cons c p =>
                      exfalso
                      rw [hpre', List.cons_append, List.cons_append, List.cons.injEq] at hpq
                      have h1 : Call.flush n ∈ pre' ++ fl := by rw [hpq.2]; simp
                      rcases List.mem_append.1 h1 with h2 | h2
                      · have : Call.flush n ∈ pre'.filter isFlush := List.mem_filter.2 ⟨h2, rfl⟩
                        rw [hfp] at this; cases this
                      · exact hnofl h2
                  subst this
                  simpa using h
            · have : a.canFlush = false := by simpa using hc
              simp [this]
          · -- tail
            have hne : kv.1 ≠ n := fun e => hn (e ▸ List.mem_map_of_mem (f := Prod.fst) hkv)
            have hmem : kv.1 ∈ (if keep = true then [n] else []) ++ add ↔ kv.1 ∈ add := by
              cases keep <;> simp [hne]
            rw [hmem, hiff kv hkv]
            constructor
            · rintro (h | ⟨p, q, hpq, h⟩)
              · exact Or.inl h
              · refine Or.inr ⟨pre ++ p, q, by rw [hpq, List.append_assoc], ?_⟩
                rw [htr] at h
                simpa [List.append_assoc] using h
            · rintro (h | ⟨p, q, hpq, h⟩)
              · exact Or.inl h
              · right
                have hnpre : Call.flush kv.1 ∉ pre := by
                  intro hc
                  have h1 : Call.flush kv.1 ∈ pre.filter isFlush := List.mem_filter.2 ⟨hc, rfl⟩
                  rw [hfil] at h1
                  split at h1
                  · simp only [List.mem_singleton, Call.flush.injEq] at h1; exact hne h1
                  · cases h1
                rw [List.append_eq_append_iff] at hpq
                rcases hpq with ⟨p', hp', hq'⟩ | ⟨p', hp', hq'⟩
                · refine ⟨p', q, hq', ?_⟩
                  rw [htr]
                  rw [hp'] at h
                  simpa [List.append_assoc] using h
                · cases p' with
                  | nil =>
                    refine ⟨[], q, by simpa using hq'.symm, ?_⟩
                    simp only [List.append_nil] at hp'
                    rw [htr]
                    rw [← hp'] at h
                    simpa [List.append_assoc] using h
                  | cons c p' =>
                    exfalso
                    simp only [List.cons_append, List.cons.injEq] at hq'
                    exact hnpre (by rw [hp', ← hq'.1]; simp)
    simp only [flushLoop]
    have hs := call_same env s n (.flush n)
    have ht := call_trace env s n (.flush n)
    have ho := call_outcome env s n (.flush n)
    by_cases hc : a.canFlush = true
    · rw [if_pos hc]
      by_cases hr : (s.call env n (.flush n)).1.raised = true
      · rw [if_pos hr]
        by_cases hck : a.canCheck = true
        · rw [if_pos hck]
          have hs2 := call_same env (s.call env n (.flush n)).2 n (.check n)
          have ht2 := call_trace env (s.call env n (.flush n)).2 n (.check n)
          rw [ht, List.append_assoc] at ht2
          by_cases hr2 : ((s.call env n (.flush n)).2.call env n (.check n)).1.raised = true
          · rw [if_pos hr2]
            refine ⟨hs.trans hs2, [.flush n, .check n], ht2, by simp [isFlushOrCheck], by simp⟩
          · rw [if_neg hr2]
            refine step _ [.flush n, .check n] false (hs.trans hs2) ht2 (by simp [isFlushOrCheck]) (by rw [hc]; rfl)
              (by simp) ?_
            rw [← ho]
            simp [hc, hck, hr]
        · rw [if_neg hck]
          refine step _ [.flush n] true hs ht (by simp [isFlushOrCheck]) (by simp [hc, isFlush]) (by simp) ?_
          rw [← ho]
          simp [hc, hck, hr]
      · rw [if_neg hr]
        by_cases hret : (s.call env n (.flush n)).1.ret = true
        · rw [if_pos hret]
          refine step _ [.flush n] false hs ht (by simp [isFlushOrCheck]) (by simp [hc, isFlush]) (by simp) ?_
          rw [← ho]
          simp [hc, hret, hr]
        · rw [if_neg hret]
          refine step _ [.flush n] true hs ht (by simp [isFlushOrCheck]) (by simp [hc, isFlush]) (by simp) ?_
          rw [← ho]
          simp [hc, hret, hr]
    · rw [if_neg hc]
      refine step s [] true (Same.refl s) (by simp) (by simp) (by simp [hc]) (by simp [hc]) (by simp [hc])

end Verif.Actions

namespace Verif.Actions

open Verif.Spec.Act Verif.Spec.Ban

/-! ## tickets of `__checkBan` -/

/-- a ticket without the flags set after the actions were executed -/
def norm (t : Ticket) : Ticket := { t with banned := false, banEpoch := 0 }

/-- equal up to the flags of the tickets -/
structure SameBans (b b' : BanManager) : Prop where
  keys : b'.banList.keys = b.banList.keys
  banTime : b'.banTime = b.banTime
  banTotal : b'.banTotal = b.banTotal
  nextUnban : b'.nextUnban = b.nextUnban
  tickets : ∀ x, (b'.banList.get? x).map norm = (b.banList.get? x).map norm

theorem SameBans.refl (b : BanManager) : SameBans b b := ⟨rfl, rfl, rfl, rfl, fun _ => rfl⟩

theorem SameBans.trans {a b c : BanManager} (h : SameBans a b) (k : SameBans b c) : SameBans a c :=
  ⟨k.keys.trans h.keys, k.banTime.trans h.banTime, k.banTotal.trans h.banTotal, k.nextUnban.trans h.nextUnban,
   fun x => (k.tickets x).trans (h.tickets x)⟩

/-- what stays the same while a ticket is processed, apart from the ban list -/
structure SameCfg (s s' : Actions) : Prop where
  config : config s' = config s
  observer : s'.observer = s.observer
  hasDb : s'.hasDb = s.hasDb
  reloading : s'.reloading = s.reloading

theorem SameCfg.refl (s : Actions) : SameCfg s s := ⟨rfl, rfl, rfl, rfl⟩

theorem SameCfg.trans {a b c : Actions} (h : SameCfg a b) (k : SameCfg b c) : SameCfg a c :=
  ⟨k.config.trans h.config, k.observer.trans h.observer, k.hasDb.trans h.hasDb, k.reloading.trans h.reloading⟩

theorem Same.cfg {s s' : Actions} (h : Same s s') : SameCfg s s' := ⟨h.config, h.observer, h.hasDb, h.reloading⟩

theorem Same.bans {s s' : Actions} (h : Same s s') : SameBans s.bm s'.bm := by rw [h.bm]; exact SameBans.refl _

theorem SameCfg.keys {a b : Actions} (h : SameCfg a b) : b.actions.keys = a.actions.keys := by
  rw [← config_keys, ← config_keys, h.config]

theorem markBanned_cfg (s : Actions) (fid : Fid) : SameCfg s (s.markBanned fid) := by
  obtain ⟨_, h2, h3, h4, _, h6, _⟩ := updTicket_trace s fid
    (fun t => { t with banned := true, banEpoch := if s.banEpoch ≠ 0 then s.banEpoch else t.banEpoch })
  exact ⟨by unfold config markBanned; rw [h2], h3, h4, h6⟩

theorem markBanned_trace (s : Actions) (fid : Fid) : (s.markBanned fid).trace = s.trace :=
  (updTicket_trace s fid _).1

theorem markBanned_bans (s : Actions) (fid : Fid) : SameBans s.bm (s.markBanned fid).bm := by
  obtain ⟨h1, h2, h3⟩ := updTicket_bm s fid
    (fun t => { t with banned := true, banEpoch := if s.banEpoch ≠ 0 then s.banEpoch else t.banEpoch })
  refine ⟨updTicket_keys _ _ _, h1, h2, h3, ?_⟩
  intro x
  unfold markBanned
  rw [updTicket_get?]
  cases s.bm.banList.get? x with
  | none => rfl
  | some t =>
    simp only [Option.map_some, Option.some.injEq]
    split <;> rfl

theorem reBan_spec (env : Env) (s : Actions) (fid : Fid) (acts : List String) :
    SameCfg s (s.reBan env fid acts).2 ∧ SameBans s.bm (s.reBan env fid acts).2.bm ∧
    (s.reBan env fid acts).1 ≤ 1 ∧
    ∃ done, done <+: (if acts = [] then s.actions.keys else acts) ∧
      (s.reBan env fid acts).2.trace = s.trace ++ done.map (fun a => Call.reban a fid) ∧
      ((s.reBan env fid acts).1 = 1 → done = (if acts = [] then s.actions.keys else acts)) := by
  unfold reBan
  dsimp only
  obtain ⟨⟨done, hp, ht, hd⟩, hs⟩ := rebanLoop_spec env fid (if acts = [] then s.actions.keys else acts) s
  generalize rebanLoop env fid (if acts = [] then s.actions.keys else acts) s = r at *
  obtain ⟨b, s'⟩ := r
  cases b with
  | true =>
    refine ⟨hs.cfg.trans (markBanned_cfg _ _), hs.bans.trans (markBanned_bans _ _), Nat.le_refl _, done, hp, ?_, fun _ => hd rfl⟩
    dsimp only at ht ⊢
    rw [markBanned_trace]; exact ht
  | false =>
    exact ⟨hs.cfg, hs.bans, Nat.zero_le _, done, hp, ht, by simp⟩

/-- the already-banned branch -/
theorem alreadyBanned_spec (env : Env) (now : Int) (s : Actions) (ra : List String) (t old : Ticket) :
    SameCfg s (alreadyBanned env now s ra t old).s ∧ SameBans s.bm (alreadyBanned env now s ra t old).s.bm ∧
    (alreadyBanned env now s ra t old).cnt ≤ 1 ∧
    ∃ checks rebans : List String, checks.Sublist s.actions.keys ∧
      (alreadyBanned env now s ra t old).s.trace = s.trace ++ checks.map Call.check ++ rebans.map (fun a => Call.reban a t.id) := by
  unfold alreadyBanned
  by_cases hb : old.banned = true
  · rw [if_pos hb]
    dsimp only
    generalize hr : (if old.banEpoch = s.banEpoch ∧ 3 < t.time - old.time ∧ ra = [] ∧ s.lastCheck + 3 < now then
        checkLoop env s.actions.items { s with lastCheck := now } else (false, s)) = r
    have h1 : SameCfg s r.2 ∧ SameBans s.bm r.2.bm ∧ ∃ checks : List String, checks.Sublist s.actions.keys ∧
        r.2.trace = s.trace ++ checks.map Call.check := by
      rw [← hr]
      split
      · obtain ⟨⟨done, hsub, ht⟩, hs⟩ := checkLoop_spec env s.actions.items { s with lastCheck := now }
        exact ⟨⟨hs.config, hs.observer, hs.hasDb, hs.reloading⟩, by rw [hs.bm]; exact SameBans.refl _, done, hsub, ht⟩
      · exact ⟨SameCfg.refl s, SameBans.refl _, [], List.nil_sublist _, by simp⟩
    clear hr
    obtain ⟨hc, hbn, checks, hsub, ht⟩ := h1
    split
    · exact ⟨hc, hbn, Nat.zero_le _, checks, [], hsub, by simpa using ht⟩
    · split
      · generalize (if ra = [] then (r.2.actions.items.filter (fun kv => decide (old.banEpoch < kv.2.banEpoch))).map Prod.fst
          else ra) = ra'
        obtain ⟨k1, k2, k3, done, _, kt, _⟩ := reBan_spec env r.2 t.id ra'
        exact ⟨hc.trans k1, hbn.trans k2, k3, checks, done, hsub, by rw [kt, ht]⟩
      · exact ⟨hc, hbn, Nat.zero_le _, checks, [], hsub, by simpa using ht⟩
  · rw [if_neg hb]
    obtain ⟨k1, k2, k3, done, _, kt, _⟩ := reBan_spec env s t.id []
    exact ⟨k1, k2, k3, [], done, List.nil_sublist _, by simpa using kt⟩

/-- an exception only comes from a consistency check -/
theorem alreadyBanned_raised (env : Env) (henv : ∀ tr a, (env (tr ++ [.check a])).raised = false) (now : Int) (s : Actions)
    (ra : List String) (t old : Ticket) : (alreadyBanned env now s ra t old).raised = false := by
  unfold alreadyBanned
  by_cases hb : old.banned = true
  · rw [if_pos hb]
    dsimp only
    generalize hr : (if old.banEpoch = s.banEpoch ∧ 3 < t.time - old.time ∧ ra = [] ∧ s.lastCheck + 3 < now then
        checkLoop env s.actions.items { s with lastCheck := now } else (false, s)) = r
    have h1 : r.1 = false := by
      rw [← hr]
      split
      · exact checkLoop_noraise env henv _ _
      · rfl
    rw [h1]
    simp only [Bool.false_eq_true, if_false]
    split <;> rfl
  · rw [if_neg hb]

/-- the new-ban branch on a state whose ban list already has the ticket -/
theorem newBan_spec (env : Env) (s : Actions) (t : Ticket) :
    SameCfg s (newBan env s t) ∧ SameBans s.bm (newBan env s t).bm ∧
    (newBan env s t).trace = s.trace ++ banCalls s.actions.items s.observer t := by
  unfold newBan
  dsimp only
  generalize hs1 : (if (s.observer && !t.restored) = true then { s with trace := s.trace ++ [.banFound t.id] } else s) = s1
  have h1 : SameCfg s s1 ∧ s1.bm = s.bm ∧ s1.actions = s.actions ∧
      s1.trace = s.trace ++ (if s.observer = true ∧ t.restored = false then [Call.banFound t.id] else []) := by
    rw [← hs1]
    by_cases h : (s.observer && !t.restored) = true
    · rw [if_pos h]
      have : s.observer = true ∧ t.restored = false := by simpa using h
      rw [if_pos this]
      exact ⟨⟨rfl, rfl, rfl, rfl⟩, rfl, rfl, rfl⟩
    · rw [if_neg h]
      have : ¬ (s.observer = true ∧ t.restored = false) := by simpa using h
      rw [if_neg this]
      exact ⟨SameCfg.refl s, rfl, rfl, by simp⟩
  clear hs1
  obtain ⟨hc, hbm, ha, ht⟩ := h1
  obtain ⟨k1, k2⟩ := banLoop_spec env t.id t.restored s1.actions.items
    { s1 with trace := s1.trace ++ [.logBan t.id t.restored] }
  refine ⟨hc.trans (SameCfg.trans ⟨k2.config, k2.observer, k2.hasDb, k2.reloading⟩ (markBanned_cfg _ _)), ?_, ?_⟩
  · have := markBanned_bans (banLoop env t.id t.restored s1.actions.items
      { s1 with trace := s1.trace ++ [.logBan t.id t.restored] }) t.id
    refine SameBans.trans ?_ this
    rw [k2.bm, ← hbm]
    exact SameBans.refl _
  · rw [markBanned_trace, k1, ht, ha]
    simp only [banCalls, List.append_assoc, List.singleton_append]

theorem reBan_epoch (env : Env) (s : Actions) (fid : Fid) (acts : List String) :
    s.banEpoch ≤ (s.reBan env fid acts).2.banEpoch := by
  unfold reBan
  dsimp only
  have h := (rebanLoop_spec env fid (if acts = [] then s.actions.keys else acts) s).2.epoch
  generalize rebanLoop env fid (if acts = [] then s.actions.keys else acts) s = r at *
  obtain ⟨b, s'⟩ := r
  cases b with
  | true =>
    dsimp only [markBanned] at *
    rw [(updTicket_trace s' fid _).2.2.2.2.1]; exact h
  | false => exact h

theorem with_bm_self (s : Actions) : { s with bm := s.bm } = s := rfl

end Verif.Actions
