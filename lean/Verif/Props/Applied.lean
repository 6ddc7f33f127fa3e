import Verif.Props.Unban

/-! # The commands executed match the ban list (C46) -/

namespace Verif

open Actions Spec.Act Spec.Ban

theorem applied_snoc (env : Env) (a : String) (x : Fid) (tr : List Call) (c : Call) :
    applied env a x (tr ++ [c]) = (match c with
      | .ban b y => if b = a ∧ y = x then true else applied env a x tr
      | .reban b y => if b = a ∧ y = x then true else applied env a x tr
      | .unban b y => if b = a ∧ y = x then false else applied env a x tr
      | .flush b => if b = a ∧ (env (tr ++ [.flush b])).raised = false ∧ (env (tr ++ [.flush b])).ret = true then false
          else applied env a x tr
      | _ => applied env a x tr) := by
  unfold applied
  rw [List.reverse_append, List.reverse_singleton, List.singleton_append]
  cases c <;> simp [appliedRev]

/-- calls that cannot matter -/
def neutral (c : Call) : Prop := match c with
  | .ban _ _ | .reban _ _ | .unban _ _ | .flush _ => False
  | _ => True

theorem applied_neutral (env : Env) (a : String) (x : Fid) (tr cs : List Call) (h : ∀ c ∈ cs, neutral c) :
    applied env a x (tr ++ cs) = applied env a x tr := by
  induction cs using list_snoc_induction with
  | nil => simp
  | snoc cs c ih =>
    rw [← List.append_assoc, applied_snoc]
    have hc := h c (by simp)
    rw [ih (fun d hd => h d (by simp [hd]))]
    cases c <;> simp_all [neutral]

theorem applied_bans (env : Env) (a : String) (x y : Fid) (tr : List Call) (acts : List String) :
    applied env a x (tr ++ acts.map (fun b => Call.ban b y)) = (decide (a ∈ acts ∧ y = x) || applied env a x tr) := by
  induction acts using list_snoc_induction with
  | nil => simp
  | snoc acts b ih =>
    rw [List.map_append, ← List.append_assoc]
    simp only [List.map_cons, List.map_nil]
    rw [applied_snoc]
    dsimp only
    rw [ih]
    by_cases h : b = a ∧ y = x
    · obtain ⟨rfl, rfl⟩ := h; simp
    · rw [if_neg h]
      by_cases e : y = x
      · have : ¬ a = b := fun e' => h ⟨e'.symm, e⟩
        simp [this]
      · simp [e]

theorem applied_rebans (env : Env) (a : String) (x y : Fid) (tr : List Call) (acts : List String) :
    applied env a x (tr ++ acts.map (fun b => Call.reban b y)) = (decide (a ∈ acts ∧ y = x) || applied env a x tr) := by
  induction acts using list_snoc_induction with
  | nil => simp
  | snoc acts b ih =>
    rw [List.map_append, ← List.append_assoc]
    simp only [List.map_cons, List.map_nil]
    rw [applied_snoc]
    dsimp only
    rw [ih]
    by_cases h : b = a ∧ y = x
    · obtain ⟨rfl, rfl⟩ := h; simp
    · rw [if_neg h]
      by_cases e : y = x
      · have : ¬ a = b := fun e' => h ⟨e'.symm, e⟩
        simp [this]
      · simp [e]

theorem applied_unbans1 (env : Env) (a : String) (x y : Fid) (tr : List Call) (acts : List String) :
    applied env a x (tr ++ acts.map (fun b => Call.unban b y)) = (!(decide (a ∈ acts ∧ y = x)) && applied env a x tr) := by
  induction acts using list_snoc_induction with
  | nil => simp
  | snoc acts b ih =>
    rw [List.map_append, ← List.append_assoc]
    simp only [List.map_cons, List.map_nil]
    rw [applied_snoc]
    dsimp only
    rw [ih]
    by_cases h : b = a ∧ y = x
    · obtain ⟨rfl, rfl⟩ := h; simp
    · rw [if_neg h]
      by_cases e : y = x
      · have : ¬ a = b := fun e' => h ⟨e'.symm, e⟩
        simp [this]
      · simp [e]

theorem applied_unbans (env : Env) (a : String) (x : Fid) (tr : List Call) (acts : List String) (ids : List Fid) :
    applied env a x (tr ++ unbanCalls acts ids) = (!(decide (a ∈ acts ∧ x ∈ ids)) && applied env a x tr) := by
  induction ids using list_snoc_induction with
  | nil => simp [unbanCalls]
  | snoc ids y ih =>
    have e : unbanCalls acts (ids ++ [y]) = unbanCalls acts ids ++ acts.map (fun b => Call.unban b y) := by
      simp [unbanCalls]
    rw [e, ← List.append_assoc, applied_unbans1, ih]
    by_cases ha : a ∈ acts
    · by_cases hy : y = x
      · subst hy; simp [ha]
      · have : ¬ x = y := fun e => hy e.symm
        simp [ha, hy, this]
    · simp [ha]

/-- flushes and checks never ban -/
theorem applied_flushes (env : Env) (a : String) (x : Fid) (tr cs : List Call) (h : ∀ c ∈ cs, isFlushOrCheck c = true)
    (hf : applied env a x tr = false) : applied env a x (tr ++ cs) = false := by
  induction cs using list_snoc_induction with
  | nil => simpa using hf
  | snoc cs c ih =>
    rw [← List.append_assoc, applied_snoc]
    have hc := h c (by simp)
    have := ih (fun d hd => h d (by simp [hd]))
    cases c <;> simp_all [isFlushOrCheck]

/-! ### the invariant -/

/-- The commands executed with action `a` match the ban list. -/
structure Matches (env : Env) (a : String) (nr : Bool) (s : Actions) : Prop where
  /-- whatever is banned with the action is in the ban list -/
  sound : ∀ x, applied env a x s.trace = true → Banned s.bm x
  /-- whatever is in the ban list is banned with the action, except restored bans if the action skips these -/
  complete : ∀ x t, s.bm.banList.get? x = some t → (nr = true → t.restored = false) → applied env a x s.trace = true
  /-- tickets are stored under their address -/
  keyId : BanManager.KeyId s.bm
  /-- the action is configured -/
  mem : ∃ act, (a, act) ∈ config s ∧ act.norestored = nr

theorem mem_keys_of_config {s : Actions} {a : String} {act : Action} (h : (a, act) ∈ config s) : a ∈ s.actions.keys := by
  rw [← config_keys]; exact List.mem_map_of_mem (f := Prod.fst) h

theorem mem_banners {s : Actions} {a : String} {act : Action} (h : (a, act) ∈ config s) (r : Bool) :
    a ∈ banners s.actions.items r ↔ (r && act.norestored) = false := by
  rw [← banners_config]
  unfold banners
  have hnd : ((config s).map Prod.fst).Nodup := by rw [config_keys]; exact s.actions.keys_nodup
  constructor
  · intro hm
    obtain ⟨kv, hkv, e⟩ := List.mem_map.1 hm
    rw [List.mem_filter] at hkv
    have h1 := (Dict.lookup_eq_some_iff hnd a act).2 h
    have h2 := (Dict.lookup_eq_some_iff hnd kv.1 kv.2).2 hkv.1
    rw [e] at h2
    rw [h1] at h2
    cases h2
    cases hrn : (r && kv.2.norestored) with
    | false => rfl
    | true => rw [hrn] at hkv; exact absurd hkv.2 (by simp)
  · intro hr
    exact List.mem_map.2 ⟨(a, act), List.mem_filter.2 ⟨h, by rw [hr]; rfl⟩, rfl⟩

theorem banned_iff_mem (b : BanManager) (x : Fid) : Banned b x ↔ x ∈ b.banList.keys := (Dict.mem_keys_iff _ _).symm

/-- the stored tickets differ at most in ban time, banned flag, epoch -/
def SameStored (b b' : BanManager) : Prop :=
  b'.banList.keys = b.banList.keys ∧
  ∀ x t', b'.banList.get? x = some t' → ∃ t, b.banList.get? x = some t ∧ t'.id = t.id ∧ t'.restored = t.restored

theorem SameBans.stored {b b' : BanManager} (h : SameBans b b') : SameStored b b' := by
  refine ⟨h.keys, ?_⟩
  intro x t' hx
  have := h.tickets x
  rw [hx] at this
  cases hg : b.banList.get? x with
  | none => rw [hg] at this; simp at this
  | some t =>
    rw [hg] at this
    simp only [Option.map_some, Option.some.injEq] at this
    refine ⟨t, rfl, ?_, ?_⟩
    · have := congrArg Ticket.id this; exact this
    · have := congrArg Ticket.restored this; exact this

theorem SameStored.trans {a b c : BanManager} (h : SameStored a b) (k : SameStored b c) : SameStored a c := by
  refine ⟨k.1.trans h.1, ?_⟩
  intro x t hx
  obtain ⟨t1, e1, e2, e3⟩ := k.2 x t hx
  obtain ⟨t2, f1, f2, f3⟩ := h.2 x t1 e1
  exact ⟨t2, f1, e2.trans f2, e3.trans f3⟩

theorem Matches.of_stored {env : Env} {a : String} {nr : Bool} {s s' : Actions} (h : Matches env a nr s)
    (hst : SameStored s.bm s'.bm) (hcfg : config s' = config s)
    (hap : ∀ x, applied env a x s.trace = true → applied env a x s'.trace = true)
    (hap' : ∀ x, applied env a x s'.trace = true → applied env a x s.trace = true ∨ Banned s.bm x) :
    Matches env a nr s' := by
  refine ⟨?_, ?_, ?_, ?_⟩
  · intro x hx
    rw [banned_iff_mem, hst.1, ← banned_iff_mem]
    rcases hap' x hx with h1 | h1
    · exact h.sound x h1
    · exact h1
  · intro x t hx hr
    obtain ⟨t1, e1, _, e3⟩ := hst.2 x t hx
    exact hap x (h.complete x t1 e1 (fun hn => by rw [← e3]; exact hr hn))
  · intro x t hx
    obtain ⟨t1, e1, e2, _⟩ := hst.2 x t hx
    rw [e2]; exact h.keyId x t1 e1
  · rw [hcfg]; exact h.mem

theorem matches_ban (env : Env) (a : String) (nr : Bool) (now : Int) (s : Actions) (ra : List String) (t : Ticket)
    (h : Matches env a nr s) : Matches env a nr (s.checkBanOne env now ra t).s := by
  by_cases he : ends t s.bm.banTime < now
  · rw [C17_expired env now s ra t he]; exact h
  · by_cases hb : Banned s.bm t.id
    · obtain ⟨_, ⟨checks, rebans, _, h2⟩, hkeys, _, hcfg⟩ := C17_already env now s ra t (by omega) hb
      have hst : SameStored s.bm (s.checkBanOne env now ra t).s.bm := by
        obtain ⟨old, hold⟩ := hb
        have hbm := BanManager.addBan_old s.bm now { t with isBan := true } old (by rw [ends_isBan]; omega) hold
        have h1 : SameStored s.bm (s.bm.addBanTicket now { t with isBan := true }).2 := by
          rw [hbm]
          split
          · refine ⟨Dict.keys_insert_of_mem _ ((Dict.mem_keys_iff _ _).2 ⟨_, hold⟩) _, ?_⟩
            intro x t' hx
            dsimp only at hx
            rw [Dict.get?_insert] at hx
            by_cases e : x = t.id
            · rw [if_pos e] at hx
              cases hx
              exact ⟨old, by rw [e]; exact hold, rfl, rfl⟩
            · rw [if_neg e] at hx
              exact ⟨t', hx, rfl, rfl⟩
          · exact ⟨rfl, fun x t' hx => ⟨t', hx, rfl, rfl⟩⟩
        refine h1.trans ?_
        unfold checkBanOne
        dsimp only
        by_cases hlt : ends old s.bm.banTime < ends { t with isBan := true } s.bm.banTime
        · rw [if_pos hlt] at hbm
          rw [hbm]
          generalize old.setBanTime (BanManager.prolongTime old { t with isBan := true } s.bm.banTime) = nt
          have k := (alreadyBanned_spec env now { s with bm := { s.bm with banList := s.bm.banList.insert t.id nt } } ra t nt).2.1
          exact SameBans.stored k
        · rw [if_neg hlt] at hbm
          rw [hbm]
          have k := (alreadyBanned_spec env now s ra t old).2.1
          exact SameBans.stored k
      have hap : ∀ x, applied env a x (s.checkBanOne env now ra t).s.trace =
          (decide (a ∈ rebans ∧ t.id = x) || applied env a x s.trace) := by
        intro x
        rw [h2, applied_rebans, applied_neutral]
        intro c hc
        obtain ⟨b, _, rfl⟩ := List.mem_map.1 hc
        trivial
      refine h.of_stored hst hcfg ?_ ?_
      · intro x hx; rw [hap, hx]; simp
      · intro x hx
        rw [hap] at hx
        simp only [Bool.or_eq_true, decide_eq_true_eq] at hx
        rcases hx with hx | hx
        · right; rw [← hx.2]; exact hb
        · left; exact hx
    · obtain ⟨_, _, _, htr, hkeys, _, ⟨t', hg, ht', _⟩, hcfg⟩ := C17_new_ban env now s ra t (by omega) hb
      have hst : ∀ x, x ≠ t.id → ∀ u, (s.checkBanOne env now ra t).s.bm.banList.get? x = some u →
          ∃ u0, s.bm.banList.get? x = some u0 ∧ u.id = u0.id ∧ u.restored = u0.restored := by
        intro x hx u hu
        have hbn : s.bm.banList.get? t.id = none := by
          cases hg : s.bm.banList.get? t.id with
          | none => rfl
          | some d => exact absurd ⟨d, hg⟩ hb
        have hbm := BanManager.addBan_new s.bm now { t with isBan := true } (by rw [ends_isBan]; omega) hbn
        have h2 : SameStored (s.bm.addBanTicket now { t with isBan := true }).2 (s.checkBanOne env now ra t).s.bm := by
          have k := (newBan_spec env { s with bm := (s.bm.addBanTicket now { t with isBan := true }).2 } t).2.1
          unfold checkBanOne
          dsimp only
          have h1 : (s.bm.addBanTicket now { t with isBan := true }).1 = .banned := by rw [hbm]
          rw [h1]
          exact SameBans.stored k
        obtain ⟨u0, e1, e2, e3⟩ := h2.2 x u hu
        rw [hbm] at e1
        dsimp only at e1
        rw [Dict.get?_insert_ne _ hx] at e1
        exact ⟨u0, e1, e2, e3⟩
      obtain ⟨act, hact, hnr⟩ := h.mem
      have hap : ∀ x, applied env a x (s.checkBanOne env now ra t).s.trace =
          (decide ((t.restored && nr) = false ∧ t.id = x) || applied env a x s.trace) := by
        intro x
        rw [htr]
        unfold banCalls
        have e : s.trace ++ ((if s.observer = true ∧ t.restored = false then [Call.banFound t.id] else []) ++
            Call.logBan t.id t.restored :: (banners s.actions.items t.restored).map (fun a => Call.ban a t.id))
          = (s.trace ++ ((if s.observer = true ∧ t.restored = false then [Call.banFound t.id] else []) ++
            [Call.logBan t.id t.restored])) ++ (banners s.actions.items t.restored).map (fun a => Call.ban a t.id) := by simp
        rw [e, applied_bans, applied_neutral]
        · congr 1
          rw [decide_eq_decide, mem_banners hact, hnr]
        · intro c hc
          simp only [List.mem_append, List.mem_singleton] at hc
          rcases hc with hc | rfl
          · split at hc
            · simp only [List.mem_singleton] at hc; subst hc; trivial
            · cases hc
          · trivial
      refine ⟨?_, ?_, ?_, ?_⟩
      · intro x hx
        rw [hap] at hx
        simp only [Bool.or_eq_true, decide_eq_true_eq] at hx
        rw [banned_iff_mem, hkeys, List.mem_append]
        rcases hx with hx | hx
        · right; simp [hx.2]
        · left; rw [← banned_iff_mem]; exact h.sound x hx
      · intro x u hu hr
        rw [hap]
        by_cases e : x = t.id
        · subst e
          rw [hg] at hu
          cases hu
          have hres : t'.restored = t.restored := by rw [ht']
          cases nr with
          | true => rw [← hres, hr rfl]; simp
          | false => simp
        · obtain ⟨u0, f1, _, f3⟩ := hst x e u hu
          rw [h.complete x u0 f1 (fun hn => by rw [← f3]; exact hr hn)]; simp
      · intro x u hu
        by_cases e : x = t.id
        · subst e
          rw [hg] at hu
          cases hu
          rw [ht']
        · obtain ⟨u0, f1, f2, _⟩ := hst x e u hu
          rw [f2]; exact h.keyId x u0 f1
      · rw [hcfg]; exact h.mem

theorem matches_bans (env : Env) (a : String) (nr : Bool) (now : Int) (ts : List Ticket) (ra : List String) (cnt : Nat)
    (s : Actions) (h : Matches env a nr s) : Matches env a nr (checkBanLoop env now ts ra cnt s).2.2.2 := by
  induction ts generalizing ra cnt s with
  | nil => exact h
  | cons t ts ih =>
    simp only [checkBanLoop]
    have h1 := matches_ban env a nr now s ra t h
    split
    · exact h1
    · exact ih _ _ _ h1

/-- bans leave the list together with their unban calls -/
theorem Matches.of_released {env : Env} {a : String} {nr : Bool} {s s' : Actions} (h : Matches env a nr s)
    (ids : List Fid) (hcfg : config s' = config s)
    (hget : ∀ x t, s'.bm.banList.get? x = some t ↔ s.bm.banList.get? x = some t ∧ x ∉ ids)
    (hap : ∀ x, applied env a x s'.trace = (!(decide (x ∈ ids)) && applied env a x s.trace)) :
    Matches env a nr s' := by
  refine ⟨?_, ?_, ?_, ?_⟩
  · intro x hx
    rw [hap] at hx
    simp only [Bool.and_eq_true, Bool.not_eq_true', decide_eq_false_iff_not] at hx
    obtain ⟨t, ht⟩ := h.sound x hx.2
    exact ⟨t, (hget x t).2 ⟨ht, hx.1⟩⟩
  · intro x t hx hr
    have := (hget x t).1 hx
    rw [hap, h.complete x t this.1 hr]
    simp [this.2]
  · intro x t hx
    exact h.keyId x t ((hget x t).1 hx).1
  · rw [hcfg]; exact h.mem

theorem matches_expire (env : Env) (a : String) (nr : Bool) (now : Int) (n : Nat) (s : Actions) (h : Matches env a nr s) :
    Matches env a nr (s.checkUnBan env now n).2 := by
  obtain ⟨_, hbm, htr, hcfg⟩ := C18_expiry env now s n
  obtain ⟨act, hact, _⟩ := h.mem
  have hids : (s.bm.unBanList now n).1.map Ticket.id = (BanManager.releasedItems s.bm now n).map Prod.fst := by
    rw [BanManager.unBanList_fst, List.map_map]
    apply List.map_congr_left
    intro kv hkv
    exact h.keyId kv.1 kv.2 ((Dict.get?_eq_some_iff _ _ _).2 ((BanManager.releasedItems_sublist s.bm now n).subset hkv))
  refine h.of_released ((s.bm.unBanList now n).1.map Ticket.id) hcfg ?_ ?_
  · intro x t
    rw [hbm, Dict.get?_eq_some_iff, BanManager.unBanList_items, List.mem_filter, Dict.get?_eq_some_iff, hids]
    simp
  · intro x
    rw [htr]
    have e : s.trace ++ Call.expiry n :: unbanCalls s.actions.keys ((s.bm.unBanList now n).1.map Ticket.id)
      = (s.trace ++ [Call.expiry n]) ++ unbanCalls s.actions.keys ((s.bm.unBanList now n).1.map Ticket.id) := by simp
    rw [e, applied_unbans, applied_neutral]
    · simp [mem_keys_of_config hact]
    · intro c hc; simp only [List.mem_singleton] at hc; subst hc; trivial

theorem matches_removeObj (env : Env) (a : String) (nr : Bool) (db ife : Bool) (x : Fid) (s : Actions)
    (h : Matches env a nr s) : Matches env a nr (s.removeObj env db ife x).2 := by
  obtain ⟨_, hbm, htr, hcfg⟩ := removeObj_spec env s db ife x h.keyId
  obtain ⟨act, hact, _⟩ := h.mem
  refine h.of_released [x] hcfg.config ?_ ?_
  · intro y t
    rw [hbm]
    dsimp only
    rw [Dict.get?_erase]
    by_cases e : y = x
    · simp [e]
    · simp [e]
  · intro y
    have hdb : applied env a y (s.trace ++ dbCalls (db && s.hasDb) x) = applied env a y s.trace := by
      apply applied_neutral
      intro c hc
      unfold dbCalls at hc
      split at hc
      · simp only [List.mem_singleton] at hc; subst hc; trivial
      · cases hc
    rw [htr]
    by_cases hm : x ∈ s.bm.banList.keys
    · rw [if_pos hm, applied_unbans1, hdb]
      have : a ∈ s.actions.keys := mem_keys_of_config hact
      by_cases e : y = x
      · subst e; simp [this]
      · have e' : ¬ x = y := fun e' => e e'.symm
        simp [e, e']
    · rw [if_neg hm, List.append_nil, hdb]
      by_cases e : y = x
      · subst e
        cases hc : applied env a y s.trace with
        | false => simp
        | true => exact absurd ((banned_iff_mem _ _).1 (h.sound y hc)) hm
      · simp [e]

theorem matches_removeLoop (env : Env) (a : String) (nr : Bool) (rm : Actions → Fid → Option Nat × Actions) (ife : Bool)
    (hrm : ∀ s x, Matches env a nr s → Matches env a nr (rm s x).2) (l : List Fid) (cnt : Nat) (missed : List Fid)
    (s : Actions) (h : Matches env a nr s) : Matches env a nr (removeLoop rm ife l cnt missed s).2.2 := by
  induction l generalizing cnt missed s with
  | nil => exact h
  | cons x l ih =>
    simp only [removeLoop]
    have h1 := hrm s x h
    generalize rm s x = q at *
    obtain ⟨q1, q2⟩ := q
    cases q1 with
    | some n => exact ih _ _ _ h1
    | none => exact ih _ _ _ h1

theorem matches_removeStr (env : Env) (a : String) (nr : Bool) (net : Fid → Option (Fid → Bool)) (db ife : Bool) (s : Actions)
    (x : Fid) (h : Matches env a nr s) : Matches env a nr (removeStr env net db ife s x).2 := by
  have h1 := matches_removeObj env a nr db ife x s h
  unfold removeObj at h1
  unfold removeStr
  dsimp only at h1 ⊢
  generalize (s.dbDelete db x).bm.getTicketByID x = q at *
  obtain ⟨q1, q2⟩ := q
  cases q1 with
  | some t => exact h1
  | none =>
    dsimp only at h1 ⊢
    cases hnet : net x with
    | none => simp only [ne_eq, not_true, if_false]; exact h1
    | some f =>
      dsimp only
      by_cases he : (q2.getBanList false).filter f = []
      · rw [if_neg (by simp [he])]; exact h1
      · rw [if_pos he]
        exact matches_removeLoop env a nr _ ife (fun s y hs => matches_removeObj env a nr db ife y s hs) _ 0 [] _ h1

theorem matches_flush (env : Env) (henv : ChecksReturn env) (a : String) (nr : Bool) (db : Bool) (s : Actions)
    (hfl : ∀ act tr, (a, act) ∈ config s → act.canCheck = true → (env (tr ++ [.flush a])).raised = false)
    (h : Matches env a nr s) : Matches env a nr (s.flushBan env db none).2.2 := by
  have hf := C18_flush_returns env henv s db none
  have hq : s.flushBan env db none = ((s.flushBan env db none).1, false, (s.flushBan env db none).2.2) := by
    generalize s.flushBan env db none = q at *
    obtain ⟨q1, q2, q3⟩ := q
    simp only at hf
    subst hf
    rfl
  obtain ⟨_, hitems, _, hcfg, fl, left, htr, hall, hflush, hleft, hiff⟩ := C18_flush env s db _ _ hq
  generalize (s.flushBan env db none).2.2 = s' at *
  have hnone : ∀ x t, s'.bm.banList.get? x ≠ some t := by
    intro x t hx
    rw [Dict.get?_eq_some_iff, hitems] at hx
    cases hx
  obtain ⟨act, hact, hnr⟩ := h.mem
  obtain ⟨kv, hkv, hkve⟩ := List.mem_map.1 hact
  obtain ⟨n0, act0⟩ := kv
  cases hkve
  refine ⟨?_, fun x t hx => absurd hx (hnone x t), fun x t hx => absurd hx (hnone x t), by rw [hcfg]; exact h.mem⟩
  intro x hx
  exfalso
  rw [htr, applied_unbans] at hx
  simp only [Bool.and_eq_true, Bool.not_eq_true', decide_eq_false_iff_not] at hx
  obtain ⟨hx1, hx2⟩ := hx
  have hdb : ∀ c ∈ (if db = true ∧ s.hasDb = true then [Call.dbDel none] else []), neutral c := by
    intro c hc
    split at hc
    · simp only [List.mem_singleton] at hc; subst hc; trivial
    · cases hc
  rw [applied_neutral _ _ _ _ _ hdb] at hx2
  have hvals : ∀ y, y ∈ s.bm.banList.values.map Ticket.id ↔ y ∈ s.bm.banList.keys := by
    intro y
    have : s.bm.banList.values.map Ticket.id = s.bm.banList.keys := by
      unfold Dict.values Dict.keys
      rw [List.map_map]
      apply List.map_congr_left
      intro kv hkv
      exact h.keyId kv.1 kv.2 ((Dict.get?_eq_some_iff _ _ _).2 hkv)
    rw [this]
  by_cases hl : n0 ∈ left
  · -- not flushed: unbanned one by one
    have hnot : x ∉ s.bm.banList.keys := fun hm => hx1 ⟨hl, (hvals x).2 hm⟩
    have hno : applied env n0 x s.trace = false := by
      cases hc : applied env n0 x s.trace with
      | false => rfl
      | true => exact absurd ((banned_iff_mem _ _).1 (h.sound x hc)) hnot
    rw [applied_flushes env n0 x s.trace fl hall hno] at hx2
    cases hx2
  · -- flushed
    have hni := mt (hiff (n0, act0) hkv).2 hl
    simp only [not_or] at hni
    have hcan : act0.canFlush = true := by
      cases hc : act0.canFlush with
      | true => rfl
      | false => exact absurd hc hni.1
    have hmem : Call.flush n0 ∈ fl := by
      have : Call.flush n0 ∈ fl.filter isFlush := by
        rw [hflush]
        exact List.mem_map.2 ⟨(n0, act0), List.mem_filter.2 ⟨hkv, hcan⟩, rfl⟩
      exact (List.mem_filter.1 this).1
    obtain ⟨p, q, hpq⟩ := List.append_of_mem hmem
    have hres : (env (s.trace ++ p ++ [Call.flush n0])).raised = false ∧ (env (s.trace ++ p ++ [Call.flush n0])).ret = true := by
      have hno := fun hh => hni.2 ⟨p, q, hpq, hh⟩
      cases hr : (env (s.trace ++ p ++ [Call.flush n0])).raised with
      | true =>
        cases hck : act0.canCheck with
        | false => exact absurd (.inl ⟨hr, hck⟩) hno
        | true =>
          have := hfl (static act0) (s.trace ++ p) hact hck
          rw [hr] at this; cases this
      | false =>
        cases hret : (env (s.trace ++ p ++ [Call.flush n0])).ret with
        | true => exact ⟨rfl, rfl⟩
        | false => exact absurd (.inr ⟨hr, hret⟩) hno
    have hfalse : applied env n0 x (s.trace ++ p ++ [Call.flush n0]) = false := by
      rw [applied_snoc]
      dsimp only
      rw [if_pos ⟨rfl, hres.1, hres.2⟩]
    have := applied_flushes env n0 x (s.trace ++ p ++ [Call.flush n0]) q
      (fun c hc => hall c (by rw [hpq]; simp [hc])) hfalse
    rw [hpq] at hx2
    have e : s.trace ++ (p ++ Call.flush n0 :: q) = s.trace ++ p ++ [Call.flush n0] ++ q := by simp
    rw [e, this] at hx2
    cases hx2

theorem prolongLoop_spec (env : Env) (fid : Fid) (r : Bool) (l : List (String × Action)) (s : Actions) :
    ∃ done : List String, done = (l.filter (fun kv => !(r && kv.2.norestored) && kv.2.prolongable)).map Prod.fst ∧
      (prolongLoop env fid r l s).trace = s.trace ++ done.map (fun a => Call.prolong a fid) ∧
      Same s (prolongLoop env fid r l s) := by
  induction l generalizing s with
  | nil => exact ⟨[], rfl, by simp [prolongLoop], Same.refl s⟩
  | cons kv l ih =>
    obtain ⟨n, act⟩ := kv
    simp only [prolongLoop]
    by_cases h1 : (r && act.norestored) = true
    · rw [if_pos h1]
      obtain ⟨done, e1, e2⟩ := ih s
      exact ⟨done, by rw [e1, List.filter_cons_of_neg (by simp [h1])], e2⟩
    · rw [if_neg h1]
      by_cases h2 : act.prolongable = true
      · rw [h2]
        simp only [Bool.not_true, Bool.false_eq_true, if_false]
        obtain ⟨done, e1, e2, e3⟩ := ih (s.call env n (.prolong n fid)).2
        refine ⟨n :: done, ?_, ?_, (call_same env s n _).trans e3⟩
        · rw [List.filter_cons_of_pos (by simp [h1, h2]), List.map_cons, ← e1]
        · rw [e2, call_trace]; simp
      · simp only [h2, Bool.not_false, if_true]
        obtain ⟨done, e1, e2⟩ := ih s
        exact ⟨done, by rw [e1, List.filter_cons_of_neg (by simp [h2])], e2⟩

theorem matches_prolong (env : Env) (a : String) (nr : Bool) (t : Ticket) (s : Actions) (h : Matches env a nr s) :
    Matches env a nr (s.prolongBan env t) := by
  unfold prolongBan
  split
  · obtain ⟨done, _, htr, hs⟩ := prolongLoop_spec env t.id t.restored s.actions.items s
    have hap : ∀ x, applied env a x (prolongLoop env t.id t.restored s.actions.items s).trace = applied env a x s.trace := by
      intro x
      rw [htr]
      apply applied_neutral
      intro c hc
      obtain ⟨b, _, rfl⟩ := List.mem_map.1 hc
      trivial
    refine h.of_stored ?_ hs.config (fun x hx => by rw [hap]; exact hx) (fun x hx => .inl (by rw [← hap]; exact hx))
    rw [hs.bm]
    exact ⟨rfl, fun x t' hx => ⟨t', hx, rfl, rfl⟩⟩
  · exact h

theorem jailop_config (env : Env) (s : Actions) (op : JailOp) :
    config (op.step env s) = config s := by
  cases op with
  | ban now ts =>
    show config (checkBanLoop env now ts [] 0 s).2.2.2 = _
    have : ∀ ra cnt s, config (checkBanLoop env now ts ra cnt s).2.2.2 = config s := by
      induction ts with
      | nil => intros; rfl
      | cons t ts ih =>
        intro ra cnt s
        simp only [checkBanLoop]
        split
        · exact (checkBanOne_frame env now s ra t).1.config
        · rw [ih]; exact (checkBanOne_frame env now s ra t).1.config
    exact this [] 0 s
  | expire now n => exact (C18_expiry env now s n).2.2.2
  | unban net db ife ips =>
    have hobj : ∀ s x, SameCfg s (removeObj env s db ife x).2 := by
      intro s x
      unfold removeObj
      have hdb : SameCfg s (s.dbDelete db x) := by
        unfold dbDelete; split <;> exact ⟨rfl, rfl, rfl, rfl⟩
      dsimp only
      split
      · obtain ⟨_, k2⟩ := unBan_spec env { s.dbDelete db x with bm := ((s.dbDelete db x).bm.getTicketByID x).2 } ‹Ticket›.id none
        exact hdb.trans ⟨k2.config, k2.observer, k2.hasDb, k2.reloading⟩
      · exact ⟨hdb.config, hdb.observer, hdb.hasDb, hdb.reloading⟩
    have hloop : ∀ (rm : Actions → Fid → Option Nat × Actions), (∀ s x, config (rm s x).2 = config s) →
        ∀ l cnt missed s, config (removeLoop rm ife l cnt missed s).2.2 = config s := by
      intro rm hrm l
      induction l with
      | nil => intros; rfl
      | cons x l ih =>
        intro cnt missed s
        simp only [removeLoop]
        have := hrm s x
        generalize rm s x = q at *
        obtain ⟨q1, q2⟩ := q
        cases q1 <;> exact (ih _ _ _).trans this
    have hstr : ∀ s x, config (removeStr env net db ife s x).2 = config s := by
      intro s x
      have h1 := (hobj s x).config
      unfold removeObj at h1
      unfold removeStr
      dsimp only at h1 ⊢
      generalize (s.dbDelete db x).bm.getTicketByID x = q at *
      obtain ⟨q1, q2⟩ := q
      cases q1 with
      | some t => exact h1
      | none =>
        dsimp only at h1 ⊢
        cases hnet : net x with
        | none => simp only [ne_eq, not_true, if_false]; exact h1
        | some f =>
          dsimp only
          by_cases he : (q2.getBanList false).filter f = []
          · rw [if_neg (by simp [he])]; exact h1
          · rw [if_pos he]
            exact (hloop _ (fun s y => (hobj s y).config) _ 0 [] _).trans h1
    exact hloop _ hstr ips 0 [] s
  | flush db =>
    show config (s.flushBan env db none).2.2 = _
    unfold flushBan
    dsimp only [BanManager.flushBanList]
    obtain ⟨hs, _⟩ := flushLoop_spec env s.actions.items s.actions.nodup [] { s with bm := { s.bm with banList := Dict.empty } }
    simp only [Option.getD_none]
    generalize flushLoop env s.actions.items [] { s with bm := { s.bm with banList := Dict.empty } } = r at *
    obtain ⟨l, b, s1⟩ := r
    cases b with
    | true => exact hs.config
    | false =>
      dsimp only
      rw [(unbanTickets_spec env (some l) _ _).2.config]
      split <;> exact hs.config
  | prolong t =>
    show config (s.prolongBan env t) = _
    unfold prolongBan
    split
    · obtain ⟨_, _, _, hs⟩ := prolongLoop_spec env t.id t.restored s.actions.items s
      exact hs.config
    · rfl
  | setBanTime v => rfl
  | setTicketBanTime fid v =>
    show config (s.updTicket fid _) = _
    unfold config
    rw [(updTicket_trace s fid _).2.1]

/-- **C46.** Starting from a jail without bans, after every sequence of bans (new, repeated, restored, explicit), expiry
checks, explicit unbans, flushes, prolongations and changes of ban times, and for every pattern of failing commands: an
address is banned with action `a`, as far as the commands executed for it tell (the last of them that concerns the address
is a ban or re-ban, not an unban and not a successful flush), if and only if it is in the ban list — where a restored ban is
not required to be applied if `a` is marked `norestored`. Assumed is that consistency checks raise no exceptions and that
the flush of `a`, if its consistency is checked, raises none (see C18_refuted_when_flush_fails). -/
theorem C46_commands_match (env : Env) (henv : ChecksReturn env) (a : String) (act : Action) (s : Actions)
    (hact : (a, act) ∈ config s) (hempty : s.bm.banList.items = []) (htr : s.trace = [])
    (hfl : act.canCheck = true → ∀ tr, (env (tr ++ [.flush a])).raised = false) (ops : List JailOp) :
    let s' := ops.foldl (JailOp.step env) s
    (∀ x, applied env a x s'.trace = true → x ∈ s'.bm.banList.keys) ∧
    (∀ x t, s'.bm.banList.get? x = some t → (act.norestored = true → t.restored = false) →
      applied env a x s'.trace = true) := by
  intro s'
  have key : ∀ (ops : List JailOp) (s : Actions), (a, act) ∈ config s → Matches env a act.norestored s →
      Matches env a act.norestored (ops.foldl (JailOp.step env) s) := by
    intro ops
    induction ops with
    | nil => intro s _ h; exact h
    | cons op ops ih =>
      intro s hm h
      have hc := jailop_config env s op
      refine ih (op.step env s) (by rw [hc]; exact hm) ?_
      cases op with
      | ban now ts => exact matches_bans env a _ now ts [] 0 s h
      | expire now n => exact matches_expire env a _ now n s h
      | unban net db ife ips =>
        exact matches_removeLoop env a _ _ ife (fun s y hs => matches_removeStr env a _ net db ife s y hs) ips 0 [] s h
      | flush db =>
        refine matches_flush env henv a _ db s ?_ h
        intro act' tr hact' hck
        have hnd : ((config s).map Prod.fst).Nodup := by rw [config_keys]; exact s.actions.keys_nodup
        have h1 := (Dict.lookup_eq_some_iff hnd a act).2 hm
        have h2 := (Dict.lookup_eq_some_iff hnd a act').2 hact'
        rw [h1] at h2
        cases h2
        exact hfl hck tr
      | prolong t => exact matches_prolong env a _ t s h
      | setBanTime v =>
        exact h.of_stored ⟨rfl, fun x t' hx => ⟨t', hx, rfl, rfl⟩⟩ rfl (fun x hx => hx) (fun x hx => .inl hx)
      | setTicketBanTime fid v =>
        have ht := (updTicket_trace s fid (fun t => t.setBanTime v)).1
        refine h.of_stored ⟨updTicket_keys s fid _, ?_⟩ hc (fun x hx => ?_) (fun x hx => .inl ?_)
        · intro x t' hx
          have hx : (s.updTicket fid (fun t => t.setBanTime v)).bm.banList.get? x = some t' := hx
          rw [updTicket_get?] at hx
          cases hg : s.bm.banList.get? x with
          | none => rw [hg] at hx; simp at hx
          | some t =>
            rw [hg] at hx
            simp only [Option.map_some, Option.some.injEq] at hx
            refine ⟨t, rfl, ?_, ?_⟩ <;> (rw [← hx]; split <;> rfl)
        · show applied env a x (s.updTicket fid _).trace = true
          rw [ht]; exact hx
        · have hx : applied env a x (s.updTicket fid _).trace = true := hx
          rw [ht] at hx; exact hx
  have hno : ∀ x t, s.bm.banList.get? x ≠ some t := by
    intro x t hx
    rw [Dict.get?_eq_some_iff, hempty] at hx
    cases hx
  have hfin := key ops s hact ⟨fun x hx => by rw [htr] at hx; simp [applied, appliedRev] at hx, fun x t hx => absurd hx (hno x t), fun x t hx => absurd hx (hno x t), ⟨act, hact, rfl⟩⟩
  exact ⟨fun x hx => (banned_iff_mem _ _).1 (hfin.sound x hx), hfin.complete⟩

/-- a run with two actions: "a" is banned and unbanned, "b" expires, "c" stays (restored: not with "mail") -/
example :
    let ops : List JailOp := [.ban 1000 [exTicket "a" 1000 none, exTicket "b" 1000 (some 5), { exTicket "c" 1000 none with restored := true }],
      .unban (fun _ => none) true true ["a"], .expire 1010 20]
    let s := ops.foldl (JailOp.step exEnv) exActs
    s.bm.banList.keys = ["c"] ∧ applied exEnv "fw" "c" s.trace = true ∧ applied exEnv "mail" "c" s.trace = false ∧
      applied exEnv "fw" "a" s.trace = false ∧ applied exEnv "mail" "b" s.trace = false := by decide

end Verif
