import Verif.Lemmas.CommandItems

/-!
# What a call executes; prepared families
-/

namespace Verif.CmdAction

open Spec.CmdAction

/-! ## Segments of the trace -/

/-- `s'` is after `s`, with only commands about the environment in between. -/
def Ext (P : Event → Prop) (s s' : State) : Prop :=
  s'.cfg = s.cfg ∧ s.epoch ≤ s'.epoch ∧ ∃ seg, s'.trace = s.trace ++ seg ∧ ∀ e ∈ seg, P e

theorem Ext.refl (P : Event → Prop) (s : State) : Ext P s s := ⟨rfl, Nat.le_refl _, [], by simp, by simp⟩

theorem Ext.of {P : Event → Prop} {s s' : State} (hc : s'.cfg = s.cfg) (he : s'.epoch = s.epoch) (ht : s'.trace = s.trace) : Ext P s s' :=
  ⟨hc, by rw [he]; exact Nat.le_refl _, [], by simp [ht], by simp⟩

theorem Ext.trans {P : Event → Prop} {a b c : State} (h : Ext P a b) (h' : Ext P b c) : Ext P a c := by
  obtain ⟨h1, h2, s1, h3, h4⟩ := h
  obtain ⟨g1, g2, s2, g3, g4⟩ := h'
  refine ⟨g1.trans h1, Nat.le_trans h2 g2, s1 ++ s2, by rw [g3, h3, List.append_assoc], ?_⟩
  intro e he
  rcases List.mem_append.1 he with he | he
  · exact h4 e he
  · exact g4 e he

theorem Ext.weaken {P Q : Event → Prop} {a b : State} (h : Ext P a b) (hpq : ∀ e, P e → Q e) : Ext Q a b := by
  obtain ⟨h1, h2, s1, h3, h4⟩ := h
  exact ⟨h1, h2, s1, h3, fun e he => hpq e (h4 e he)⟩

theorem Ext.exec {P : Event → Prop} {env : Env} {s : State} {t : Tag} {f : Fam} {c : Cmd} (h : ∀ ok, P (.cmd t f c ok)) : Ext P s (exec env s t f c).2 := by
  by_cases hc : c = []
  · subst hc; rw [exec_nil]; exact Ext.refl P s
  · refine ⟨by simp, by simp, _, exec_of_ne env s t f hc, ?_⟩
    intro e he
    rw [List.mem_singleton] at he
    rw [he]; exact h _

@[simp] theorem afterStart_epoch (f : Fam) (r : Bool) (s : State) : (afterStart f r s).epoch = s.epoch := by unfold afterStart; split <;> simp
@[simp] theorem afterStop_epoch (f : Fam) (r : Bool) (s : State) : (afterStop f r s).epoch = s.epoch := by unfold afterStop; split <;> simp
@[simp] theorem afterFlush_epoch (f : Fam) (r : Bool) (s : State) : (afterFlush f r s).epoch = s.epoch := by
  unfold afterFlush; repeat (first | rfl | split)

/-- The commands of an operation. -/
theorem Ext.operation {P : Event → Prop} {env : Env} {t : Tag} {after : Fam → Bool → State → State} (hP : ∀ f c ok, P (.cmd t f c ok))
    (ha : ∀ f r s, (after f r s).cfg = s.cfg ∧ (after f r s).epoch = s.epoch ∧ (after f r s).trace = s.trace) (fs : List Fam) (res : Bool) (s : State) :
    Ext P s (operation env t after fs res s).2 := by
  induction fs generalizing res s with
  | nil => exact Ext.refl P s
  | cons f fs ih =>
    unfold CmdAction.operation
    cases hop : s.cfg.op t f with
    | none => exact ih false s
    | some c =>
      refine Ext.trans ?_ (ih _ _)
      unfold operate
      dsimp only
      have hx : Ext P s (if c ≠ [] ∧ c ∉ executedOthers s t f then CmdAction.exec env s t f (env.dyn s.trace f c) else (true, s)).2 := by
        split
        · exact Ext.exec (hP f _)
        · exact Ext.refl P s
      generalize (if c ≠ [] ∧ c ∉ executedOthers s t f then CmdAction.exec env s t f (env.dyn s.trace f c) else (true, s)) = x at *
      obtain ⟨h1, h2, h3⟩ := ha f x.1 x.2
      exact hx.trans (Ext.of (by simp [h1]) (by simp [h2]) (by simp [h3]))

theorem Ext.start {env : Env} {s : State} (fam : Option Fam) (force : Bool) : Ext Starts s (start env fam force s).2 := by
  unfold CmdAction.start
  cases fam <;> dsimp only <;> split
  all_goals first
    | exact Ext.refl _ s
    | split
  all_goals first
    | exact Ext.refl _ s
    | exact Ext.operation (fun _ _ _ => trivial) (fun f r s => ⟨by simp, by simp, by simp⟩) _ _ _

theorem Ext.stopFam {env : Env} {s : State} (f : Fam) : Ext Service s (stopFam env f s).2 := by
  unfold CmdAction.stopFam
  split
  · exact Ext.refl _ s
  · exact Ext.trans (Ext.of rfl rfl rfl) (Ext.operation (fun _ _ _ => trivial) (fun f r s => ⟨by simp, by simp, by simp⟩) _ _ _)

theorem starts_service (e : Event) (h : Starts e) : Service e := by
  cases e with
  | cmd t f c ok => cases t <;> first | trivial | exact h.elim
  | call c => exact h.elim
  | done c ok => exact h.elim

theorem Ext.recheck {env : Env} {s : State} (f : Fam) (c : Cmd) : Ext Service s (recheck env f c s).2 := by
  unfold CmdAction.recheck
  split
  · split
    · exact Ext.exec (fun _ => trivial)
    · exact Ext.exec (fun _ => trivial)
  · exact Ext.refl _ s

theorem Ext.repair {env : Env} {s : State} (f : Fam) (force : Bool) (c : Cmd) : Ext Service s (repair env f force c s).2 ∧ s.epoch < (CmdAction.repair env f force c s).2.epoch := by
  unfold CmdAction.repair
  cases hop : s.cfg.op .repair f with
  | none => exact ⟨⟨rfl, by simp, [], by simp, by simp⟩, by simp⟩
  | some r =>
    dsimp only
    have h0 : Ext Service s { s with epoch := s.epoch + 1 } := ⟨rfl, by simp, [], by simp, by simp⟩
    have h1 : s.epoch < ({ s with epoch := s.epoch + 1 } : State).epoch := by simp
    generalize ({ s with epoch := s.epoch + 1 } : State) = s0 at *
    have key : ∀ s', Ext Service s0 s' → Ext Service s s' ∧ s.epoch < s'.epoch := fun s' h' => ⟨h0.trans h', Nat.lt_of_lt_of_le h1 h'.2.1⟩
    split
    · have h2 : Ext Service s0 (CmdAction.exec env s0 .repair f r).2 := Ext.exec (fun _ => trivial)
      generalize CmdAction.exec env s0 .repair f r = y at *
      split
      · exact key _ (h2.trans (Ext.trans (Ext.of rfl rfl rfl) (Ext.recheck f c)))
      · exact key _ (h2.trans (Ext.of rfl rfl rfl))
    · have h2 : Ext Service s0 (CmdAction.restart env f force s0).2 := (Ext.stopFam f).trans ((Ext.start (some f) _).weaken starts_service)
      generalize CmdAction.restart env f force s0 = y at *
      split
      · exact key _ (h2.trans (Ext.recheck f c))
      · exact key _ h2

theorem Ext.invariantCheck {env : Env} {s : State} (f : Fam) (before : Option Bool) (force : Bool) :
    Ext Service s (invariantCheck env f before force s).2 ∧
      (s.epoch < (CmdAction.invariantCheck env f before force s).2.epoch ∨ Ext (fun e => Service e ∧ ¬ Restores e) s (CmdAction.invariantCheck env f before force s).2) := by
  have hc : ∀ c, Ext (fun e => Service e ∧ ¬ Restores e) s (CmdAction.exec env s .check f c).2 := fun c => Ext.exec (fun _ => ⟨trivial, fun h => h⟩)
  unfold CmdAction.invariantCheck
  split
  · exact ⟨Ext.refl _ s, Or.inr (Ext.refl _ s)⟩
  · cases hop : s.cfg.op .check f with
    | none => exact ⟨Ext.refl _ s, Or.inr (Ext.refl _ s)⟩
    | some c =>
      dsimp only
      have h1 := hc c
      generalize CmdAction.exec env s .check f c = y at *
      split
      · exact ⟨Ext.refl _ s, Or.inr (Ext.refl _ s)⟩
      · split
        · exact ⟨h1.weaken (fun _ h => h.1), Or.inr h1⟩
        · split
          · exact ⟨h1.weaken (fun _ h => h.1), Or.inr h1⟩
          · obtain ⟨h2, h3⟩ := Ext.repair (env := env) (s := y.2) f force c
            exact ⟨(h1.weaken (fun _ h => h.1)).trans h2, Or.inl (Nat.lt_of_le_of_lt h1.2.1 h3)⟩

/-- What `_processCmd` executes. -/
theorem process_spec {env : Env} {t : Tag} {f : Fam} {k : Nat} {s : State} {c : Cmd} (hop : s.cfg.proc t f k = some c) (hc : c ≠ []) :
    ((process env t f k s).1 = true ∧ (process env t f k s).2.trace = s.trace ++ [.cmd t f c true]) ∨
    ∃ mid, (∀ e ∈ mid, Service e) ∧ ((∃ e ∈ mid, Restores e) → s.epoch < (process env t f k s).2.epoch) ∧ (s.cfg.check = false → mid = []) ∧
      ((process env t f k s).2.trace = s.trace ++ .cmd t f c false :: (mid ++ [.cmd t f c (process env t f k s).1]) ∨
       (s.cfg.check = true ∧ (process env t f k s).1 = false ∧ (process env t f k s).2.trace = s.trace ++ .cmd t f c false :: mid)) := by
  unfold process
  rw [hop]
  dsimp only
  have htr := exec_of_ne env s t f hc
  have hep : (exec env s t f c).2.epoch = s.epoch := by simp
  generalize exec env s t f c = x at *
  cases hx : x.1 with
  | true => left; exact ⟨rfl, by rw [if_pos rfl, htr, hx]⟩
  | false =>
    right
    rw [if_neg (by simp)]
    cases hck : s.cfg.check with
    | false =>
      rw [if_neg (by simp)]
      refine ⟨[], by simp, by simp, by simp, Or.inl ?_⟩
      unfold again
      rw [exec_of_ne _ _ _ _ hc, htr, hx]; simp
    | true =>
      rw [if_pos rfl]
      obtain ⟨h1, h2⟩ := Ext.invariantCheck (env := env) (s := x.2) f (some (!(decide (t = .unban) && !s.cfg.repairOnUnban))) (decide (t ≠ .unban))
      generalize CmdAction.invariantCheck env f (some (!(decide (t = .unban) && !s.cfg.repairOnUnban))) (decide (t ≠ .unban)) x.2 = y at *
      obtain ⟨_, _, seg, h3, h4⟩ := h1
      have hres : (∃ e ∈ seg, Restores e) → s.epoch < y.2.epoch := by
        rintro ⟨e, he, hr⟩
        rcases h2 with h2 | ⟨_, _, seg', h5, h6⟩
        · omega
        · have : seg = seg' := List.append_cancel_left (h3.symm.trans h5)
          exact absurd hr (h6 e (this ▸ he)).2
      by_cases hy : y.1 = .sane
      · rw [if_pos hy]
        refine ⟨seg, h4, ?_, by simp, Or.inl ?_⟩
        · unfold again; rw [exec_epoch]; exact hres
        · unfold again
          rw [exec_of_ne _ _ _ _ hc, h3, htr, hx]; simp
      · rw [if_neg hy]
        exact ⟨seg, h4, hres, by simp, Or.inr ⟨rfl, rfl, by rw [h3, htr, hx]; simp⟩⟩

/-- The result of an operation tells whether all commands succeeded. -/
theorem operation_result {env : Env} {t : Tag} {after : Fam → Bool → State → State}
    (ha : ∀ f r s, (after f r s).cfg = s.cfg ∧ (after f r s).trace = s.trace) (fs : List Fam) (res : Bool) (s : State) :
    ∃ seg, (operation env t after fs res s).2.trace = s.trace ++ seg ∧
      ((operation env t after fs res s).1 = true ↔ res = true ∧ (∀ f ∈ fs, s.cfg.op t f ≠ none) ∧ ∀ g c ok, Event.cmd t g c ok ∈ seg → ok = true) := by
  induction fs generalizing res s with
  | nil => exact ⟨[], by simp [operation], by simp [operation]⟩
  | cons f fs ih =>
    unfold operation
    cases hop : s.cfg.op t f with
    | none =>
      obtain ⟨seg, h1, h2⟩ := ih false s
      refine ⟨seg, h1, ?_⟩
      rw [h2]
      simp [hop]
    | some c =>
      dsimp only
      have h2 : (operate env t after s f c).2.cfg = s.cfg := operate_cfg f c (fun f r s => (ha f r s).1)
      have hx : ∃ seg, (operate env t after s f c).2.trace = s.trace ++ seg ∧
          ((operate env t after s f c).1 = true ↔ ∀ g c ok, Event.cmd t g c ok ∈ seg → ok = true) := by
        unfold operate
        dsimp only
        split
        · by_cases hd : env.dyn s.trace f c = []
          · rw [hd, exec_nil]
            exact ⟨[], by simp [(ha f true s).2], by simp⟩
          · refine ⟨_, by rw [record_trace, (ha ..).2, exec_of_ne _ _ _ _ hd], ?_⟩
            generalize (exec env s t f (env.dyn s.trace f c)).1 = r
            constructor
            · intro hr g c' ok hm
              rw [List.mem_singleton] at hm
              cases hm; exact hr
            · intro hr
              exact hr f (env.dyn s.trace f c) r (by simp)
        · exact ⟨[], by simp [(ha f true s).2], by simp⟩
      obtain ⟨seg1, h1, h3⟩ := hx
      generalize operate env t after s f c = x at *
      obtain ⟨seg2, h4, h5⟩ := ih (res && x.1) x.2
      refine ⟨seg1 ++ seg2, by rw [h4, h1]; simp, ?_⟩
      rw [h5, Bool.and_eq_true, h3, h2]
      constructor
      · rintro ⟨⟨a, b⟩, d, e⟩
        refine ⟨a, ?_, ?_⟩
        · intro g hg
          rcases List.mem_cons.1 hg with rfl | hg
          · rw [hop]; simp
          · exact d g hg
        · intro g c' ok hm
          rcases List.mem_append.1 hm with hm | hm
          · exact b g c' ok hm
          · exact e g c' ok hm
      · rintro ⟨a, d, e⟩
        exact ⟨⟨a, fun g c' ok hm => e g c' ok (List.mem_append_left _ hm)⟩, fun g hg => d g (List.mem_cons_of_mem _ hg),
          fun g c' ok hm => e g c' ok (List.mem_append_right _ hm)⟩

/-- Every family of an operation with different commands gets its command. -/
theorem operation_each {env : Env} (hk : KeepsCommands env) {t : Tag} {after : Fam → Bool → State → State} (ha : ∀ f r s, (after f r s).cfg = s.cfg ∧ (after f r s).trace = s.trace)
    (hr : ∀ f r s, Rec s → Rec (after f r s)) (fs : List Fam) (res : Bool) {s : State} (hE : Each s.cfg t) (h : Rec s) :
    ∃ seg, (operation env t after fs res s).2.trace = s.trace ++ seg ∧ ∀ f ∈ fs, ∀ c, s.cfg.op t f = some c → ∃ A ok, .cmd t f (env.dyn A f c) ok ∈ seg := by
  induction fs generalizing res s with
  | nil => exact ⟨[], by simp [operation], by simp⟩
  | cons f fs ih =>
    unfold operation
    cases hop : s.cfg.op t f with
    | none =>
      obtain ⟨seg, h2, h3⟩ := ih false hE h
      refine ⟨seg, h2, ?_⟩
      intro g hg c hc
      rcases List.mem_cons.1 hg with rfl | hg
      · rw [hop] at hc; cases hc
      · exact h3 g hg c hc
    | some c =>
      dsimp only
      have hcfg : (operate env t after s f c).2.cfg = s.cfg := operate_cfg f c (fun f r s => (ha f r s).1)
      have hx : Rec (operate env t after s f c).2 ∧ (operate env t after s f c).2.trace = s.trace ++ [.cmd t f (env.dyn s.trace f c) (operate env t after s f c).1] := by
        unfold operate
        dsimp only
        rw [if_pos ⟨hE.nonempty f c hop, not_executed h hop hE.distinct⟩]
        refine ⟨(hr _ _ _ (h.congr (by simp) (by simp))).record (by rw [(ha ..).1, exec_cfg]; exact hop) _, ?_⟩
        rw [record_trace, (ha ..).2, exec_of_ne _ _ _ _ (hk _ _ _ (hE.nonempty f c hop))]
      generalize operate env t after s f c = x at *
      obtain ⟨seg, h4, h5⟩ := ih (res && x.1) (s := x.2) (by rw [hcfg]; exact hE) hx.1
      refine ⟨.cmd t f (env.dyn s.trace f c) x.1 :: seg, by rw [h4, hx.2]; simp, ?_⟩
      intro g hg c' hc'
      rcases List.mem_cons.1 hg with rfl | hg
      · rw [hop] at hc'; cases hc'
        exact ⟨_, _, List.mem_cons_self ..⟩
      · obtain ⟨A, ok, hm⟩ := h5 g hg c' (by rw [hcfg]; exact hc')
        exact ⟨A, ok, List.mem_cons_of_mem _ hm⟩

/-! ## Prepared families, whatever the commands -/

theorem begun_mono {env : Env} {c : Cmd} {A B : List Event} (h : Begun env c A) (hab : ∀ e ∈ A, e ∈ B) : Begun env c B := by
  rcases h with h | ⟨A', g, h | h⟩
  · exact Or.inl h
  · exact Or.inr ⟨A', g, Or.inl h⟩
  · exact Or.inr ⟨A', g, Or.inr (hab _ h)⟩

theorem prepared_mono {env : Env} {cfg : Config} {f : Fam} {A B : List Event} (h : Prepared env cfg f A) (hab : ∀ e ∈ A, e ∈ B) : Prepared env cfg f B := by
  rcases h with ⟨c, h1, h2⟩ | ⟨c, h⟩
  · exact Or.inl ⟨c, h1, begun_mono h2 hab⟩
  · exact Or.inr ⟨c, hab _ h⟩

/-- Every ban so far was one of a prepared family. -/
def BansPrepared (env : Env) (cfg : Config) (tr : List Event) : Prop :=
  ∀ A t f c ok B, tr = A ++ .cmd t f c ok :: B → t = .ban ∨ t = .reban → Prepared env cfg f A

/-- The invariant for one configuration. -/
structure InvB (env : Env) (cfg : Config) (s : State) : Prop where
  same : s.cfg = cfg
  recs : Rec s
  begun : ∀ g c, (s.executed .start).get? g = some c → Begun env c s.trace
  prep : ∀ f, isStarted s f = true → Prepared env cfg f s.trace
  bans : BansPrepared env cfg s.trace

theorem forget_get? {s : State} {t t' : Tag} {f g : Fam} {c : Cmd} (h : ((forget s t f).executed t').get? g = some c) : (s.executed t').get? g = some c := by
  unfold forget at h
  split at h
  · exact h
  · unfold setTag at h
    dsimp only at h
    split at h
    · rename_i e
      subst e
      rw [Dict.get?_filter, Dict.get?_erase] at h
      by_cases e : g = f
      · simp [e] at h
      · rw [if_neg e, Option.filter_eq_some_iff] at h
        exact h.1
    · exact h

theorem InvB.forget {env : Env} {cfg : Config} {s : State} (h : InvB env cfg s) (t : Tag) (f : Fam) : InvB env cfg (forget s t f) where
  same := by rw [forget_cfg]; exact h.same
  recs := h.recs.forget t f
  begun g c hg := by rw [forget_trace]; exact h.begun g c (forget_get? hg)
  prep g hg := by rw [forget_trace]; exact h.prep g (by rw [← hg]; exact (isStarted_congr (by simp) g).symm)
  bans := by rw [forget_trace]; exact h.bans

theorem InvB.set {env : Env} {cfg : Config} {s : State} (h : InvB env cfg s) (f : Fam) (v : Flags)
    (hv : (v.on || v.items) = true → Prepared env cfg f s.trace) : InvB env cfg (setStarted s f v) where
  same := h.same
  recs := h.recs.congr rfl rfl
  begun := h.begun
  prep g hg := by
    by_cases e : g = f
    · subst e; rw [isStarted_setStarted_self] at hg; exact hv hg
    · rw [isStarted_setStarted_ne _ e] at hg; exact h.prep g hg
  bans := h.bans

theorem InvB.exec {env : Env} {cfg : Config} {s : State} (h : InvB env cfg s) (t : Tag) (f : Fam) (c : Cmd)
    (hb : t = .ban ∨ t = .reban → Prepared env cfg f s.trace) : InvB env cfg (CmdAction.exec env s t f c).2 := by
  by_cases hc : c = []
  · subst hc; rw [exec_nil]; exact h
  · have htr := exec_of_ne env s t f hc
    have hsub : ∀ e ∈ s.trace, e ∈ (CmdAction.exec env s t f c).2.trace := by
      intro e he; rw [htr]; exact List.mem_append_left _ he
    refine ⟨by rw [exec_cfg]; exact h.same, h.recs.congr (by simp) (by simp), ?_, ?_, ?_⟩
    · intro g d hg; rw [exec_executed] at hg; exact begun_mono (h.begun g d hg) hsub
    · intro g hg; rw [isStarted_congr (exec_started ..)] at hg; exact prepared_mono (h.prep g hg) hsub
    · rw [htr]
      intro A t' f' c' ok B heq ht
      rcases List.eq_nil_or_concat B with rfl | ⟨B', b, rfl⟩
      · obtain ⟨h1, h2⟩ := List.append_inj' heq (by simp)
        cases h2
        rw [← h1]; exact hb ht
      · have : s.trace ++ [.cmd t f c (CmdAction.exec env s t f c).1] = (A ++ .cmd t' f' c' ok :: B') ++ [b] := by rw [heq]; simp
        obtain ⟨h1, _⟩ := List.append_inj' this (by simp)
        exact h.bans A t' f' c' ok B' h1 ht

theorem InvB.record {env : Env} {cfg : Config} {s : State} (h : InvB env cfg s) {t : Tag} {f : Fam} {c : Cmd} (hop : cfg.op t f = some c) (r : Bool)
    (hb : t = .start → r = true → Begun env c s.trace) : InvB env cfg (record s t f c r) := by
  refine ⟨by rw [record_cfg]; exact h.same, h.recs.record (by rw [h.same]; exact hop) r, ?_, ?_, by rw [record_trace]; exact h.bans⟩
  · intro g d hg
    rw [record_trace]
    unfold CmdAction.record at hg
    split at hg
    · rename_i hr
      unfold setTag at hg
      dsimp only at hg
      split at hg
      · rename_i e
        subst e
        by_cases e : g = f
        · subst e
          rw [Dict.get?_insert_self] at hg
          cases hg
          exact hb rfl hr.1
        · rw [Dict.get?_insert_ne _ e] at hg
          exact h.begun g d hg
      · exact h.begun g d hg
    · exact h.begun g d (forget_get? hg)
  · intro g hg
    rw [record_trace]
    exact h.prep g (by rw [← hg]; exact (isStarted_congr (by simp) g).symm)

theorem InvB.starts {env : Env} {cfg : Config} (fs : List Fam) (res : Bool) {s : State} (h : InvB env cfg s) :
    InvB env cfg (CmdAction.operation env .start afterStart fs res s).2 := by
  induction fs generalizing res s with
  | nil => exact h
  | cons f fs ih =>
    unfold CmdAction.operation
    cases hop : s.cfg.op .start f with
    | none => exact ih false h
    | some c =>
      refine ih _ ?_
      have hop' : cfg.op .start f = some c := by rw [← h.same]; exact hop
      unfold operate
      dsimp only
      have hx : InvB env cfg (if c ≠ [] ∧ c ∉ executedOthers s .start f then CmdAction.exec env s .start f (env.dyn s.trace f c) else (true, s)).2 ∧
          ((if c ≠ [] ∧ c ∉ executedOthers s .start f then CmdAction.exec env s .start f (env.dyn s.trace f c) else (true, s)).1 = true →
            Begun env c (if c ≠ [] ∧ c ∉ executedOthers s .start f then CmdAction.exec env s .start f (env.dyn s.trace f c) else (true, s)).2.trace) := by
        split
        · refine ⟨h.exec .start f _ (by simp), fun hr => ?_⟩
          by_cases hd : env.dyn s.trace f c = []
          · exact Or.inr ⟨s.trace, f, Or.inl hd⟩
          · refine Or.inr ⟨s.trace, f, Or.inr ?_⟩
            rw [exec_of_ne _ _ _ _ hd, hr]
            simp
        · rename_i hn
          refine ⟨h, fun _ => ?_⟩
          by_cases hc : c = []
          · exact Or.inl hc
          · have : c ∈ executedOthers s .start f := by
              apply Classical.byContradiction
              intro hm; exact hn ⟨hc, hm⟩
            unfold executedOthers at this
            obtain ⟨⟨g, v⟩, hp, rfl⟩ := List.mem_map.1 this
            rw [List.mem_filter] at hp
            exact h.begun g v ((Dict.get?_eq_some_iff _ _ _).2 hp.1)
      generalize (if c ≠ [] ∧ c ∉ executedOthers s .start f then CmdAction.exec env s .start f (env.dyn s.trace f c) else (true, s)) = x at *
      obtain ⟨h1, h2⟩ := hx
      have h3 : InvB env cfg (afterStart f x.1 x.2) := by
        unfold afterStart
        split
        · rename_i e
          exact (h1.forget .stop f).set f _ (fun _ => Or.inl ⟨c, hop', by rw [forget_trace]; exact h2 e⟩)
        · exact h1
      exact h3.record hop' _ (fun _ hr => by rw [afterStart_trace]; exact h2 hr)

theorem InvB.operation {env : Env} {cfg : Config} {t : Tag} {after : Fam → Bool → State → State} (ht : t ≠ .start ∧ t ≠ .ban ∧ t ≠ .reban)
    (ha : ∀ f r s, InvB env cfg s → InvB env cfg (after f r s)) (fs : List Fam) (res : Bool) {s : State} (h : InvB env cfg s) :
    InvB env cfg (CmdAction.operation env t after fs res s).2 := by
  induction fs generalizing res s with
  | nil => exact h
  | cons f fs ih =>
    unfold CmdAction.operation
    cases hop : s.cfg.op t f with
    | none => exact ih false h
    | some c =>
      refine ih _ ?_
      unfold operate
      dsimp only
      have hx : InvB env cfg (if c ≠ [] ∧ c ∉ executedOthers s t f then CmdAction.exec env s t f (env.dyn s.trace f c) else (true, s)).2 := by
        split
        · exact h.exec t f _ (by rintro (e | e) <;> simp_all)
        · exact h
      generalize (if c ≠ [] ∧ c ∉ executedOthers s t f then CmdAction.exec env s t f (env.dyn s.trace f c) else (true, s)) = x at *
      exact (ha f x.1 x.2 hx).record (by rw [← h.same]; exact hop) _ (fun e => absurd e ht.1)

theorem InvB.afterStop {env : Env} {cfg : Config} {s : State} (h : InvB env cfg s) (f : Fam) (r : Bool) : InvB env cfg (afterStop f r s) := by
  unfold CmdAction.afterStop
  split
  · exact h.forget .start f
  · exact h

theorem InvB.afterFlush {env : Env} {cfg : Config} {s : State} (h : InvB env cfg s) (f : Fam) (r : Bool) : InvB env cfg (afterFlush f r s) := by
  unfold CmdAction.afterFlush
  split
  · split
    · rename_i v hv
      split
      · rename_i e
        refine h.set f _ (fun _ => h.prep f ?_)
        simp only [isStarted, hv]; first | exact e | rfl
      · exact h
    · exact h
  · exact h

theorem InvB.start {env : Env} {cfg : Config} {s : State} (h : InvB env cfg s) (fam : Option Fam) (force : Bool) : InvB env cfg (start env fam force s).2 := by
  unfold CmdAction.start
  cases fam <;> dsimp only <;> split
  all_goals first
    | exact h
    | split
  all_goals first
    | exact h
    | exact h.starts _ _

/-- a forced start that returned -/
theorem start_forced {env : Env} {s : State} {f : Fam} (h : (start env (some f) true s).1 = true) : isStarted (start env (some f) true s).2 f = true := by
  unfold start at *
  simp only [Bool.not_true, Bool.and_false, Bool.false_and, Bool.false_eq_true, if_false] at *
  unfold operation at *
  cases hop : s.cfg.op .start f with
  | none => simp [hop, operation] at h
  | some c =>
    simp only [hop, operation, Bool.true_and] at *
    unfold operate at *
    dsimp only at *
    generalize (if c ≠ [] ∧ c ∉ executedOthers s .start f then exec env s .start f (env.dyn s.trace f c) else (true, s)) = x at *
    rw [isStarted_congr (record_started ..), h]
    simp [afterStart]

theorem InvB.stopFam {env : Env} {cfg : Config} {s : State} (h : InvB env cfg s) (f : Fam) : InvB env cfg (stopFam env f s).2 := by
  unfold CmdAction.stopFam
  split
  · exact h
  · exact (h.set f ⟨false, false⟩ (by simp)).operation (by simp) (fun f r s h => h.afterStop f r) _ _

theorem InvB.recheck {env : Env} {cfg : Config} {s : State} (h : InvB env cfg s) (f : Fam) (c : Cmd) : InvB env cfg (recheck env f c s).2 := by
  unfold CmdAction.recheck
  split
  · split
    · exact h.exec .check f c (by simp)
    · exact h.exec .check f c (by simp)
  · exact h

theorem recheck_isStarted {env : Env} {s : State} (f : Fam) (c : Cmd) : isStarted (recheck env f c s).2 f = isStarted s f := by
  unfold recheck
  split
  · split
    · exact isStarted_congr (by simp) f
    · exact isStarted_congr (by simp) f
  · rfl

theorem InvB.repair {env : Env} {cfg : Config} {s : State} (h : InvB env cfg s) (f : Fam) (force : Bool) (c : Cmd) :
    InvB env cfg (repair env f force c s).2 ∧ (force = true → (CmdAction.repair env f force c s).1 = .sane → isStarted (CmdAction.repair env f force c s).2 f = true) := by
  have h0 : InvB env cfg { s with epoch := s.epoch + 1 } := ⟨h.same, h.recs.congr rfl rfl, h.begun, h.prep, h.bans⟩
  unfold CmdAction.repair
  cases hop : s.cfg.op .repair f with
  | none => exact ⟨h0, by simp⟩
  | some r =>
    dsimp only
    generalize ({ s with epoch := s.epoch + 1 } : State) = s0 at *
    by_cases hr : r = []
    · rw [if_neg (by simp [hr])]
      have h2 : InvB env cfg (CmdAction.restart env f force s0).2 := (h0.stopFam f).start (some f) _
      have h3 : force = true → (CmdAction.restart env f force s0).1 = true → isStarted (CmdAction.restart env f force s0).2 f = true := by
        rintro rfl h; exact start_forced h
      generalize CmdAction.restart env f force s0 = y at *
      split
      · rename_i e
        exact ⟨h2.recheck f c, fun hf _ => by rw [recheck_isStarted]; exact h3 hf e⟩
      · exact ⟨h2, by simp⟩
    · rw [if_pos hr]
      have h2 : InvB env cfg (CmdAction.exec env s0 .repair f r).2 := h0.exec .repair f r (by simp)
      have htr := exec_of_ne env s0 .repair f hr
      generalize CmdAction.exec env s0 .repair f r = y at *
      split
      · rename_i e
        have h3 := h2.set f ⟨true, false⟩ (fun _ => Or.inr ⟨r, by rw [htr, e]; simp⟩)
        exact ⟨h3.recheck f c, fun _ _ => by rw [recheck_isStarted]; simp⟩
      · exact ⟨h2.set f ⟨false, false⟩ (by simp), by simp⟩

theorem InvB.invariantCheck {env : Env} {cfg : Config} {s : State} (h : InvB env cfg s) (f : Fam) (before : Option Bool) (force : Bool) :
    InvB env cfg (invariantCheck env f before force s).2 ∧ (force = true → isStarted s f = true → (CmdAction.invariantCheck env f before force s).1 = .sane →
      isStarted (CmdAction.invariantCheck env f before force s).2 f = true) := by
  unfold CmdAction.invariantCheck
  split
  · exact ⟨h, fun _ h _ => h⟩
  · cases hop : s.cfg.op .check f with
    | none => exact ⟨h, by simp⟩
    | some c =>
      dsimp only
      have h1 : InvB env cfg (CmdAction.exec env s .check f c).2 := h.exec .check f c (by simp)
      have h2 : isStarted (CmdAction.exec env s .check f c).2 f = isStarted s f := isStarted_congr (by simp) f
      generalize CmdAction.exec env s .check f c = y at *
      split
      · exact ⟨h, fun _ h _ => h⟩
      · split
        · exact ⟨h1, fun _ h _ => by rw [h2]; exact h⟩
        · split
          · exact ⟨h1, by simp⟩
          · obtain ⟨h3, h4⟩ := h1.repair (env := env) f force c
            exact ⟨h3, fun hf _ => h4 hf⟩

theorem InvB.process {env : Env} {cfg : Config} {s : State} (h : InvB env cfg s) (t : Tag) (f : Fam) (k : Nat)
    (hb : t = .ban ∨ t = .reban → isStarted s f = true) : InvB env cfg (process env t f k s).2 ∧
      (t = .ban ∨ t = .reban → (CmdAction.process env t f k s).1 = true → isStarted (CmdAction.process env t f k s).2 f = true) := by
  have key : ∀ s' c, InvB env cfg s' → (t = .ban ∨ t = .reban → isStarted s' f = true) → InvB env cfg (CmdAction.exec env s' t f c).2 ∧
      (t = .ban ∨ t = .reban → isStarted (CmdAction.exec env s' t f c).2 f = true) := by
    intro s' c h' hs'
    exact ⟨h'.exec t f c (fun hh => h'.prep f (hs' hh)), fun hh => by rw [isStarted_congr (exec_started ..)]; exact hs' hh⟩
  unfold CmdAction.process
  cases hop : s.cfg.proc t f k with
  | none => exact ⟨h, by simp⟩
  | some c =>
    dsimp only
    obtain ⟨h1, h2⟩ := key s c h hb
    generalize CmdAction.exec env s t f c = x at *
    split
    · exact ⟨h1, fun hh _ => h2 hh⟩
    · split
      · obtain ⟨h3, h4⟩ := h1.invariantCheck (env := env) f (some (!(decide (t = .unban) && !s.cfg.repairOnUnban))) (decide (t ≠ .unban))
        generalize CmdAction.invariantCheck env f (some (!(decide (t = .unban) && !s.cfg.repairOnUnban))) (decide (t ≠ .unban)) x.2 = y at *
        split
        · rename_i e
          obtain ⟨h5, h6⟩ := key y.2 c h3 (fun hh => h4 (by rcases hh with rfl | rfl <;> simp) (h2 hh) e)
          exact ⟨h5, fun hh _ => h6 hh⟩
        · exact ⟨h3, by simp⟩
      · obtain ⟨h5, h6⟩ := key x.2 c h1 h2
        exact ⟨h5, fun hh _ => h6 hh⟩

theorem InvB.ban {env : Env} {cfg : Config} (hod : cfg.onDemand = true) {s : State} (h : InvB env cfg s) (t : Tag) (ht : t = .ban ∨ t = .reban) (f : Fam) (k : Nat) :
    InvB env cfg (ban env t f k s).2 := by
  unfold CmdAction.ban
  dsimp only
  have hx : InvB env cfg (if (s.cfg.onDemand && !isStarted s f) = true then CmdAction.start env (some f) true s else (true, s)).2 ∧
      ((if (s.cfg.onDemand && !isStarted s f) = true then CmdAction.start env (some f) true s else (true, s)).1 = true →
        isStarted (if (s.cfg.onDemand && !isStarted s f) = true then CmdAction.start env (some f) true s else (true, s)).2 f = true) := by
    rw [h.same, hod]
    cases hs : isStarted s f with
    | true => exact ⟨h, fun _ => hs⟩
    | false => exact ⟨h.start (some f) true, fun e => start_forced e⟩
  generalize (if (s.cfg.onDemand && !isStarted s f) = true then CmdAction.start env (some f) true s else (true, s)) = x at *
  obtain ⟨h1, h2⟩ := hx
  split
  · rename_i e
    obtain ⟨h3, h4⟩ := h1.process (env := env) t f k (fun _ => h2 e)
    generalize CmdAction.process env t f k x.2 = y at *
    split
    · rename_i e2
      exact h3.set f _ (fun _ => h3.prep f (h4 ht e2))
    · exact h3
  · exact h1

theorem InvB.checkLoop {env : Env} {cfg : Config} (before : Option Bool) (l : List (Fam × Flags)) (ret : Bool) {s : State} (h : InvB env cfg s) :
    InvB env cfg (checkLoop env before l ret s).2 := by
  induction l generalizing ret s with
  | nil => exact h
  | cons p l ih =>
    obtain ⟨f, v⟩ := p
    unfold CmdAction.checkLoop
    split
    · dsimp only
      have h1 := (h.invariantCheck (env := env) f before true).1
      generalize CmdAction.invariantCheck env f before true s = x at *
      split
      · exact h1
      · exact ih false ((h1.set f ⟨false, false⟩ (by simp)).forget .start f)
      · exact ih ret h1
    · exact ih ret h

theorem InvB.mark {env : Env} {cfg : Config} {s : State} (h : InvB env cfg s) (e : Event) (he : ∀ t f c ok, e ≠ .cmd t f c ok) :
    InvB env cfg { s with trace := s.trace ++ [e] } where
  same := h.same
  recs := h.recs.congr rfl rfl
  begun g c hg := begun_mono (h.begun g c hg) (fun e he => List.mem_append_left _ he)
  prep g hg := prepared_mono (h.prep g hg) (fun e he => List.mem_append_left _ he)
  bans := by
    intro A t f c ok B heq ht
    rcases List.eq_nil_or_concat B with rfl | ⟨B', b, rfl⟩
    · obtain ⟨h1, h2⟩ := List.append_inj' (heq : s.trace ++ [e] = A ++ [_]) (by simp)
      cases h2
      exact absurd rfl (he t f c ok)
    · have : s.trace ++ [e] = (A ++ .cmd t f c ok :: B') ++ [b] := by rw [show s.trace ++ [e] = _ from heq]; simp
      obtain ⟨h1, _⟩ := List.append_inj' this (by simp)
      exact h.bans A t f c ok B' h1 ht

theorem InvB.step {env : Env} {cfg : Config} (hod : cfg.onDemand = true) {s : State} (h : InvB env cfg s) (c : Call) (hc : c ≠ .set) (cfg' : Config) :
    InvB env cfg (step env s c cfg') := by
  have h0 := h.mark (.call c) (by simp)
  unfold CmdAction.step
  dsimp only
  generalize ({ s with trace := s.trace ++ [.call c] } : State) = s0 at *
  have h1 : InvB env cfg (method env cfg' s0 c).2 := by
    cases c with
    | start => exact h0.start none false
    | ban f t => exact h0.ban hod .ban (Or.inl rfl) f t
    | reban f t =>
      show InvB env cfg (CmdAction.ban env (if s0.cfg.reban = true then .reban else .ban) f t s0).2
      split
      · exact h0.ban hod .reban (Or.inr rfl) f t
      · exact h0.ban hod .ban (Or.inl rfl) f t
    | unban f t =>
      show InvB env cfg (CmdAction.unban env f t s0).2
      unfold CmdAction.unban
      split
      · split
        · exact (h0.process .unban f t (by simp)).1
        · exact h0
      · exact h0
    | prolong f t => exact (h0.process .prolong f t (by simp)).1
    | flush => exact h0.operation (by simp) (fun f r s h => h.afterFlush f r) _ _
    | stop =>
      show InvB env cfg (CmdAction.stopAll env s0).2
      unfold CmdAction.stopAll
      split
      · exact h0
      · refine InvB.operation (by simp) (fun f r s h => h.afterStop f r) _ _ ?_
        exact ⟨h0.same, h0.recs.congr rfl rfl, h0.begun, fun f hf => by simp [isStarted] at hf, h0.bans⟩
    | reload => exact h0.operation (by simp) (fun f r s h => h) _ _
    | check before =>
      show InvB env cfg (CmdAction.consistencyCheck env before s0).2
      unfold CmdAction.consistencyCheck
      split
      · exact h0.checkLoop before _ _
      · exact h0
    | set => exact absurd rfl hc
  exact h1.mark (.done c (method env cfg' s0 c).1) (by simp)

end Verif.CmdAction
