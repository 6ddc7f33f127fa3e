import Verif.Lemmas.CommandAction

/-!
# Bans of a family are remembered until they are gone; what a call executes
-/

namespace Verif.CmdAction

open Spec.CmdAction

/-! ## Bans remembered -/

/-- The invariant, but for the bans of a family. -/
structure InvX (s : State) (x : Fam → Prop) : Prop where
  recs : Rec s
  fl : FlushEach s.cfg
  items : ∀ f, ¬ x f → (watch f s.trace).items = true → s.started.get? f = some ⟨true, true⟩

/-- The invariant. -/
abbrev InvI (s : State) : Prop := InvX s (fun _ => False)

theorem InvX.weaken {s : State} {x y : Fam → Prop} (h : InvX s x) (hxy : ∀ f, x f → y f) : InvX s y :=
  ⟨h.recs, h.fl, fun f hf => h.items f (fun hx => hf (hxy f hx))⟩

theorem InvX.congr {s s' : State} {x : Fam → Prop} (h : InvX s x) (hc : s'.cfg = s.cfg) (ht : s'.trace = s.trace) (hs : s'.started = s.started) (hr : Rec s') :
    InvX s' x :=
  ⟨hr, by rw [hc]; exact h.fl, fun f hx hf => by rw [hs]; exact h.items f hx (by rwa [ht] at hf)⟩

/-- an event makes no bans but by ban commands -/
theorem look_items (f : Fam) (w : Watch) (e : Event) (h : (look f w e).items = true)
    (he : ∀ c ok, e ≠ .cmd .ban f c ok ∧ e ≠ .cmd .reban f c ok) : w.items = true := by
  cases e with
  | call c => cases c <;> simp [look] at h <;> exact h
  | done c ok => exact h
  | cmd t g c ok =>
    have := he c ok
    cases t <;> simp only [look] at h
    all_goals first
      | exact h
      | (split at h
         · first
           | (simp at h; done)
           | (split at h <;> simp at h; done)
           | (rename_i hh; obtain ⟨rfl, _⟩ := hh; simp at this)
         · exact h)

theorem InvX.exec {env : Env} {s : State} {x : Fam → Prop} (h : InvX s x) (t : Tag) (f : Fam) (c : Cmd)
    (ht : t = .ban ∨ t = .reban → (CmdAction.exec env s t f c).1 = false) : InvX (CmdAction.exec env s t f c).2 x := by
  by_cases hc : c = []
  · subst hc; rw [exec_nil]; exact h
  · refine ⟨h.recs.congr (by simp) (by simp), by rw [exec_cfg]; exact h.fl, fun g hg hi => ?_⟩
    rw [exec_started]
    apply h.items g hg
    rw [exec_of_ne _ _ _ _ hc, watch_append] at hi
    by_cases hb : t = .ban ∨ t = .reban
    · rw [ht hb] at hi
      rcases hb with rfl | rfl <;> simpa [look] using hi
    · refine look_items g _ _ hi ?_
      intro c' ok
      constructor
      · intro e; cases e; exact hb (Or.inl rfl)
      · intro e; cases e; exact hb (Or.inr rfl)

theorem InvX.execBan {env : Env} {s : State} {x : Fam → Prop} (h : InvX s x) (t : Tag) (f : Fam) (c : Cmd) :
    InvX (CmdAction.exec env s t f c).2 (fun g => x g ∨ g = f) := by
  by_cases hc : c = []
  · subst hc; rw [exec_nil]; exact h.weaken (fun _ h => Or.inl h)
  · refine ⟨h.recs.congr (by simp) (by simp), by rw [exec_cfg]; exact h.fl, fun g hg hi => ?_⟩
    rw [exec_started]
    apply h.items g (fun hx => hg (Or.inl hx))
    rw [exec_of_ne _ _ _ _ hc, watch_append] at hi
    refine look_items g _ _ hi ?_
    intro c' ok
    constructor
    · intro e; cases e; exact hg (Or.inr rfl)
    · intro e; cases e; exact hg (Or.inr rfl)

/-- flags of a family without bans -/
theorem InvX.set {s : State} {x : Fam → Prop} (h : InvX s x) (f : Fam) (v : Flags) (hf : (watch f s.trace).items = false) : InvX (setStarted s f v) x := by
  refine ⟨h.recs.congr rfl rfl, h.fl, fun g hx hg => ?_⟩
  have e : g ≠ f := by
    rintro rfl
    rw [show (watch g s.trace).items = true from hg] at hf; cases hf
  unfold setStarted
  dsimp only
  rw [Dict.get?_insert_ne _ e]
  exact h.items g hx hg

/-- bans of a family -/
theorem InvX.banned {s : State} {x : Fam → Prop} (f : Fam) (h : InvX s (fun g => x g ∨ g = f)) : InvX (setStarted s f ⟨true, true⟩) x := by
  refine ⟨h.recs.congr rfl rfl, h.fl, fun g hx hg => ?_⟩
  unfold setStarted
  dsimp only
  by_cases e : g = f
  · subst e; simp
  · rw [Dict.get?_insert_ne _ e]
    exact h.items g (fun hh => by rcases hh with hh | hh; exact hx hh; exact e hh) hg

theorem exec_items {env : Env} {s : State} (t : Tag) (f g : Fam) (c : Cmd) (ht : t ≠ .ban ∧ t ≠ .reban) (h : (watch g s.trace).items = false) :
    (watch g (exec env s t f c).2.trace).items = false := by
  by_cases hc : c = []
  · subst hc; rw [exec_nil]; exact h
  · rw [exec_of_ne _ _ _ _ hc, watch_append]
    cases hl : (look g (watch g s.trace) (.cmd t f c (exec env s t f c).1)).items with
    | false => rfl
    | true =>
      have := look_items g _ _ hl (by
        intro c' ok
        constructor
        · intro e; cases e; exact ht.1 rfl
        · intro e; cases e; exact ht.2 rfl)
      rw [this] at h; cases h

/-- one family of a start or stop, without bans -/
theorem InvX.operate {env : Env} {s : State} {x : Fam → Prop} (h : InvX s x) {t : Tag} {after : Fam → Bool → State → State} {f : Fam} {c : Cmd}
    (hop : s.cfg.op t f = some c) (ht : t ≠ .ban ∧ t ≠ .reban) (P : State → Prop)
    (hP : ∀ c', P s → P (CmdAction.exec env s t f c').2) (hPr : ∀ s' : State, P s' → ∀ r, P (record s' t f c r)) (h0 : P s)
    (ha : ∀ r s, P s → InvX s x → InvX (after f r s) x ∧ (after f r s).cfg = s.cfg ∧ P (after f r s)) :
    InvX (CmdAction.operate env t after s f c).2 x ∧ P (CmdAction.operate env t after s f c).2 := by
  have hx : InvX (if c ≠ [] ∧ c ∉ executedOthers s t f then CmdAction.exec env s t f (env.dyn s.trace f c) else (true, s)).2 x ∧
      P (if c ≠ [] ∧ c ∉ executedOthers s t f then CmdAction.exec env s t f (env.dyn s.trace f c) else (true, s)).2 ∧
      (if c ≠ [] ∧ c ∉ executedOthers s t f then CmdAction.exec env s t f (env.dyn s.trace f c) else (true, s)).2.cfg = s.cfg := by
    split
    · exact ⟨h.exec t f _ (by rintro (e | e) <;> simp_all), hP _ h0, by simp⟩
    · exact ⟨h, h0, rfl⟩
  unfold CmdAction.operate
  dsimp only
  generalize (if c ≠ [] ∧ c ∉ executedOthers s t f then CmdAction.exec env s t f (env.dyn s.trace f c) else (true, s)) = y at *
  obtain ⟨h1, h2, h3⟩ := hx
  obtain ⟨h4, h5, h6⟩ := ha y.1 y.2 h2 h1
  exact ⟨h4.congr (by simp) (by simp) (by simp) (h4.recs.record (by rw [h5, h3]; exact hop) _), hPr _ h6 _⟩

/-- no bans in any of these families -/
def NoItems (fs : List Fam) (s : State) : Prop := ∀ f ∈ fs, (watch f s.trace).items = false

theorem InvX.starts {env : Env} {x : Fam → Prop} (fs : List Fam) (res : Bool) {s : State} (h : InvX s x) (hn : NoItems fs s) :
    InvX (CmdAction.operation env .start CmdAction.afterStart fs res s).2 x ∧ ∀ gs, NoItems gs s → NoItems gs (CmdAction.operation env .start CmdAction.afterStart fs res s).2 := by
  induction fs generalizing res s with
  | nil => exact ⟨h, fun _ h => h⟩
  | cons f fs ih =>
    unfold CmdAction.operation
    cases hop : s.cfg.op .start f with
    | none => exact ih false h (fun g hg => hn g (List.mem_cons_of_mem _ hg))
    | some c =>
      dsimp only
      have key : ∀ gs, NoItems gs s → InvX (CmdAction.operate env .start CmdAction.afterStart s f c).2 x ∧
          (NoItems (f :: fs) (CmdAction.operate env .start CmdAction.afterStart s f c).2 ∧ NoItems gs (CmdAction.operate env .start CmdAction.afterStart s f c).2) := by
        intro gs hgs
        apply h.operate hop (by simp) (fun s => NoItems (f :: fs) s ∧ NoItems gs s)
        · intro c' hp
          exact ⟨fun g hg => exec_items _ _ _ _ (by simp) (hp.1 g hg), fun g hg => exec_items _ _ _ _ (by simp) (hp.2 g hg)⟩
        · intro s' hp r
          exact ⟨fun g hg => by rw [record_trace]; exact hp.1 g hg, fun g hg => by rw [record_trace]; exact hp.2 g hg⟩
        · exact ⟨hn, hgs⟩
        · intro r s hp hi
          refine ⟨?_, by simp, fun g hg => by rw [afterStart_trace]; exact hp.1 g hg, fun g hg => by rw [afterStart_trace]; exact hp.2 g hg⟩
          unfold CmdAction.afterStart
          split
          · have := hi.congr (s' := CmdAction.forget s .stop f) (by simp) (by simp) (by simp) (hi.recs.forget .stop f)
            exact this.set f _ (by rw [forget_trace]; exact hp.1 f (List.mem_cons_self ..))
          · exact hi
      obtain ⟨h1, h2, _⟩ := key [] (by intro g hg; cases hg)
      obtain ⟨h3, h4⟩ := ih (res && (CmdAction.operate env .start CmdAction.afterStart s f c).1) h1 (fun g hg => h2 g (List.mem_cons_of_mem _ hg))
      exact ⟨h3, fun gs hgs => h4 gs (key gs hgs).2.2⟩

theorem InvX.stops {env : Env} {x : Fam → Prop} (fs : List Fam) (res : Bool) {s : State} (h : InvX s x) :
    InvX (CmdAction.operation env .stop CmdAction.afterStop fs res s).2 x ∧ ∀ gs, NoItems gs s → NoItems gs (CmdAction.operation env .stop CmdAction.afterStop fs res s).2 := by
  induction fs generalizing res s with
  | nil => exact ⟨h, fun _ h => h⟩
  | cons f fs ih =>
    unfold CmdAction.operation
    cases hop : s.cfg.op .stop f with
    | none => exact ih false h
    | some c =>
      dsimp only
      have key : ∀ gs, NoItems gs s → InvX (CmdAction.operate env .stop CmdAction.afterStop s f c).2 x ∧
          NoItems gs (CmdAction.operate env .stop CmdAction.afterStop s f c).2 := by
        intro gs hgs
        apply h.operate hop (by simp) (fun s => NoItems gs s)
        · intro c' hp g hg
          exact exec_items _ _ _ _ (by simp) (hp g hg)
        · intro s' hp r g hg
          rw [record_trace]; exact hp g hg
        · exact hgs
        · intro r s hp hi
          refine ⟨?_, by simp, fun g hg => by rw [afterStop_trace]; exact hp g hg⟩
          exact hi.congr (by simp) (by simp) (by simp) (hi.recs.afterStop f r)
      obtain ⟨h3, h4⟩ := ih (res && (CmdAction.operate env .stop CmdAction.afterStop s f c).1) (key [] (by intro g hg; cases hg)).1
      exact ⟨h3, fun gs hgs => h4 gs (key gs hgs).2⟩

theorem InvX.stopFam {env : Env} {x : Fam → Prop} {s : State} (h : InvX s x) {f : Fam} (hf : (watch f s.trace).items = false) :
    InvX (stopFam env f s).2 x ∧ (watch f (CmdAction.stopFam env f s).2.trace).items = false := by
  unfold CmdAction.stopFam
  split
  · exact ⟨h, hf⟩
  · obtain ⟨h1, h2⟩ := (h.set f ⟨false, false⟩ hf).stops (env := env) [f] true
    exact ⟨h1, h2 [f] (by intro g hg; rw [List.mem_singleton] at hg; rw [hg]; exact hf) f (by simp)⟩

theorem InvX.start1 {env : Env} {x : Fam → Prop} {s : State} (h : InvX s x) {f : Fam} (hf : (watch f s.trace).items = false) (force : Bool) :
    InvX (start env (some f) force s).2 x ∧ (watch f (CmdAction.start env (some f) force s).2.trace).items = false := by
  have hn : NoItems [f] s := by intro g hg; rw [List.mem_singleton] at hg; rw [hg]; exact hf
  unfold CmdAction.start
  dsimp only
  split
  · exact ⟨h, hf⟩
  · split
    · exact ⟨h, hf⟩
    · obtain ⟨h1, h2⟩ := h.starts (env := env) [f] true hn
      exact ⟨h1, h2 [f] hn f (by simp)⟩

theorem InvX.recheck {env : Env} {x : Fam → Prop} {s : State} (h : InvX s x) (f : Fam) (c : Cmd) (hf : (watch f s.trace).items = false) :
    InvX (recheck env f c s).2 x ∧ (watch f (CmdAction.recheck env f c s).2.trace).items = false := by
  have h1 : InvX (CmdAction.exec env s .check f c).2 x := h.exec .check f c (by simp)
  have h2 := exec_items (env := env) (s := s) .check f f c (by simp) hf
  unfold CmdAction.recheck
  split
  · split
    · exact ⟨h1, h2⟩
    · exact ⟨h1, h2⟩
  · exact ⟨h, hf⟩

theorem InvX.repair {env : Env} {x : Fam → Prop} {s : State} (h : InvX s x) (f : Fam) (force : Bool) (c : Cmd) (hf : (watch f s.trace).items = false) :
    InvX (repair env f force c s).2 x ∧ (watch f (CmdAction.repair env f force c s).2.trace).items = false := by
  have h0 : InvX { s with epoch := s.epoch + 1 } x := h.congr rfl rfl rfl (h.recs.congr rfl rfl)
  unfold CmdAction.repair
  cases hop : s.cfg.op .repair f with
  | none => exact ⟨h0, hf⟩
  | some r =>
    dsimp only
    have hf0 : (watch f ({ s with epoch := s.epoch + 1 } : State).trace).items = false := hf
    generalize ({ s with epoch := s.epoch + 1 } : State) = s0 at *
    split
    · have h1 : InvX (CmdAction.exec env s0 .repair f r).2 x := h0.exec .repair f r (by simp)
      have h2 := exec_items (env := env) (s := s0) .repair f f r (by simp) hf0
      generalize CmdAction.exec env s0 .repair f r = y at *
      split
      · exact (h1.set f ⟨true, false⟩ h2).recheck f c h2
      · exact ⟨h1.set f ⟨false, false⟩ h2, h2⟩
    · unfold CmdAction.restart
      obtain ⟨h1, h2⟩ := h0.stopFam (env := env) hf0
      obtain ⟨h3, h4⟩ := h1.start1 (env := env) h2 (force || !s0.cfg.onDemand)
      generalize CmdAction.start env (some f) (force || !s0.cfg.onDemand) (CmdAction.stopFam env f s0).2 = y at *
      split
      · exact h3.recheck f c h4
      · exact ⟨h3, h4⟩

theorem InvX.invariantCheck {env : Env} {x : Fam → Prop} {s : State} (h : InvX s x) (f : Fam) (before : Option Bool) (force : Bool) :
    InvX (invariantCheck env f before force s).2 x ∧ ((CmdAction.invariantCheck env f before force s).1 = .broken →
      (watch f (CmdAction.invariantCheck env f before force s).2.trace).items = false) := by
  unfold CmdAction.invariantCheck
  split
  · exact ⟨h, by simp⟩
  · cases hop : s.cfg.op .check f with
    | none => exact ⟨h, by simp⟩
    | some c =>
      dsimp only
      by_cases hc : c = []
      · rw [if_pos hc]; exact ⟨h, by simp⟩
      · rw [if_neg hc]
        have h1 : InvX (CmdAction.exec env s .check f c).2 x := h.exec .check f c (by simp)
        have htr := exec_of_ne env s .check f hc
        generalize CmdAction.exec env s .check f c = y at *
        cases hy : y.1 with
        | true => rw [if_pos rfl]; exact ⟨h1, by simp⟩
        | false =>
          rw [if_neg (by simp)]
          split
          · exact ⟨h1, by simp⟩
          · obtain ⟨h3, h4⟩ := h1.repair (env := env) f force c (by rw [htr, hy, watch_append]; simp [look])
            exact ⟨h3, fun _ => h4⟩

theorem InvX.process {env : Env} {s : State} {x : Fam → Prop} (h : InvX s x) (t : Tag) (f : Fam) (k : Nat) :
    ((CmdAction.process env t f k s).1 = false ∨ (t ≠ .ban ∧ t ≠ .reban) → InvX (process env t f k s).2 x) ∧
      InvX (CmdAction.process env t f k s).2 (fun g => x g ∨ g = f) := by
  have key : ∀ s' c, InvX s' x → ((CmdAction.exec env s' t f c).1 = false ∨ (t ≠ .ban ∧ t ≠ .reban) → InvX (CmdAction.exec env s' t f c).2 x) ∧
      InvX (CmdAction.exec env s' t f c).2 (fun g => x g ∨ g = f) := by
    intro s' c hs'
    refine ⟨fun hh => hs'.exec t f c (fun e => ?_), hs'.execBan t f c⟩
    rcases hh with hh | hh
    · exact hh
    · rcases e with e | e
      · exact absurd e hh.1
      · exact absurd e hh.2
  unfold CmdAction.process
  cases hop : s.cfg.proc t f k with
  | none => exact ⟨fun _ => h, h.weaken (fun _ h => Or.inl h)⟩
  | some c =>
    dsimp only
    by_cases hx : (CmdAction.exec env s t f c).1 = true
    · rw [if_pos hx]
      obtain ⟨h1, h2⟩ := key s c h
      refine ⟨fun hh => h1 ?_, h2⟩
      rcases hh with hh | hh
      · cases hh
      · exact Or.inr hh
    · rw [if_neg hx]
      have hx' : (CmdAction.exec env s t f c).1 = false := by simpa using hx
      have h1 : InvX (CmdAction.exec env s t f c).2 x := h.exec t f c (fun _ => hx')
      generalize CmdAction.exec env s t f c = y at *
      split
      · obtain ⟨h2, _⟩ := h1.invariantCheck (env := env) f (some (!(decide (t = .unban) && !s.cfg.repairOnUnban))) (decide (t ≠ .unban))
        generalize CmdAction.invariantCheck env f (some (!(decide (t = .unban) && !s.cfg.repairOnUnban))) (decide (t ≠ .unban)) y.2 = z at *
        split
        · exact key _ c h2
        · exact ⟨fun _ => h2, h2.weaken (fun _ h => Or.inl h)⟩
      · exact key _ c h1

theorem items_of_not_started {s : State} (h : InvI s) {f : Fam} (hf : isStarted s f = false) : (watch f s.trace).items = false := by
  cases hi : (watch f s.trace).items with
  | false => rfl
  | true =>
    have := h.items f (fun h => h) hi
    simp [isStarted, this] at hf

theorem InvX.ban {env : Env} {s : State} (h : InvI s) (t : Tag) (f : Fam) (k : Nat) : InvI (ban env t f k s).2 := by
  unfold CmdAction.ban
  dsimp only
  have hx : InvI (if (s.cfg.onDemand && !isStarted s f) = true then CmdAction.start env (some f) true s else (true, s)).2 := by
    split
    · rename_i e
      simp at e
      exact (h.start1 (items_of_not_started h e.2) true).1
    · exact h
  generalize (if (s.cfg.onDemand && !isStarted s f) = true then CmdAction.start env (some f) true s else (true, s)) = x at *
  split
  · obtain ⟨h1, h2⟩ := hx.process (env := env) t f k
    generalize CmdAction.process env t f k x.2 = y at *
    split
    · exact InvX.banned f h2
    · rename_i e; exact h1 (Or.inl (by simpa using e))
  · exact hx

/-- the flush of one family: it is executed -/
theorem InvX.flush1 {env : Env} (hk : KeepsCommands env) {s : State} (h : InvI s) {f : Fam} {c : Cmd} (hop : s.cfg.op .flush f = some c) :
    InvI (CmdAction.operate env .flush CmdAction.afterFlush s f c).2 ∧
      (CmdAction.operate env .flush CmdAction.afterFlush s f c).2.trace =
        s.trace ++ [.cmd .flush f (env.dyn s.trace f c) (CmdAction.operate env .flush CmdAction.afterFlush s f c).1] := by
  have hc := h.fl.nonempty f c hop
  have hn := not_executed h.recs hop h.fl.distinct
  have hd := hk s.trace f c hc
  unfold CmdAction.operate
  dsimp only
  rw [if_pos ⟨hc, hn⟩]
  have h1 : InvI (CmdAction.exec env s .flush f (env.dyn s.trace f c)).2 := h.exec .flush f _ (by simp)
  have htr := exec_of_ne env s .flush f hd
  generalize hx : CmdAction.exec env s .flush f (env.dyn s.trace f c) = x at *
  have hxc : x.2.cfg = s.cfg := by rw [← hx]; simp
  have h2 : InvI (CmdAction.afterFlush f x.1 x.2) := by
    unfold CmdAction.afterFlush
    split
    · rename_i e
      have hi : (watch f x.2.trace).items = false := by rw [htr, e, watch_append]; simp [look]
      split
      · split
        · exact h1.set f _ hi
        · exact h1
      · exact h1
    · exact h1
  exact ⟨h2.congr (by simp) (by simp) (by simp) (h2.recs.record (by simp [hxc, hop]) _), by simp [htr]⟩

theorem InvX.flushes {env : Env} (hk : KeepsCommands env) (fs : List Fam) (res : Bool) {s : State} (h : InvI s) :
    InvI (CmdAction.operation env .flush CmdAction.afterFlush fs res s).2 ∧
      ∃ seg, (CmdAction.operation env .flush CmdAction.afterFlush fs res s).2.trace = s.trace ++ seg ∧
        ∀ f ∈ fs, ∀ c, s.cfg.op .flush f = some c → ∃ A ok, .cmd .flush f (env.dyn A f c) ok ∈ seg := by
  induction fs generalizing res s with
  | nil => exact ⟨h, [], by simp [CmdAction.operation], by simp⟩
  | cons f fs ih =>
    unfold CmdAction.operation
    cases hop : s.cfg.op .flush f with
    | none =>
      obtain ⟨h1, seg, h2, h3⟩ := ih false h
      refine ⟨h1, seg, h2, ?_⟩
      intro g hg c hc
      rcases List.mem_cons.1 hg with rfl | hg
      · rw [hop] at hc; cases hc
      · exact h3 g hg c hc
    | some c =>
      dsimp only
      obtain ⟨h1, h2⟩ := h.flush1 hk hop
      have hcfg : (CmdAction.operate env .flush CmdAction.afterFlush s f c).2.cfg = s.cfg := operate_cfg f c (by simp)
      generalize CmdAction.operate env .flush CmdAction.afterFlush s f c = x at *
      obtain ⟨h3, seg, h4, h5⟩ := ih (res && x.1) h1
      refine ⟨h3, .cmd .flush f (env.dyn s.trace f c) x.1 :: seg, by rw [h4, h2]; simp, ?_⟩
      intro g hg c' hc'
      rcases List.mem_cons.1 hg with rfl | hg
      · rw [hop] at hc'; cases hc'
        exact ⟨s.trace, x.1, List.mem_cons_self ..⟩
      · obtain ⟨A, ok, hm⟩ := h5 g hg c' (by rw [hcfg]; exact hc')
        exact ⟨A, ok, List.mem_cons_of_mem _ hm⟩

theorem InvX.reloads {env : Env} (fs : List Fam) (res : Bool) {s : State} (h : InvI s) :
    InvI (CmdAction.operation env .reload (fun _ _ s => s) fs res s).2 := by
  induction fs generalizing res s with
  | nil => exact h
  | cons f fs ih =>
    unfold CmdAction.operation
    cases hop : s.cfg.op .reload f with
    | none => exact ih false h
    | some c => exact ih _ (h.operate hop (by simp) (fun _ => True) (fun _ _ => trivial) (fun _ _ _ => trivial) trivial (fun r s _ hi => ⟨hi, rfl, trivial⟩)).1

theorem InvX.checkLoop {env : Env} (before : Option Bool) (l : List (Fam × Flags)) (ret : Bool) {s : State} (h : InvI s) :
    InvI (checkLoop env before l ret s).2 := by
  induction l generalizing ret s with
  | nil => exact h
  | cons p l ih =>
    obtain ⟨f, v⟩ := p
    unfold CmdAction.checkLoop
    split
    · dsimp only
      obtain ⟨h1, h2⟩ := h.invariantCheck (env := env) f before true
      generalize CmdAction.invariantCheck env f before true s = x at *
      split
      · exact h1
      · rename_i e
        have h3 := h1.set f ⟨false, false⟩ (h2 e)
        exact ih false (h3.congr (by simp) (by simp) (by simp) (h3.recs.forget .start f))
      · exact ih ret h1
    · exact ih ret h

theorem InvX.stopAll {env : Env} {s : State} (h : InvI s) (hf : ∀ f, (watch f s.trace).items = false) : InvI (stopAll env s).2 := by
  unfold CmdAction.stopAll
  split
  · exact h
  · have : InvI { s with started := Dict.empty } := ⟨h.recs.congr rfl rfl, h.fl, fun f _ hi => by
      have h1 : (watch f s.trace).items = true := hi
      rw [hf f] at h1
      cases h1⟩
    exact (this.stops _ _).1

theorem InvX.call {s : State} (h : InvI s) (c : Call) : InvI { s with trace := s.trace ++ [.call c] } :=
  ⟨h.recs.congr rfl rfl, h.fl, fun f hx hi => by
    rw [watch_append] at hi
    exact h.items f hx (look_items f _ _ hi (by intro c ok; simp))⟩

theorem InvX.method {env : Env} (hk : KeepsCommands env) {s : State} (h : InvI s) (c : Call) (cfg : Config) (hcfg : FlushEach cfg)
    (hm : c = .stop ∨ c = .start → ∀ f, (watch f s.trace).items = false) : InvI (method env cfg s c).2 := by
  cases c with
  | start =>
    show InvI (CmdAction.start env none false s).2
    unfold CmdAction.start
    dsimp only
    split
    · exact h
    · split
      · exact h
      · exact (h.starts _ _ (fun f _ => hm (Or.inr rfl) f)).1
  | ban f t => exact h.ban .ban f t
  | reban f t => exact h.ban _ f t
  | unban f t =>
    show InvI (CmdAction.unban env f t s).2
    unfold CmdAction.unban
    split
    · split
      · exact (h.process .unban f t).1 (Or.inr (by simp))
      · exact h
    · exact h
  | prolong f t => exact (h.process .prolong f t).1 (Or.inr (by simp))
  | flush => exact (h.flushes hk _ _).1
  | stop => exact h.stopAll (hm (Or.inl rfl))
  | reload => exact h.reloads _ _
  | check before =>
    show InvI (CmdAction.consistencyCheck env before s).2
    unfold CmdAction.consistencyCheck
    split
    · exact h.checkLoop before _ _
    · exact h
  | set => exact ⟨fun t g c hg => by simp [CmdAction.method] at hg, hcfg, h.items⟩

theorem InvX.step {env : Env} (hk : KeepsCommands env) {s : State} (h : InvI s) (c : Call) (cfg : Config) (hcfg : FlushEach cfg) : InvI (step env s c cfg) := by
  have h1 := (h.call c).method hk c cfg hcfg (by
    rintro (rfl | rfl) f
    · simp [look]
    · simp [look])
  unfold CmdAction.step
  dsimp only
  generalize CmdAction.method env cfg { s with trace := s.trace ++ [.call c] } c = x at *
  exact ⟨h1.recs.congr rfl rfl, h1.fl, fun f hx hi => h1.items f hx (by rw [watch_append] at hi; exact hi)⟩

theorem InvX.run {env : Env} (hk : KeepsCommands env) (cs : List (Call × Config)) {s : State} (h : InvI s) (hcfg : ∀ p ∈ cs, FlushEach p.2) :
    InvI (run env s cs) := by
  induction cs generalizing s with
  | nil => exact h
  | cons p cs ih =>
    obtain ⟨c, cfg⟩ := p
    exact ih (h.step hk c cfg (hcfg _ (List.mem_cons_self ..))) (fun q hq => hcfg q (List.mem_cons_of_mem _ hq))

theorem InvX.init {cfg : Config} (h : FlushEach cfg) : InvI (init cfg) :=
  ⟨fun t g c hg => by simp [CmdAction.init] at hg, h, fun f _ hi => by simp [CmdAction.init, watch] at hi⟩

end Verif.CmdAction
