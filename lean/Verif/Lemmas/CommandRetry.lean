import Verif.Lemmas.CommandSegments

/-!
# Retries in full; calls as seen from outside
-/

namespace Verif.CmdAction

open Spec.CmdAction

theorem isStarted_isSome {s : State} {f : Fam} (h : isStarted s f = true) : (s.started.get? f).isSome = true := by
  unfold isStarted at h
  cases hs : s.started.get? f with
  | none => simp [hs] at h
  | some v => rfl

theorem invariantCheck_eq {env : Env} {f : Fam} {before : Option Bool} {force : Bool} {s : State} {k : Cmd}
    (e1 : ¬ ((!force && (s.started.get? f).isNone) = true)) (e2 : ¬ (before = some false)) (hk : s.cfg.op .check f = some k) (hk0 : k ≠ []) :
    invariantCheck env f before force s =
      if (exec env s .check f k).1 = true then (.sane, (exec env s .check f k).2) else repair env f force k (exec env s .check f k).2 := by
  unfold invariantCheck
  rw [if_neg e1, hk]
  dsimp only
  rw [if_neg hk0, if_neg e2]

theorem repair_eq {env : Env} {f : Fam} {force : Bool} {s : State} {k r : Cmd} (hr : s.cfg.op .repair f = some r) (hr0 : r ≠ []) :
    repair env f force k s =
      if (exec env { s with epoch := s.epoch + 1 } .repair f r).1 = true then recheck env f k (setStarted (exec env { s with epoch := s.epoch + 1 } .repair f r).2 f ⟨true, false⟩)
      else (.broken, setStarted (exec env { s with epoch := s.epoch + 1 } .repair f r).2 f ⟨false, false⟩) := by
  unfold repair
  rw [hr]
  dsimp only
  rw [if_pos hr0]

theorem restart_eq {env : Env} {f : Fam} {force : Bool} {s : State} {k : Cmd} (hr : s.cfg.op .repair f = some []) :
    repair env f force k s =
      if (restart env f force { s with epoch := s.epoch + 1 }).1 = true then recheck env f k (restart env f force { s with epoch := s.epoch + 1 }).2
      else (.raised, (restart env f force { s with epoch := s.epoch + 1 }).2) := by
  unfold repair
  rw [hr]
  dsimp only
  rw [if_neg (by simp)]

/-- with a repair command -/
theorem process_mended {env : Env} {t : Tag} {f : Fam} {n : Nat} {s : State} {c k r : Cmd} (hop : s.cfg.proc t f n = some c) (hc : c ≠ [])
    (hck : s.cfg.check = true) (hk : s.cfg.op .check f = some k) (hk0 : k ≠ []) (hr : s.cfg.op .repair f = some r) (hr0 : r ≠ [])
    (ht : t ≠ .unban ∨ (s.cfg.repairOnUnban = true ∧ (s.started.get? f).isSome = true)) :
    ∃ seg, (process env t f n s).2.trace = s.trace ++ seg ∧ Mended t f c k r (process env t f n s).1 seg := by
  unfold process
  rw [hop]
  dsimp only
  have htr := exec_of_ne env s t f hc
  have hcfg : (exec env s t f c).2.cfg = s.cfg := by simp
  have hst : (exec env s t f c).2.started = s.started := by simp
  generalize exec env s t f c = x at *
  cases hx : x.1 with
  | true => exact ⟨_, by rw [if_pos rfl, htr], Or.inl ⟨by simp, by rw [hx]⟩⟩
  | false =>
    rw [if_neg (by simp), hck, if_pos rfl]
    have e1 : ¬ ((!decide (t ≠ .unban) && (x.2.started.get? f).isNone) = true) := by
      rw [hst]
      rcases ht with ht | ⟨_, ht⟩
      · simp [ht]
      · simp only [Bool.and_eq_true, not_and]
        intro _
        cases hh : s.started.get? f with
        | none => rw [hh] at ht; simp at ht
        | some v => simp
    have e2 : ¬ (some (!(decide (t = .unban) && !s.cfg.repairOnUnban)) = some false) := by
      rcases ht with ht | ⟨ht, _⟩
      · simp [ht]
      · simp [ht]
    rw [invariantCheck_eq e1 e2 (by rw [hcfg]; exact hk) hk0]
    have htr2 := exec_of_ne env x.2 .check f hk0
    have hcfg2 : (exec env x.2 .check f k).2.cfg = s.cfg := by simp [hcfg]
    generalize exec env x.2 .check f k = y at *
    cases hy : y.1 with
    | true =>
      rw [if_pos rfl, if_pos rfl]
      unfold again
      refine ⟨[.cmd t f c false, .cmd .check f k true, .cmd t f c (exec env y.2 t f c).1], ?_, Or.inr (Or.inl rfl)⟩
      rw [exec_of_ne _ _ _ _ hc, htr2, htr, hx, hy]; simp
    | false =>
      rw [if_neg Bool.false_ne_true, repair_eq (by rw [hcfg2]; exact hr) hr0]
      have htr3 := exec_of_ne env { y.2 with epoch := y.2.epoch + 1 } .repair f hr0
      generalize exec env { y.2 with epoch := y.2.epoch + 1 } .repair f r = z at *
      dsimp only at htr3
      cases hz : z.1 with
      | false =>
        rw [if_neg Bool.false_ne_true, if_neg (by simp)]
        refine ⟨[.cmd t f c false, .cmd .check f k false, .cmd .repair f r false], ?_, Or.inr (Or.inr (Or.inr (Or.inr ⟨rfl, rfl⟩)))⟩
        rw [setStarted_trace, htr3, htr2, htr, hx, hy, hz]; simp
      | true =>
        rw [if_pos rfl]
        unfold recheck
        have hi : isStarted (setStarted z.2 f ⟨true, false⟩) f = true := by simp
        rw [if_pos hi]
        have htr4 := exec_of_ne env (setStarted z.2 f ⟨true, false⟩) .check f hk0
        rw [setStarted_trace] at htr4
        generalize exec env (setStarted z.2 f ⟨true, false⟩) .check f k = w at *
        cases hw : w.1 with
        | true =>
          rw [if_pos rfl, if_pos rfl]
          unfold again
          refine ⟨[.cmd t f c false, .cmd .check f k false, .cmd .repair f r true, .cmd .check f k true, .cmd t f c (exec env w.2 t f c).1], ?_, Or.inr (Or.inr (Or.inl rfl))⟩
          rw [exec_of_ne _ _ _ _ hc, htr4, htr3, htr2, htr, hx, hy, hz, hw]; simp
        | false =>
          rw [if_neg Bool.false_ne_true, if_neg (by simp)]
          refine ⟨[.cmd t f c false, .cmd .check f k false, .cmd .repair f r true, .cmd .check f k false], ?_, Or.inr (Or.inr (Or.inr (Or.inl ⟨rfl, rfl⟩)))⟩
          rw [htr4, htr3, htr2, htr, hx, hy, hz, hw]; simp

/-- one family of an operation that is executed -/
theorem operation_one {env : Env} (hs : Static env) {t : Tag} {after : Fam → Bool → State → State}
    (ha : ∀ f r s, (after f r s).cfg = s.cfg ∧ (after f r s).trace = s.trace) (hr : ∀ f r s, Rec s → Rec (after f r s))
    {f : Fam} {s : State} (hE : Each s.cfg t) (h : Rec s) {c : Cmd} (hop : s.cfg.op t f = some c) :
    (operation env t after [f] true s).2.trace = s.trace ++ [.cmd t f c (operation env t after [f] true s).1] ∧
      (operation env t after [f] true s).2.cfg = s.cfg ∧ Rec (operation env t after [f] true s).2 := by
  unfold operation
  rw [hop]
  dsimp only
  unfold operation operate
  dsimp only
  rw [if_pos ⟨hE.nonempty f c hop, not_executed h hop hE.distinct⟩, hs]
  refine ⟨?_, ?_, (hr _ _ _ (h.congr (by simp) (by simp))).record (by rw [(ha ..).1, exec_cfg]; exact hop) _⟩
  · rw [record_trace, (ha ..).2, exec_of_ne _ _ _ _ (hE.nonempty f c hop), Bool.true_and]
  · rw [record_cfg, (ha ..).1, exec_cfg]

/-- without a repair command -/
theorem process_restarted {env : Env} (hs : Static env) {t : Tag} {f : Fam} {n : Nat} {s : State} {c k p a : Cmd} (hop : s.cfg.proc t f n = some c) (hc : c ≠ [])
    (hck : s.cfg.check = true) (hk : s.cfg.op .check f = some k) (hk0 : k ≠ []) (hr : s.cfg.op .repair f = some [])
    (hp : s.cfg.op .stop f = some p) (hP : Each s.cfg .stop) (ha : s.cfg.op .start f = some a) (hA : Each s.cfg .start) (hrec : Rec s)
    (hst : (s.started.get? f).isSome = true) (ht : t ≠ .unban) :
    ∃ seg, (process env t f n s).2.trace = s.trace ++ seg ∧ Restarted t f c k p a (process env t f n s).1 seg := by
  unfold process
  rw [hop]
  dsimp only
  have htr := exec_of_ne env s t f hc
  have hcfg : (exec env s t f c).2.cfg = s.cfg := by simp
  have hst1 : (exec env s t f c).2.started = s.started := by simp
  have hrec1 : Rec (exec env s t f c).2 := hrec.congr (by simp) (by simp)
  generalize exec env s t f c = x at *
  cases hx : x.1 with
  | true => exact ⟨_, by rw [if_pos rfl, htr], Or.inl ⟨by simp, by rw [hx]⟩⟩
  | false =>
    rw [if_neg (by simp), hck, if_pos rfl]
    have e1 : ¬ ((!decide (t ≠ .unban) && (x.2.started.get? f).isNone) = true) := by simp [ht]
    have e2 : ¬ (some (!(decide (t = .unban) && !s.cfg.repairOnUnban)) = some false) := by simp [ht]
    rw [invariantCheck_eq e1 e2 (by rw [hcfg]; exact hk) hk0]
    have htr2 := exec_of_ne env x.2 .check f hk0
    have hcfg2 : (exec env x.2 .check f k).2.cfg = s.cfg := by simp [hcfg]
    have hst2 : (exec env x.2 .check f k).2.started = s.started := by simp [hst1]
    have hrec2 : Rec (exec env x.2 .check f k).2 := hrec1.congr (by simp) (by simp)
    generalize exec env x.2 .check f k = y at *
    cases hy : y.1 with
    | true =>
      rw [if_pos rfl, if_pos rfl]
      unfold again
      refine ⟨[.cmd t f c false, .cmd .check f k true, .cmd t f c (exec env y.2 t f c).1], ?_, Or.inr (Or.inl rfl)⟩
      rw [exec_of_ne _ _ _ _ hc, htr2, htr, hx, hy]; simp
    | false =>
      rw [if_neg Bool.false_ne_true, restart_eq (by rw [hcfg2]; exact hr)]
      obtain ⟨v, hv⟩ := Option.isSome_iff_exists.1 hst
      have hz0 : restart env f (decide (t ≠ .unban)) { y.2 with epoch := y.2.epoch + 1 } =
          operation env .start afterStart [f] true (operation env .stop afterStop [f] true (setStarted { y.2 with epoch := y.2.epoch + 1 } f ⟨false, false⟩)).2 := by
        unfold restart stopFam start
        simp only [hst2, hv, hcfg2]
        simp [ht]
      have hq := operation_one hs (env := env) (after := afterStop) (fun f r s => ⟨by simp, by simp⟩) (fun f r s h => h.afterStop f r) (f := f) (c := p)
        (s := setStarted { y.2 with epoch := y.2.epoch + 1 } f ⟨false, false⟩) (t := .stop) (by simpa [hcfg2] using hP) (hrec2.congr rfl rfl)
        (by simpa [hcfg2] using hp)
      rw [hz0]
      generalize operation env .stop afterStop [f] true (setStarted { y.2 with epoch := y.2.epoch + 1 } f ⟨false, false⟩) = u at *
      obtain ⟨hu1, hu2, hu3⟩ := hq
      simp only [setStarted_trace, setStarted_cfg, hcfg2] at hu1 hu2
      have hz := operation_one hs (env := env) (after := afterStart) (fun f r s => ⟨by simp, by simp⟩) (fun f r s h => h.afterStart f r) (f := f) (c := a)
        (s := u.2) (t := .start) (by rw [hu2]; exact hA) hu3 (by rw [hu2]; exact ha)
      have hz1 : (start env (some f) true u.2).1 = true → isStarted (start env (some f) true u.2).2 f = true := start_forced
      have hz2 : start env (some f) true u.2 = operation env .start afterStart [f] true u.2 := by unfold start; simp
      rw [hz2] at hz1
      generalize operation env .start afterStart [f] true u.2 = z at *
      obtain ⟨htr3, _, _⟩ := hz
      cases hzz : z.1 with
      | false =>
        rw [if_neg Bool.false_ne_true, if_neg (by simp)]
        refine ⟨[.cmd t f c false, .cmd .check f k false, .cmd .stop f p u.1, .cmd .start f a false], ?_, Or.inr (Or.inr (Or.inr (Or.inr ⟨_, rfl, rfl⟩)))⟩
        rw [htr3, hu1, htr2, htr, hx, hy, hzz]; simp
      | true =>
        rw [if_pos rfl]
        unfold recheck
        rw [if_pos (hz1 hzz)]
        have htr4 := exec_of_ne env z.2 .check f hk0
        generalize exec env z.2 .check f k = w at *
        cases hw : w.1 with
        | true =>
          rw [if_pos rfl, if_pos rfl]
          unfold again
          refine ⟨[.cmd t f c false, .cmd .check f k false, .cmd .stop f p u.1, .cmd .start f a true, .cmd .check f k true, .cmd t f c (exec env w.2 t f c).1], ?_,
            Or.inr (Or.inr (Or.inl ⟨_, rfl⟩))⟩
          rw [exec_of_ne _ _ _ _ hc, htr4, htr3, hu1, htr2, htr, hx, hy, hzz, hw]; simp
        | false =>
          rw [if_neg Bool.false_ne_true, if_neg (by simp)]
          refine ⟨[.cmd t f c false, .cmd .check f k false, .cmd .stop f p u.1, .cmd .start f a true, .cmd .check f k false], ?_, Or.inr (Or.inr (Or.inr (Or.inl ⟨_, rfl, rfl⟩)))⟩
          rw [htr4, htr3, hu1, htr2, htr, hx, hy, hzz, hw]; simp

/-- What `process_spec` says, in one word. -/
theorem process_attempt {env : Env} {t : Tag} {f : Fam} {n : Nat} {s : State} {c : Cmd} (hop : s.cfg.proc t f n = some c) (hc : c ≠ []) :
    ∃ seg, (process env t f n s).2.trace = s.trace ++ seg ∧ Attempt t f c s.cfg.check (process env t f n s).1 seg ∧
      ((∃ e ∈ seg, Restores e ) → t ≠ .stop → t ≠ .repair → s.epoch < (process env t f n s).2.epoch) := by
  rcases process_spec (env := env) hop hc with ⟨h1, h2⟩ | ⟨mid, h1, h2, h3, h4⟩
  · refine ⟨_, h2, Or.inl ⟨h1, rfl⟩, ?_⟩
    rintro ⟨e, he, hr⟩ ht1 ht2
    rw [List.mem_singleton] at he
    subst he
    cases t <;> first | exact hr.elim | (simp at ht1; done) | (simp at ht2; done)
  · have hno : ∀ ok, Restores (.cmd t f c ok) → t ≠ .stop → t ≠ .repair → False := by
      intro ok hr ht1 ht2
      cases t <;> first | exact hr.elim | (simp at ht1; done) | (simp at ht2; done)
    rcases h4 with h4 | ⟨h4, h5, h6⟩
    · refine ⟨_, h4, Or.inr ⟨mid, h1, h3, Or.inl rfl⟩, ?_⟩
      rintro ⟨e, he, hr⟩ ht1 ht2
      simp only [List.mem_cons, List.mem_append, List.not_mem_nil, or_false] at he
      rcases he with rfl | he | rfl
      · exact (hno _ hr ht1 ht2).elim
      · exact h2 ⟨e, he, hr⟩
      · exact (hno _ hr ht1 ht2).elim
    · refine ⟨_, h6, Or.inr ⟨mid, h1, h3, Or.inr ⟨h4, h5, rfl⟩⟩, ?_⟩
      rintro ⟨e, he, hr⟩ ht1 ht2
      rcases List.mem_cons.1 he with rfl | he
      · exact (hno _ hr ht1 ht2).elim
      · exact h2 ⟨e, he, hr⟩

theorem start_rec {env : Env} {s : State} (h : Rec s) (f : Fam) : Rec (start env (some f) true s).2 := by
  unfold start
  simp only [Bool.not_true, Bool.and_false, Bool.false_and, Bool.false_eq_true, if_false]
  unfold operation
  cases hop : s.cfg.op .start f with
  | none => exact h
  | some c =>
    dsimp only
    unfold operation operate
    dsimp only
    split
    · exact ((h.congr (by simp) (by simp)).afterStart f _).record (by simp [hop]) _
    · exact (h.afterStart f _).record (by simp [hop]) _

/-- A ban: the action is started if it is to be, then the command is processed. -/
theorem ban_shape {env : Env} {t : Tag} {f : Fam} {n : Nat} {s : State} :
    ∃ s1, Ext Starts s s1 ∧ (Rec s → Rec s1) ∧ (s.cfg.onDemand = false ∨ isStarted s f = true → s1 = s) ∧
      ((s.cfg.onDemand = true ∧ isStarted s f = false ∧ (ban env t f n s).1 = false ∧ (ban env t f n s).2 = s1) ∨
       ((s.cfg.onDemand = true → isStarted s1 f = true) ∧ (ban env t f n s).1 = (process env t f n s1).1 ∧ (ban env t f n s).2.trace = (process env t f n s1).2.trace ∧
        (ban env t f n s).2.epoch = (process env t f n s1).2.epoch)) := by
  unfold ban
  dsimp only
  have fin : ∀ s1, (if (process env t f n s1).1 = true then (true, setStarted (process env t f n s1).2 f ⟨true, true⟩) else (false, (process env t f n s1).2)).1 = (process env t f n s1).1 ∧
      (if (process env t f n s1).1 = true then (true, setStarted (process env t f n s1).2 f ⟨true, true⟩) else (false, (process env t f n s1).2)).2.trace = (process env t f n s1).2.trace ∧
      (if (process env t f n s1).1 = true then (true, setStarted (process env t f n s1).2 f ⟨true, true⟩) else (false, (process env t f n s1).2)).2.epoch = (process env t f n s1).2.epoch := by
    intro s1
    cases h : (process env t f n s1).1 <;> simp
  by_cases hd : (s.cfg.onDemand && !isStarted s f) = true
  · rw [if_pos hd]
    have h1 : s.cfg.onDemand = true ∧ isStarted s f = false := by simpa using hd
    have h2 : Ext Starts s (start env (some f) true s).2 := Ext.start (some f) true
    have h3 := start_forced (env := env) (s := s) (f := f)
    have h4 : Rec s → Rec (start env (some f) true s).2 := fun h => start_rec h f
    generalize start env (some f) true s = x at *
    refine ⟨x.2, h2, h4, fun hh => ?_, ?_⟩
    · rcases hh with hh | hh
      · rw [h1.1] at hh; cases hh
      · rw [h1.2] at hh; cases hh
    · cases hx : x.1 with
      | false => left; exact ⟨h1.1, h1.2, by simp, by simp⟩
      | true =>
        right
        rw [if_pos rfl]
        exact ⟨fun _ => h3 hx, (fin x.2).1, (fin x.2).2.1, (fin x.2).2.2⟩
  · rw [if_neg hd]
    refine ⟨s, Ext.refl _ s, id, fun _ => rfl, Or.inr ?_⟩
    rw [if_pos rfl]
    refine ⟨fun h => ?_, (fin s).1, (fin s).2.1, (fin s).2.2⟩
    simpa [h] using hd

theorem Ext.checkLoop {env : Env} (before : Option Bool) (l : List (Fam × Flags)) (ret : Bool) (s : State) : Ext Service s (checkLoop env before l ret s).2 := by
  induction l generalizing ret s with
  | nil => exact Ext.refl _ s
  | cons p l ih =>
    obtain ⟨f, v⟩ := p
    unfold CmdAction.checkLoop
    split
    · dsimp only
      have h1 := (Ext.invariantCheck (env := env) (s := s) f before true).1
      generalize CmdAction.invariantCheck env f before true s = x at *
      split
      · exact h1
      · exact h1.trans (Ext.trans (Ext.of (by simp) (by simp) (by simp)) (ih _ _))
      · exact h1.trans (ih _ _)
    · exact ih _ _

/-- a check that is not skipped -/
theorem invariantCheck_checks {env : Env} {f : Fam} {before : Option Bool} {s : State} {k : Cmd} (hk : s.cfg.op .check f = some k) (hk0 : k ≠ []) :
    ∃ ok seg, (invariantCheck env f before true s).2.trace = s.trace ++ .cmd .check f k ok :: seg := by
  unfold invariantCheck
  rw [if_neg (by simp), hk]
  dsimp only
  rw [if_neg hk0]
  have htr := exec_of_ne env s .check f hk0
  generalize exec env s .check f k = x at *
  split
  · exact ⟨_, [], htr⟩
  · split
    · exact ⟨_, [], htr⟩
    · obtain ⟨⟨_, _, seg, h1, _⟩, _⟩ := Ext.repair (env := env) (s := x.2) f true k
      exact ⟨x.1, seg, by rw [h1, htr]; simp⟩

theorem checkLoop_checks {env : Env} (before : Option Bool) (l : List (Fam × Flags)) (ret : Bool) (s : State) (h : (checkLoop env before l ret s).1 ≠ none) :
    ∃ seg, (checkLoop env before l ret s).2.trace = s.trace ++ seg ∧
      ∀ f v, (f, v) ∈ l → (v.on || v.items) = true → ∀ k, s.cfg.op .check f = some k → k ≠ [] → ∃ ok, .cmd .check f k ok ∈ seg := by
  induction l generalizing ret s with
  | nil => exact ⟨[], by simp [checkLoop], by simp⟩
  | cons p l ih =>
    obtain ⟨f, v⟩ := p
    unfold checkLoop at h ⊢
    split
    · rename_i hv
      rw [if_pos hv] at h
      dsimp only at *
      obtain ⟨⟨hc, _, seg1, h1, _⟩, _⟩ := Ext.invariantCheck (env := env) (s := s) f before true
      have h2 := fun k hk hk0 => invariantCheck_checks (env := env) (f := f) (before := before) (s := s) (k := k) hk hk0
      generalize invariantCheck env f before true s = x at *
      have fin : ∀ (s' : State) (r : Bool), s'.cfg = x.2.cfg → s'.trace = x.2.trace → (checkLoop env before l r s').1 ≠ none →
          ∃ seg, (checkLoop env before l r s').2.trace = s.trace ++ seg ∧
            ∀ g w, (g, w) ∈ (f, v) :: l → (w.on || w.items) = true → ∀ k, s.cfg.op .check g = some k → k ≠ [] → ∃ ok, .cmd .check g k ok ∈ seg := by
        intro s' r hc' ht' hn
        obtain ⟨seg, h3, h4⟩ := ih r s' hn
        refine ⟨seg1 ++ seg, by rw [h3, ht', h1, List.append_assoc], ?_⟩
        intro g w hm hw k hk hk0
        rcases List.mem_cons.1 hm with hm | hm
        · cases hm
          obtain ⟨ok, seg2, h5⟩ := h2 k hk hk0
          have : seg1 = .cmd .check f k ok :: seg2 := List.append_cancel_left (h1.symm.trans h5)
          exact ⟨ok, List.mem_append_left _ (by rw [this]; exact List.mem_cons_self ..)⟩
        · obtain ⟨ok, h6⟩ := h4 g w hm hw k (by rw [hc', hc]; exact hk) hk0
          exact ⟨ok, List.mem_append_right _ h6⟩
      cases hx : x.1 with
      | raised => rw [hx] at h; simp at h
      | broken => rw [hx] at h; exact fin _ _ (by simp) (by simp) h
      | sane => rw [hx] at h; exact fin _ _ rfl rfl h
      | declined => rw [hx] at h; exact fin _ _ rfl rfl h
    · rename_i hv
      rw [if_neg hv] at h
      obtain ⟨seg, h3, h4⟩ := ih ret s h
      refine ⟨seg, h3, ?_⟩
      intro g w hm hw
      rcases List.mem_cons.1 hm with hm | hm
      · cases hm; exact absurd hw hv
      · exact h4 g w hm hw

/-- the events of a call -/
theorem step_trace (env : Env) (s : State) (c : Call) (cfg : Config) :
    (step env s c cfg).trace = (method env cfg { s with trace := s.trace ++ [.call c] } c).2.trace ++ [.done c (method env cfg { s with trace := s.trace ++ [.call c] } c).1] := rfl

theorem step_epoch (env : Env) (s : State) (c : Call) (cfg : Config) :
    (step env s c cfg).epoch = (method env cfg { s with trace := s.trace ++ [.call c] } c).2.epoch := rfl

end Verif.CmdAction
