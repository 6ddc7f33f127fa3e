import Verif.Model.StartPhases
import Verif.Spec.StartPhases

/-!
# C112 — start of the server together with its configuration
-/

set_option linter.unusedSimpArgs false
set_option linter.unusedVariables false

namespace Verif.StartPhases

open Spec

theorem run_snoc (m : Mode) (evs : List Ev) (e : Ev) : run m (evs ++ [e]) = step m (run m evs) e := by
  simp [run, List.foldl_append]

theorem run_append (m : Mode) (evs evs' : List Ev) : run m (evs ++ evs') = evs'.foldl (step m) (run m evs) := by
  simp [run, List.foldl_append]

/-- Induction over the events, with the history -/
theorem run_ind {m : Mode} {P : List Ev → St → Prop} (h0 : P [] (init m)) (hs : ∀ evs e, P evs (run m evs) → P (evs ++ [e]) (step m (run m evs) e)) :
    ∀ evs, P evs (run m evs) := by
  have : ∀ (n : Nat) evs, evs.length = n → P evs (run m evs) := by
    intro n
    induction n with
    | zero => intro evs h; rw [List.length_eq_zero_iff.1 h]; exact h0
    | succ n ih =>
      intro evs h
      rcases List.eq_nil_or_concat evs with rfl | ⟨l, e, rfl⟩
      · simp at h
      · rw [List.concat_eq_append, run_snoc]
        exact hs l e (ih l (by simp at h; exact h))
  exact fun evs => this _ evs rfl

theorem Spec.Was.snoc {m : Mode} {evs : List Ev} {e x : Ev} {P : St → Prop} (h : Was m evs e P) : Was m (evs ++ [x]) e P := by
  obtain ⟨pre, post, rfl, hp⟩ := h
  exact ⟨pre, post ++ [x], by simp, hp⟩

theorem was_last {m : Mode} {evs : List Ev} {e : Ev} {P : St → Prop} (h : P (run m evs)) : Was m (evs ++ [e]) e P := ⟨evs, [], rfl, h⟩

theorem Spec.Was.mem {m : Mode} {evs : List Ev} {e : Ev} {P : St → Prop} (h : Was m evs e P) : e ∈ evs := by
  obtain ⟨pre, post, rfl, _⟩ := h
  simp

theorem getD_true (o : Option Bool) : o.getD false = true ↔ o = some true := by
  cases o <;> simp

/-! ## Invariants -/

structure Inv (m : Mode) (s : St) : Prop where
  start : s.start = Spec.start m.valid s.conf
  ready : s.ready = Spec.ready m.valid s.conf
  configure : s.configure = Spec.configure m.valid s.conf
  valid : s.conf = .wait ∨ Sending s.conf → m.valid = true
  done : s.done.isSome = true ↔ s.conf = .ended ∧ m.valid = true

theorem inv_stop {m : Mode} {s : St} (h : Inv m s) : Inv m (s.stop m) := by
  unfold St.stop
  split
  · exact h
  · exact ⟨h.start, h.ready, h.configure, h.valid, h.done⟩

theorem inv_main {m : Mode} {s : St} (h : Inv m s) : Inv m (stepMain m s) := by
  unfold stepMain
  have h' : ∀ (x : Main), Inv m { s with main := x } := fun x => ⟨h.start, h.ready, h.configure, h.valid, h.done⟩
  have h2 := inv_stop h
  repeat' split
  all_goals first
    | exact h
    | exact h' _
    | exact ⟨h.start, h.ready, h.configure, h.valid, h.done⟩
    | exact ⟨h2.start, h2.ready, h2.configure, h2.valid, h2.done⟩

theorem inv_conf {m : Mode} {s : St} (h : Inv m s) : Inv m (stepConf m s) := by
  have hstop : ∀ (c : Conf), (s.stop m).start = s.start ∧ (s.stop m).ready = s.ready ∧ (s.stop m).configure = s.configure ∧ (s.stop m).done = s.done := by
    intro _
    unfold St.stop
    split <;> exact ⟨rfl, rfl, rfl, rfl⟩
  obtain ⟨h1, h2, h3, h4, h5⟩ := h
  unfold stepConf
  split
  all_goals rename_i hc
  all_goals simp only [hc, Spec.start, Spec.ready, Spec.configure, Sending, reduceCtorEq, false_and, false_or, or_false, true_and, or_true, forall_const,
    iff_false, Bool.not_eq_true, Option.isSome_eq_false_iff, Option.isNone_iff_eq_none, false_implies, implies_true] at h1 h2 h3 h4 h5
  · exact ⟨rfl, h2, h3, by simp [Sending], by simp [h5]⟩
  · exact ⟨h1, h2, h3, by simp [Sending], by simp [h5]⟩
  · exact ⟨h1, rfl, h3, by simp [Sending], by simp [h5]⟩
  · cases hv : m.valid
    · exact ⟨by simp [hv, Spec.start], by simp [h2, hv, Spec.ready], by simp [h3, hv, Spec.configure], by simp [Sending], by simp [h5, hv]⟩
    · exact ⟨by simp [hv, Spec.start], by simp [h2, hv, Spec.ready], by simp [h3, hv, Spec.configure], by simp [hv], by simp [h5, hv]⟩
  · exact ⟨by simp [h1, Spec.start], by simp [h2, Spec.ready], by simp [Spec.configure], fun _ => h4, by simp [h5]⟩
  · exact ⟨by simp [hc, h1, Spec.start], by simp [hc, h2, Spec.ready], by simp [hc, h3, Spec.configure], fun _ => h4, by simp [hc, h5]⟩
  · split
    · exact ⟨by simp [(hstop .ended).1, h1, Spec.start], by simp [(hstop .ended).2.1, h2, Spec.ready], by simp [(hstop .ended).2.2.1, h3, Spec.configure],
        fun _ => h4, by simp [(hstop .ended).2.2.2, h5]⟩
    · exact ⟨by simp [h1, Spec.start], by simp [h2, Spec.ready], by simp [h3, Spec.configure], fun _ => h4, by simp [h5]⟩
  · exact ⟨by simp [h1, Spec.start], by simp [h2, Spec.ready], by simp [h3, Spec.configure, h4], by simp [Sending], by simp [h4]⟩
  · exact ⟨by simp [hc, h1, Spec.start], by simp [hc, h2, Spec.ready], by simp [hc, h3, Spec.configure], by simp [hc, Sending], by simp [hc, h5]⟩

theorem inv_step {m : Mode} {s : St} (h : Inv m s) (e : Ev) : Inv m (step m s e) := by
  have h2 := inv_stop h
  have same : ∀ (x : Main) (u q : Bool), Inv m { s with main := x, up := u, quit := q } := fun _ _ _ => ⟨h.start, h.ready, h.configure, h.valid, h.done⟩
  cases e with
  | main => exact inv_main h
  | timeOut =>
    simp only [step]
    split
    · exact same _ _ _
    · exact same _ _ _
    · exact h
  | fail =>
    simp only [step]
    split
    · exact ⟨h2.start, h2.ready, h2.configure, h2.valid, h2.done⟩
    · exact h
  | conf =>
    simp only [step]
    split
    · exact h
    · exact inv_conf h
  | answer ok =>
    simp only [step]
    split
    · exact h
    · rename_i hc _
      split
      · exact h
      · obtain ⟨h1, h2, h3, h4, h5⟩ := h
        simp only [hc, Spec.start, Spec.ready, Spec.configure, Sending, reduceCtorEq, false_and, iff_false, or_true, forall_const] at h1 h2 h3 h4 h5
        exact ⟨by simp [h1, Spec.start], by simp [h2, Spec.ready], by simp [h3, Spec.configure], fun _ => h4, by simpa using h5⟩
    · exact h
  | stop =>
    simp only [step]
    split
    · exact same _ _ _
    · split
      · exact h2
      · exact h
  | down =>
    simp only [step]
    split
    · exact same _ _ _
    · split
      · exact same _ _ _
      · exact h

theorem inv_run (m : Mode) : ∀ evs, Inv m (run m evs) := by
  refine run_ind (P := fun _ s => Inv m s) ?_ (fun _ e h => inv_step h e)
  refine ⟨rfl, rfl, rfl, ?_, ?_⟩ <;> simp [init, Sending]

/-- C112: the entries of `phase` tell at each time where the thread is that configures the server: `start` is set while the configuration is read
and then tells whether it is valid, `ready` tells that, something is sent only if it is valid, and `done` is set at the end only and only then. -/
theorem C112_phases (m : Mode) (evs : List Ev) :
    (run m evs).start = Spec.start m.valid (run m evs).conf ∧ (run m evs).ready = Spec.ready m.valid (run m evs).conf ∧
    (run m evs).configure = Spec.configure m.valid (run m evs).conf ∧ (Sending (run m evs).conf → m.valid = true) ∧
    ((run m evs).done.isSome = true ↔ (run m evs).conf = .ended ∧ m.valid = true) :=
  have h := inv_run m evs
  ⟨h.start, h.ready, h.configure, fun k => h.valid (.inr k), h.done⟩

/-! ## Success -/

theorem conf_stop (m : Mode) (s : St) : (s.stop m).conf = s.conf ∧ (s.stop m).main = s.main ∧ (s.stop m).start = s.start ∧ (s.stop m).ready = s.ready ∧
    (s.stop m).configure = s.configure ∧ (s.stop m).done = s.done := by
  unfold St.stop
  split <;> exact ⟨rfl, rfl, rfl, rfl, rfl, rfl⟩

/-- The thread knows a positive answer -/
def Good (s : St) : Prop := s.conf = .answered true ∨ s.conf = .setDone true ∨ s.done = some true ∨ s.main = .exit true

theorem good_main {m : Mode} {s : St} (h : Good (stepMain m s)) : Good s := by
  have hs := conf_stop m s
  unfold Good at h ⊢
  unfold stepMain at h
  simp only [getD_true] at h
  repeat' split at h
  all_goals simp_all

theorem good_conf {m : Mode} {s : St} (h : Good (stepConf m s)) : Good s := by
  have hs := conf_stop m s
  unfold Good at h ⊢
  unfold stepConf at h
  repeat' split at h
  all_goals simp_all
  all_goals grind

theorem good_step {m : Mode} {s : St} {e : Ev} (h : Good (step m s e)) : Good s ∨ (e = .answer true ∧ s.conf = .send ∧ s.up = true ∧ ∀ b, s.main ≠ .exit b) := by
  have hs := conf_stop m s
  cases e with
  | main => exact .inl (good_main h)
  | conf =>
    simp only [step] at h
    split at h
    · exact .inl h
    · exact .inl (good_conf h)
  | answer ok =>
    simp only [step] at h
    split at h
    · exact .inl h
    · rename_i hc hm
      split at h
      · exact .inl h
      · rename_i hu
        cases ok
        · left; unfold Good at h ⊢; simp_all
        · exact .inr ⟨rfl, by assumption, by simpa using hu, fun b hb => hm b hb⟩
    · exact .inl h
  | timeOut | fail | stop | down =>
    left
    simp only [step] at h
    unfold Good at h ⊢
    repeat' split at h
    all_goals simp_all
    all_goals grind

theorem good_run (m : Mode) : ∀ evs, Good (run m evs) → Was m evs (.answer true) (fun s => s.conf = .send ∧ s.up = true ∧ ∀ b, s.main ≠ .exit b) := by
  refine run_ind (P := fun evs s => Good s → Was m evs (.answer true) (fun s => s.conf = .send ∧ s.up = true ∧ ∀ b, s.main ≠ .exit b)) ?_ ?_
  · intro h
    unfold Good init at h
    cases hm : m.client <;> simp [hm] at h
  · intro evs e ih h
    rcases good_step h with h | ⟨rfl, hg⟩
    · exact (ih h).snoc
    · exact was_last (by assumption)

theorem exit_true {m : Mode} : ∀ evs, (run m evs).main = .exit true → (run m evs).done = some true := by
  refine run_ind (P := fun _ s => s.main = .exit true → s.done = some true) ?_ ?_
  · unfold init
    cases m.client <;> simp
  · intro evs e ih
    generalize run m evs = s at ih ⊢
    have hs := conf_stop m s
    cases e <;> simp only [step, stepMain, stepConf, getD_true]
    all_goals repeat' split
    all_goals simp_all

/-- C112: the program ends with success only if the configuration is valid and a running server has accepted all of it. -/
theorem C112_success (m : Mode) (evs : List Ev) (h : (run m evs).main = .exit true) :
    m.valid = true ∧ (run m evs).done = some true ∧ Was m evs (.answer true) (fun s => s.conf = .send ∧ s.up = true ∧ ∀ b, s.main ≠ .exit b) := by
  have hd := exit_true evs h
  exact ⟨((inv_run m evs).done.1 (by simp [hd])).2, hd, good_run m evs (.inr (.inr (.inr h)))⟩

/-- C112: with a configuration that is not valid nothing is sent, and the program does not end with success. -/
theorem C112_invalid (m : Mode) (evs : List Ev) (h : m.valid = false) :
    ¬ Sending (run m evs).conf ∧ (run m evs).configure = none ∧ (run m evs).done = none ∧ (run m evs).main ≠ .exit true := by
  have hi := inv_run m evs
  have h1 : ¬ Sending (run m evs).conf := fun k => by
    have := hi.valid (.inr k)
    rw [h] at this
    cases this
  refine ⟨h1, ?_, ?_, ?_⟩
  · rw [hi.configure]
    generalize (run m evs).conf = c at h1 ⊢
    cases c <;> simp_all [Spec.configure, Sending]
  · have := hi.done
    rw [h] at this
    simpa using this
  · intro k
    have := (C112_success m evs k).1
    rw [h] at this
    cases this

/-! ## Start -/

/-- Places of the main thread before it decided to start the server -/
def Before : Main → Prop
  | .waitReady | .lookStart => True
  | _ => False

/-- Only the look at `start` leads to a start of the server -/
theorem before_step {m : Mode} {s : St} {e : Ev} (hb : Before s.main) (hu : s.up = false) :
    (Before (step m s e).main ∧ (step m s e).up = false) ∨ (e = .main ∧ s.main = .lookStart ∧ s.start = some true) ∨
    ((step m s e).main = .exit false ∧ (step m s e).up = false) := by
  have hs := conf_stop m s
  have hq : (s.stop m).up = false := by unfold St.stop; split <;> simp_all
  cases e <;> simp only [step, stepMain, stepConf, getD_true]
  all_goals repeat' split
  all_goals simp_all [Before]

/-- Only a look at `start` while it is set leads to a server -/
theorem looked (m : Mode) (hc : m.client = false) : ∀ evs, (Before (run m evs).main ∧ (run m evs).up = false) ∨
    Was m evs .main (fun s => s.main = .lookStart ∧ s.start = some true) ∨ ((run m evs).main = .exit false ∧ (run m evs).up = false) := by
  refine run_ind (P := fun evs s => (Before s.main ∧ s.up = false) ∨ Was m evs .main (fun s => s.main = .lookStart ∧ s.start = some true) ∨
    (s.main = .exit false ∧ s.up = false)) ?_ ?_
  · left
    simp [init, hc, Before]
  · intro evs e ih
    rcases ih with ⟨hb, hu⟩ | h | ⟨he, hu⟩
    · rcases before_step (m := m) (e := e) hb hu with h | ⟨rfl, h⟩ | h
      · exact .inl h
      · exact .inr (.inl (was_last h))
      · exact .inr (.inr h)
    · exact .inr (.inl h.snoc)
    · right; right
      generalize run m evs = s at he hu ⊢
      obtain ⟨conf, main, start, ready, configure, done, up, quit⟩ := s
      simp only at he hu
      subst he hu
      cases e <;> simp [step, stepMain]

/-- The main thread looks at `start` after `ready` was set, or after its time is over -/
theorem look_ready (m : Mode) (hc : m.client = false) : ∀ evs, (run m evs).main = .lookStart →
    (run m evs).ready.isSome = true ∨ Was m evs .timeOut (fun s => s.main = .waitReady ∧ s.ready = none) := by
  refine run_ind (P := fun evs s => s.main = .lookStart → s.ready.isSome = true ∨ Was m evs .timeOut (fun s => s.main = .waitReady ∧ s.ready = none)) ?_ ?_
  · simp [init, hc]
  · intro evs e ih h
    by_cases hl : (run m evs).main = .lookStart
    · rcases ih hl with h1 | h1
      · left
        clear ih
        generalize run m evs = s at hl h1 h ⊢
        have hs := conf_stop m s
        cases e <;> simp only [step, stepMain, stepConf] at h ⊢
        all_goals repeat' split
        all_goals simp_all
      · exact .inr h1.snoc
    · have h2 : (run m evs).main = .waitReady ∧ ((e = .main ∧ (run m evs).ready.isSome = true) ∨ e = .timeOut) := by
        clear ih
        generalize run m evs = s at hl h ⊢
        have hs := conf_stop m s
        cases e <;> simp only [step, stepMain, stepConf, getD_true] at h
        all_goals repeat' split at h
        all_goals simp_all
      rcases h2 with ⟨hm, ⟨rfl, hr⟩ | rfl⟩
      · left
        simp [step, stepMain, hm, hr]
      · cases hr : (run m evs).ready with
        | none => exact .inr (was_last ⟨hm, hr⟩)
        | some b => left; simp [step, hm, hr]

/-- C112: a server whose configuration is not valid is started only in two cases: the time to wait was over before the configuration was read, or the
main thread looked at `start` just between the two assignments of one line. -/
theorem C112_start (m : Mode) (evs : List Ev) (hc : m.client = false) (hv : m.valid = false) (hu : (run m evs).up = true) :
    Was m evs .timeOut (fun s => s.main = .waitReady ∧ s.ready = none) ∨ Was m evs .main (fun s => s.main = .lookStart ∧ s.conf = .setStart) := by
  rcases looked m hc evs with h | h | h
  · rw [hu] at h; cases h.2
  · obtain ⟨pre, post, rfl, h1, h2⟩ := h
    have hi := inv_run m pre
    rcases look_ready m hc pre h1 with h3 | ⟨p, q, rfl, h4⟩
    · right
      refine ⟨pre, post, rfl, h1, ?_⟩
      rw [hi.start] at h2
      rw [hi.ready] at h3
      generalize (run m pre).conf = c at h2 h3 ⊢
      cases c <;> simp_all [Spec.start, Spec.ready]
    · exact .inl ⟨p, q ++ .main :: post, by simp, h4⟩
  · rw [hu] at h; cases h.2

/-- Refuted: a server is not started without a valid configuration. Here no time is over; the thread is between the two assignments. -/
theorem C112_refuted_race : ∃ m evs, m.client = false ∧ m.valid = false ∧ .timeOut ∉ evs ∧ (run m evs).up = true :=
  ⟨⟨false, true, false⟩, [.conf, .conf, .conf, .main, .main, .main, .main], by decide⟩

/-- Refuted: the same if reading of the configuration takes too long. -/
theorem C112_refuted_slow : ∃ m evs, m.client = false ∧ m.valid = false ∧ (run m evs).up = true ∧ (run m evs).conf = .read :=
  ⟨⟨false, true, false⟩, [.conf, .timeOut, .main, .main, .main], by decide⟩

/-! ## End -/

structure UpInv (m : Mode) (s : St) : Prop where
  fore : s.main = .serving → m.daemon = false
  up : s.up = true → s.main = .serving ∨ (m.daemon = true ∧ (s.main = .waitDone ∨ s.main = .lookDone ∨ ∃ b, s.main = .exit b))

theorem up_stop (m : Mode) (s : St) (h : (s.stop m).up = true) : s.up = true := by
  unfold St.stop at h
  split at h <;> simp_all

theorem up_run (m : Mode) : ∀ evs, UpInv m (run m evs) := by
  refine run_ind (P := fun _ s => UpInv m s) ?_ ?_
  · constructor <;> unfold init <;> cases m.client <;> simp
  · intro evs e ih
    obtain ⟨i1, i2⟩ := ih
    generalize run m evs = s at i1 i2 ⊢
    have hs := conf_stop m s
    have hu := up_stop m s
    cases hd : m.daemon
    all_goals cases e <;> simp only [step, stepMain, stepConf, hd]
    all_goals repeat' split
    all_goals constructor
    all_goals grind

/-- C112: in the foreground a server is up only as long as the main thread is in it; so it is over when the program ends. -/
theorem C112_foreground (m : Mode) (evs : List Ev) (hd : m.daemon = false) : (run m evs).up = true → (run m evs).main = .serving := by
  intro h
  rcases (up_run m evs).up h with h | ⟨h, _⟩
  · exact h
  · rw [hd] at h; cases h

/-- C112: nothing the two threads do ends a daemon; only a command does, or the daemon itself. -/
theorem C112_daemon (m : Mode) (evs : List Ev) (hd : m.daemon = true) (hu : (run m evs).up = true) (e : Ev) (h1 : e ≠ .stop) (h2 : e ≠ .down) :
    (step m (run m evs) e).up = true := by
  obtain ⟨i1, i2⟩ := up_run m evs
  generalize run m evs = s at i1 i2 hu ⊢
  have hq : (s.stop m).up = true := by unfold St.stop; split <;> simp_all
  cases e <;> simp only [step, stepMain, stepConf, hd]
  all_goals repeat' split
  all_goals grind

/-- Refuted: a failed start leaves no server. The program ends with 255, the daemon stays, without its configuration. -/
theorem C112_refuted_daemon : ∃ m evs, m.valid = true ∧ (run m evs).main = .exit false ∧ (run m evs).done = some false ∧ (run m evs).up = true ∧
    ∀ evs', .stop ∉ evs' → .down ∉ evs' → (run m (evs ++ evs')).up = true := by
  refine ⟨⟨false, true, true⟩, [.conf, .conf, .conf, .conf, .main, .main, .main, .main, .conf, .answer false, .conf, .conf, .main, .main], by decide, by decide,
    by decide, by decide, ?_⟩
  have h0 : (run ⟨false, true, true⟩ [.conf, .conf, .conf, .conf, .main, .main, .main, .main, .conf, .answer false, .conf, .conf, .main, .main]).up = true := by
    decide
  generalize [Ev.conf, .conf, .conf, .conf, .main, .main, .main, .main, .conf, .answer false, .conf, .conf, .main, .main] = l at h0 ⊢
  intro evs'
  induction evs' generalizing l with
  | nil => intro _ _; simpa using h0
  | cons e evs' ih =>
    intro h1 h2
    have : l ++ e :: evs' = (l ++ [e]) ++ evs' := by simp
    rw [this]
    refine ih (l ++ [e]) ?_ (fun h => h1 (by simp [h])) (fun h => h2 (by simp [h]))
    rw [run_snoc]
    exact C112_daemon _ l rfl h0 e (fun h => h1 (by simp [h])) (fun h => h2 (by simp [h]))

/-- C112: the end is final: later events change nothing, but a daemon can end. -/
theorem C112_final (m : Mode) (evs : List Ev) (b : Bool) (h : (run m evs).main = .exit b) (e : Ev) :
    step m (run m evs) e = run m evs ∨ (m.daemon = true ∧ (e = .stop ∨ e = .down) ∧ step m (run m evs) e = { run m evs with up := false }) := by
  have hu : m.daemon = false → (run m evs).up = false := by
    intro hd
    cases hu : (run m evs).up
    · rfl
    · have := C112_foreground m evs hd hu
      rw [h] at this
      cases this
  generalize run m evs = s at h hu ⊢
  obtain ⟨conf, main, start, ready, configure, done, up, quit⟩ := s
  simp only at h hu
  subst h
  cases hd : m.daemon
  · have := hu hd
    subst this
    cases e <;> simp [step, stepMain, hd]
  · cases e <;> simp [step, stepMain, hd]

/-! ### Failure -/

/-- Something went wrong -/
def Bad (evs : List Ev) : Prop := .timeOut ∈ evs ∨ .fail ∈ evs ∨ .answer false ∈ evs

structure Fine (s : St) : Prop where
  conf : s.conf ≠ .answered false ∧ s.conf ≠ .setDone false
  done : s.done ≠ some false
  look : s.main = .lookStart → s.start = some true ∧ s.ready.isSome = true
  lookDone : s.main = .lookDone → s.done.isSome = true
  exit : s.main ≠ .exit false

theorem fine_run (m : Mode) (hc : m.client = false) (hv : m.valid = true) : ∀ evs, Bad evs ∨ Fine (run m evs) := by
  refine run_ind (P := fun evs s => Bad evs ∨ Fine s) ?_ ?_
  · right
    constructor <;> simp [init, hc]
  · intro evs e ih
    rcases ih with h | h
    · left
      unfold Bad at h ⊢
      simp only [List.mem_append]
      grind
    · have hi := inv_run m evs
      have hb : e = .timeOut ∨ e = .fail ∨ e = .answer false → Bad (evs ++ [e]) := by
        unfold Bad
        rintro (rfl | rfl | rfl) <;> simp
      by_cases he : e = .timeOut ∨ e = .fail ∨ e = .answer false
      · exact .inl (hb he)
      · right
        obtain ⟨i1, i2, i3, i4, i5⟩ := hi
        obtain ⟨⟨f1, f2⟩, f3, f4, f5, f6⟩ := h
        clear hb
        generalize run m evs = s at *
        have hs := conf_stop m s
        have hr : s.ready.isSome = true → s.start = some true := by
          rw [i1, i2, hv]
          cases s.conf <;> simp [Spec.start, Spec.ready]
        have hd : s.done.isSome = true → s.done = some true := by
          cases hx : s.done with
          | none => simp
          | some b => cases b <;> simp_all
        cases e with
        | timeOut => simp at he
        | fail => simp at he
        | answer ok =>
          cases ok
          · simp at he
          · simp only [step]
            repeat' split
            all_goals constructor
            all_goals simp_all
        | main =>
          simp only [step, stepMain, getD_true]
          repeat' split
          all_goals constructor
          all_goals simp_all
        | conf =>
          simp only [step, stepConf]
          repeat' split
          all_goals constructor
          all_goals simp_all
          all_goals grind
        | stop =>
          simp only [step]
          repeat' split
          all_goals constructor
          all_goals simp_all
        | down =>
          simp only [step]
          repeat' split
          all_goals constructor
          all_goals simp_all

/-- C112: a failed start of `fail2ban-server` has a reason: the configuration is not valid or was not accepted, the server could not be started, or the time
was over. -/
theorem C112_failure (m : Mode) (evs : List Ev) (hc : m.client = false) (h : (run m evs).main = .exit false) :
    m.valid = false ∨ .timeOut ∈ evs ∨ .fail ∈ evs ∨ .answer false ∈ evs := by
  cases hv : m.valid
  · exact .inl rfl
  · rcases fine_run m hc hv evs with h1 | h1
    · exact .inr h1
    · exact absurd h h1.exit

/-! ### The program ends -/

def rank : Main → Nat
  | .waitReady => 7
  | .lookStart => 6
  | .create => 5
  | .created => 4
  | .serving => 3
  | .waitDone => 2
  | .lookDone => 1
  | .exit _ => 0

def next : Main → Ev
  | .waitReady | .waitDone => .timeOut
  | _ => .main

theorem rank_step (m : Mode) (s : St) (h : ¬ (s.main = .serving ∧ s.up = true)) (h0 : rank s.main ≠ 0) : rank (step m s (next s.main)).main < rank s.main := by
  have hs := conf_stop m s
  cases hm : s.main
  all_goals simp only [hm, next, step, stepMain]
  all_goals repeat' split
  all_goals simp_all [rank]

/-- C112: no wait is without end: from each state the main thread comes to its end by at most seven steps of its own, or it is in a server that is up. -/
theorem C112_ends (m : Mode) (evs : List Ev) : ∃ l : List Ev, l.length ≤ 7 ∧ (∀ e ∈ l, e = .main ∨ e = .timeOut) ∧
    ((∃ b, (run m (evs ++ l)).main = .exit b) ∨ (m.daemon = false ∧ (run m (evs ++ l)).main = .serving ∧ (run m (evs ++ l)).up = true)) := by
  have : ∀ (n : Nat) evs, rank (run m evs).main ≤ n → ∃ l : List Ev, l.length ≤ n ∧ (∀ e ∈ l, e = .main ∨ e = .timeOut) ∧
    ((∃ b, (run m (evs ++ l)).main = .exit b) ∨ (m.daemon = false ∧ (run m (evs ++ l)).main = .serving ∧ (run m (evs ++ l)).up = true)) := by
    intro n
    induction n with
    | zero =>
      intro evs h
      refine ⟨[], by simp, by simp, .inl ?_⟩
      rw [List.append_nil]
      generalize (run m evs).main = x at h
      cases x <;> simp [rank] at h
      exact ⟨_, rfl⟩
    | succ n ih =>
      intro evs h
      by_cases h1 : (run m evs).main = .serving ∧ (run m evs).up = true
      · exact ⟨[], by simp, by simp, .inr (by rw [List.append_nil]; exact ⟨(up_run m evs).fore h1.1, h1⟩)⟩
      · by_cases h2 : rank (run m evs).main = 0
        · refine ⟨[], by simp, by simp, .inl ?_⟩
          rw [List.append_nil]
          generalize (run m evs).main = x at h2
          cases x <;> simp [rank] at h2
          exact ⟨_, rfl⟩
        · have h3 := rank_step m _ h1 h2
          obtain ⟨l, k1, k2, k3⟩ := ih (evs ++ [next (run m evs).main]) (by rw [run_snoc]; omega)
          refine ⟨next (run m evs).main :: l, by simp; exact k1, ?_, by simpa using k3⟩
          intro e he
          rcases List.mem_cons.1 he with rfl | he
          · generalize (run m evs).main = x
            cases x <;> simp [next]
          · exact k2 e he
  exact this 7 evs (by cases (run m evs).main <;> simp [rank])

/-! ### Stop of the server -/

/-- C112: if the configuration is not accepted, then the server in the foreground is stopped; and a command stops it, unless `quit` was called. -/
theorem C112_stop (m : Mode) (evs : List Ev) (hd : m.daemon = false) (hu : (run m evs).up = true) (hq : (run m evs).quit = false) :
    (step m (run m evs) .stop).up = false ∧ ((run m evs).conf = .answered false → (step m (run m evs) .conf).up = false) := by
  have hm := C112_foreground m evs hd hu
  constructor
  · simp [step, hd, hu, St.stop, hq]
  · intro hc
    simp [step, stepConf, hm, hc, St.known, St.stop, hq, hd]

/-- `quit` was called too early, or the server is over -/
theorem early_run (m : Mode) (hd : m.daemon = false) : ∀ evs, (run m evs).quit = true →
    Was m evs .conf (fun s => s.conf = .answered false ∧ s.main = .created) ∨
    ((run m evs).up = false ∧ ((run m evs).main = .serving ∨ (run m evs).main = .waitDone ∨ (run m evs).main = .lookDone ∨ ∃ b, (run m evs).main = .exit b)) := by
  refine run_ind (P := fun evs s => s.quit = true → Was m evs .conf (fun s => s.conf = .answered false ∧ s.main = .created) ∨
    (s.up = false ∧ (s.main = .serving ∨ s.main = .waitDone ∨ s.main = .lookDone ∨ ∃ b, s.main = .exit b))) ?_ ?_
  · unfold init
    simp
  · intro evs e ih h
    have hf := C112_foreground m evs hd
    by_cases hq : (run m evs).quit = true
    · rcases ih hq with h1 | h1
      · exact .inl h1.snoc
      · right
        clear ih hf
        generalize run m evs = s at *
        have hs := conf_stop m s
        have hu : (s.stop m).up = false := by unfold St.stop; split <;> simp_all
        cases e <;> simp only [step, stepMain, stepConf, hd]
        all_goals repeat' split
        all_goals simp_all
    · by_cases he : e = .conf ∧ (run m evs).conf = .answered false ∧ (run m evs).main = .created
      · obtain ⟨rfl, he⟩ := he
        exact .inl (was_last he)
      · right
        clear ih
        generalize run m evs = s at *
        have hs := conf_stop m s
        have hu : (s.stop m).up = false := by unfold St.stop; split <;> simp_all
        have hk : s.known = true → s.main = .created ∨ s.main = .serving ∨ s.main = .waitDone ∨ s.main = .lookDone ∨ ∃ b, s.main = .exit b := by
          unfold St.known
          cases s.main <;> simp
        cases e <;> simp only [step, stepMain, stepConf, hd] at h ⊢
        all_goals repeat' split
        all_goals grind

/-- C112: a server in the foreground cannot be stopped by a command only if it was to be stopped before it was up. -/
theorem C112_early (m : Mode) (evs : List Ev) (hd : m.daemon = false) (hu : (run m evs).up = true) (hq : (run m evs).quit = true) :
    Was m evs .conf (fun s => s.conf = .answered false ∧ s.main = .created) := by
  rcases early_run m hd evs hq with h | h
  · exact h
  · rw [hu] at h; cases h.1

/-- Refuted: a server can always be stopped. `quit` does nothing for a server that is not up yet, and nothing later. -/
theorem C112_refuted_stop : ∃ m evs, m.valid = true ∧ m.daemon = false ∧ (run m evs).up = true ∧ (run m evs).done = some false ∧
    ∀ n, run m (evs ++ List.replicate n .stop) = run m evs := by
  refine ⟨⟨false, false, true⟩, [.conf, .conf, .conf, .conf, .conf, .answer false, .main, .main, .main, .conf, .conf, .main], by decide, by decide, by decide,
    by decide, ?_⟩
  intro n
  induction n with
  | zero => rw [List.replicate_zero, List.append_nil]
  | succ n ih =>
    rw [List.replicate_succ', ← List.append_assoc, run_snoc, ih]
    decide

theorem quit_stop (m : Mode) (s : St) : (s.stop m).quit = true := by
  unfold St.stop
  split
  · assumption
  · rfl

/-- C112: unless no server was created at all, `quit` of its object is called before the program ends with an error. -/
theorem C112_quit (m : Mode) : ∀ evs, (run m evs).main = .exit false → (run m evs).quit = true ∨
    Was m evs .main (fun s => s.main = .lookStart ∧ s.start ≠ some true) := by
  refine run_ind (P := fun evs s => s.main = .exit false → s.quit = true ∨ Was m evs .main (fun s => s.main = .lookStart ∧ s.start ≠ some true)) ?_ ?_
  · unfold init
    cases m.client <;> simp
  · intro evs e ih h
    by_cases hw : e = .main ∧ (run m evs).main = .lookStart ∧ (run m evs).start ≠ some true
    · obtain ⟨rfl, hw⟩ := hw
      exact .inr (was_last hw)
    · have key : (step m (run m evs) e).quit = true ∨ (run m evs).main = .exit false := by
        clear ih
        generalize run m evs = s at h hw ⊢
        have hs := conf_stop m s
        have hq := quit_stop m s
        cases e <;> simp only [step, stepMain, stepConf] at h ⊢
        all_goals repeat' split at h
        all_goals simp_all [getD_true]
      rcases key with hk | hk
      · exact .inl hk
      · rcases ih hk with hq | hq
        · left
          generalize run m evs = s at hk hq ⊢
          have hq' := quit_stop m s
          cases e <;> simp only [step, stepMain, stepConf, hk]
          all_goals repeat' split
          all_goals simp_all
        · exact .inr hq.snoc

/-- The time to wait is over for a server in the background: the object of this process is told to quit -/
example : (run ⟨false, true, true⟩ [.conf, .conf, .conf, .conf, .main, .main, .main, .main, .timeOut, .main]).quit = true ∧
    (run ⟨false, true, true⟩ [.conf, .conf, .conf, .conf, .main, .main, .main, .main, .timeOut, .main]).main = .exit false := by decide

/-! ### Examples -/

/-- A start in the foreground, and a stop -/
def exGood : List Ev := [.conf, .conf, .conf, .conf, .main, .main, .main, .main, .conf, .answer true, .conf, .conf, .stop, .main, .main, .main]

example : (run ⟨false, false, true⟩ exGood).main = .exit true ∧ (run ⟨false, false, true⟩ (exGood.take 12)).up = true ∧
    (run ⟨false, false, true⟩ exGood).up = false := by decide

/-- The configuration is not accepted: the server in the foreground ends, with 255 -/
example : (run ⟨false, false, true⟩ [.conf, .conf, .conf, .conf, .main, .main, .main, .main, .conf, .answer false, .conf, .main, .conf, .main, .main]) =
    { conf := .ended, main := .exit false, start := some true, ready := some true, configure := some true, done := some false, up := false, quit := true } := by decide

/-- Not valid: no server -/
example : (run ⟨false, false, false⟩ [.conf, .conf, .conf, .conf, .main, .main]).main = .exit false := by decide

/-- From the client: the server is stopped before the configuration is done -/
example : (run ⟨true, false, true⟩ [.main, .main, .conf, .stop, .main, .main]).main = .exit false := by decide

/-- From the client: nothing can fail before the server was created -/
example : (run ⟨true, false, true⟩ [.fail]).main = .create ∧ (run ⟨true, false, true⟩ [.main, .fail]).main = .exit false := by decide

/-- An answer cannot come from a server that is not up -/
example : (run ⟨false, false, true⟩ [.conf, .conf, .conf, .conf, .conf, .answer true]).conf = .send := by decide

end Verif.StartPhases
