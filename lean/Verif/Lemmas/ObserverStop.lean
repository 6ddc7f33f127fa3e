import Verif.Lemmas.ObserverQueue

set_option linter.unusedSimpArgs false

namespace Verif.ObserverQueueSpec

open Verif.ObserverQueue

/-! ## What never decreases -/

theorem stop_frame (w : World) (f : Bool) : (stop w f).done = w.done ∧ (stop w f).loop = w.loop ∧ (stop w f).lost = w.lost ∧ (stop w f).timer = w.timer ∧ (stop w f).active = w.active ∧
    (stop w f).paused = w.paused ∧ (stop w f).notify = w.notify ∧
    ((stop w f).queue = w.queue ∧ (stop w f).added = w.added ∨ (stop w f).queue = w.queue ++ [.shutdown] ∧ (stop w f).added = w.added ++ [.shutdown]) := by
  unfold stop
  split
  · split
    · exact ⟨rfl, rfl, rfl, rfl, rfl, rfl, rfl, Or.inr ⟨rfl, rfl⟩⟩
    · exact ⟨rfl, rfl, rfl, rfl, rfl, rfl, rfl, Or.inl ⟨rfl, rfl⟩⟩
  · split
    · exact ⟨rfl, rfl, rfl, rfl, rfl, rfl, rfl, Or.inr ⟨rfl, rfl⟩⟩
    · exact ⟨rfl, rfl, rfl, rfl, rfl, rfl, rfl, Or.inl ⟨rfl, rfl⟩⟩
  · exact ⟨rfl, rfl, rfl, rfl, rfl, rfl, rfl, Or.inl ⟨rfl, rfl⟩⟩

theorem fire_frame (w : World) : (fire w).done = w.done ∧ (fire w).loop = w.loop ∧ (fire w).lost = w.lost ∧ (fire w).active = w.active ∧ (fire w).paused = w.paused ∧
    (fire w).notify = w.notify ∧ (fire w).stopper = w.stopper ∧ w.added <+: (fire w).added := by
  unfold fire
  split
  · exact ⟨rfl, rfl, rfl, rfl, rfl, rfl, rfl, List.prefix_append ..⟩
  · exact ⟨rfl, rfl, rfl, rfl, rfl, rfl, rfl, List.prefix_refl _⟩

theorem loop_added (w : World) (r t : Bool) : w.added <+: (loopStep w r t).added ∧ w.done <+: (loopStep w r t).done := by
  unfold loopStep
  split
  case h_2 => exact ⟨List.prefix_append .., List.prefix_refl _⟩
  case h_6 => exact ⟨List.prefix_refl _, List.prefix_append ..⟩
  all_goals first
    | exact ⟨List.prefix_refl _, List.prefix_refl _⟩
    | (split <;> exact ⟨List.prefix_refl _, List.prefix_refl _⟩)

theorem step_grows (w : World) (o : Op) : w.added <+: (step w o).added ∧ w.done <+: (step w o).done := by
  cases o with
  | loop r t => exact loop_added w r t
  | add n => exact ⟨List.prefix_append .., List.prefix_refl _⟩
  | pulse i => have h := pulse_frame w i; exact ⟨by show _ <+: (pulseStep w i).added; rw [h.1]; exact List.prefix_refl _, by show _ <+: (pulseStep w i).done; rw [h.2.1]; exact List.prefix_refl _⟩
  | pause b => have h := setPaused_frame w b; exact ⟨by show _ <+: (setPaused w b).added; rw [h.1]; exact List.prefix_refl _, by show _ <+: (setPaused w b).done; rw [h.2.1]; exact List.prefix_refl _⟩
  | fire => have h := fire_frame w; exact ⟨h.2.2.2.2.2.2.2, by show _ <+: (fire w).done; rw [h.1]; exact List.prefix_refl _⟩
  | stop f =>
    have h := stop_frame w f
    refine ⟨?_, by show _ <+: (stop w f).done; rw [h.1]; exact List.prefix_refl _⟩
    show _ <+: (stop w f).added
    rcases h.2.2.2.2.2.2.2 with ⟨_, k⟩ | ⟨_, k⟩
    · rw [k]; exact List.prefix_refl _
    · rw [k]; exact List.prefix_append ..
  | stopper x => have h := stopStep_frame w x; exact ⟨by show _ <+: (stopStep w x).added; rw [h.1]; exact List.prefix_refl _, by show _ <+: (stopStep w x).done; rw [h.2.1]; exact List.prefix_refl _⟩

theorem run_grows (w : World) (os : List Op) : w.added <+: (run w os).added ∧ w.done <+: (run w os).done := by
  induction os generalizing w with
  | nil => exact ⟨List.prefix_refl _, List.prefix_refl _⟩
  | cons o os ih =>
    have a := step_grows w o
    have b := ih (step w o)
    exact ⟨a.1.trans b.1, a.2.trans b.2⟩

/-! ## Stop without force -/

/-- The loop left, or is leaving, or is going to. -/
def leaving (w : World) : Prop := w.loop = .closing ∨ w.loop = .cleared ∨ w.loop = .ended

def decided : Stop → Prop
  | .clear => True
  | .deactivate => True
  | .pause => True
  | .result true => True
  | _ => False

def forced : Stop → Prop
  | .none => True
  | .set f => f = true
  | .drop f => f = true
  | .poll f => f = true
  | .judge f => f = true
  | _ => False

/-- A call of `stop` without force is running or returned; `m` events were added before. -/
structure Graceful (m : Nat) (w : World) : Prop where
  ordered : Ordered w
  behind : m < w.added.length
  left : leaving w → m ≤ w.done.length
  inactive : w.active = false → m ≤ w.done.length
  decided : decided w.stopper → m ≤ w.done.length
  unforced : ¬ forced w.stopper

theorem graceful_empty {m : Nat} {w : World} (h : Graceful m w) (hq : w.queue = []) : m ≤ w.done.length := by
  by_cases hl : w.loop = .ended
  · exact h.left (Or.inr (Or.inr hl))
  · have e := congrArg List.length h.ordered.all
    have hr : (running w).length ≤ 1 := by unfold running; split <;> simp
    rw [hq, h.ordered.lost hl] at e
    simp only [List.length_append, List.length_nil, executed, List.length_map] at e
    have := h.behind
    omega

theorem graceful_step {m : Nat} {w : World} (h : Graceful m w) (o : Op) (ho : isStop o = false) : Graceful m (step w o) := by
  have hg := step_grows w o
  have ho' := ordered_step h.ordered o
  have hb : m < (step w o).added.length := Nat.lt_of_lt_of_le h.behind hg.1.length_le
  have hd := hg.2.length_le
  cases o with
  | stop f => cases ho
  | loop r t =>
    have frame : (loopStep w r t).active = w.active ∧ (loopStep w r t).stopper = w.stopper := by
      unfold loopStep; split <;> first | exact ⟨rfl, rfl⟩ | (split <;> exact ⟨rfl, rfl⟩)
    refine ⟨ho', hb, ?_, ?_, ?_, ?_⟩
    · intro k
      refine Nat.le_trans ?_ hd
      by_cases hw : leaving w
      · exact h.left hw
      · simp only [leaving, not_or] at hw
        have k' : leaving (loopStep w r t) := k
        unfold leaving at k'
        unfold loopStep at k'
        split at k'
        · simp at k'
        · simp at k'
        · split at k'
          · simp at k'
          · rename_i ha; exact h.inactive (by simpa using ha)
        · cases hp : w.paused <;> simp [hp] at k'
        · split at k' <;> simp at k'
        · simp [execute] at k'
        · split at k' <;> simp at k'
        · split at k'
          · simp at k'
          · rcases k' with k' | k' | k'
            · exact absurd k' hw.1
            · exact absurd k' hw.2.1
            · exact absurd k' hw.2.2
        · simp at k'
        · cases hq : w.queue.isEmpty
          · simp [hq] at k'
          · exact graceful_empty h (List.isEmpty_iff.1 hq)
        · rename_i hl; exact absurd hl hw.1
        · rename_i hl; exact absurd hl hw.2.1
        · rename_i hl; exact absurd hl hw.2.2
    · intro k; exact Nat.le_trans (h.inactive (by rw [← frame.1]; exact k)) hd
    · intro k; exact Nat.le_trans (h.decided (by rw [← frame.2]; exact k)) hd
    · intro k; exact h.unforced (by rw [← frame.2]; exact k)
  | add n => exact ⟨ho', hb, h.left, h.inactive, h.decided, h.unforced⟩
  | pulse i =>
    obtain ⟨_, f2, f3, _, _, _, f7, _, _, f10, _⟩ := pulse_frame w i
    refine ⟨ho', hb, ?_, ?_, ?_, ?_⟩
    · intro k; exact Nat.le_trans (h.left (by unfold leaving at k ⊢; rw [← f3]; exact k)) hd
    · intro k; exact Nat.le_trans (h.inactive (by rw [← f7]; exact k)) hd
    · intro k; exact Nat.le_trans (h.decided (by rw [← f10]; exact k)) hd
    · intro k; exact h.unforced (by rw [← f10]; exact k)
  | pause b =>
    obtain ⟨_, f2, f3, _, _, _, f7, _, f10, _⟩ := setPaused_frame w b
    refine ⟨ho', hb, ?_, ?_, ?_, ?_⟩
    · intro k; exact Nat.le_trans (h.left (by unfold leaving at k ⊢; rw [← f3]; exact k)) hd
    · intro k; exact Nat.le_trans (h.inactive (by rw [← f7]; exact k)) hd
    · intro k; exact Nat.le_trans (h.decided (by rw [← f10]; exact k)) hd
    · intro k; exact h.unforced (by rw [← f10]; exact k)
  | fire =>
    obtain ⟨_, f2, _, f4, _, _, f7, _⟩ := fire_frame w
    refine ⟨ho', hb, ?_, ?_, ?_, ?_⟩
    · intro k; exact Nat.le_trans (h.left (by unfold leaving at k ⊢; rw [← f2]; exact k)) hd
    · intro k; exact Nat.le_trans (h.inactive (by rw [← f4]; exact k)) hd
    · intro k; exact Nat.le_trans (h.decided (by rw [← f7]; exact k)) hd
    · intro k; exact h.unforced (by rw [← f7]; exact k)
  | stopper x =>
    obtain ⟨_, f2, f3, _⟩ := stopStep_frame w x
    have hle : leaving (step w (.stopper x)) → m ≤ (step w (.stopper x)).done.length := by
      intro k; exact Nat.le_trans (h.left (by unfold leaving at k ⊢; rw [← f3]; exact k)) hd
    have hun := h.unforced
    refine ⟨ho', hb, hle, ?_, ?_, ?_⟩
    · intro k
      refine Nat.le_trans ?_ hd
      have k' : (stopStep w x).active = false := k
      unfold stopStep at k'
      split at k'
      case h_7 => rename_i hs; exact h.decided (by rw [hs]; trivial)
      all_goals first
        | exact h.inactive k'
        | (split at k' <;> first | exact h.inactive k' | (split at k' <;> exact h.inactive k'))
    · intro k
      refine Nat.le_trans ?_ hd
      have k' : Verif.ObserverQueueSpec.decided (stopStep w x).stopper := k
      unfold stopStep at k'
      split at k'
      · exact h.decided k'
      · exact absurd k' id
      · exact absurd k' id
      · split at k'
        · exact absurd k' id
        · exact h.decided k'
      · rename_i f hs
        rw [hs] at hun
        have hf : f = false := by simpa [forced] using hun
        cases hq : w.queue.isEmpty
        · simp [hq, hf, Verif.ObserverQueueSpec.decided] at k'
        · exact graceful_empty h (List.isEmpty_iff.1 hq)
      · rename_i hs; exact h.decided (by rw [hs]; trivial)
      · rename_i hs; exact h.decided (by rw [hs]; trivial)
      · exact absurd k' id
      · exact absurd k' id
      · split at k'
        · exact absurd k' id
        · split at k'
          · exact absurd k' id
          · exact h.decided k'
      · cases hq : w.queue.isEmpty
        · simp [hq, Verif.ObserverQueueSpec.decided] at k'
        · exact graceful_empty h (List.isEmpty_iff.1 hq)
      · exact h.decided k'
    · intro k
      have k' : forced (stopStep w x).stopper := k
      unfold stopStep at k'
      split at k'
      · exact hun k'
      · rename_i f hs; rw [hs] at hun; exact hun k'
      · rename_i f hs; rw [hs] at hun; exact hun k'
      · rename_i f hs
        split at k'
        · rw [hs] at hun; exact hun k'
        · exact hun k'
      · split at k' <;> exact k'
      · exact k'
      · exact k'
      · exact k'
      · exact k'
      · split at k'
        · exact k'
        · split at k'
          · exact k'
          · exact hun k'
      · exact k'
      · exact hun k'

theorem graceful_run {m : Nat} {w : World} (h : Graceful m w) (os : List Op) (ho : noStop os) : Graceful m (run w os) := by
  induction os generalizing w with
  | nil => exact h
  | cons o os ih => exact ih (graceful_step h o (ho o (List.mem_cons_self ..))) (fun p hp => ho p (List.mem_cons_of_mem _ hp))

theorem graceful_begin {w : World} (a : Awake w) (o : Ordered w) : Graceful w.added.length (stop w false) := by
  have e : stop w false = { append w .shutdown with stopper := .set false } := by
    unfold stop; rw [a.stopper]; simp [a.active, a.notify]
  have ho := ordered_stop o false
  rw [e] at ho ⊢
  refine ⟨ho, ?_, ?_, ?_, ?_, ?_⟩
  · simp [append]
  · intro k; rcases k with k | k | k
    · exact absurd k a.going.2.1
    · exact absurd k a.going.2.2.1
    · exact absurd k a.going.2.2.2
  · intro k; have : w.active = false := k; rw [a.active] at this; cases this
  · intro k; exact absurd k id
  · intro k; cases k

/-! ## Forced stop -/

def stopRank : Stop → Nat
  | .set _ => 7
  | .drop _ => 6
  | .poll _ => 5
  | .judge _ => 4
  | .clear => 3
  | .deactivate => 2
  | .pause => 1
  | _ => 0

/-- A forced stop is on its way, or has set its flags. -/
def Forcing (w : World) : Prop :=
  w.stopper = .set true ∨ w.stopper = .drop true ∨ w.stopper = .poll true ∨ w.stopper = .judge true ∨ w.stopper = .clear ∨ w.stopper = .deactivate ∨
    (w.stopper = .pause ∧ w.active = false) ∨ (w.active = false ∧ w.paused = true)

def isPause : Op → Bool
  | .pause _ => true
  | _ => false

theorem step_same (w : World) (o : Op) (hp : isPause o = false) (hx : ∀ x, o ≠ .stopper x) : (step w o).active = w.active ∧ (step w o).paused = w.paused := by
  cases o with
  | loop r t => show (loopStep w r t).active = _ ∧ (loopStep w r t).paused = _; unfold loopStep; split <;> first | exact ⟨rfl, rfl⟩ | (split <;> exact ⟨rfl, rfl⟩)
  | add n => exact ⟨rfl, rfl⟩
  | pulse i => have h := pulse_frame w i; exact ⟨h.2.2.2.2.2.2.1, h.2.2.2.2.2.2.2.1⟩
  | pause b => cases hp
  | fire => have h := fire_frame w; exact ⟨h.2.2.2.1, h.2.2.2.2.1⟩
  | stop f => have h := stop_frame w f; exact ⟨h.2.2.2.2.1, h.2.2.2.2.2.1⟩
  | stopper x => exact absurd rfl (hx x)

theorem step_stopper (w : World) (o : Op) (hs : isStop o = false) (hx : ∀ x, o ≠ .stopper x) : (step w o).stopper = w.stopper := by
  cases o with
  | loop r t => show (loopStep w r t).stopper = _; unfold loopStep; split <;> first | rfl | (split <;> rfl)
  | add n => rfl
  | pulse i => exact (pulse_frame w i).2.2.2.2.2.2.2.2.2.1
  | pause b => exact (setPaused_frame w b).2.2.2.2.2.2.2.2.1
  | fire => exact (fire_frame w).2.2.2.2.2.2.1
  | stop f => cases hs
  | stopper x => exact absurd rfl (hx x)

theorem forcing_stopStep {w : World} (h : Forcing w) (x : Bool) : Forcing (stopStep w x) := by
  rcases h with h | h | h | h | h | h | ⟨h, ha⟩ | ⟨ha, hp⟩
  · right; left; unfold stopStep; rw [h]
  · right; right; left; unfold stopStep; rw [h]
  · unfold stopStep
    rw [h]
    dsimp only
    split
    · right; right; right; left; rfl
    · right; right; left; exact h
  · right; right; right; right; left; unfold stopStep; rw [h]; simp
  · right; right; right; right; right; left; unfold stopStep; rw [h]
  · right; right; right; right; right; right; left; unfold stopStep; rw [h]; exact ⟨rfl, rfl⟩
  · right; right; right; right; right; right; right; unfold stopStep; rw [h]; exact ⟨ha, rfl⟩
  · right; right; right; right; right; right; right
    unfold stopStep
    split <;> first | exact ⟨ha, hp⟩ | exact ⟨rfl, hp⟩ | exact ⟨ha, rfl⟩ | (split <;> first | exact ⟨ha, hp⟩ | (split <;> exact ⟨ha, hp⟩))

theorem forcing_step {w : World} (h : Forcing w) (o : Op) (hs : isStop o = false) (hp : isPause o = false) : Forcing (step w o) := by
  by_cases hx : ∃ x, o = .stopper x
  · obtain ⟨x, rfl⟩ := hx; exact forcing_stopStep h x
  · have hx' : ∀ x, o ≠ .stopper x := fun x k => hx ⟨x, k⟩
    have a := step_same w o hp hx'
    have b := step_stopper w o hs hx'
    unfold Forcing
    rw [a.1, a.2, b]
    exact h

/-- Steps of `stop` whose time is over. -/
def stopSteps (os : List Op) : Nat := os.countP (fun o => decide (o = .stopper true))

theorem forcing_run {w : World} (h : Forcing w) (os : List Op) (hs : noStop os) (hp : ∀ o ∈ os, isPause o = false) (hn : (w.active = false ∧ w.paused = true) ∨ stopRank w.stopper ≤ stopSteps os) :
    (run w os).active = false ∧ (run w os).paused = true := by
  induction os generalizing w with
  | nil =>
    show w.active = false ∧ w.paused = true
    rcases hn with hn | hn
    · exact hn
    · have hn' : stopRank w.stopper = 0 := Nat.le_zero.1 hn
      rcases h with h | h | h | h | h | h | ⟨h, _⟩ | h
      all_goals first | exact h | (rw [h] at hn'; cases hn')
  | cons o os ih =>
    have hs' := hs o (List.mem_cons_self ..)
    have hp' := hp o (List.mem_cons_self ..)
    refine ih (forcing_step h o hs' hp') (fun p k => hs p (List.mem_cons_of_mem _ k)) (fun p k => hp p (List.mem_cons_of_mem _ k)) ?_
    by_cases hx : ∃ x, o = .stopper x
    · obtain ⟨x, rfl⟩ := hx
      have done : (w.active = false ∧ w.paused = true) → ((stopStep w x).active = false ∧ (stopStep w x).paused = true) := by
        intro ⟨ha, hp⟩
        unfold stopStep
        split <;> first | exact ⟨ha, hp⟩ | exact ⟨rfl, hp⟩ | exact ⟨ha, rfl⟩ | (split <;> first | exact ⟨ha, hp⟩ | (split <;> exact ⟨ha, hp⟩))
      have hc : stopSteps (.stopper x :: os) ≤ stopSteps os + 1 := by
        unfold stopSteps; rw [List.countP_cons]; split <;> omega
      rcases hn with hn | hn
      · exact Or.inl (done hn)
      · rcases h with h | h | h | h | h | h | ⟨h, ha⟩ | h
        · right; show stopRank (stopStep w x).stopper ≤ _; unfold stopStep; rw [h] at hn ⊢; simp only [stopRank, Bool.or_true, if_true] at hn ⊢; omega
        · right; show stopRank (stopStep w x).stopper ≤ _; unfold stopStep; rw [h] at hn ⊢; simp only [stopRank, Bool.or_true, if_true] at hn ⊢; omega
        · right
          show stopRank (stopStep w x).stopper ≤ _
          unfold stopStep
          rw [h] at hn ⊢
          dsimp only
          cases x with
          | true => simp only [stopRank, Bool.or_true, if_true] at hn ⊢; omega
          | false =>
            have hn' : 5 ≤ stopSteps os := by simpa [stopRank, stopSteps, List.countP_cons] using hn
            by_cases hq : (w.queue.isEmpty || false) = true
            · rw [if_pos hq]; simp only [stopRank]; omega
            · rw [if_neg hq, h]; exact hn'
        · right; show stopRank (stopStep w x).stopper ≤ _; unfold stopStep; rw [h] at hn ⊢; simp only [stopRank, Bool.or_true, if_true] at hn ⊢; omega
        · right; show stopRank (stopStep w x).stopper ≤ _; unfold stopStep; rw [h] at hn ⊢; simp only [stopRank, Bool.or_true, if_true] at hn ⊢; omega
        · right; show stopRank (stopStep w x).stopper ≤ _; unfold stopStep; rw [h] at hn ⊢; simp only [stopRank, Bool.or_true, if_true] at hn ⊢; omega
        · left; show (stopStep w x).active = false ∧ (stopStep w x).paused = true; unfold stopStep; rw [h]; exact ⟨ha, rfl⟩
        · left; exact done h
    · have hx' : ∀ x, o ≠ .stopper x := fun x k => hx ⟨x, k⟩
      have a := step_same w o hp' hx'
      have b := step_stopper w o hs' hx'
      rcases hn with hn | hn
      · left; rw [a.1, a.2]; exact hn
      · right
        rw [b]
        have : stopSteps (o :: os) = stopSteps os := by simp [stopSteps, hx' true]
        rw [this] at hn
        exact hn

/-! ## The loop ends -/

def endRank : Loop → Nat
  | .ended => 0
  | .cleared => 1
  | .closing => 2
  | .top => 3
  | .clearing => 4
  | .nap => 4
  | .alive => 4
  | .waiting => 5
  | .arm => 5
  | .sleeping => 6
  | .inner => 7
  | .exec _ => 8
  | .fetch => 9

/-- An event that is still going to be executed. -/
def last : Loop → Nat
  | .exec _ => 1
  | .fetch => 1
  | _ => 0

theorem end_loop {w : World} (ha : w.active = false) (hp : w.paused = true) (r t : Bool) :
    (loopStep w r t).done.length + last (loopStep w r t).loop ≤ w.done.length + last w.loop ∧ (t = true → endRank (loopStep w r t).loop ≤ endRank w.loop - 1) := by
  unfold loopStep
  split
  · rename_i hl; rw [hl]; exact ⟨Nat.le_refl _, fun _ => by simp [endRank]⟩
  · rename_i hl; rw [hl]; exact ⟨Nat.le_refl _, fun _ => by simp [endRank]⟩
  · rename_i hl; rw [if_neg (by simp [ha]), hl]; exact ⟨Nat.le_refl _, fun _ => by simp [endRank]⟩
  · rename_i hl; rw [hl, hp]; exact ⟨Nat.le_refl _, fun _ => by simp [endRank]⟩
  · rename_i hl
    rw [hl]
    split
    · exact ⟨by simp [last], fun _ => by simp [endRank]⟩
    · exact ⟨Nat.le_refl _, fun _ => by simp [endRank]⟩
  · rename_i e hl; rw [hl]; exact ⟨by simp [execute, last], fun _ => by simp [endRank, execute]⟩
  · rename_i hl
    rw [hl]
    split
    · exact ⟨Nat.le_refl _, fun _ => by simp [endRank]⟩
    · exact ⟨Nat.le_refl _, fun _ => by simp [endRank]⟩
  · rename_i hl
    split
    · rw [hl]; exact ⟨Nat.le_refl _, fun _ => by simp [endRank]⟩
    · rename_i hn; exact ⟨Nat.le_refl _, fun k => absurd (by simp [k]) hn⟩
  · rename_i hl; rw [hl]; exact ⟨Nat.le_refl _, fun _ => by simp [endRank]⟩
  · rename_i hl
    rw [hl]
    cases w.queue.isEmpty
    · exact ⟨Nat.le_refl _, fun _ => by simp [endRank]⟩
    · exact ⟨Nat.le_refl _, fun _ => by simp [endRank]⟩
  · rename_i hl; rw [hl]; exact ⟨Nat.le_refl _, fun _ => by simp [endRank]⟩
  · rename_i hl; rw [hl]; exact ⟨Nat.le_refl _, fun _ => by simp [endRank]⟩
  · rename_i hl; rw [hl]; exact ⟨Nat.le_refl _, fun _ => by simp [endRank]⟩

theorem pause_loop {w : World} (hp : w.paused = true) (r t : Bool) : (loopStep w r t).done.length + last (loopStep w r t).loop ≤ w.done.length + last w.loop := by
  unfold loopStep
  split
  · rename_i hl; rw [hl]; exact Nat.le_refl _
  · rename_i hl; rw [hl]; exact Nat.le_refl _
  · rename_i hl; rw [hl]; split <;> exact Nat.le_refl _
  · rename_i hl; rw [hl, hp]; exact Nat.le_refl _
  · rename_i hl
    rw [hl]
    split
    · simp [last]
    · exact Nat.le_refl _
  · rename_i e hl; rw [hl]; simp [execute, last]
  · rename_i hl; rw [hl]; split <;> exact Nat.le_refl _
  · rename_i hl; split
    · rw [hl]; exact Nat.le_refl _
    · exact Nat.le_refl _
  · rename_i hl; rw [hl]; exact Nat.le_refl _
  · rename_i hl; rw [hl]; cases w.queue.isEmpty <;> exact Nat.le_refl _
  · rename_i hl; rw [hl]; exact Nat.le_refl _
  · rename_i hl; rw [hl]; exact Nat.le_refl _
  · exact Nat.le_refl _

theorem step_loop_same (w : World) (o : Op) (h : ∀ r t, o ≠ .loop r t) : (step w o).loop = w.loop ∧ (step w o).done = w.done := by
  cases o with
  | loop r t => exact absurd rfl (h r t)
  | add n => exact ⟨rfl, rfl⟩
  | pulse i => have h := pulse_frame w i; exact ⟨h.2.2.1, h.2.1⟩
  | pause b => have h := setPaused_frame w b; exact ⟨h.2.2.1, h.2.1⟩
  | fire => have h := fire_frame w; exact ⟨h.2.1, h.1⟩
  | stop f => have h := stop_frame w f; exact ⟨h.2.1, h.1⟩
  | stopper x => have h := stopStep_frame w x; exact ⟨h.2.2.1, h.2.1⟩

theorem stopped_step {w : World} (ha : w.active = false) (hp : w.paused = true) (o : Op) (ho : isPause o = false) : (step w o).active = false ∧ (step w o).paused = true := by
  by_cases hx : ∃ x, o = .stopper x
  · obtain ⟨x, rfl⟩ := hx
    show (stopStep w x).active = false ∧ (stopStep w x).paused = true
    unfold stopStep
    split <;> first | exact ⟨ha, hp⟩ | exact ⟨rfl, hp⟩ | exact ⟨ha, rfl⟩ | (split <;> first | exact ⟨ha, hp⟩ | (split <;> exact ⟨ha, hp⟩))
  · have a := step_same w o ho (fun x k => hx ⟨x, k⟩)
    rw [a.1, a.2]
    exact ⟨ha, hp⟩

theorem end_run {w : World} (ha : w.active = false) (hp : w.paused = true) (os : List Op) (ho : ∀ o ∈ os, isPause o = false) :
    (run w os).done.length + last (run w os).loop ≤ w.done.length + last w.loop ∧
    ((∀ o ∈ os, ∀ r, o ≠ .loop r false) → endRank (run w os).loop ≤ endRank w.loop - loopSteps os) := by
  induction os generalizing w with
  | nil => exact ⟨Nat.le_refl _, fun _ => Nat.le_refl _⟩
  | cons o os ih =>
    have k := stopped_step ha hp o (ho o (List.mem_cons_self ..))
    have rest := ih k.1 k.2 (fun p hp => ho p (List.mem_cons_of_mem _ hp))
    by_cases hl : ∃ r t, o = .loop r t
    · obtain ⟨r, t, rfl⟩ := hl
      have e := end_loop ha hp r t
      refine ⟨Nat.le_trans rest.1 e.1, fun hf => ?_⟩
      have ht : t = true := by cases t with
        | true => rfl
        | false => exact absurd rfl (hf _ (List.mem_cons_self ..) r)
      have e2 := e.2 ht
      have r2 := rest.2 (fun p hp => hf p (List.mem_cons_of_mem _ hp))
      have : loopSteps (.loop r t :: os) = loopSteps os + 1 := by simp [loopSteps]
      rw [this]
      have r3 : endRank (run w (.loop r t :: os)).loop ≤ endRank (loopStep w r t).loop - loopSteps os := r2
      omega
    · have s := step_loop_same w o (fun r t k => hl ⟨r, t, k⟩)
      refine ⟨by have := rest.1; rw [s.1, s.2] at this; exact this, fun hf => ?_⟩
      have r2 := rest.2 (fun p hp => hf p (List.mem_cons_of_mem _ hp))
      have : loopSteps (o :: os) = loopSteps os := by
        cases o with
        | loop r t => exact absurd ⟨r, t, rfl⟩ hl
        | _ => simp [loopSteps]
      rw [this]
      rw [s.1] at r2
      exact r2

/-! ## Purge -/

/-- Exactly one purge is on its way, unless one failed. -/
def Chain (w : World) : Prop := purgesFine w → (w.loop = .arm → purges w = 0) ∧ (w.loop ≠ .arm → w.loop ≠ .ended → purges w = 1)

theorem purges_same {w v : World} (ht : v.timer = w.timer) (hq : v.queue.count .purge = w.queue.count .purge) (hr : (running v).count .purge = (running w).count .purge) : purges v = purges w := by
  unfold purges; rw [ht, hq, hr]

theorem chain_same {w v : World} (h : Chain w) (hd : v.done = w.done) (hl : v.loop = w.loop) (hp : purges v = purges w) : Chain v := by
  intro hf
  unfold purgesFine at hf
  rw [hd] at hf
  rw [hl, hp]
  exact h hf

/-- Steps of the loop that are neither the first one nor an execution. -/
theorem chain_move {w v : World} (h : Chain w) (hd : v.done = w.done) (hp : purges v = purges w) (hw : w.loop ≠ .arm ∧ w.loop ≠ .ended) (hv : v.loop ≠ .arm) : Chain v := by
  intro hf
  unfold purgesFine at hf
  rw [hd] at hf
  refine ⟨fun k => absurd k hv, fun _ _ => ?_⟩
  rw [hp]
  exact (h hf).2 hw.1 hw.2

theorem count_snoc (l : List Event) (e : Event) (h : e ≠ .purge) : (l ++ [e]).count .purge = l.count .purge := by
  rw [List.count_append]; simp [List.count_cons, h]

theorem chain_loop {w : World} (h : Chain w) (r t : Bool) : Chain (loopStep w r t) := by
  unfold loopStep
  split
  · rename_i hl
    intro hf
    refine ⟨fun k => (by cases k), fun _ _ => ?_⟩
    have := (h hf).1 hl
    unfold purges running at this ⊢
    rw [hl] at this
    dsimp only at this ⊢
    simp only [List.count_nil, Nat.add_zero, if_true] at this ⊢
    split at this <;> omega
  · rename_i hl
    refine chain_move h rfl (purges_same rfl ?_ ?_) ⟨by simp [hl], by simp [hl]⟩ (by simp)
    · show (w.queue ++ [Event.alive]).count .purge = _; exact count_snoc _ _ (by decide)
    · rw [running_none (w := w) (by simp [hl])]; rfl
  · rename_i hl
    split <;> exact chain_move h rfl (purges_same rfl rfl (by rw [running_none (w := w) (by simp [hl])]; rfl)) ⟨by simp [hl], by simp [hl]⟩ (by simp)
  · rename_i hl
    cases w.paused <;> exact chain_move h rfl (purges_same rfl rfl (by rw [running_none (w := w) (by simp [hl])]; rfl)) ⟨by simp [hl], by simp [hl]⟩ (by simp)
  · rename_i hl
    split
    · exact chain_move h rfl (purges_same rfl rfl (by rw [running_none (w := w) (by simp [hl])]; rfl)) ⟨by simp [hl], by simp [hl]⟩ (by simp)
    · rename_i e q hq
      refine chain_move h rfl ?_ ⟨by simp [hl], by simp [hl]⟩ (by simp)
      have hr : running w = [] := running_none (by simp [hl])
      unfold purges
      rw [hr, hq]
      show (if w.timer then 1 else 0) + q.count .purge + [e].count .purge = _
      simp only [List.count_cons, List.count_nil]
      omega
  · rename_i e hl
    intro hf
    have hf' : purgesFine w := fun k => hf (by unfold execute; exact List.mem_append_left _ k)
    refine ⟨fun k => (by cases k), fun _ _ => ?_⟩
    have := (h hf').2 (by simp [hl]) (by simp [hl])
    have hr : running w = [e] := by unfold running; rw [hl]
    unfold purges at this ⊢
    rw [hr] at this
    show (if (w.timer || (e == .purge && !r)) then 1 else 0) + w.queue.count .purge + 0 = 1
    by_cases he : e = .purge
    · subst he
      have hr' : r = false := by
        cases r with
        | false => rfl
        | true => exact absurd (by unfold execute; simp) hf
      subst hr'
      simp only [List.count_singleton_self] at this
      simp
      omega
    · have : (e == Event.purge) = false := by simp [he]
      simp_all [List.count_cons]
  · rename_i hl
    split <;> exact chain_move h rfl (purges_same rfl rfl (by rw [running_none (w := w) (by simp [hl])]; rfl)) ⟨by simp [hl], by simp [hl]⟩ (by simp)
  · rename_i hl
    split
    · exact chain_move h rfl (purges_same rfl rfl (by rw [running_none (w := w) (by simp [hl])]; rfl)) ⟨by simp [hl], by simp [hl]⟩ (by simp)
    · exact h
  · rename_i hl
    exact chain_move h rfl (purges_same rfl rfl (by rw [running_none (w := w) (by simp [hl])]; rfl)) ⟨by simp [hl], by simp [hl]⟩ (by simp)
  · rename_i hl
    cases w.queue.isEmpty <;> exact chain_move h rfl (purges_same rfl rfl (by rw [running_none (w := w) (by simp [hl])]; rfl)) ⟨by simp [hl], by simp [hl]⟩ (by simp)
  · rename_i hl
    exact chain_move h rfl (purges_same rfl rfl (by rw [running_none (w := w) (by simp [hl])]; rfl)) ⟨by simp [hl], by simp [hl]⟩ (by simp)
  · exact fun _ => ⟨fun k => (by cases k), fun _ k => absurd rfl k⟩
  · exact h

theorem purges_stop (w : World) (f : Bool) : purges (stop w f) = purges w := by
  have h := stop_frame w f
  refine purges_same h.2.2.2.1 ?_ (by rw [running_eq h.2.1])
  rcases h.2.2.2.2.2.2.2 with ⟨k, _⟩ | ⟨k, _⟩
  · rw [k]
  · rw [k]; exact count_snoc _ _ (by decide)

theorem purges_fire (w : World) : purges (fire w) = purges w := by
  unfold fire
  split
  · rename_i ht
    unfold purges
    have : running { add w .purge with timer := false } = running w := rfl
    rw [this, ht]
    show 0 + (w.queue ++ [Event.purge]).count .purge + _ = _
    rw [List.count_append]
    simp
    omega
  · rfl

theorem chain_step {w : World} (h : Chain w) (o : Op) : Chain (step w o) := by
  cases o with
  | loop r t => exact chain_loop h r t
  | add n => exact chain_same h rfl rfl (purges_same rfl (count_snoc _ _ (by simp)) rfl)
  | pulse i => have f := pulse_frame w i; exact chain_same h f.2.1 f.2.2.1 (purges_same f.2.2.2.2.2.1 (by show (pulseStep w i).queue.count _ = _; rw [f.2.2.2.2.1]) (by show (running (pulseStep w i)).count _ = _; rw [running_eq f.2.2.1]))
  | pause b => have f := setPaused_frame w b; exact chain_same h f.2.1 f.2.2.1 (purges_same f.2.2.2.2.2.1 (by show (setPaused w b).queue.count _ = _; rw [f.2.2.2.2.1]) (by show (running (setPaused w b)).count _ = _; rw [running_eq f.2.2.1]))
  | fire => have f := fire_frame w; exact chain_same h f.1 f.2.1 (purges_fire w)
  | stop b => have f := stop_frame w b; exact chain_same h f.1 f.2.1 (purges_stop w b)
  | stopper x => have f := stopStep_frame w x; exact chain_same h f.2.1 f.2.2.1 (purges_same f.2.2.2.2.2.1 (by show (stopStep w x).queue.count _ = _; rw [f.2.2.2.2.1]) (by show (running (stopStep w x)).count _ = _; rw [running_eq f.2.2.1]))

theorem chain_run {w : World} (h : Chain w) (os : List Op) : Chain (run w os) := by
  induction os generalizing w with
  | nil => exact h
  | cons o os ih => exact ih (chain_step h o)

theorem chain_start : Chain start := fun _ => ⟨fun _ => rfl, fun k => absurd rfl k⟩

/-- No purge is on its way. -/
def Never (w : World) : Prop := w.loop ≠ .arm ∧ purges w = 0

theorem purges_zero {w : World} (h : purges w = 0) : w.timer = false ∧ w.queue.count .purge = 0 ∧ (running w).count .purge = 0 := by
  unfold purges at h
  refine ⟨?_, by omega, by omega⟩
  cases ht : w.timer with
  | false => rfl
  | true => rw [ht] at h; simp at h

theorem never_loop {w : World} (h : Never w) (r t : Bool) : Never (loopStep w r t) ∧ (executed (loopStep w r t)).count .purge = (executed w).count .purge := by
  obtain ⟨ha, hp⟩ := h
  obtain ⟨h1, h2, h3⟩ := purges_zero hp
  have zero : ∀ v : World, v.timer = false → v.queue.count .purge = 0 → (running v).count .purge = 0 → purges v = 0 := by
    intro v a b c; unfold purges; rw [a, b, c]; rfl
  unfold loopStep
  split
  · rename_i hl; exact absurd hl ha
  · exact ⟨⟨by simp, zero _ h1 (by show (w.queue ++ [Event.alive]).count .purge = 0; rw [count_snoc _ _ (by decide)]; exact h2) rfl⟩, rfl⟩
  · split <;> exact ⟨⟨by simp, zero _ h1 h2 rfl⟩, rfl⟩
  · cases w.paused <;> exact ⟨⟨by simp, zero _ h1 h2 rfl⟩, rfl⟩
  · split
    · exact ⟨⟨by simp, zero _ h1 h2 rfl⟩, rfl⟩
    · rename_i e q hq
      rw [hq] at h2
      simp only [List.count_cons] at h2
      exact ⟨⟨by simp, zero _ h1 (by show q.count .purge = 0; omega) (by show [e].count .purge = 0; simp only [List.count_cons, List.count_nil]; omega)⟩, rfl⟩
  · rename_i e hl
    have hr : running w = [e] := by unfold running; rw [hl]
    rw [hr] at h3
    have he : e ≠ .purge := by intro k; subst k; simp at h3
    refine ⟨⟨by simp [execute], zero _ ?_ h2 rfl⟩, ?_⟩
    · show (w.timer || (e == .purge && !r)) = false
      rw [h1]; simp [he]
    · show ((w.done ++ [(e, r)]).map Prod.fst).count .purge = _
      rw [List.map_append]
      exact count_snoc _ _ he
  · split <;> exact ⟨⟨by simp, zero _ h1 h2 rfl⟩, rfl⟩
  · split
    · exact ⟨⟨by simp, zero _ h1 h2 rfl⟩, rfl⟩
    · exact ⟨⟨ha, hp⟩, rfl⟩
  · exact ⟨⟨by simp, zero _ h1 h2 rfl⟩, rfl⟩
  · cases w.queue.isEmpty <;> exact ⟨⟨by simp, zero _ h1 h2 rfl⟩, rfl⟩
  · exact ⟨⟨by simp, zero _ h1 h2 rfl⟩, rfl⟩
  · exact ⟨⟨by simp, zero _ h1 rfl rfl⟩, rfl⟩
  · exact ⟨⟨ha, hp⟩, rfl⟩

theorem never_same {w v : World} (h : Never w) (hl : v.loop = w.loop) (hd : v.done = w.done) (hp : purges v = purges w) : Never v ∧ (executed v).count .purge = (executed w).count .purge :=
  ⟨⟨by rw [hl]; exact h.1, by rw [hp]; exact h.2⟩, by unfold executed; rw [hd]⟩

theorem never_step {w : World} (h : Never w) (o : Op) : Never (step w o) ∧ (executed (step w o)).count .purge = (executed w).count .purge := by
  cases o with
  | loop r t => exact never_loop h r t
  | add n => exact never_same h rfl rfl (purges_same rfl (count_snoc _ _ (by simp)) rfl)
  | pulse i => have f := pulse_frame w i; exact never_same h f.2.2.1 f.2.1 (purges_same f.2.2.2.2.2.1 (by show (pulseStep w i).queue.count _ = _; rw [f.2.2.2.2.1]) (by show (running (pulseStep w i)).count _ = _; rw [running_eq f.2.2.1]))
  | pause b => have f := setPaused_frame w b; exact never_same h f.2.2.1 f.2.1 (purges_same f.2.2.2.2.2.1 (by show (setPaused w b).queue.count _ = _; rw [f.2.2.2.2.1]) (by show (running (setPaused w b)).count _ = _; rw [running_eq f.2.2.1]))
  | fire => have f := fire_frame w; exact never_same h f.2.1 f.1 (purges_fire w)
  | stop b => have f := stop_frame w b; exact never_same h f.2.1 f.1 (purges_stop w b)
  | stopper x => have f := stopStep_frame w x; exact never_same h f.2.2.1 f.2.1 (purges_same f.2.2.2.2.2.1 (by show (stopStep w x).queue.count _ = _; rw [f.2.2.2.2.1]) (by show (running (stopStep w x)).count _ = _; rw [running_eq f.2.2.1]))

theorem never_run {w : World} (h : Never w) (os : List Op) : (executed (run w os)).count .purge = (executed w).count .purge := by
  induction os generalizing w with
  | nil => rfl
  | cons o os ih =>
    have k := never_step h o
    rw [← k.2]
    exact ih k.1

/-- The timer fires and the thread is woken. -/
theorem fires {w : World} (hp : w.paused = false) (hn : w.notify = true) (hh : w.helpers = []) :
    run w [.fire, .pulse 0, .pulse 0, .pulse 0] = if w.timer then { append w .purge with flag := true, timer := false } else w := by
  cases w
  rename_i q n f p a i l hs t s ad d lo
  dsimp only at hp hn hh
  subst hp hn hh
  cases t <;> rfl

/-! ## Stop drains the queue -/

/-- `stop` waits until the queue is empty. -/
structure Draining (w : World) : Prop where
  active : w.active = true
  notify : w.notify = false
  paused : w.paused = false
  flag : w.loop = .waiting → w.flag = true
  clear : w.loop = .closing ∨ w.loop = .cleared → w.queue = []
  ended : w.loop = .ended → w.queue = [] ∧ w.lost = []

/-- Steps the loop needs until it ends, besides those for events. -/
def drainRank (empty : Bool) : Loop → Nat
  | .arm => 12
  | .alive => 11
  | .waiting => 9
  | .clearing => 8
  | .top => 7
  | .exec _ => 7
  | .inner => 6
  | .fetch => 5
  | .sleeping => if empty then 4 else 9
  | .nap => if empty then 3 else 8
  | .closing => 2
  | .cleared => 1
  | .ended => 0

theorem drain_loop {w : World} (h : Draining w) (r t : Bool) : Draining (loopStep w r t) ∧
    3 * (loopStep w r t).queue.length + drainRank (loopStep w r t).queue.isEmpty (loopStep w r t).loop ≤ 3 * w.queue.length + drainRank w.queue.isEmpty w.loop - 1 := by
  unfold loopStep
  split
  · rename_i hl; rw [hl]; exact ⟨⟨h.active, h.notify, h.paused, by simp, by simp, by simp⟩, by simp [drainRank] <;> omega⟩
  · rename_i hl; rw [hl]; exact ⟨⟨h.active, h.notify, h.paused, by simp, by simp, by simp⟩, by simp [drainRank, add, append] <;> omega⟩
  · rename_i hl; rw [hl, if_pos h.active]; exact ⟨⟨h.active, h.notify, h.paused, by simp, by simp, by simp⟩, by simp [drainRank] <;> omega⟩
  · rename_i hl; rw [hl]; exact ⟨⟨h.active, h.notify, h.paused, by simp [h.paused], by simp [h.paused], by simp [h.paused]⟩, by simp [drainRank, h.paused] <;> omega⟩
  · rename_i hl
    rw [hl]
    split
    · rename_i hq; exact ⟨⟨h.active, h.notify, h.paused, by simp, by simp, by simp⟩, by simp [drainRank, hq]⟩
    · rename_i e q hq; exact ⟨⟨h.active, h.notify, h.paused, by simp, by simp, by simp⟩, by simp [drainRank, hq] <;> omega⟩
  · rename_i e hl; rw [hl]; exact ⟨⟨h.active, h.notify, h.paused, by simp [execute], by simp [execute], by simp [execute]⟩, by simp [drainRank, execute] <;> omega⟩
  · rename_i hl
    rw [hl, if_neg (by simp [h.notify])]
    refine ⟨⟨h.active, h.notify, h.paused, by simp, by simp, by simp⟩, ?_⟩
    cases w.queue.isEmpty <;> simp [drainRank] <;> omega
  · rename_i hl
    rw [hl, h.flag hl]
    exact ⟨⟨h.active, h.notify, h.paused, by simp, by simp, by simp⟩, by simp [drainRank] <;> omega⟩
  · rename_i hl; rw [hl]; exact ⟨⟨h.active, h.notify, h.paused, by simp, by simp, by simp⟩, by simp [drainRank] <;> omega⟩
  · rename_i hl
    rw [hl]
    cases hq : w.queue.isEmpty
    · exact ⟨⟨h.active, h.notify, h.paused, by simp, by simp, by simp⟩, by simp [drainRank] <;> omega⟩
    · exact ⟨⟨h.active, h.notify, h.paused, by simp, fun _ => by simpa using hq, by simp⟩, by simp [drainRank] <;> omega⟩
  · rename_i hl; rw [hl]; exact ⟨⟨h.active, rfl, h.paused, by simp, fun _ => h.clear (Or.inl hl), by simp⟩, by simp [drainRank] <;> omega⟩
  · rename_i hl; rw [hl]; exact ⟨⟨h.active, h.notify, h.paused, by simp, by simp, fun _ => ⟨rfl, h.clear (Or.inr hl)⟩⟩, by simp [drainRank]⟩
  · rename_i hl; rw [hl, (h.ended hl).1]; exact ⟨h, by simp [drainRank]⟩

theorem drain_run {w : World} (h : Draining w) (os : List Op) (ho : onlyLoop os) : Draining (run w os) ∧
    3 * (run w os).queue.length + drainRank (run w os).queue.isEmpty (run w os).loop ≤ 3 * w.queue.length + drainRank w.queue.isEmpty w.loop - os.length := by
  induction os generalizing w with
  | nil => exact ⟨h, Nat.le_refl _⟩
  | cons o os ih =>
    obtain ⟨r, t, rfl⟩ := ho o (List.mem_cons_self ..)
    have d := drain_loop h r t
    have i := ih d.1 (fun p hp => ho p (List.mem_cons_of_mem _ hp))
    refine ⟨i.1, ?_⟩
    have i2 : 3 * (run w (.loop r t :: os)).queue.length + drainRank (run w (.loop r t :: os)).queue.isEmpty (run w (.loop r t :: os)).loop ≤
        3 * (loopStep w r t).queue.length + drainRank (loopStep w r t).queue.isEmpty (loopStep w r t).loop - os.length := i.2
    have d2 := d.2
    simp only [List.length_cons]
    omega

theorem drainRank_zero {b : Bool} {l : Loop} (h : drainRank b l = 0) : l = .ended := by
  cases l <;> simp [drainRank] at h <;> first | rfl | (cases b <;> simp at h)

theorem drainRank_le (b : Bool) (l : Loop) : drainRank b l ≤ 12 := by
  cases l <;> cases b <;> simp [drainRank]

/-! ## Idle -/

/-- When the observer is idle. -/
def Honest (w : World) : Prop := match w.loop with
  | .arm => w.idle = true
  | .alive => w.idle = true
  | .inner => w.idle = false
  | .fetch => w.idle = false
  | .exec _ => w.idle = false
  | .sleeping => w.idle = false
  | .waiting => w.idle = true
  | .clearing => w.idle = true
  | .nap => w.idle = false
  | .ended => w.idle = true
  | _ => True

theorem honest_loop {w : World} (h : Honest w) (r t : Bool) : Honest (loopStep w r t) := by
  unfold loopStep
  split <;> rename_i hl <;> unfold Honest at h <;> rw [hl] at h <;> dsimp only at h
  · exact h
  · trivial
  · split
    · rfl
    · trivial
  · cases w.paused <;> exact h
  · split <;> exact h
  · exact h
  · split
    · rfl
    · exact h
  · split
    · exact h
    · unfold Honest; rw [hl]; exact h
  · trivial
  · cases w.queue.isEmpty <;> trivial
  · trivial
  · rfl
  · unfold Honest; rw [hl]; exact h

theorem honest_same {w v : World} (h : Honest w) (hl : v.loop = w.loop) (hi : v.idle = w.idle) : Honest v := by
  unfold Honest at h ⊢
  rw [hl, hi]
  exact h

theorem step_idle (w : World) (o : Op) (h : ∀ r t, o ≠ .loop r t) : (step w o).idle = w.idle := by
  cases o with
  | loop r t => exact absurd rfl (h r t)
  | add n => rfl
  | pulse i => show (pulseStep w i).idle = _; unfold pulseStep; split <;> rfl
  | pause b => show (setPaused w b).idle = _; unfold setPaused; split <;> rfl
  | fire => show (fire w).idle = _; unfold fire; split <;> rfl
  | stop f => show (ObserverQueue.stop w f).idle = _; unfold ObserverQueue.stop; split <;> first | rfl | (split <;> rfl)
  | stopper x => show (stopStep w x).idle = _; unfold stopStep; split <;> first | rfl | (split <;> first | rfl | (split <;> rfl))

theorem honest_run {w : World} (h : Honest w) (os : List Op) : Honest (run w os) := by
  induction os generalizing w with
  | nil => exact h
  | cons o os ih =>
    refine ih ?_
    by_cases hl : ∃ r t, o = .loop r t
    · obtain ⟨r, t, rfl⟩ := hl; exact honest_loop h r t
    · have k : ∀ r t, o ≠ .loop r t := fun r t e => hl ⟨r, t, e⟩
      exact honest_same h (step_loop_same w o k).1 (step_idle w o k)

/-! ## Nobody wakes a paused thread -/

/-- Other threads did not look yet whether it is paused. -/
def Quiet (w : World) : Prop := w.paused = true ∧ w.flag = false ∧ ∀ h ∈ w.helpers, h = .paused

theorem quiet_add {w : World} (h : Quiet w) (e : Event) : Quiet (add w e) := by
  refine ⟨h.1, h.2.1, fun x hx => ?_⟩
  have hx' : x ∈ w.helpers ++ [Helper.paused] := hx
  rcases List.mem_append.1 hx' with k | k
  · exact h.2.2 x k
  · simpa using k

theorem quiet_pulse {w : World} (h : Quiet w) (i : Nat) : Quiet (pulseStep w i) := by
  unfold pulseStep
  split
  · rename_i k
    refine ⟨h.1, h.2.1, fun x hx => ?_⟩
    have hx' : x ∈ (if w.paused then w.helpers.eraseIdx i else w.helpers.set i .notify) := hx
    rw [if_pos h.1] at hx'
    exact h.2.2 x (List.mem_of_mem_eraseIdx hx')
  · rename_i k; exact absurd (h.2.2 _ (List.mem_of_getElem? k)) (by decide)
  · rename_i k; exact absurd (h.2.2 _ (List.mem_of_getElem? k)) (by decide)
  · exact h

end Verif.ObserverQueueSpec
