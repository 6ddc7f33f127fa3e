import Verif.Spec.ObserverQueue

namespace Verif.ObserverQueueSpec

open Verif.ObserverQueue

theorem run_append (w : World) (a b : List Op) : run w (a ++ b) = run (run w a) b := by
  induction a generalizing w with
  | nil => rfl
  | cons o os ih => exact ih (step w o)

theorem asked_append (a b : List Op) : asked (a ++ b) = asked a ++ asked b := by
  induction a with
  | nil => rfl
  | cons o os ih => cases o <;> simp [asked, ih]

/-! ## Order -/

/-- Everything queued is executed, being executed, dropped at the end or still queued, in this order. -/
structure Ordered (w : World) : Prop where
  all : w.added = executed w ++ running w ++ w.lost ++ w.queue
  lost : w.loop ≠ .ended → w.lost = []

theorem ordered_start : Ordered start := ⟨rfl, fun _ => rfl⟩

theorem append_frame (w : World) (e : Event) : executed (append w e) = executed w ∧ running (append w e) = running w ∧ (append w e).lost = w.lost ∧ (append w e).loop = w.loop :=
  ⟨rfl, rfl, rfl, rfl⟩

theorem ordered_append {w : World} (h : Ordered w) (e : Event) : Ordered (append w e) :=
  ⟨by show w.added ++ [e] = executed w ++ running w ++ w.lost ++ (w.queue ++ [e]); rw [h.all]; simp, h.lost⟩

/-- What matters for the order did not change. -/
theorem ordered_same {w v : World} (h : Ordered w) (ha : v.added = w.added) (hd : v.done = w.done) (hr : running v = running w) (hl : v.lost = w.lost) (hq : v.queue = w.queue)
    (hp : v.loop ≠ .ended → w.loop ≠ .ended) : Ordered v :=
  ⟨by rw [ha, hl, hq, hr, h.all]; show _ = v.done.map Prod.fst ++ _ ++ _ ++ _; rw [hd]; rfl, fun k => by rw [hl]; exact h.lost (hp k)⟩

theorem ordered_add {w : World} (h : Ordered w) (e : Event) : Ordered (add w e) :=
  ordered_same (ordered_append h e) rfl rfl rfl rfl rfl id

theorem running_none {w : World} (h : ∀ e, w.loop ≠ .exec e) : running w = [] := by
  unfold running
  split
  · rename_i e he; exact absurd he (h e)
  · rfl

theorem ordered_loop {w : World} (h : Ordered w) (r t : Bool) : Ordered (loopStep w r t) := by
  unfold loopStep
  split
  · rename_i hl
    exact ordered_same h rfl rfl (by rw [running_none (w := w) (by simp [hl])]; rfl) rfl rfl (by simp [hl])
  · rename_i hl
    exact ordered_same (ordered_add h .alive) rfl rfl (by rw [running_none (w := add w .alive) (by simp [add, append, hl])]; rfl) rfl rfl (by simp [add, append, hl])
  · rename_i hl
    split <;> exact ordered_same h rfl rfl (by rw [running_none (w := w) (by simp [hl])]; rfl) rfl rfl (by simp [hl])
  · rename_i hl
    cases w.paused <;> exact ordered_same h rfl rfl (by rw [running_none (w := w) (by simp [hl])]; rfl) rfl rfl (by simp [hl])
  · rename_i hl
    have hr : running w = [] := running_none (by simp [hl])
    have ho := h.lost (by simp [hl])
    split
    · exact ordered_same h rfl rfl (by rw [hr]; rfl) rfl rfl (by simp [hl])
    · rename_i e q hq
      refine ⟨?_, fun _ => ho⟩
      have := h.all
      rw [hr, ho, hq] at this
      show w.added = executed w ++ [e] ++ w.lost ++ q
      rw [this, ho]; simp
  · rename_i e hl
    have hr : running w = [e] := by unfold running; rw [hl]
    refine ⟨?_, fun _ => h.lost (by simp [hl])⟩
    have := h.all
    rw [hr] at this
    show w.added = (w.done ++ [(e, r)]).map Prod.fst ++ [] ++ w.lost ++ w.queue
    rw [this]; simp [executed]
  · rename_i hl
    split <;> exact ordered_same h rfl rfl (by rw [running_none (w := w) (by simp [hl])]; rfl) rfl rfl (by simp [hl])
  · rename_i hl
    split
    · exact ordered_same h rfl rfl (by rw [running_none (w := w) (by simp [hl])]; rfl) rfl rfl (by simp [hl])
    · exact h
  · rename_i hl
    exact ordered_same h rfl rfl (by rw [running_none (w := w) (by simp [hl])]; rfl) rfl rfl (by simp [hl])
  · rename_i hl
    cases w.queue.isEmpty <;> exact ordered_same h rfl rfl (by rw [running_none (w := w) (by simp [hl])]; rfl) rfl rfl (by simp [hl])
  · rename_i hl
    exact ordered_same h rfl rfl (by rw [running_none (w := w) (by simp [hl])]; rfl) rfl rfl (by simp [hl])
  · rename_i hl
    have hr : running w = [] := running_none (by simp [hl])
    have ho := h.lost (by simp [hl])
    refine ⟨?_, fun k => absurd rfl k⟩
    have := h.all
    rw [hr, ho] at this
    show w.added = executed w ++ [] ++ w.queue ++ []
    rw [this]; simp
  · exact h

theorem pulse_frame (w : World) (i : Nat) : (pulseStep w i).added = w.added ∧ (pulseStep w i).done = w.done ∧ (pulseStep w i).loop = w.loop ∧ (pulseStep w i).lost = w.lost ∧
    (pulseStep w i).queue = w.queue ∧ (pulseStep w i).timer = w.timer ∧ (pulseStep w i).active = w.active ∧ (pulseStep w i).paused = w.paused ∧ (pulseStep w i).notify = w.notify ∧
    (pulseStep w i).stopper = w.stopper ∧ (pulseStep w i).idle = w.idle := by
  unfold pulseStep
  split <;> exact ⟨rfl, rfl, rfl, rfl, rfl, rfl, rfl, rfl, rfl, rfl, rfl⟩

theorem setPaused_frame (w : World) (b : Bool) : (setPaused w b).added = w.added ∧ (setPaused w b).done = w.done ∧ (setPaused w b).loop = w.loop ∧ (setPaused w b).lost = w.lost ∧
    (setPaused w b).queue = w.queue ∧ (setPaused w b).timer = w.timer ∧ (setPaused w b).active = w.active ∧ (setPaused w b).notify = w.notify ∧
    (setPaused w b).stopper = w.stopper ∧ (setPaused w b).idle = w.idle := by
  unfold setPaused
  split <;> exact ⟨rfl, rfl, rfl, rfl, rfl, rfl, rfl, rfl, rfl, rfl⟩

theorem stopStep_frame (w : World) (x : Bool) : (stopStep w x).added = w.added ∧ (stopStep w x).done = w.done ∧ (stopStep w x).loop = w.loop ∧ (stopStep w x).lost = w.lost ∧
    (stopStep w x).queue = w.queue ∧ (stopStep w x).timer = w.timer ∧ (stopStep w x).helpers = w.helpers ∧ (stopStep w x).idle = w.idle := by
  unfold stopStep
  split
  all_goals first
    | exact ⟨rfl, rfl, rfl, rfl, rfl, rfl, rfl, rfl⟩
    | (split <;> first | exact ⟨rfl, rfl, rfl, rfl, rfl, rfl, rfl, rfl⟩ | (split <;> exact ⟨rfl, rfl, rfl, rfl, rfl, rfl, rfl, rfl⟩))

theorem running_eq {w v : World} (h : v.loop = w.loop) : running v = running w := by unfold running; rw [h]

theorem ordered_stop {w : World} (h : Ordered w) (f : Bool) : Ordered (stop w f) := by
  unfold stop
  split
  · split
    · exact ordered_same (ordered_append h .shutdown) rfl rfl rfl rfl rfl id
    · exact ordered_same h rfl rfl rfl rfl rfl id
  · split
    · exact ordered_same (ordered_append h .shutdown) rfl rfl rfl rfl rfl id
    · exact ordered_same h rfl rfl rfl rfl rfl id
  · exact h

theorem ordered_step {w : World} (h : Ordered w) (o : Op) : Ordered (step w o) := by
  cases o with
  | loop r t => exact ordered_loop h r t
  | add n => exact ordered_add h _
  | pulse i =>
    obtain ⟨a, b, c, d, e, _⟩ := pulse_frame w i
    exact ordered_same h a b (running_eq c) d e (by show (pulseStep w i).loop ≠ _ → _; rw [c]; exact id)
  | pause b =>
    obtain ⟨a, b', c, d, e, _⟩ := setPaused_frame w b
    exact ordered_same h a b' (running_eq c) d e (by show (setPaused w b).loop ≠ _ → _; rw [c]; exact id)
  | fire =>
    show Ordered (fire w)
    unfold fire
    split
    · exact ordered_same (ordered_add h .purge) rfl rfl rfl rfl rfl id
    · exact h
  | stop f => exact ordered_stop h f
  | stopper x =>
    obtain ⟨a, b, c, d, e, _⟩ := stopStep_frame w x
    exact ordered_same h a b (running_eq c) d e (by show (stopStep w x).loop ≠ _ → _; rw [c]; exact id)

theorem ordered_run {w : World} (h : Ordered w) (os : List Op) : Ordered (run w os) := by
  induction os generalizing w with
  | nil => exact h
  | cons o os ih => exact ih (ordered_step h o)

/-! ## Work -/

theorem work_loop (w : World) (r t : Bool) : (loopStep w r t).added.filter isWork = w.added.filter isWork := by
  unfold loopStep
  split
  case h_2 => show (w.added ++ [Event.alive]).filter isWork = _; rw [List.filter_append]; simp [isWork]
  all_goals first | rfl | (split <;> rfl)

theorem work_stop (w : World) (f : Bool) : (stop w f).added.filter isWork = w.added.filter isWork := by
  have h : (w.added ++ [Event.shutdown]).filter isWork = w.added.filter isWork := by rw [List.filter_append]; simp [isWork]
  unfold stop
  split
  · split
    · exact h
    · rfl
  · split
    · exact h
    · rfl
  · rfl

theorem work_step (w : World) (o : Op) : (step w o).added.filter isWork = w.added.filter isWork ++ asked [o] := by
  cases o with
  | loop r t => show (loopStep w r t).added.filter isWork = _; rw [work_loop]; simp [asked]
  | add n => show (w.added ++ [Event.work n]).filter isWork = _; rw [List.filter_append]; rfl
  | pulse i => show (pulseStep w i).added.filter isWork = _; rw [(pulse_frame w i).1]; simp [asked]
  | pause b => show (setPaused w b).added.filter isWork = _; rw [(setPaused_frame w b).1]; simp [asked]
  | fire =>
    have h : (w.added ++ [Event.purge]).filter isWork = w.added.filter isWork := by rw [List.filter_append]; simp [isWork]
    show (fire w).added.filter isWork = _
    unfold fire
    split
    · show (w.added ++ [Event.purge]).filter isWork = _; rw [h]; simp [asked]
    · simp [asked]
  | stop f => show (stop w f).added.filter isWork = _; rw [work_stop]; simp [asked]
  | stopper x => show (stopStep w x).added.filter isWork = _; rw [(stopStep_frame w x).1]; simp [asked]

theorem work_run (w : World) (os : List Op) : (run w os).added.filter isWork = w.added.filter isWork ++ asked os := by
  induction os generalizing w with
  | nil => simp [run, asked]
  | cons o os ih =>
    show (run (step w o) os).added.filter isWork = _
    rw [ih, work_step, List.append_assoc, ← asked_append]; rfl

/-! ## No wake-up is missed -/

/-- While nobody calls `stop`: the loop goes on, and it never sleeps beside events without being woken. -/
structure Awake (w : World) : Prop where
  active : w.active = true
  notify : w.notify = true
  stopper : w.stopper = .none
  going : w.loop ≠ .nap ∧ w.loop ≠ .closing ∧ w.loop ≠ .cleared ∧ w.loop ≠ .ended
  woken : w.paused = false → w.queue ≠ [] → w.loop = .sleeping ∨ w.loop = .waiting → w.flag = true ∨ w.helpers ≠ []

theorem awake_start : Awake start := ⟨rfl, rfl, rfl, by decide, by intro _ h; exact absurd rfl h⟩

theorem awake_add {w : World} (h : Awake w) (e : Event) : Awake (add w e) :=
  ⟨h.active, h.notify, h.stopper, h.going, fun _ _ _ => Or.inr (by simp [add])⟩

theorem awake_loop {w : World} (h : Awake w) (r t : Bool) : Awake (loopStep w r t) := by
  unfold loopStep
  split
  · exact ⟨h.active, h.notify, h.stopper, by simp, by simp⟩
  · exact ⟨h.active, h.notify, h.stopper, by simp, by simp⟩
  · rw [if_pos h.active]; exact ⟨h.active, h.notify, h.stopper, by simp, by simp⟩
  · cases hp : w.paused
    · exact ⟨h.active, h.notify, h.stopper, by simp, by simp⟩
    · exact ⟨h.active, h.notify, h.stopper, by simp, by intro k; cases k⟩
  · split
    · rename_i hq; exact ⟨h.active, h.notify, h.stopper, by simp, by simp [hq]⟩
    · exact ⟨h.active, h.notify, h.stopper, by simp, by simp⟩
  · exact ⟨h.active, h.notify, h.stopper, by simp [execute], by simp [execute]⟩
  · rename_i hl
    rw [if_pos h.notify]
    exact ⟨h.active, h.notify, h.stopper, by simp, fun a b _ => h.woken a b (Or.inl hl)⟩
  · split
    · exact ⟨h.active, h.notify, h.stopper, by simp, by simp⟩
    · exact h
  · exact ⟨h.active, h.notify, h.stopper, by simp, by simp⟩
  · rename_i hl; exact absurd hl h.going.1
  · rename_i hl; exact absurd hl h.going.2.1
  · rename_i hl; exact absurd hl h.going.2.2.1
  · rename_i hl; exact absurd hl h.going.2.2.2

theorem awake_pulse {w : World} (h : Awake w) (i : Nat) : Awake (pulseStep w i) := by
  have frame := pulse_frame w i
  obtain ⟨_, _, hl, _, hq, _, ha, hp, hn, hs, _⟩ := frame
  refine ⟨by rw [ha]; exact h.active, by rw [hn]; exact h.notify, by rw [hs]; exact h.stopper, by rw [hl]; exact h.going, ?_⟩
  rw [hp, hq, hl]
  intro a b c
  have old := h.woken a b c
  unfold pulseStep
  split
  · rename_i e
    right
    rw [a]
    intro k
    have := congrArg List.length k
    simp only [Bool.false_eq_true, if_false, List.length_set, List.length_nil] at this
    rw [List.length_eq_zero_iff.1 this] at e
    simp at e
  · rename_i e
    right
    rw [h.notify]
    intro k
    have := congrArg List.length k
    simp only [if_true, List.length_set, List.length_nil] at this
    rw [List.length_eq_zero_iff.1 this] at e
    simp at e
  · left; rfl
  · exact old

theorem awake_step {w : World} (h : Awake w) (o : Op) (ho : isStop o = false) : Awake (step w o) := by
  cases o with
  | loop r t => exact awake_loop h r t
  | add n => exact awake_add h _
  | pulse i => exact awake_pulse h i
  | pause b =>
    show Awake (setPaused w b)
    unfold setPaused
    split
    · exact h
    · exact ⟨h.active, h.notify, h.stopper, h.going, fun _ _ _ => Or.inr (by simp)⟩
  | fire =>
    show Awake (fire w)
    unfold fire
    split
    · exact ⟨h.active, h.notify, h.stopper, h.going, fun _ _ _ => Or.inr (by simp [add])⟩
    · exact h
  | stop f => cases ho
  | stopper x =>
    show Awake (stopStep w x)
    unfold stopStep
    rw [h.stopper]
    exact h

theorem awake_run {w : World} (h : Awake w) (os : List Op) (ho : noStop os) : Awake (run w os) := by
  induction os generalizing w with
  | nil => exact h
  | cons o os ih => exact ih (awake_step h o (ho o (List.mem_cons_self ..))) (fun p hp => ho p (List.mem_cons_of_mem _ hp))

/-! ## Progress -/

/-- Steps the loop needs until it looks into the queue. -/
def rank : Loop → Nat
  | .arm => 7
  | .alive => 6
  | .sleeping => 5
  | .waiting => 4
  | .clearing => 3
  | .top => 2
  | .exec _ => 2
  | .inner => 1
  | _ => 0

/-- The loop is running, and not asleep beside events. -/
structure Going (w : World) : Prop where
  active : w.active = true
  notify : w.notify = true
  paused : w.paused = false
  going : w.loop ≠ .nap ∧ w.loop ≠ .closing ∧ w.loop ≠ .cleared ∧ w.loop ≠ .ended
  flag : w.queue ≠ [] → w.loop = .sleeping ∨ w.loop = .waiting → w.flag = true

/-- Everything was executed. -/
def Idle (w : World) : Prop := w.queue = [] ∧ running w = [] ∧ w.loop ≠ .arm ∧ w.loop ≠ .alive

theorem going_loop {w : World} (h : Going w) (r t : Bool) : Going (loopStep w r t) := by
  unfold loopStep
  split
  · exact ⟨h.active, h.notify, h.paused, by simp, by simp⟩
  · exact ⟨h.active, h.notify, h.paused, by simp, by simp⟩
  · rw [if_pos h.active]; exact ⟨h.active, h.notify, h.paused, by simp, by simp⟩
  · exact ⟨h.active, h.notify, h.paused, by simp [h.paused], by simp [h.paused]⟩
  · split
    · rename_i hq; exact ⟨h.active, h.notify, h.paused, by simp, by simp [hq]⟩
    · exact ⟨h.active, h.notify, h.paused, by simp, by simp⟩
  · exact ⟨h.active, h.notify, h.paused, by simp [execute], by simp [execute]⟩
  · rename_i hl
    rw [if_pos h.notify]
    exact ⟨h.active, h.notify, h.paused, by simp, fun a _ => h.flag a (Or.inl hl)⟩
  · split
    · exact ⟨h.active, h.notify, h.paused, by simp, by simp⟩
    · exact h
  · exact ⟨h.active, h.notify, h.paused, by simp, by simp⟩
  · rename_i hl; exact absurd hl h.going.1
  · rename_i hl; exact absurd hl h.going.2.1
  · rename_i hl; exact absurd hl h.going.2.2.1
  · rename_i hl; exact absurd hl h.going.2.2.2

theorem idle_loop {w : World} (g : Going w) (h : Idle w) (r t : Bool) : Idle (loopStep w r t) := by
  obtain ⟨hq, hr, h1, h2⟩ := h
  unfold loopStep
  split
  · rename_i hl; exact absurd hl h1
  · rename_i hl; exact absurd hl h2
  · rw [if_pos g.active]; exact ⟨hq, rfl, by simp, by simp⟩
  · rw [g.paused]; exact ⟨hq, rfl, by simp, by simp⟩
  · split
    · exact ⟨hq, rfl, by simp, by simp⟩
    · rename_i e; rw [hq] at e; cases e
  · rename_i e hl
    unfold running at hr; rw [hl] at hr; cases hr
  · rw [if_pos g.notify]; exact ⟨hq, rfl, by simp, by simp⟩
  · split
    · exact ⟨hq, rfl, by simp, by simp⟩
    · exact ⟨hq, hr, h1, h2⟩
  · exact ⟨hq, rfl, by simp, by simp⟩
  · rename_i hl; exact absurd hl g.going.1
  · rename_i hl; exact absurd hl g.going.2.1
  · rename_i hl; exact absurd hl g.going.2.2.1
  · rename_i hl; exact absurd hl g.going.2.2.2

theorem rank_loop {w : World} (g : Going w) (r t : Bool) :
    Idle (loopStep w r t) ∨ 3 * (loopStep w r t).queue.length + rank (loopStep w r t).loop < 3 * w.queue.length + rank w.loop := by
  by_cases hi : Idle w
  · exact Or.inl (idle_loop g hi r t)
  · unfold loopStep
    split
    · rename_i hl; right; rw [hl]; simp [rank]
    · rename_i hl; right; rw [hl]; simp [rank, add, append]; omega
    · rename_i hl; right; rw [if_pos g.active, hl]; simp [rank]
    · rename_i hl; right; rw [g.paused, hl]; simp [rank]
    · rename_i hl
      split
      · rename_i hq; exact Or.inl ⟨hq, rfl, by simp, by simp⟩
      · rename_i e q hq; right; rw [hl, hq]; simp [rank]; omega
    · rename_i e hl; right; rw [hl]; simp [rank, execute]
    · rename_i hl; right; rw [if_pos g.notify, hl]; simp [rank]
    · rename_i hl
      right
      have hq : w.queue ≠ [] := fun hq => hi ⟨hq, by unfold running; rw [hl], by simp [hl], by simp [hl]⟩
      rw [g.flag hq (Or.inr hl), hl]
      simp [rank]
    · rename_i hl; right; rw [hl]; simp [rank]
    · rename_i hl; exact absurd hl g.going.1
    · rename_i hl; exact absurd hl g.going.2.1
    · rename_i hl; exact absurd hl g.going.2.2.1
    · rename_i hl; exact absurd hl g.going.2.2.2

theorem going_run {w : World} (g : Going w) (os : List Op) (ho : onlyLoop os) (hn : Idle w ∨ 3 * w.queue.length + rank w.loop ≤ os.length) : Idle (run w os) ∧ Going (run w os) := by
  induction os generalizing w with
  | nil =>
    refine ⟨?_, g⟩
    rcases hn with hn | hn
    · exact hn
    · have hr : rank w.loop = 0 := by simp only [List.length_nil] at hn; omega
      have hq : w.queue = [] := List.length_eq_zero_iff.1 (by simp only [List.length_nil] at hn; omega)
      have hl : w.loop = .fetch := by
        cases hl : w.loop <;> rw [hl] at hr <;> first | rfl | cases hr | skip
        · exact absurd hl g.going.1
        · exact absurd hl g.going.2.1
        · exact absurd hl g.going.2.2.1
        · exact absurd hl g.going.2.2.2
      show Idle w
      exact ⟨hq, by unfold running; rw [hl], by simp [hl], by simp [hl]⟩
  | cons o os ih =>
    obtain ⟨r, t, rfl⟩ := ho o (List.mem_cons_self ..)
    refine ih (going_loop g r t) (fun p hp => ho p (List.mem_cons_of_mem _ hp)) ?_
    rcases hn with hn | hn
    · exact Or.inl (idle_loop g hn r t)
    · rcases rank_loop g r t with k | k
      · exact Or.inl k
      · right
        show 3 * (loopStep w r t).queue.length + rank (loopStep w r t).loop ≤ os.length
        simp only [List.length_cons] at hn
        omega

/-- After enough steps everything queued was executed, whether events raise exceptions or not. -/
theorem executes {w : World} (a : Awake w) (o : Ordered w) (hp : w.paused = false) (hh : w.helpers = []) (os : List Op) (ho : onlyLoop os) (hn : 3 * w.queue.length + 7 ≤ os.length) :
    executed (run w os) = (run w os).added ∧ (run w os).queue = [] := by
  have g : Going w := ⟨a.active, a.notify, hp, a.going, fun hq hl => (a.woken hp hq hl).resolve_right (fun k => k hh)⟩
  have hr : rank w.loop ≤ 7 := by cases w.loop <;> simp [rank]
  obtain ⟨hi, hg⟩ := going_run g os ho (Or.inr (by omega))
  have ord := ordered_run o os
  refine ⟨?_, hi.1⟩
  rw [ord.all, hi.1, hi.2.1, ord.lost hg.going.2.2.2]
  simp

end Verif.ObserverQueueSpec
