import Verif.Lemmas.ObserverStop

/-!
# Thread of the observer — theorems (C82, C83, C84)
-/

namespace Verif

open Verif.ObserverQueue Verif.ObserverQueueSpec

/-! ## C82: events are executed once, in order -/

/-- Whatever happens in whatever order: the work executed so far is a beginning of the work other threads asked for. Nothing is executed twice, or before something that was added earlier. -/
theorem C82_order (os : List Op) : (executed (run start os)).filter isWork <+: asked os := by
  have h := (ordered_run ordered_start os).all
  have k := work_run start os
  have e : asked os = (run start os).added.filter isWork := by rw [k]; rfl
  rw [e, h]
  simp only [List.filter_append, List.append_assoc]
  exact List.prefix_append ..

/-- Until the thread ends nothing is lost: what was asked for is executed, being executed or queued. -/
theorem C82_nothing_lost (os : List Op) (h : (run start os).loop ≠ .ended) :
    asked os = (executed (run start os) ++ running (run start os) ++ (run start os).queue).filter isWork := by
  have o := ordered_run ordered_start os
  have k := work_run start os
  have e : asked os = (run start os).added.filter isWork := by rw [k]; rfl
  rw [e, o.all, o.lost h]
  simp

/-- No wake-up is missed, and errors do not matter: if nobody called `stop`, it is not paused, and no call of `add` is on its way, then after `3 n + 7` steps of the thread for `n` queued events all
events are executed, without waiting for a time out, whichever events raise exceptions. -/
theorem C82_executed (os : List Op) (hs : noStop os) (hp : (run start os).paused = false) (hh : (run start os).helpers = []) (ls : List Op) (hl : onlyLoop ls)
    (hn : 3 * (run start os).queue.length + 7 ≤ ls.length) :
    (executed (run start (os ++ ls))).filter isWork = asked os := by
  have e := executes (awake_run awake_start os hs) (ordered_run ordered_start os) hp hh ls hl hn
  rw [run_append, e.1, ← run_append, work_run]
  have : asked ls = [] := by
    clear hn e
    induction ls with
    | nil => rfl
    | cons l ls ih =>
      obtain ⟨r, t, rfl⟩ := hl l (List.mem_cons_self ..)
      exact ih (fun o ho => hl o (List.mem_cons_of_mem _ ho))
  rw [asked_append, this]
  simp [start]

/-- While nobody calls `stop`, the thread never ends. -/
theorem C82_alive (os : List Op) (hs : noStop os) : (run start os).loop ≠ .ended := (awake_run awake_start os hs).going.2.2.2

/-- The observer is paused, or not, as it was set last. -/
theorem C82_pause (w : World) (b : Bool) : (run w [.pause b]).paused = b := by
  show (setPaused w b).paused = b
  unfold setPaused
  split
  · assumption
  · rfl

/-- While it is paused nobody wakes the thread: those who add events see it. -/
theorem C82_quiet (w : World) (hp : w.paused = true) (hf : w.flag = false) (hh : w.helpers = []) (os : List Op) (ho : ∀ o ∈ os, (∃ n, o = .add n) ∨ (∃ i, o = .pulse i) ∨ o = .fire) :
    (run w os).flag = false := by
  have key : ∀ w : World, Quiet w → Quiet (run w os) := by
    induction os with
    | nil => intro w h; exact h
    | cons o os ih =>
      intro w h
      refine ih (fun p k => ho p (List.mem_cons_of_mem _ k)) (step w o) ?_
      rcases ho o (List.mem_cons_self ..) with ⟨n, rfl⟩ | ⟨i, rfl⟩ | rfl
      · exact quiet_add h _
      · exact quiet_pulse h i
      · show Quiet (fire w)
        unfold fire
        split
        · exact quiet_add h .purge
        · exact h
  exact (key w ⟨hp, hf, by rw [hh]; simp⟩).2.1

/-- While it is paused at most one more event is executed. -/
theorem C82_paused (w : World) (hp : w.paused = true) (os : List Op) (ho : ∀ o ∈ os, isPause o = false) : (run w os).done.length ≤ w.done.length + 1 := by
  have key : (run w os).done.length + last (run w os).loop ≤ w.done.length + last w.loop := by
    induction os generalizing w with
    | nil => exact Nat.le_refl _
    | cons o os ih =>
      have hp' : (step w o).paused = true := by
        by_cases hx : ∃ x, o = .stopper x
        · obtain ⟨x, rfl⟩ := hx
          show (stopStep w x).paused = true
          unfold stopStep
          split <;> first | exact hp | rfl | (split <;> first | exact hp | (split <;> exact hp))
        · rw [(step_same w o (ho o (List.mem_cons_self ..)) (fun x k => hx ⟨x, k⟩)).2]; exact hp
      refine Nat.le_trans (ih (step w o) hp' (fun p k => ho p (List.mem_cons_of_mem _ k))) ?_
      by_cases hl : ∃ r t, o = .loop r t
      · obtain ⟨r, t, rfl⟩ := hl
        exact pause_loop hp r t
      · have s := step_loop_same w o (fun r t k => hl ⟨r, t, k⟩)
        rw [s.1, s.2]
        exact Nat.le_refl _
  have : last w.loop ≤ 1 := by unfold last; split <;> simp
  omega

namespace ObserverSample

/-- steps of the loop; nothing raises, no time out -/
def loops (n : Nat) : List Op := List.replicate n (.loop false false)

/-- the thread was started and sleeps -/
def asleep : List Op := loops 9 ++ [.pulse 0, .pulse 0, .pulse 0] ++ loops 6

/-- an event that is executed for a long time, and one queued after it -/
def busy : List Op := asleep ++ [.add 0, .pulse 0, .pulse 0, .pulse 0, .add 1] ++ loops 5

end ObserverSample

open ObserverSample

example : (run start asleep).loop = .waiting ∧ (run start asleep).flag = false ∧ executed (run start asleep) = [.alive] := by decide +kernel

example : executed (run start (asleep ++ [.add 5, .add 6, .pulse 1, .pulse 1, .pulse 1] ++ [.loop false false, .loop false false, .loop false false, .loop false false, .loop false false,
    .loop true false, .loop false false, .loop false false, .loop false false])) = [.alive, .work 5, .work 6] ∧ noStop asleep := by
  refine ⟨by decide +kernel, fun o ho => ?_⟩
  have : ∀ o ∈ asleep, isStop o = false := by decide +kernel
  exact this o ho

example : (run start busy).loop = .exec (.work 0) ∧ (run start busy).queue = [.work 1] := by decide +kernel

/-! ## C83: stop -/

/-- `stop` without force tells the truth: if it returns true, everything added before it was called is executed, whatever happens meanwhile. -/
theorem C83_graceful (os ls : List Op) (hs : noStop os) (hl : noStop ls) (h : (run start (os ++ .stop false :: ls)).stopper = .result true) :
    asked os <+: (executed (run start (os ++ .stop false :: ls))).filter isWork := by
  rw [run_append] at h ⊢
  have a := awake_run awake_start os hs
  have o := ordered_run ordered_start os
  have ho : asked os = (run start os).added.filter isWork := by rw [work_run]; rfl
  rw [ho]
  generalize run start os = w at a o h ⊢
  have g := graceful_run (graceful_begin a o) ls hl
  have h' : (run (stop w false) ls).stopper = .result true := h
  have hm := g.decided (by rw [h']; trivial)
  have ha : w.added <+: (run (stop w false) ls).added := ((step_grows w (.stop false)).1).trans (run_grows (stop w false) ls).1
  have he : executed (run (stop w false) ls) <+: (run (stop w false) ls).added := by
    rw [g.ordered.all]; simp only [List.append_assoc]; exact List.prefix_append ..
  have : w.added <+: executed (run (stop w false) ls) := List.prefix_of_prefix_length_le ha he (by simpa [executed] using hm)
  obtain ⟨t, ht⟩ := this
  show w.added.filter isWork <+: (executed (run (stop w false) ls)).filter isWork
  rw [← ht, List.filter_append]
  exact List.prefix_append ..

/-- A forced stop gets through: after seven steps of it (its time is over), together with anything else, the loop is told to end. -/
theorem C83_forced (os ls : List Op) (hs : noStop os) (hl : noStop ls) (hp : ∀ o ∈ ls, isPause o = false) (hn : 7 ≤ stopSteps ls) :
    (run start (os ++ .stop true :: ls)).active = false ∧ (run start (os ++ .stop true :: ls)).paused = true := by
  rw [run_append]
  have a := awake_run awake_start os hs
  generalize run start os = w at a
  have e : stop w true = { append w .shutdown with stopper := .set true } := by unfold stop; rw [a.stopper]; simp [a.active, a.notify]
  show (run (stop w true) ls).active = false ∧ (run (stop w true) ls).paused = true
  exact forcing_run (Or.inl (by rw [e])) ls hl hp (Or.inr (by rw [e]; exact hn))

/-- Told to end, the loop ends after nine steps, and executes at most one more event. -/
theorem C83_ends (w : World) (ha : w.active = false) (hp : w.paused = true) (os : List Op) (ho : ∀ o ∈ os, isPause o = false) :
    (run w os).done.length ≤ w.done.length + 1 ∧ ((∀ o ∈ os, ∀ r, o ≠ .loop r false) → 9 ≤ loopSteps os → (run w os).loop = .ended) := by
  have e := end_run ha hp os ho
  refine ⟨?_, fun hf hn => ?_⟩
  · have : last w.loop ≤ 1 := by unfold last; split <;> simp
    have := e.1
    omega
  · have e2 := e.2 hf
    have : endRank w.loop ≤ 9 := by cases w.loop <;> simp [endRank]
    have z : endRank (run w os).loop = 0 := by omega
    cases hl : (run w os).loop <;> rw [hl] at z <;> first | rfl | cases z

/-- Once ended, nothing is executed any more. -/
theorem C83_ended (w : World) (h : w.loop = .ended) (os : List Op) : (run w os).loop = .ended ∧ (run w os).done = w.done := by
  induction os generalizing w with
  | nil => exact ⟨h, rfl⟩
  | cons o os ih =>
    by_cases hl : ∃ r t, o = .loop r t
    · obtain ⟨r, t, rfl⟩ := hl
      have e : step w (.loop r t) = w := by show loopStep w r t = w; unfold loopStep; rw [h]
      show (run (step w (.loop r t)) os).loop = _ ∧ (run (step w (.loop r t)) os).done = _
      have := ih (step w (.loop r t)) (by rw [e]; exact h)
      rw [e] at this ⊢
      exact this
    · have s := step_loop_same w o (fun r t k => hl ⟨r, t, k⟩)
      have := ih (step w o) (by rw [s.1]; exact h)
      exact ⟨this.1, by show (run (step w o) os).done = _; rw [this.2, s.2]⟩

/-- The observer says it is idle if it waits, or did not begin, or ended; and never while it looks for events or executes one. -/
theorem C83_idle (os : List Op) :
    ((run start os).loop = .waiting ∨ (run start os).loop = .ended → (run start os).idle = true) ∧ ((run start os).idle = true → running (run start os) = [] ∧ (run start os).loop ≠ .fetch) := by
  have h := honest_run (w := start) rfl os
  generalize run start os = w at h ⊢
  unfold Honest at h
  refine ⟨fun k => ?_, fun k => ⟨?_, ?_⟩⟩
  · rcases k with k | k <;> rw [k] at h <;> exact h
  · unfold running
    split
    · rename_i e hl; rw [hl] at h; dsimp only at h; rw [k] at h; cases h
    · rfl
  · intro hl; rw [hl] at h; dsimp only at h; rw [k] at h; cases h

/-- While `stop` waits, the thread executes all that is queued and ends by itself, whether `stop` is forced or not: `3 n + 15` steps for `n` events. -/
theorem C83_drains (os : List Op) (hs : noStop os) (hp : (run start os).paused = false) (f x y : Bool) (ls : List Op) (hl : onlyLoop ls)
    (hn : 3 * (run start os).queue.length + 15 ≤ ls.length) :
    let w := run start (os ++ [.stop f, .stopper x, .stopper y] ++ ls)
    w.loop = .ended ∧ w.lost = [] ∧ (executed w).filter isWork = asked os := by
  intro w
  have a := awake_run awake_start os hs
  have o := ordered_run ordered_start (os ++ [.stop f, .stopper x, .stopper y] ++ ls)
  have e : run (run start os) [.stop f, .stopper x, .stopper y] = { append (run start os) .shutdown with flag := true, notify := false, stopper := .poll f } := by
    show stopStep (stopStep (stop (run start os) f) x) y = _
    have : stop (run start os) f = { append (run start os) .shutdown with stopper := .set f } := by unfold stop; rw [a.stopper]; simp [a.active, a.notify]
    rw [this]
    rfl
  have d : Draining (run (run start os) [.stop f, .stopper x, .stopper y]) := by
    rw [e]
    refine ⟨a.active, rfl, hp, fun _ => rfl, ?_, fun k => absurd k a.going.2.2.2⟩
    intro k
    rcases k with k | k
    · exact absurd k a.going.2.1
    · exact absurd k a.going.2.2.1
  have r := drain_run d ls hl
  have q : (run (run start os) [.stop f, .stopper x, .stopper y]).queue.length = (run start os).queue.length + 1 := by rw [e]; simp [append]
  have hw : w = run (run (run start os) [.stop f, .stopper x, .stopper y]) ls := by show run start _ = _; rw [run_append, run_append]
  rw [← hw] at r
  have le := drainRank_le (run (run start os) [.stop f, .stopper x, .stopper y]).queue.isEmpty (run (run start os) [.stop f, .stopper x, .stopper y]).loop
  have z : drainRank w.queue.isEmpty w.loop = 0 := by have := r.2; omega
  have hend := drainRank_zero z
  have hq := r.1.ended hend
  refine ⟨hend, hq.2, ?_⟩
  have all := o.all
  have k := work_run start (os ++ [.stop f, .stopper x, .stopper y] ++ ls)
  have hr : running w = [] := by unfold running; rw [hend]
  have all' : w.added = executed w := by
    have : w.added = executed w ++ running w ++ w.lost ++ w.queue := all
    rw [this, hr, hq.1, hq.2]; simp
  have none : asked ls = [] := by
    clear hn r hw le z hend hq all hr all' o k w
    induction ls with
    | nil => rfl
    | cons l ls ih =>
      obtain ⟨r, t, rfl⟩ := hl l (List.mem_cons_self ..)
      exact ih (fun o ho => hl o (List.mem_cons_of_mem _ ho))
  have k' : w.added.filter isWork = asked (os ++ [.stop f, .stopper x, .stopper y] ++ ls) := by rw [show w.added.filter isWork = _ from k]; rfl
  rw [← all', k', asked_append, asked_append, none]
  simp [asked]

/-- `stop(False)` of a sleeping thread with work added just before -/
def ObserverSample.quit : List Op := asleep ++ [.add 7, .pulse 0, .pulse 0, .pulse 0] ++ .stop false :: (List.replicate 2 (.stopper false) ++ loops 10 ++ List.replicate 5 (.stopper false) ++
  loops 8 ++ List.replicate 3 (.stopper false))

example : (run start quit).stopper = .result true ∧ executed (run start quit) = [.alive, .work 7, .shutdown] ∧ (run start quit).loop = .ended ∧ (run start quit).lost = [] := by decide +kernel

/-- It has no signal any more, and another call returns at once. -/
example : (run start quit).notify = false ∧ (run start (quit ++ [.stop false])).stopper = .result true := by decide +kernel

/-- An observer whose `stop` gave up works as before. -/
example :
    let os := busy ++ .stop false :: (List.replicate 6 (.stopper true))
    (run start os).stopper = .result false ∧ (run start os).notify = true ∧ executed (run start os) = [.alive] ∧
    executed (run start (os ++ loops 13 ++ [.add 2, .pulse 1, .pulse 1, .pulse 1] ++ loops 8)) = [.alive, .work 0, .work 1, .shutdown, .work 2] := by decide +kernel

/-- But a forced stop returns true although an event was dropped: a thread that is busy for longer than five seconds ends after its event, and the queue is cleared. -/
theorem C83_refuted_forced :
    let w := run start (busy ++ .stop true :: (List.replicate 7 (.stopper true) ++ loops 9 ++ List.replicate 3 (.stopper true)))
    w.stopper = .result true ∧ w.loop = .ended ∧ executed w = [.alive, .work 0] ∧ w.lost = [.work 1, .shutdown] := by decide +kernel

/-- And a call of `stop` that gives up can leave the thread asleep beside an event: it read `_notify` before this was removed, and the event was added while it was removed. -/
theorem C83_refuted_wakeup :
    let os := asleep ++ .stop false :: ([.stopper false] ++ loops 9 ++ [.stopper false, .add 3, .pulse 0, .pulse 0] ++ List.replicate 5 (.stopper true))
    (run start os).stopper = .result false ∧ (run start os).queue = [.work 3] ∧ (run start os).helpers = [] ∧ (run start os).active = true ∧ (run start os).paused = false ∧
    ∀ n, executed (run start (os ++ loops n)) = [.alive, .shutdown] := by
  refine ⟨by decide +kernel, by decide +kernel, by decide +kernel, by decide +kernel, by decide +kernel, fun n => ?_⟩
  rw [run_append]
  generalize hw : run start _ = w
  have e : executed w = [.alive, .shutdown] := by rw [← hw]; decide +kernel
  have l : w.loop = .waiting ∧ w.flag = false := by rw [← hw]; decide +kernel
  have same : ∀ n, run w (loops n) = w := by
    intro n
    induction n with
    | zero => rfl
    | succ n ih =>
      have : loops (n + 1) = .loop false false :: loops n := rfl
      rw [this]
      show run (loopStep w false false) (loops n) = w
      have : loopStep w false false = w := by unfold loopStep; rw [l.1]; simp [l.2]
      rw [this]
      exact ih
  rw [same]
  exact e

/-! ## C84: the database is purged again and again -/

/-- After the start, until the thread ends, exactly one purge is on its way at any time (its timer is running, or it is queued or being executed), unless one failed. -/
theorem C84_one (os : List Op) (hf : purgesFine (run start os)) (ha : (run start os).loop ≠ .arm) (he : (run start os).loop ≠ .ended) : purges (run start os) = 1 :=
  (chain_run chain_start os hf).2 ha he

/-- So another purge is executed, once the timer fired (if it is running) and the thread had its steps. -/
theorem C84_again (os : List Op) (hs : noStop os) (hf : purgesFine (run start os)) (ha : (run start os).loop ≠ .arm) (hp : (run start os).paused = false)
    (hh : (run start os).helpers = []) (ls : List Op) (hl : onlyLoop ls) (hn : 3 * ((run start os).queue.length + 1) + 7 ≤ ls.length) :
    (executed (run start os)).count .purge < (executed (run start (os ++ [.fire, .pulse 0, .pulse 0, .pulse 0] ++ ls))).count .purge := by
  have a := awake_run awake_start os hs
  have one := C84_one os hf ha a.going.2.2.2
  have o := ordered_run ordered_start os
  rw [run_append, run_append]
  generalize run start os = w at *
  have f := fires hp a.notify hh
  have four : noStop [.fire, .pulse 0, .pulse 0, .pulse 0] := by unfold noStop; decide
  have a' := awake_run a _ four
  have o' := ordered_run o [.fire, .pulse 0, .pulse 0, .pulse 0]
  rw [f] at a' o' ⊢
  have hv : ∃ v, v = (if w.timer then { append w .purge with flag := true, timer := false } else w) := ⟨_, rfl⟩
  obtain ⟨v, hv⟩ := hv
  rw [← hv] at a' o' ⊢
  have facts : v.paused = false ∧ v.helpers = [] ∧ v.queue.length ≤ w.queue.length + 1 ∧ executed v = executed w ∧ running v = running w ∧
      1 ≤ v.queue.count .purge + (running v).count .purge := by
    rw [hv]
    cases ht : w.timer
    · refine ⟨hp, hh, by simp, rfl, rfl, ?_⟩
      unfold purges at one
      rw [ht] at one
      simp only [Bool.false_eq_true, if_false] at one ⊢
      omega
    · refine ⟨hp, hh, by simp [append], rfl, rfl, ?_⟩
      show 1 ≤ (w.queue ++ [Event.purge]).count .purge + _
      rw [List.count_append]
      simp
      omega
  obtain ⟨f1, f2, f3, f4, f5, f6⟩ := facts
  have e := executes a' o' f1 f2 ls hl (by omega)
  rw [e.1]
  have g : v.added <+: (run v ls).added := (run_grows v ls).1
  obtain ⟨t, ht⟩ := g
  rw [← ht, o'.all, ← f4]
  simp only [List.count_append]
  omega

/-- But once a purge failed, the database is never purged again, whatever happens: the timer is started after the purge only. -/
theorem C84_refuted_error :
    ∃ os, noStop os ∧ (Event.purge, true) ∈ (run start os).done ∧ (run start os).active = true ∧
      ∀ ls, (executed (run start (os ++ ls))).count .purge = (executed (run start os)).count .purge := by
  refine ⟨asleep ++ [.fire, .pulse 0, .pulse 0, .pulse 0] ++ List.replicate 6 (.loop true false), ?_, by decide +kernel, by decide +kernel, fun ls => ?_⟩
  · unfold noStop; decide +kernel
  · rw [run_append]
    exact never_run (by unfold Never; decide +kernel) ls

example : purges (run start asleep) = 1 ∧ (run start asleep).timer = true ∧
    executed (run start (asleep ++ [.fire, .pulse 0, .pulse 0, .pulse 0] ++ loops 6)) = [.alive, .purge] ∧
    (run start (asleep ++ [.fire, .pulse 0, .pulse 0, .pulse 0] ++ loops 6)).timer = true := by decide +kernel

end Verif
