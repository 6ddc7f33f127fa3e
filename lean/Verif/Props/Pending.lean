import Verif.Spec.Pending

/-!
# C130 — saving of log positions by two threads
-/

namespace Verif.Pending

open PendingSpec

private theorem mem_note (l k : Nat) (p : List Nat) : k ∈ note l p ↔ k = l ∨ k ∈ p := by
  unfold note
  split
  · rename_i h
    constructor
    · exact Or.inr
    · rintro (rfl | h')
      · exact h
      · exact h'
  · simp

/-- Nothing is lost by a step, unless the thread dies with a log in its hands. -/
private theorem step_way (s : State) (e : Ev) (h : ∀ l, s.db l = s.pos l ∨ OnWay s l)
    (ho : ∀ l, e = .die → s.thread ≠ .mark l ∧ ∀ last, s.thread ≠ .hold l last) (l : Nat) :
    (step s e).db l = (step s e).pos l ∨ OnWay (step s e) l := by
  have hl := h l
  obtain ⟨pos, db, pend, thread, caller⟩ := s
  unfold OnWay at hl ⊢
  cases e with
  | read k p =>
    cases thread <;> try exact hl
    · by_cases hk : l = k <;> simp_all [step, set] <;> grind
    · simp only [step]; split <;> simp_all [set] <;> grind
  | note => cases thread <;> simp_all [step, mem_note] <;> grind
  | save => cases thread <;> simp_all [step]
  | pop =>
    cases thread <;> try exact hl
    rename_i last
    cases pend <;> cases last <;> simp_all [step] <;> grind
  | write =>
    cases thread <;> simp_all [step, set] <;> grind
  | finish => cases thread <;> simp_all [step]
  | die =>
    cases thread <;> simp_all [step]
  | stop => cases caller <;> simp_all [step]
  | callerPop =>
    cases caller <;> try exact hl
    cases pend <;> simp_all [step] <;> grind
  | callerWrite => cases caller <;> simp_all [step, set] <;> grind

private theorem run_way (s : State) (es : List Ev) (h : ∀ l, s.db l = s.pos l ∨ OnWay s l) (ho : Orderly s es) (l : Nat) :
    (run s es).db l = (run s es).pos l ∨ OnWay (run s es) l := by
  induction es generalizing s with
  | nil => exact h l
  | cons e es ih => exact ih (step s e) (fun k => step_way s e h ho.1 k) ho.2

/-- At any time the database has the position of a log, or the log is on its way to it, however the threads interleave. -/
theorem C130_way (pos : Nat → Nat) (es : List Ev) (ho : Orderly (start pos) es) (l : Nat) :
    (run (start pos) es).db l = (run (start pos) es).pos l ∨ OnWay (run (start pos) es) l :=
  run_way _ _ (fun _ => Or.inl rfl) ho l

/-- A thread that returned left nothing, and never dies. -/
private theorem done_empty (s : State) (e : Ev) (h : s.thread = .done → s.pend = []) : (step s e).thread = .done → (step s e).pend = [] := by
  obtain ⟨pos, db, pend, thread, caller⟩ := s
  cases e with
  | read k p => cases thread <;> simp_all [step] <;> split <;> simp_all
  | note => cases thread <;> simp_all [step]
  | save => cases thread <;> simp_all [step]
  | pop =>
    cases thread <;> try exact h
    rename_i last
    cases pend <;> cases last <;> simp_all [step]
  | write => cases thread <;> simp_all [step]
  | finish => cases thread <;> simp_all [step]
  | die => cases thread <;> simp_all [step]
  | stop => cases caller <;> simp_all [step]
  | callerPop =>
    cases caller <;> try exact h
    cases pend <;> simp_all [step]
  | callerWrite => cases caller <;> simp_all [step]

private theorem dead_stays (s : State) (es : List Ev) (h : s.thread = .dead) : (run s es).thread = .dead := by
  induction es generalizing s with
  | nil => exact h
  | cons e es ih =>
    apply ih
    obtain ⟨pos, db, pend, thread, caller⟩ := s
    simp only at h
    subst h
    cases e <;> try rfl
    · cases caller <;> rfl
    · cases caller <;> try rfl
      cases pend <;> rfl
    · cases caller <;> rfl

private theorem run_orderly (s : State) (es : List Ev) (h : (run s es).thread = .done) : Orderly s es := by
  induction es generalizing s with
  | nil => trivial
  | cons e es ih =>
    refine ⟨fun l he => ?_, ih (step s e) h⟩
    subst he
    by_cases hd : s.thread = .done
    · rw [hd]; exact ⟨by simp, by simp⟩
    · exfalso
      have hdead : (step s .die).thread = .dead := by
        obtain ⟨pos, db, pend, thread, caller⟩ := s
        cases thread <;> simp_all [step]
      have := dead_stays (step s .die) es hdead
      have h' : (run (step s .die) es).thread = .done := h
      rw [this] at h'; cases h'

private theorem run_done (s : State) (es : List Ev) (h : s.thread = .done → s.pend = []) : (run s es).thread = .done → (run s es).pend = [] := by
  induction es generalizing s with
  | nil => exact h
  | cons e es ih => exact ih (step s e) (done_empty s e h)

/-- When the thread of the filter has returned, and who stopped it is not about to write, the database has the position of every log. -/
theorem C130_saved (pos : Nat → Nat) (es : List Ev) (hd : (run (start pos) es).thread = .done) (hc : ∀ l, (run (start pos) es).caller ≠ .hold l)
    (l : Nat) : (run (start pos) es).db l = (run (start pos) es).pos l := by
  rcases C130_way pos es (run_orderly _ _ hd) l with h | h | h | ⟨_, h⟩ | h
  · exact h
  · rw [run_done _ _ (by intro h; cases h) hd] at h; cases h
  · rw [hd] at h; cases h
  · rw [hd] at h; cases h
  · exact absurd h (hc l)

/-- If the thread died, but without a log in its hands, and nothing is pending after `stop`, all positions are saved too. -/
theorem C130_dead (pos : Nat → Nat) (es : List Ev) (ho : Orderly (start pos) es) (hd : (run (start pos) es).thread = .dead)
    (hp : (run (start pos) es).pend = []) (hc : ∀ l, (run (start pos) es).caller ≠ .hold l) (l : Nat) :
    (run (start pos) es).db l = (run (start pos) es).pos l := by
  rcases C130_way pos es ho l with h | h | h | ⟨_, h⟩ | h
  · exact h
  · rw [hp] at h; cases h
  · rw [hd] at h; cases h
  · rw [hd] at h; cases h
  · exact absurd h (hc l)

private theorem step_past (s : State) (e : Ev) (l : Nat) :
    ((step s e).pos l = s.pos l ∨ ∃ p, e = .read l p ∧ (step s e).pos l = p) ∧ ((step s e).db l = s.db l ∨ (step s e).db l = s.pos l) := by
  obtain ⟨pos, db, pend, thread, caller⟩ := s
  cases e with
  | read k p =>
    cases thread <;> simp only [step] <;> (try split) <;> by_cases hk : l = k <;> simp [set, hk]
  | note => cases thread <;> simp [step]
  | save => cases thread <;> simp [step]
  | pop => cases thread <;> cases pend <;> simp [step]
  | write =>
    cases thread <;> simp [step, set]
    rename_i k _
    by_cases hk : l = k <;> simp [hk]
  | finish => cases thread <;> simp [step]
  | die => cases thread <;> simp [step]
  | stop => cases caller <;> simp [step]
  | callerPop => cases caller <;> cases pend <;> simp [step]
  | callerWrite =>
    cases caller <;> simp [step, set]
    rename_i k
    by_cases hk : l = k <;> simp [hk]

/-- The database never has a position that the log was not set to. -/
theorem C130_past (pos : Nat → Nat) (es : List Ev) (l : Nat) :
    (run (start pos) es).db l = pos l ∨ (l, (run (start pos) es).db l) ∈ readTo es := by
  suffices H : ∀ (s : State) (old : List (Nat × Nat)), (s.db l = pos l ∨ (l, s.db l) ∈ old) → (s.pos l = pos l ∨ (l, s.pos l) ∈ old) →
      (run s es).db l = pos l ∨ (l, (run s es).db l) ∈ old ++ readTo es by
    simpa using H (start pos) [] (Or.inl rfl) (Or.inl rfl)
  induction es with
  | nil => intro s old h1 _; simpa [run, readTo] using h1
  | cons e es ih =>
    intro s old h1 h2
    have hr : readTo (e :: es) = readTo [e] ++ readTo es := by cases e <;> rfl
    obtain ⟨hp, hd⟩ := step_past s e l
    rw [hr, ← List.append_assoc]
    apply ih (step s e) (old ++ readTo [e])
    · rcases hd with h | h <;> rw [h]
      · exact h1.imp id (fun h => List.mem_append_left _ h)
      · exact h2.imp id (fun h => List.mem_append_left _ h)
    · rcases hp with h | ⟨p, rfl, h⟩ <;> rw [h]
      · exact h2.imp id (fun h => List.mem_append_left _ h)
      · right; simp [readTo]

/-- The thread is after its main loop. -/
private def ended : Phase → Bool
  | .flush last => last
  | .hold _ last => last
  | .done => true
  | _ => false

private theorem step_ended (s : State) (e : Ev) (h : ended (step s e).thread = true) : ended s.thread = true ∨ e = .finish := by
  obtain ⟨pos, db, pend, thread, caller⟩ := s
  cases e with
  | read k p =>
    cases thread <;> try exact Or.inl h
    rename_i j
    by_cases hk : j = k <;> simp [step, hk, ended] at h
  | note => cases thread <;> simp_all [step, ended]
  | save => cases thread <;> simp_all [step, ended]
  | pop =>
    cases thread <;> simp_all [step]
    rename_i last
    cases pend <;> cases last <;> simp_all [ended]
  | write => cases thread <;> simp_all [step, ended]
  | finish => exact Or.inr rfl
  | die => cases thread <;> simp_all [step, ended]
  | stop => cases caller <;> simp_all [step]
  | callerPop =>
    cases caller <;> try exact Or.inl h
    cases pend <;> exact Or.inl h
  | callerWrite => cases caller <;> simp_all [step]

/-- The thread returns only after its main loop ended: saving from time to time does not end it. -/
theorem C130_returns (pos : Nat → Nat) (es : List Ev) (h : (run (start pos) es).thread = .done) : Ev.finish ∈ es := by
  suffices H : ∀ s, ended (run s es).thread = true → ended s.thread = true ∨ Ev.finish ∈ es by
    rcases H (start pos) (by rw [h]; rfl) with h | h
    · cases h
    · exact h
  intro s
  clear h
  induction es generalizing s with
  | nil => exact Or.inl
  | cons e es ih =>
    intro h
    rcases ih (step s e) h with h | h
    · rcases step_ended s e h with h | rfl
      · exact Or.inl h
      · exact Or.inr (List.mem_cons_self ..)
    · exact Or.inr (List.mem_cons_of_mem _ h)

/-- From the end of the main loop on the thread needs two steps for each pending log, and one, to return by itself. -/
theorem C130_ends (s : State) (h : s.thread = .flush true) :
    (run s ((s.pend.flatMap fun _ => [.pop, .write]) ++ [.pop])).thread = .done ∧
    ∀ l ∈ s.pend, (run s ((s.pend.flatMap fun _ => [.pop, .write]) ++ [.pop])).db l = s.pos l := by
  suffices H : ∀ (pend : List Nat) (db : Nat → Nat), ∃ db', run ⟨s.pos, db, pend, .flush true, s.caller⟩ ((pend.flatMap fun _ => [.pop, .write]) ++ [.pop]) =
      ⟨s.pos, db', [], .done, s.caller⟩ ∧ (∀ l ∈ pend, db' l = s.pos l) ∧ ∀ l, db l = s.pos l → db' l = s.pos l by
    obtain ⟨db', h1, h2, _⟩ := H s.pend s.db
    have hs : s = ⟨s.pos, s.db, s.pend, .flush true, s.caller⟩ := by rw [← h]
    rw [← hs] at h1
    rw [h1]
    exact ⟨rfl, h2⟩
  intro pend
  induction pend with
  | nil => intro db; exact ⟨db, rfl, by simp, fun _ h => h⟩
  | cons k r ih =>
    intro db
    obtain ⟨db', h1, h2, h3⟩ := ih (set db k (s.pos k))
    refine ⟨db', h1, ?_, ?_⟩
    · intro l hl
      rcases List.mem_cons.1 hl with rfl | hl
      · exact h3 _ (by simp [set])
      · exact h2 l hl
    · intro l hl
      apply h3
      by_cases hk : l = k <;> simp [set, hk, hl]

/-! ### Examples and counterexamples -/

-- both threads save at the same time
example : ∃ s, s = run (start fun _ => 0) [.read 1 10, .note, .read 2 20, .note, .stop, .callerPop, .read 2 0, .read 2 25, .note, .finish, .pop, .callerWrite, .callerPop, .write, .pop, .callerWrite, .callerPop] ∧
    s.thread = .done ∧ s.caller = .stopped ∧ s.db 1 = 10 ∧ s.db 2 = 25 := ⟨_, rfl, by decide +kernel⟩

/-- A log read while the filter is being stopped is not saved if the thread dies then: lines are processed again after the next start. -/
theorem C130_refuted_dies : ∃ s, s = run (start fun _ => 0) [.stop, .callerPop, .read 1 10, .note, .die] ∧
    s.caller = .stopped ∧ s.thread = .dead ∧ s.db 1 = 0 ∧ s.pos 1 = 10 := ⟨_, rfl, by decide +kernel⟩

/-- Nor is it after an error of the database, as the entry was already taken. -/
theorem C130_refuted_taken : ∃ s, s = run (start fun _ => 0) [.read 1 10, .note, .save, .pop, .die, .stop, .callerPop] ∧
    s.caller = .stopped ∧ s.db 1 = 0 ∧ s.pos 1 = 10 := ⟨_, rfl, by decide +kernel⟩

end Verif.Pending
