import Verif.Lemmas.Execute

set_option linter.unusedSimpArgs false

/-!
# C87 — commands have a time limit
-/

namespace Verif

open Verif.Execute Verif.ExecuteSpec Verif.ExecuteLemmas

/-- A command that ends within the time is left alone and judged by its own code, and its end is noticed within two seconds. -/
theorem C87_in_time (e : Env) (tree : Bool) (timeout : Nat) (codes : List Int) (output : Bool) (level at_ : Nat) (c : Int)
    (hs : e.starts = true) (he : Ends e at_ c) (ht : at_ ≤ timeout) :
    let r := executeCmd e tree timeout codes output level
    r.code = some c ∧ r.signals = [] ∧ (r.success = true ↔ c ∈ codes) ∧ at_ ≤ r.now ∧ ∀ d, Late e d → r.now ≤ at_ + 200000 + d := by
  have key : ∃ t, ended e tree timeout = ⟨some c, [], t⟩ ∧ at_ ≤ t ∧ ∀ d, Late e d → t ≤ at_ + 200000 + d := by
    rcases ended_spec e tree timeout with ⟨c', t, h1, h2, h3⟩ | ⟨t, k, h1, h2, h3, _⟩
    · have hat : at_ ≤ t := by
        rcases Nat.lt_or_ge t at_ with h | h
        · rw [he.1 t h] at h2; cases h2
        · exact h
      rw [he.2 t hat] at h2
      injection h2 with h2
      subst h2
      refine ⟨t, h1, hat, fun d hd => ?_⟩
      rcases h3 with rfl | ⟨t0, k, h4, h5, h6, h7⟩
      · omega
      · have : t0 < at_ := by
          rcases Nat.lt_or_ge t0 at_ with h | h
          · exact h
          · rw [he.2 t0 h] at h6; cases h6
        have := hd k
        have e1 : sleepTime = 200000 := rfl
        omega
    · rw [he.2 t (by omega)] at h2; cases h2
  obtain ⟨t, h1, h2, h3⟩ := key
  simp [executeCmd, hs, h1]
  exact ⟨h2, h3⟩

/-- If sleeps are exact the end is noticed at the first look after it. -/
theorem C87_noticed (e : Env) (tree : Bool) (timeout : Nat) (codes : List Int) (output : Bool) (level at_ : Nat) (c : Int)
    (hs : e.starts = true) (he : Ends e at_ c) (ht : at_ ≤ timeout) (hl : Late e 0) :
    ∃ k, (executeCmd e tree timeout codes output level).now = looks k ∧ at_ ≤ looks k ∧ ∀ j, j < k → looks j < at_ := by
  obtain ⟨k, h1, h2⟩ := ended_looks e tree timeout (fun k => Nat.le_zero.mp (hl k))
  refine ⟨k, ?_, ?_, fun j hj => ?_⟩
  · rcases h2 with ⟨c', h3, _⟩ | ⟨_, h4, h5⟩
    · simp [executeCmd, hs, h3]
    · rw [he.2 _ (by omega)] at h4; cases h4
  · rcases h2 with ⟨c', _, h4⟩ | ⟨_, h4, h5⟩
    · rcases Nat.lt_or_ge (looks k) at_ with h | h
      · rw [he.1 _ h] at h4; cases h4
      · exact h
    · omega
  · rcases Nat.lt_or_ge (looks j) at_ with h | h
    · exact h
    · have := (h1 j hj).1
      rw [he.2 _ h] at this; cases this

/-- No signal is sent before the time is over, whatever the process does. -/
theorem C87_not_early (e : Env) (tree : Bool) (timeout : Nat) (codes : List Int) (output : Bool) (level : Nat) :
    ∀ p ∈ (executeCmd e tree timeout codes output level).signals, timeout < p.1 := by
  intro p hp
  unfold executeCmd at hp
  split at hp
  · dsimp only at hp
    rcases ended_spec e tree timeout with ⟨c', t, h1, _⟩ | ⟨t, k, h1, _, h3, _⟩
    · rw [h1] at hp; simp at hp
    · rw [h1] at hp
      unfold killed at hp
      split at hp
      · simp at hp
      · dsimp only at hp
        split at hp
        · split at hp
          · simp only [List.mem_singleton] at hp; subst hp; exact h3
          · simp only [List.mem_append, List.mem_singleton] at hp
            rcases hp with rfl | rfl
            · exact h3
            · simp; omega
        · simp only [List.mem_singleton] at hp; subst hp; exact h3
  · simp at hp

/-- A command that goes on gets SIGTERM, then SIGKILL for all of its group, and the call comes back soon after the time is over. -/
theorem C87_stopped (e : Env) (timeout : Nat) (codes : List Int) (output : Bool) (level : Nat) (d : Nat)
    (hs : e.starts = true) (hr : e.refused = false) (hm : e.empty = false) (hd : Late e d) (hrun : Runs e (timeout + 200000 + d)) :
    let r := executeCmd e true timeout codes output level
    ∃ t1 t2, r.signals = [(t1, .term), (t2, .kill)] ∧ timeout < t1 ∧ t1 ≤ timeout + 200000 + d ∧ t1 + 20000 ≤ t2 ∧ t2 ≤ t1 + 20000 + d ∧ r.now ≤ t2 + 20000 + d := by
  have e1 : sleepTime = 200000 := rfl
  have e2 : sleepInterval = 20000 := rfl
  rcases ended_spec e true timeout with ⟨c', t, _, h2, h3⟩ | ⟨t, k, h1, h2, h3, t0, k0, h4, h5, h6⟩
  · exfalso
    have : t ≤ timeout + 200000 + d := by
      rcases h3 with rfl | ⟨t0, k, h4, h5, h6, h7⟩
      · omega
      · have := hd k; omega
    rw [hrun t this] at h2; cases h2
  · have a1 := hd k
    have a2 := hd (k + 1)
    have a3 := hd k0
    refine ⟨t, t + sleepInterval + e.late k, ?_, h3, by omega, by omega, by omega, ?_⟩
    · simp [executeCmd, hs, h1, killed, hr, hm]
    · simp [executeCmd, hs, h1, killed, hr, hm]; omega

/-- A command that ends at SIGTERM is judged by the code it ends with, whether or not others of its group are left for SIGKILL. -/
theorem C87_terminated (e : Env) (tree : Bool) (timeout : Nat) (codes : List Int) (output : Bool) (level : Nat) (d : Nat) (c : Int)
    (hs : e.starts = true) (hr : e.refused = false) (hd : Late e d) (hrun : Runs e (timeout + 200000 + d)) (hterm : ∀ t1 t, e.poll [(t1, .term)] t = some c) :
    let r := executeCmd e tree timeout codes output level
    r.code = some c ∧ (r.success = true ↔ c ∈ codes) ∧ (tree = false ∨ e.empty = true → ∃ t1, r.signals = [(t1, .term)]) := by
  have e1 : sleepTime = 200000 := rfl
  rcases ended_spec e tree timeout with ⟨c', t, _, h2, h3⟩ | ⟨t, k, h1, _⟩
  · exfalso
    have : t ≤ timeout + 200000 + d := by
      rcases h3 with rfl | ⟨t0, k, h4, h5, h6, h7⟩
      · omega
      · have := hd k; omega
    rw [hrun t this] at h2; cases h2
  · cases tree <;> cases hm : e.empty <;> simp [executeCmd, hs, h1, killed, hr, hm, hterm]

/-- Without `tout_kill_tree` SIGKILL is sent only if SIGTERM was not enough. -/
theorem C87_gentle (e : Env) (timeout : Nat) (codes : List Int) (output : Bool) (level : Nat) :
    let r := executeCmd e false timeout codes output level
    r.signals = [] ∨ (∃ t1 c, r.signals = [(t1, .term)] ∧ r.code = some c ∧ ∃ t, e.poll [(t1, .term)] t = some c) ∨
      (∃ t1 t2, r.signals = [(t1, .term), (t2, .kill)] ∧ e.poll [(t1, .term)] t2 = none) ∨ ∃ t1, r.signals = [(t1, .term)] ∧ e.empty = true ∧ r.code = none := by
  unfold executeCmd
  split
  · dsimp only
    rcases ended_spec e false timeout with ⟨c', t, h1, _⟩ | ⟨t, k, h1, _⟩
    · left; rw [h1]
    · rw [h1]
      unfold killed
      split
      · left; rfl
      · dsimp only
        cases hp : e.poll [(t, .term)] (t + sleepInterval + e.late k) with
        | none =>
          simp only [decide_true, Bool.true_or, if_true]
          split
          · rename_i hm
            exact Or.inr (Or.inr (Or.inr ⟨t, rfl, hm, rfl⟩))
          · exact Or.inr (Or.inr (Or.inl ⟨t, _, rfl, hp⟩))
        | some c =>
          exact Or.inr (Or.inl ⟨t, c, by simp, by simp, _, hp⟩)
  · left; rfl

/-- The command succeeded only if it was started and ended with one of the codes: by itself, or — too late — after signals. -/
theorem C87_success (e : Env) (tree : Bool) (timeout : Nat) (codes : List Int) (output : Bool) (level : Nat)
    (h9 : (9 : Int) ∉ codes) (h : (executeCmd e tree timeout codes output level).success = true) :
    e.starts = true ∧ ∃ c s t, c ∈ codes ∧ e.poll s t = some c ∧ (s ≠ [] → (∀ p ∈ s, timeout < p.1) ∧ e.poll [] (s.head?.map Prod.fst |>.getD 0) = none) := by
  unfold executeCmd at h
  split at h
  · rename_i hs
    refine ⟨hs, ?_⟩
    dsimp only at h
    cases hcode : (ended e tree timeout).code with
    | none => rw [hcode] at h; simp at h
    | some c =>
      rw [hcode] at h
      have hc : c ∈ codes := by simpa using h
      rcases ended_spec e tree timeout with ⟨c', t, h1, h2, _⟩ | ⟨t, k, h1, h2, h3, _⟩
      · rw [h1] at hcode
        injection hcode with hcode
        subst hcode
        exact ⟨c', [], t, hc, h2, by simp⟩
      · rw [h1] at hcode
        unfold killed at hcode
        split at hcode
        · simp at hcode
        · dsimp only at hcode
          cases hp : e.poll [(t, .term)] (t + sleepInterval + e.late k) with
          | some c' =>
            have : c' = c := by
              simp only [hp] at hcode
              revert hcode
              cases tree <;> cases e.empty <;> simp
            subst this
            exact ⟨c', _, _, hc, hp, fun _ => ⟨by simpa using h3, by simpa using h2⟩⟩
          | none =>
            simp only [hp, decide_true, Bool.true_or, if_true] at hcode
            split at hcode
            · simp at hcode
            · cases hq : e.poll ([(t, Signal.term)] ++ [(t + sleepInterval + e.late k, .kill)]) (t + sleepInterval + e.late k + sleepInterval + e.late (k + 1)) with
              | some c' =>
                simp only [hq] at hcode
                have : c' = c := by simpa using hcode
                subst this
                refine ⟨c', _, _, hc, hq, fun _ => ⟨?_, by simpa using h2⟩⟩
                intro p hp
                simp at hp
                rcases hp with rfl | rfl
                · exact h3
                · simp; omega
              | none =>
                exfalso
                simp only [hq, decide_true, Bool.true_and] at hcode
                cases hl : e.left <;> simp [hl] at hcode
                subst hcode
                exact h9 hc
  · simp at h

/-- A command that dies of the signals, or not at all, failed, and the call does not wait for its output. -/
theorem C87_timed_out (e : Env) (tree : Bool) (timeout : Nat) (codes : List Int) (output : Bool) (level : Nat) (d : Nat)
    (hd : Late e d) (hrun : Runs e (timeout + 200000 + d)) (hdie : Dies e) (hleft : e.left = true) (hpos : ∀ c ∈ codes, 0 ≤ c) :
    (executeCmd e tree timeout codes output level).success = false ∧ (executeCmd e tree timeout codes output level).blocked = false := by
  have e1 : sleepTime = 200000 := rfl
  unfold executeCmd
  split
  · have key : ∀ c, (ended e tree timeout).code = some c → c < 0 := by
      intro c hc
      rcases ended_spec e tree timeout with ⟨c', t, _, h2, h3⟩ | ⟨t, k, h1, h2, h3, _⟩
      · exfalso
        have : t ≤ timeout + 200000 + d := by
          rcases h3 with rfl | ⟨t0, k, h4, h5, h6, h7⟩
          · omega
          · have := hd k; omega
        rw [hrun t this] at h2; cases h2
      · rw [h1] at hc
        unfold killed at hc
        split at hc
        · simp at hc
        · dsimp only at hc
          cases hp : e.poll [(t, .term)] (t + sleepInterval + e.late k) with
          | some c' =>
            have := hdie _ _ _ (by simp) hp
            simp only [hp] at hc
            revert hc
            cases tree <;> cases e.empty <;> simp <;> intro h <;> omega
          | none =>
            simp only [hp, decide_true, Bool.true_or, if_true] at hc
            split at hc
            · simp at hc
            · simp [hleft] at hc
              exact hdie _ _ _ (by simp) hc
    dsimp only
    cases hc : (ended e tree timeout).code with
    | none => simp [reads]
    | some c =>
      have := key c hc
      constructor
      · simp only [List.contains_eq_mem, decide_eq_false_iff_not]
        intro hm
        have := hpos c hm
        omega
      · simp [reads]; intro _ _; omega
  · simp

/-- A command that could not be started failed, at once. -/
theorem C87_not_started (e : Env) (tree : Bool) (timeout : Nat) (codes : List Int) (output : Bool) (level : Nat) (h : e.starts = false) :
    executeCmd e tree timeout codes output level = ⟨false, none, [], 0, false⟩ := by
  simp [executeCmd, h]

/-- The call waits for ever only if the command ended with a code of its own while another process keeps its output open, and the output is wanted. -/
theorem C87_waits (e : Env) (tree : Bool) (timeout : Nat) (codes : List Int) (output : Bool) (level : Nat) :
    let r := executeCmd e tree timeout codes output level
    r.blocked = true ↔ (e.starts = true ∧ e.held = true ∧ (∃ c, r.code = some c ∧ 0 ≤ c) ∧ (output = true ∨ (r.success = true ∧ level ≤ 10) ∨ (r.success = false ∧ level ≤ 40))) := by
  unfold executeCmd
  cases hs : e.starts
  · simp
  · simp only [if_true]
    cases (ended e tree timeout).code with
    | none => simp [reads]
    | some c =>
      by_cases hc : c ∈ codes <;> cases output <;> cases hh : e.held <;> simp [reads, stdLevel, hc, hh, and_comm]

/-- A process that ends when it gets SIGTERM, with code 0. -/
def polite : Env where
  starts := true
  poll := fun s _ => if s = [] then none else some 0
  late := fun _ => 0
  refused := false
  empty := false
  left := true
  held := false

/-- The time limit is not a failure for a command that handles SIGTERM and ends with code 0. -/
theorem C87_refuted_polite (timeout : Nat) (output : Bool) (level : Nat) :
    (executeCmd polite true timeout [0] output level).success = true ∧ (executeCmd polite true timeout [0] output level).signals ≠ [] := by
  have h : ∀ t, polite.poll [] t = none := fun _ => rfl
  rcases ended_spec polite true timeout with ⟨c', t, _, h2, _⟩ | ⟨t, k, h1, _⟩
  · rw [h] at h2; cases h2
  · constructor
    · have hs : polite.starts = true := rfl
      simp only [executeCmd, hs, if_true, h1]
      simp [killed, polite]
    · have hs : polite.starts = true := rfl
      simp only [executeCmd, hs, if_true, h1]
      simp [killed, polite]

/-- A command that fails at once but leaves a process in background with its output. -/
def daemon : Env where
  starts := true
  poll := fun _ _ => some 1
  late := fun _ => 0
  refused := false
  empty := false
  left := true
  held := true

/-- The time limit does not cover the reading of the output. -/
theorem C87_refuted_background (tree : Bool) (timeout : Nat) (output : Bool) (level : Nat) (hl : level ≤ 40) :
    (executeCmd daemon tree timeout [0] output level).blocked = true ∧ (executeCmd daemon tree timeout [0] output level).signals = [] := by
  cases output <;> simp [executeCmd, daemon, ended, reads, stdLevel, hl]

/-- ends after 25 units with code 3 -/
def short : Env where
  starts := true
  poll := fun _ t => if t < 25 then none else some 3
  late := fun _ => 0
  refused := false
  empty := false
  left := true
  held := false

/-- goes on until it is killed -/
def endless : Env where
  starts := true
  poll := fun s _ => if s.any (·.2 = Signal.kill) then some (-9) else none
  late := fun _ => 0
  refused := false
  empty := false
  left := true
  held := true

example : executeCmd short true 100 [0, 3] false 20 = ⟨true, some 3, [], 28, false⟩ := by decide +kernel
example : executeCmd short true 100 [0] false 20 = ⟨false, some 3, [], 28, false⟩ := by decide +kernel
example : executeCmd endless true 100 [0] true 20 = ⟨false, some (-9), [(105, .term), (20105, .kill)], 40105, false⟩ := by decide +kernel
example : executeCmd short true 10 [0] false 20 = ⟨false, some 3, [(15, .term), (20015, .kill)], 40015, false⟩ := by decide +kernel
example : Ends short 25 3 := ⟨fun t h => by simp [short, h], fun t h => by simp [short]; omega⟩

end Verif
