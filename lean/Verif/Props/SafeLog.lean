import Verif.Spec.SafeLog

/-!
# C126 — safe logging
-/

namespace Verif.SafeLog

open SafeLogSpec

/-- A log call returns, whatever is wrong with the message, its arguments or a handler, except for errors of input and output
(also a broken pipe, unless it ends the program) and exceptions that are no `Exception`. -/
theorem C126_safe (env : Env) (n : Nat) (s : State) (l : String) (r : Record) :
    ((safeLog env n s l r).2.1 = .returned ↔ env.log n l r = .done ∨ env.log n l r = .error) ∧
    (∀ e, (safeLog env n s l r).2.1 = .io e ↔ env.log n l r = .io e ∧ ¬(e = 32 ∧ s.exitOn = true)) ∧
    ((safeLog env n s l r).2.1 = .exit ↔ env.log n l r = .io 32 ∧ s.exitOn = true) ∧
    ((safeLog env n s l r).2.1 = .other ↔ env.log n l r = .other) ∧
    (safeLog env n s l r).2.1 ≠ .error := by
  unfold safeLog
  cases env.log n l r with
  | done => simp
  | error => simp
  | other => simp
  | io e =>
    dsimp only
    by_cases he : e = 32
    · subst he
      cases hx : s.exitOn <;> simp [stopOn, hx]
      all_goals (intro e; constructor <;> (intro h; first | exact h.symm | (simp_all)))
    · rw [if_neg he]
      refine ⟨by simp, fun e' => ?_, by simp [he], by simp, by simp⟩
      simp only [Result.io.injEq, Outcome.io.injEq]
      exact (Iff.intro (fun h => And.intro h (fun h' => he (h.trans h'.1))) And.left)

private theorem texts_some (env : Env) (l ts : List String) : texts env l = some ts ↔ l.map env.text = ts.map some := by
  induction l generalizing ts with
  | nil => cases ts <;> simp [texts]
  | cons a l ih =>
    unfold texts
    cases ha : env.text a with
    | none => cases ts <;> simp [ha]
    | some t =>
      cases hl : texts env l with
      | none =>
        cases ts with
        | nil => simp
        | cons u us =>
          simp only [List.map_cons, ha, List.cons.injEq, reduceCtorEq, false_iff, not_and]
          intro _ h
          rw [(ih us).2 h] at hl; cases hl
      | some vs =>
        cases ts with
        | nil => simp
        | cons u us =>
          have := ih us
          rw [hl, Option.some.injEq] at this
          simp [ha, this]

private theorem texts_none (env : Env) (l : List String) : texts env l = none ↔ ∃ a ∈ l, env.text a = none := by
  induction l with
  | nil => simp [texts]
  | cons a l ih =>
    unfold texts
    cases ha : env.text a with
    | none => simp [ha]
    | some t =>
      cases hl : texts env l with
      | none => rw [hl] at ih; simpa [ha] using ih
      | some vs => rw [hl] at ih; simpa [ha] using ih

/-- What is given to the handlers: the record; and after a failure a report with the message and one with the arguments, exactly
if all of these can be converted to text. -/
theorem C126_report (env : Env) (n : Nat) (s : State) (l : String) (r : Record) :
    (env.log n l r ≠ .error → (safeLog env n s l r).2.2 = [r]) ∧
    (∀ m as, env.log n l r = .error → env.text r.msg = some m → r.args.map env.text = as.map some →
      (safeLog env n s l r).2.2 = [r, ⟨"logging failed: %r on %s", [env.repr, m]⟩, ⟨"  args: %r", as⟩]) ∧
    (env.log n l r = .error → (env.text r.msg = none ∨ ∃ a ∈ r.args, env.text a = none) → (safeLog env n s l r).2.2 = [r]) := by
  refine ⟨fun h => ?_, fun m as h hm ha => ?_, fun h ht => ?_⟩
  · unfold safeLog
    cases ho : env.log n l r with
    | done => rfl
    | error => exact absurd ho h
    | other => rfl
    | io e => dsimp only; split <;> (try split) <;> rfl
  · unfold safeLog
    rw [h]
    dsimp only
    unfold about
    rw [hm, (texts_some env _ _).2 ha]
  · unfold safeLog
    rw [h]
    dsimp only
    unfold about
    rcases ht with ht | ht
    · rw [ht]
    · rw [(texts_none env _).2 ht]
      cases env.text r.msg <;> rfl

/-- A failure without a broken pipe changes nothing. -/
theorem C126_frame (env : Env) (n : Nat) (s : State) (l : String) (r : Record) (h : Nat) :
    (env.log n l r ≠ .io 32 → (safeLog env n s l r).1 = s) ∧ (env.flush n h ≠ .io 32 → (safeFlush env n s h).1 = s) ∧
    (∀ k, (safeFlush env n s h).1.handlers k = s.handlers k) ∧ (safeLog env n s l r).1.unclosed = s.unclosed ∧
    (safeLog env n s l r).1.exitOn = s.exitOn ∧ (safeFlush env n s h).1.exitOn = s.exitOn := by
  have h1 : (env.log n l r ≠ .io 32 → (safeLog env n s l r).1 = s) ∧ (safeLog env n s l r).1.unclosed = s.unclosed ∧
      (safeLog env n s l r).1.exitOn = s.exitOn := by
    unfold safeLog
    cases env.log n l r with
    | done => simp
    | error => simp
    | other => simp
    | io e => by_cases he : e = 32 <;> cases hx : s.exitOn <;> simp [stopOn, he, hx]
  have h2 : (env.flush n h ≠ .io 32 → (safeFlush env n s h).1 = s) ∧ (∀ k, (safeFlush env n s h).1.handlers k = s.handlers k) ∧
      (safeFlush env n s h).1.exitOn = s.exitOn := by
    unfold safeFlush
    cases hq : s.quiet with
    | true => simp
    | false =>
      cases env.flush n h with
      | done => simp
      | error => simp
      | other => simp
      | io e => by_cases he : e = 32 <;> cases hx : s.exitOn <;> simp [stopOn, he, hx]
  exact ⟨h1.1, h2.1, h2.2.1, h1.2.1, h1.2.2, h2.2.2⟩

/-- A broken pipe at a record removes the first handler of the logger, and only that. -/
private theorem log_handlers (env : Env) (n : Nat) (s : State) (l : String) (r : Record) (k : String) :
    (safeLog env n s l r).1.handlers k = (s.handlers k).drop (if l = k ∧ env.log n l r = .io 32 then 1 else 0) := by
  unfold safeLog
  cases env.log n l r with
  | done => simp
  | error => simp
  | other => simp
  | io e => by_cases he : e = 32 <;> by_cases hk : k = l <;> cases hx : s.exitOn <;> simp [stopOn, he, hk, hx] <;> simp [Ne.symm hk]

/-- Over any calls, a logger loses one handler for each of its records that met a broken pipe, from the first on; calls of other
loggers and flushes take none. -/
theorem C126_handlers (env : Env) (n : Nat) (s : State) (cs : List Call) (l : String) :
    (run env n s cs).handlers l = (s.handlers l).drop (broken env l n cs) := by
  induction cs generalizing n s with
  | nil => rfl
  | cons c cs ih =>
    cases c with
    | log k r =>
      unfold run broken
      rw [ih, log_handlers, List.drop_drop]
    | flush h =>
      unfold run broken
      rw [ih, (C126_frame env n s l ⟨"", []⟩ h).2.2.1]

private theorem log_quiet (env : Env) (n : Nat) (s : State) (l : String) (r : Record) :
    (safeLog env n s l r).1.quiet = (s.quiet || decide (env.log n l r = .io 32)) := by
  unfold safeLog
  cases env.log n l r with
  | done => simp
  | error => simp
  | other => simp
  | io e => by_cases he : e = 32 <;> cases hx : s.exitOn <;> simp [stopOn, he, hx]

private theorem flush_quiet (env : Env) (n : Nat) (s : State) (h : Nat) :
    (safeFlush env n s h).1.quiet = (s.quiet || decide (env.flush n h = .io 32)) := by
  unfold safeFlush
  cases hq : s.quiet with
  | true => simp [hq]
  | false =>
    cases env.flush n h with
    | done => simp [hq]
    | error => simp [hq]
    | other => simp [hq]
    | io e => by_cases he : e = 32 <;> cases hx : s.exitOn <;> simp [stopOn, he, hx, hq]

/-- Flushing is off exactly if some call before met a broken pipe; it is never on again. -/
theorem C126_quiet (env : Env) (n : Nat) (s : State) (cs : List Call) (hq : s.quiet = false) :
    (run env n s cs).quiet = true ↔ Broken env n cs := by
  suffices H : ∀ n s, (run env n s cs).quiet = true ↔ s.quiet = true ∨ Broken env n cs by
    rw [H, hq]; simp
  clear hq
  induction cs with
  | nil => intro n s; simp [run, Broken]
  | cons c cs ih =>
    intro n s
    have hb : Broken env n (c :: cs) ↔
        ((∃ l r, c = .log l r ∧ env.log n l r = .io 32) ∨ ∃ h, c = .flush h ∧ env.flush n h = .io 32) ∨ Broken env (n + 1) cs := by
      constructor
      · rintro ⟨j, hj⟩
        cases j with
        | zero => left; simpa using hj
        | succ j => right; exact ⟨j, by simpa [Nat.add_assoc, Nat.add_comm 1 j] using hj⟩
      · rintro (h | ⟨j, hj⟩)
        · exact ⟨0, by simpa using h⟩
        · exact ⟨j + 1, by simpa [Nat.add_assoc, Nat.add_comm 1 j] using hj⟩
    rw [hb]
    cases c with
    | log l r =>
      have he : (∃ l' r', Call.log l r = .log l' r' ∧ env.log n l' r' = .io 32) ↔ env.log n l r = .io 32 :=
        ⟨fun ⟨l', r', e, h⟩ => (by cases e; exact h), fun h => ⟨l, r, rfl, h⟩⟩
      unfold run; rw [ih, log_quiet, he]; simp [or_assoc]
    | flush h => unfold run; rw [ih, flush_quiet]; simp [or_assoc]

/-- Once flushing is off, it returns without use of the stream; before that it uses the stream, and its errors reach the caller. -/
theorem C126_flush (env : Env) (n : Nat) (s : State) (h : Nat) :
    (s.quiet = true → safeFlush env n s h = (s, .returned, false)) ∧
    (s.quiet = false → (safeFlush env n s h).2.2 = true ∧
      ((safeFlush env n s h).2.1 = .returned ↔ env.flush n h = .done) ∧
      (env.flush n h = .io 32 → (safeFlush env n s h).1.unclosed = h :: s.unclosed ∧
        (safeFlush env n s h).2.1 = (if s.exitOn then .exit else .io 32) ∧ (safeFlush env n s h).1.stderrClosed = (s.stderrClosed || s.exitOn)) ∧
      (∀ e, e ≠ 32 → env.flush n h = .io e → (safeFlush env n s h).2.1 = .io e) ∧
      (env.flush n h = .error → (safeFlush env n s h).2.1 = .error) ∧ (env.flush n h = .other → (safeFlush env n s h).2.1 = .other)) := by
  unfold safeFlush
  constructor
  · intro hq; rw [if_pos hq]
  · intro hq
    rw [hq]
    cases hf : env.flush n h with
    | done => simp
    | error => simp
    | other => simp
    | io e => by_cases he : e = 32 <;> cases hx : s.exitOn <;> simp [stopOn, he, hx] <;> grind

/-- At a broken pipe `stderr` is closed exactly if the program ends. -/
theorem C126_stderr (env : Env) (n : Nat) (s : State) (l : String) (r : Record) :
    (safeLog env n s l r).1.stderrClosed = (s.stderrClosed || decide ((safeLog env n s l r).2.1 = .exit)) := by
  unfold safeLog
  cases env.log n l r with
  | done => simp
  | error => simp
  | other => simp
  | io e => by_cases he : e = 32 <;> cases hx : s.exitOn <;> simp [stopOn, he, hx]

/-! ### Examples and counterexamples -/

/-- A logger with three handlers, one without. -/
private def start : State := ⟨fun l => if l = "fail2ban" then [1, 2, 3] else [], [], false, false, false⟩

/-- Calls for examples: the first record breaks, number 2 cannot be formatted, flushes of handler 7 meet a broken pipe. -/
private def sample : Env :=
  ⟨fun n _ _ => if n = 0 then .io 32 else if n = 2 then .error else if n = 3 then .io 28 else .done, fun _ h => if h = 7 then .io 32 else .done,
   fun t => if t = "bad" then none else some t, "ValueError()"⟩

example : (safeLog sample 2 start "fail2ban" ⟨"%d", ["x"]⟩).2 =
    (.returned, [⟨"%d", ["x"]⟩, ⟨"logging failed: %r on %s", ["ValueError()", "%d"]⟩, ⟨"  args: %r", ["x"]⟩]) := by decide

example : (safeLog sample 2 start "fail2ban" ⟨"%d", ["x", "bad"]⟩).2 = (.returned, [⟨"%d", ["x", "bad"]⟩]) := by decide

example : (run sample 0 start [.log "fail2ban" ⟨"a", []⟩, .flush 7, .log "fail2ban" ⟨"b", []⟩]).handlers "fail2ban" = [2, 3] := by decide

/-- Errors of input and output reach the code that logs, as with a full disk (28). -/
theorem C126_refuted_raise : (safeLog sample 3 start "fail2ban" ⟨"a", []⟩).2.1 = .io 28 := by decide

/-- The first handler is removed whichever was broken, and one broken handler ends flushing of all others. -/
theorem C126_refuted_first :
    (safeLog sample 0 start "fail2ban" ⟨"a", []⟩).1.handlers "fail2ban" = [2, 3] ∧
    (safeFlush sample 1 start 7).1.quiet = true ∧ (safeFlush sample 2 (safeFlush sample 1 start 7).1 2).2.2 = false := by decide

end Verif.SafeLog
