import Verif.Spec.Client

set_option linter.unusedSimpArgs false

/-!
# C99 — The client

For all worlds: any server, any answers, files and clocks.
-/

namespace Verif.Client

open Spec.Client

variable {σ : Type}

/-! ## Examples -/

/-- A world with a server that runs or not, whose configuration is valid or not, and a clock -/
def exampleWorld (valid : Bool) : World (Bool × Nat) where
  send s c := if s.1 then (match c with
    | .words ["stop"] => (.ok "None", (false, s.2 + 1))
    | .words ["nonsense"] => (.nok "Invalid command", s)
    | .words _ => (.ok "fine", s)
    | _ => (.ok "pong", s)) else (.fail, s)
  socket s := s.1
  start s := (false, (true, s.2))
  config s _ := (if valid then some "conf" else none, s)
  now s := s.2
  sleep s n := (s.1, s.2 + n)
  isFloat s := s == "1"

def exampleConf : Conf := ⟨false, 3000000⟩

example : main (exampleWorld true) exampleConf false ["status"] (true, 0) = (0, (true, 0), [.send (.words ["status"]), .out (.words ["status"]) "fine"]) := by
  decide +kernel
example : (main (exampleWorld true) exampleConf false ["status"] (false, 0)).1 = 255 := by decide +kernel
example : main (exampleWorld true) exampleConf false ["reload", "--unban", "sshd"] (true, 0) =
    (0, (true, 0), [.send (.ping none), .readConfig (some "sshd"), .send (.reload "sshd" ["--unban"] "conf"), .out (.reload "sshd" ["--unban"] "conf") "pong"]) := by
  decide +kernel
example : main (exampleWorld true) exampleConf false ["reload", "sshd", "--unban"] (true, 0) = (255, (true, 0), []) := by decide +kernel
example : ReloadForm ["--unban", "sshd"] ["--unban"] (some "sshd") := ⟨rfl, by decide, fun n h => by cases h; decide⟩
example : sent (main (exampleWorld true) exampleConf false ["start"] (false, 0)).2.2 =
    [.ping (some 10000), .ping (some 625), .serverStream "conf", .serverStatus] := by decide +kernel
example : (main (exampleWorld true) exampleConf false ["restart"] (true, 0)).1 = 0 := by decide +kernel

example : Clock (exampleWorld true) := ⟨fun s n => Nat.le_refl _, fun s c => by
  unfold exampleWorld
  dsimp only
  split
  · split <;> simp
  · exact Nat.le_refl _⟩

/-! ## Commands and answers -/

theorem always_iff (c : Cmd) : c.always = true ↔ Shown c := by
  unfold Shown
  cases c with
  | words l =>
    cases l with
    | nil => simp [Cmd.always]
    | cons w l => simp [Cmd.always]
  | serverStatus => simp [Cmd.always]
  | _ => simp [Cmd.always]

/-- **C99 (answers).** Commands are sent in order, each after the answer to the one before, until one gets no answer; the answers are shown in
order; the result is good exactly if all were sent and the server has done them all. -/
theorem C99_answers (w : World σ) (showRet : Bool) (cmds : List Cmd) (s : σ) :
    ∃ n rs, n ≤ cmds.length ∧ Answers w s (cmds.take n) rs (processCmd w showRet cmds s).2.1 ∧
      sent (processCmd w showRet cmds s).2.2 = cmds.take n ∧
      display (processCmd w showRet cmds s).2.2 = ((cmds.take n).zip rs).flatMap (seen showRet) ∧
      (∀ r ∈ rs.dropLast, r ≠ .fail) ∧ (n < cmds.length → rs.getLast? = some .fail) ∧
      ((processCmd w showRet cmds s).1 = true ↔ n = cmds.length ∧ ∀ r ∈ rs, Done r) := by
  induction cmds generalizing s with
  | nil => exact ⟨0, [], Nat.le_refl _, .nil s, rfl, rfl, by simp, by simp, by simp [processCmd]⟩
  | cons c cs ih =>
    obtain ⟨n, rs, h1, h2, h3, h4, h5, h6, h7⟩ := ih (w.send s c).2
    cases hr : (w.send s c).1 with
    | fail =>
      refine ⟨1, [.fail], by simp, ?_, ?_, ?_, by simp, by simp, ?_⟩
      all_goals try simp only [processCmd, hr, List.take_succ_cons, List.take_zero]
      · exact .cons s _ _ c [] .fail [] (by rw [← hr]) (.nil _)
      · simp [sent]
      · simp [display, seen]
      · simp [Done]
    | ok v =>
      refine ⟨n + 1, .ok v :: rs, by simpa using h1, ?_, ?_, ?_, ?_, ?_, ?_⟩
      all_goals try simp only [processCmd, hr, List.take_succ_cons]
      · exact .cons s _ _ c _ _ _ (by rw [← hr]) h2
      · by_cases hs : (showRet || c.always) = true
        · simp [hs, sent, h3]
        · simp [hs, sent, h3]
      · simp only [List.zip_cons_cons, List.flatMap_cons, seen]
        by_cases hs : (showRet || c.always) = true
        · have : showRet = true ∨ Shown c := by rw [← always_iff]; simpa using hs
          simp [hs, display, h4, this]
        · have : ¬(showRet = true ∨ Shown c) := by rw [← always_iff]; simpa using hs
          simp [hs, display, h4, this]
      · intro r hr'
        cases rs with
        | nil => simp at hr'
        | cons x rs =>
          rw [List.dropLast_cons_cons] at hr'
          rcases List.mem_cons.1 hr' with rfl | hr'
          · simp
          · exact h5 r hr'
      · intro hlt
        have hlt' : n < cs.length := by simpa using hlt
        have := h6 hlt'
        cases rs with
        | nil => simp at this
        | cons x rs => rw [List.getLast?_cons_cons]; exact this
      · rw [h7]
        simp [Done]
    | nok e =>
      refine ⟨n + 1, .nok e :: rs, by simpa using h1, ?_, ?_, ?_, ?_, ?_, ?_⟩
      all_goals try simp only [processCmd, hr, List.take_succ_cons]
      · exact .cons s _ _ c _ _ _ (by rw [← hr]) h2
      · cases showRet <;> simp [sent, h3]
      · simp only [List.zip_cons_cons, List.flatMap_cons, seen]
        cases showRet <;> simp [display, h4]
      · intro r hr'
        cases rs with
        | nil => simp at hr'
        | cons x rs =>
          rw [List.dropLast_cons_cons] at hr'
          rcases List.mem_cons.1 hr' with rfl | hr'
          · simp
          · exact h5 r hr'
      · intro hlt
        have hlt' : n < cs.length := by simpa using hlt
        have := h6 hlt'
        cases rs with
        | nil => simp at this
        | cons x rs => rw [List.getLast?_cons_cons]; exact this
      · simp [Done]

/-- One command -/
theorem processCmd_one (w : World σ) (showRet : Bool) (c : Cmd) (s : σ) :
    (processCmd w showRet [c] s).2.1 = (w.send s c).2 ∧ sent (processCmd w showRet [c] s).2.2 = [c] ∧
    ((processCmd w showRet [c] s).1 = true ↔ Done (w.send s c).1) := by
  simp only [processCmd]
  cases (w.send s c).1 with
  | ok v => cases h : (showRet || c.always) <;> simp [sent, Done]
  | nok e => cases showRet <;> simp [sent, Done]
  | fail => simp [sent, Done]

theorem ping_eq (w : World σ) (t : Option Nat) (s : σ) :
    (ping w t s).2.1 = (w.send s (.ping t)).2 ∧ (ping w t s).2.2 = [.send (.ping t)] ∧ ((ping w t s).1 = true ↔ Done (w.send s (.ping t)).1) := by
  refine ⟨(processCmd_one w false _ s).1, ?_, (processCmd_one w false _ s).2.2⟩
  unfold ping
  simp only [processCmd]
  cases (w.send s (.ping t)).1 <;> simp [Cmd.always]

/-- Commands that are handled by the client itself -/
def Own (cmd : List String) : Prop := cmd = ["start"] ∨ cmd.head? = some "restart" ∨ cmd.head? = some "reload" ∨ (cmd.head? = some "ping" ∧ 2 ≤ cmd.length)

theorem main_other (w : World σ) (conf : Conf) (cmd : List String) (s : σ) (h0 : cmd ≠ []) (h : ¬Own cmd) :
    main w conf false cmd s = (if (processCmd w true [.words cmd] s).1 then 0 else 255, (processCmd w true [.words cmd] s).2) := by
  have e : processCommand w conf cmd s = processCmd w true [.words cmd] s := by
    unfold processCommand
    split
    · exact absurd (.inl rfl) h
    · exact absurd (.inr (.inl rfl)) h
    · exact absurd (.inr (.inr (.inl rfl))) h
    · exact absurd (.inr (.inr (.inr ⟨rfl, by simp⟩))) h
    · rfl
  unfold main
  simp only [Bool.false_eq_true, if_false, h0, e, List.nil_append]

/-- **C99 (other commands).** For any other command, exactly it is sent, and its answer is shown; the exit code is 0 if and only if the server
has done it, otherwise 255. -/
theorem C99_command (w : World σ) (conf : Conf) (cmd : List String) (s : σ) (h0 : cmd ≠ []) (h : ¬Own cmd) :
    sent (main w conf false cmd s).2.2 = [.words cmd] ∧ (main w conf false cmd s).2.1 = (w.send s (.words cmd)).2 ∧
    display (main w conf false cmd s).2.2 = seen true (.words cmd, (w.send s (.words cmd)).1) ∧
    ((main w conf false cmd s).1 = 0 ↔ Done (w.send s (.words cmd)).1) ∧ ((main w conf false cmd s).1 = 0 ∨ (main w conf false cmd s).1 = 255) := by
  rw [main_other w conf cmd s h0 h]
  have h1 := processCmd_one w true (.words cmd) s
  refine ⟨h1.2.1, h1.1, ?_, ?_, ?_⟩
  · simp only [processCmd]
    cases (w.send s (.words cmd)).1 <;> simp [display, seen]
  · rw [← h1.2.2]
    cases (processCmd w true [.words cmd] s).1 <;> simp
  · cases (processCmd w true [.words cmd] s).1 <;> simp

/-- **C99 (ping).** `ping` with an argument that is not a number is not sent. -/
theorem C99_ping (w : World σ) (conf : Conf) (t : String) (l : List String) (s : σ) :
    (w.isFloat t = false → main w conf false ("ping" :: t :: l) s = (255, s, [])) ∧
    (w.isFloat t = true → sent (main w conf false ("ping" :: t :: l) s).2.2 = [.words ("ping" :: t :: l)] ∧
      ((main w conf false ("ping" :: t :: l) s).1 = 0 ↔ Done (w.send s (.words ("ping" :: t :: l))).1)) := by
  have h1 := processCmd_one w true (.words ("ping" :: t :: l)) s
  refine ⟨fun h => ?_, fun h => ?_⟩
  · unfold main processCommand
    simp [h]
  · have e : main w conf false ("ping" :: t :: l) s =
        (if (processCmd w true [.words ("ping" :: t :: l)] s).1 then 0 else 255, (processCmd w true [.words ("ping" :: t :: l)] s).2) := by
      unfold main processCommand
      simp [h]
    rw [e]
    refine ⟨h1.2.1, ?_⟩
    rw [← h1.2.2]
    cases (processCmd w true [.words ("ping" :: t :: l)] s).1 <;> simp

/-! ## Reload -/

theorem isOpt_iff (o : String) : isOpt o = true ↔ o ∈ options := by
  unfold isOpt options
  simp [or_assoc]

theorem reloadArgs_iff (args opts rest : List String) :
    reloadArgs args = some (opts, rest) ↔ ∃ name, ReloadForm args opts name ∧ rest = name.toList := by
  induction args generalizing opts rest with
  | nil =>
    simp only [reloadArgs, Option.some.injEq, Prod.mk.injEq]
    constructor
    · rintro ⟨rfl, rfl⟩; exact ⟨none, ⟨rfl, by simp, by simp⟩, rfl⟩
    · rintro ⟨name, ⟨h1, _⟩, rfl⟩
      have := List.append_eq_nil_iff.1 h1.symm
      exact ⟨this.1.symm, this.2.symm⟩
  | cons a l ih =>
    simp only [reloadArgs]
    by_cases ha : isOpt a = true
    · rw [if_pos ha]
      have ha' := (isOpt_iff a).1 ha
      constructor
      · intro h
        cases hl : reloadArgs l with
        | none => rw [hl] at h; simp at h
        | some r =>
          rw [hl] at h
          simp only [Option.map_some, Option.some.injEq, Prod.mk.injEq] at h
          obtain ⟨rfl, rfl⟩ := h
          obtain ⟨name, ⟨h1, h2, h3⟩, h4⟩ := (ih r.1 r.2).1 hl
          refine ⟨name, ⟨by rw [List.cons_append, ← h1], ?_, h3⟩, h4⟩
          intro o ho
          rcases List.mem_cons.1 ho with rfl | ho
          · exact ha'
          · exact h2 o ho
      · rintro ⟨name, ⟨h1, h2, h3⟩, h4⟩
        cases opts with
        | nil =>
          exfalso
          cases name with
          | none => simp at h1
          | some n =>
            simp only [List.nil_append, Option.toList_some, List.cons.injEq] at h1
            exact h3 n rfl (h1.1 ▸ ha')
        | cons o os =>
          simp only [List.cons_append, List.cons.injEq] at h1
          rw [(ih os rest).2 ⟨name, ⟨h1.2, fun o ho => h2 o (List.mem_cons_of_mem _ ho), h3⟩, h4⟩, h1.1]
          rfl
    · rw [if_neg ha]
      have ha' : a ∉ options := fun h => ha ((isOpt_iff a).2 h)
      constructor
      · intro h
        split at h
        · cases h
        · rename_i hl
          have hl : l = [] := Classical.byContradiction hl
          simp only [Option.some.injEq, Prod.mk.injEq] at h
          obtain ⟨rfl, rfl⟩ := h
          exact ⟨some a, ⟨by simp [hl], by simp, fun n hn => by cases hn; exact ha'⟩, rfl⟩
      · rintro ⟨name, ⟨h1, h2, h3⟩, h4⟩
        cases opts with
        | cons o os =>
          simp only [List.cons_append, List.cons.injEq] at h1
          exact absurd (h2 o (List.mem_cons_self ..)) (h1.1 ▸ ha')
        | nil =>
          cases name with
          | none => simp at h1
          | some n =>
            simp only [List.nil_append, Option.toList_some, List.cons.injEq] at h1
            obtain ⟨rfl, rfl⟩ := h1
            simp [h4]

/-- **C99 (reload, arguments).** With arguments that are not options and at most one name after them, nothing is sent. -/
theorem C99_reload_args (w : World σ) (conf : Conf) (args : List String) (s : σ) (h : ∀ opts name, ¬ReloadForm args opts name) :
    main w conf false ("reload" :: args) s = (255, s, []) := by
  have e : reloadArgs args = none := by
    cases hr : reloadArgs args with
    | none => rfl
    | some r =>
      obtain ⟨name, hn, _⟩ := (reloadArgs_iff args r.1 r.2).1 hr
      exact absurd hn (h _ _)
  have e2 : reload w args s = (false, s, []) := by unfold reload; rw [e]
  unfold main processCommand
  simp [e2]

/-- **C99 (reload).** Otherwise the server is asked; only if it answers, the configuration is read (of the jail named, or all); only if this is
valid, the stream is sent, once, with the options; the exit code is 0 if and only if the server has done it. -/
theorem C99_reload (w : World σ) (conf : Conf) (args opts : List String) (name : Option String) (s : σ) (h : ReloadForm args opts name) :
    let r := main w conf false ("reload" :: args) s
    let p := w.send s (.ping none)
    let c := w.config p.2 (jailOf name)
    (¬Done p.1 → r = (255, p.2, [.send (.ping none)])) ∧
    (Done p.1 → c.1 = none → r = (255, c.2, [.send (.ping none), .readConfig (jailOf name)])) ∧
    (Done p.1 → ∀ st, c.1 = some st →
      let cmd := Cmd.reload ((jailOf name).getD "--all") opts st
      sent r.2.2 = [.ping none, cmd] ∧ r.2.1 = (w.send c.2 cmd).2 ∧ (r.1 = 0 ↔ Done (w.send c.2 cmd).1) ∧ (r.1 = 0 ∨ r.1 = 255)) := by
  intro r p c
  have e : reloadArgs args = some (opts, name.toList) := (reloadArgs_iff _ _ _).2 ⟨name, h, rfl⟩
  obtain ⟨hp1, hp2, hp3⟩ := ping_eq w none s
  have hr : r = (if (reload w args s).1 then 0 else 255, (reload w args s).2.1, (reload w args s).2.2) := by
    show main w conf false ("reload" :: args) s = _
    unfold main processCommand
    simp
  have er : reload w args s = if (ping w none s).1 then
      (match (w.config (ping w none s).2.1 (jailOf name)).1 with
      | none => (false, (w.config (ping w none s).2.1 (jailOf name)).2, (ping w none s).2.2 ++ [.readConfig (jailOf name)])
      | some st =>
        let x := processCmd w true [.reload ((jailOf name).getD "--all") opts st] (w.config (ping w none s).2.1 (jailOf name)).2
        (x.1, x.2.1, (ping w none s).2.2 ++ [.readConfig (jailOf name)] ++ x.2.2))
      else (false, (ping w none s).2.1, (ping w none s).2.2) := by
    unfold reload
    rw [e]
    cases name with
    | none => rfl
    | some n =>
      simp only [Option.toList_some, jailOf, Option.filter_some]
      by_cases hn : n = "--all"
      · subst hn; rfl
      · simp only [hn, if_false, decide_false, Bool.not_false, bne_iff_ne, ne_eq, not_false_eq_true, if_true, Option.toList_some]
        rfl
  rw [hp1, hp2] at er
  refine ⟨fun hd => ?_, fun hd hc => ?_, fun hd st hc => ?_⟩
  · have hf : (ping w none s).1 = false := by
      cases hx : (ping w none s).1 with
      | false => rfl
      | true => exact absurd (hp3.1 hx) hd
    rw [hf] at er
    rw [hr, er]
    rfl
  · rw [hp3.2 hd, if_pos rfl] at er
    have hc' : (w.config (w.send s (.ping none)).2 (jailOf name)).1 = none := hc
    rw [hc'] at er
    rw [hr, er]
    rfl
  · rw [hp3.2 hd, if_pos rfl] at er
    have hc' : (w.config (w.send s (.ping none)).2 (jailOf name)).1 = some st := hc
    rw [hc'] at er
    dsimp only at er
    obtain ⟨h1, h2, h3⟩ := processCmd_one w true (.reload ((jailOf name).getD "--all") opts st) (w.config (w.send s (.ping none)).2 (jailOf name)).2
    intro cmd
    rw [hr, er]
    dsimp only
    refine ⟨?_, h1, ?_, ?_⟩
    · simp [sent, h2]; rfl
    · rw [← h3]
      cases (processCmd w true [.reload ((jailOf name).getD "--all") opts st] (w.config (w.send s (.ping none)).2 (jailOf name)).2).1 <;> simp
    · cases (processCmd w true [.reload ((jailOf name).getD "--all") opts st] (w.config (w.send s (.ping none)).2 (jailOf name)).2).1 <;> simp

/-- **C99 (restart of a jail).** `restart` with arguments is `reload --restart` with them. -/
theorem C99_restart_jail (w : World σ) (conf : Conf) (tst : Bool) (args : List String) (h : args ≠ []) (s : σ) :
    main w conf tst ("restart" :: args) s = main w conf tst ("reload" :: "--restart" :: args) s := by
  have : ∀ s, processCommand w conf ("restart" :: args) s = processCommand w conf ("reload" :: "--restart" :: args) s := by
    intro s
    unfold processCommand
    simp [h]
  unfold main
  simp only [this, reduceCtorEq, if_false]

/-! ## Waiting for the server -/

/-- Whether the server is seen to be there -/
def Up (w : World σ) (s : σ) (t : Nat) : Prop := w.socket s = true ∧ Done (w.send s (.ping (some t))).1

theorem test_up (w : World σ) (t : Nat) (s : σ) : (test w t s).1 = true ↔ Up w s t := by
  unfold test Up
  by_cases h : w.socket s = true
  · rw [if_pos h]; simp [h, (ping_eq w (some t) s).2.2]
  · rw [if_neg h]; simp [h]

theorem test_now (w : World σ) (hc : Clock w) (t : Nat) (s : σ) : w.now s ≤ w.now (test w t s).2.1 := by
  unfold test
  split
  · rw [(ping_eq w (some t) s).1]; exact hc.send s _
  · exact Nat.le_refl _

/-- **C99 (waiting).** It returns only with a look at which the server is there (or not, if this is waited for); it gives up only after a look at
which this is not so, and not before the time is over. -/
theorem C99_wait (w : World σ) (alive : Bool) (maxtime start fuel sl : Nat) (s : σ) :
    ((waitOnServer w alive maxtime start fuel sl s).1 = .reached → ∃ t s0, (Up w s0 t ↔ alive = true) ∧
      (waitOnServer w alive maxtime start fuel sl s).2.1 = (test w t s0).2.1) ∧
    ((waitOnServer w alive maxtime start fuel sl s).1 = .raised → ∃ t s0, ¬(Up w s0 t ↔ alive = true) ∧
      (waitOnServer w alive maxtime start fuel sl s).2.1 = (test w t s0).2.1 ∧
      start + maxtime ≤ max start (w.now (waitOnServer w alive maxtime start fuel sl s).2.1)) := by
  induction fuel generalizing sl s with
  | zero => simp [waitOnServer]
  | succ fuel ih =>
    simp only [waitOnServer]
    have hu := test_up w sl s
    by_cases h : (test w sl s).1 = alive
    · rw [if_pos h]
      refine ⟨fun _ => ⟨sl, s, by rw [← hu, h], rfl⟩, fun hh => (by cases hh)⟩
    · rw [if_neg h]
      by_cases hm : w.now (test w sl s).2.1 - start ≥ maxtime
      · rw [if_pos hm]
        refine ⟨fun hh => (by cases hh), fun _ => ⟨sl, s, ?_, rfl, ?_⟩⟩
        · rw [← hu]
          intro hi
          apply h
          cases h1 : (test w sl s).1 <;> cases alive <;> simp_all
        · dsimp only
          omega
      · rw [if_neg hm]
        exact ih _ _

/-- **C99 (waiting ends).** If the clock goes on, the number of looks is bounded: the bound of the model is never reached. -/
theorem C99_wait_ends (w : World σ) (hc : Clock w) (alive : Bool) (maxtime : Nat) (s : σ) :
    (waitOnServer w alive maxtime (w.now s) (turns maxtime) sltime0 s).1 ≠ .fuel := by
  have key : ∀ (fuel start sl : Nat) (s : σ), 625 ≤ sl → maxtime + 625 ≤ fuel * 625 + (w.now s - start) → start ≤ w.now s → 1 ≤ fuel →
      (waitOnServer w alive maxtime start fuel sl s).1 ≠ .fuel := by
    intro fuel
    induction fuel with
    | zero => intro _ _ _ _ _ _ h; omega
    | succ fuel ih =>
      intro start sl s hsl hf hst _
      simp only [waitOnServer]
      split
      · simp
      · split
        · simp
        · rename_i hm
          have hn := test_now w hc sl s
          have h1 : 625 ≤ min (sl * 2) (if w.now (test w sl s).2.1 - start > 20000 then 50000 else 10000) := by
            split <;> omega
          generalize min (sl * 2) (if w.now (test w sl s).2.1 - start > 20000 then 50000 else 10000) = n at h1 ⊢
          have h2 := hc.sleep (test w sl s).2.1 n
          have hm2 : w.now (test w sl s).2.1 - start < maxtime := Nat.lt_of_not_le hm
          rw [Nat.succ_mul] at hf
          have ih' := ih start n (w.sleep (test w sl s).2.1 n) h1
          clear ih hm
          generalize w.now (w.sleep (test w sl s).2.1 n) = t2 at *
          generalize w.now (test w sl s).2.1 = t1 at *
          generalize w.now s = t0 at *
          have a1 : start ≤ t2 := by omega
          have a2 : 1 ≤ fuel := by omega
          have a3 : t0 - start + n ≤ t2 - start := by omega
          generalize t0 - start = d0 at *
          generalize t2 - start = d2 at *
          generalize fuel * 625 = f at *
          exact ih' (by omega) a1 a2
  apply key
  · exact Nat.le_refl _
  · unfold turns; have := Nat.div_add_mod maxtime 625; have := Nat.mod_lt maxtime (show 0 < 625 by decide); omega
  · exact Nat.le_refl _
  · unfold turns; omega

/-- **C99 (looks are frequent).** Between two looks it sleeps between 12.5 ms and half a second. -/
theorem C99_wait_gaps (w : World σ) (alive : Bool) (maxtime start fuel sl n : Nat) (s : σ) (hsl : 625 ≤ sl)
    (h : .sleep n ∈ (waitOnServer w alive maxtime start fuel sl s).2.2) : 1250 ≤ n ∧ n ≤ 50000 := by
  have htest : ∀ t s, Ev.sleep n ∉ (test w t s).2.2 := by
    intro t s
    unfold test
    split
    · rw [(ping_eq w (some t) s).2.1]; simp
    · simp
  induction fuel generalizing sl s with
  | zero => simp [waitOnServer] at h
  | succ fuel ih =>
    simp only [waitOnServer] at h
    split at h
    · exact absurd h (htest _ _)
    · split at h
      · exact absurd h (htest _ _)
      · simp only [List.mem_append, List.mem_singleton, Ev.sleep.injEq] at h
        rcases h with (h | h) | h
        · exact absurd h (htest _ _)
        · rw [h]; constructor <;> split <;> omega
        · refine ih _ _ ?_ h
          split <;> omega

/-! ## Start -/

theorem sent_append (l l' : List Ev) : sent (l ++ l') = sent l ++ sent l' := by
  induction l with
  | nil => rfl
  | cons e l ih => cases e <;> simp [sent, ih]

/-- Only looks are made while waiting -/
theorem wait_events (w : World σ) (alive : Bool) (maxtime start fuel sl : Nat) (s : σ) :
    ∀ e ∈ (waitOnServer w alive maxtime start fuel sl s).2.2, (∃ t, e = .send (.ping t)) ∨ ∃ n, e = .sleep n := by
  have htest : ∀ t s, ∀ e ∈ (test w t s).2.2, (∃ t, e = .send (.ping t)) ∨ ∃ n, e = .sleep n := by
    intro t s
    unfold test
    split
    · rw [(ping_eq w (some t) s).2.1]
      intro e he
      exact .inl ⟨_, List.mem_singleton.1 he⟩
    · simp
  induction fuel generalizing sl s with
  | zero => simp [waitOnServer]
  | succ fuel ih =>
    simp only [waitOnServer]
    split
    · exact htest _ _
    · split
      · exact htest _ _
      · intro e he
        simp only [List.mem_append, List.mem_singleton] at he
        rcases he with (he | he) | he
        · exact htest _ _ e he
        · exact .inr ⟨_, he⟩
        · exact ih _ _ e he

theorem only_looks (l : List Ev) (hl : ∀ e ∈ l, (∃ t, e = .send (.ping t)) ∨ ∃ n, e = .sleep n) : (∀ x ∈ sent l, ∃ t, x = .ping t) ∧ .start ∉ l := by
  refine ⟨?_, fun hs => by rcases hl _ hs with ⟨_, h⟩ | ⟨_, h⟩ <;> cases h⟩
  induction l with
  | nil => simp [sent]
  | cons e l ih =>
    have ih := ih (fun e he => hl e (List.mem_cons_of_mem _ he))
    rcases hl e (List.mem_cons_self ..) with ⟨t, rfl⟩ | ⟨n, rfl⟩
    · simp only [sent, List.mem_cons]
      rintro x (rfl | hx)
      · exact ⟨t, rfl⟩
      · exact ih x hx
    · simpa [sent] using ih

/-- What allows a start: no server answers, the configuration is valid, and there is no socket, or it may be removed -/
def MayStart (w : World σ) (conf : Conf) (s : σ) (st : Stream) : Prop :=
  ¬Done (w.send s (.ping (some 10000))).1 ∧ (w.config (w.send s (.ping (some 10000))).2 none).1 = some st ∧
  (conf.force = true ∨ w.socket (w.config (w.send s (.ping (some 10000))).2 none).2 = false)

theorem prepare_iff (w : World σ) (conf : Conf) (s : σ) (st : Stream) : (prepareStart w conf s).1 = some st ↔ MayStart w conf s st := by
  obtain ⟨h1, h2, h3⟩ := ping_eq w (some 10000) s
  unfold prepareStart MayStart
  rw [← h3]
  by_cases hp : (ping w (some 10000) s).1 = true
  · simp [hp]
  · simp only [hp, if_false, Bool.false_eq_true, not_false_eq_true, true_and]
    rw [h1]
    cases hc : (w.config (w.send s (.ping (some 10000))).2 none).1 with
    | none => simp [hc]
    | some x =>
      dsimp only
      cases hf : conf.force <;> cases hs : w.socket (w.config (w.send s (.ping (some 10000))).2 none).2 <;> simp [hc]

theorem prepare_events (w : World σ) (conf : Conf) (s : σ) :
    (prepareStart w conf s).2.2 = [.send (.ping (some 10000))] ∨ (prepareStart w conf s).2.2 = [.send (.ping (some 10000)), .readConfig none] := by
  obtain ⟨h1, h2, h3⟩ := ping_eq w (some 10000) s
  unfold prepareStart
  dsimp only
  rw [h2]
  split
  · exact .inl rfl
  · split <;> exact .inr rfl

/-- **C99 (no start).** If a server answers, the configuration is not valid, or a socket is there (and must not be removed), no server is
started, nothing but a `ping` is sent, and the exit code is 255. -/
theorem C99_refused (w : World σ) (conf : Conf) (s : σ) (h : ∀ st, ¬MayStart w conf s st) :
    (main w conf false ["start"] s).1 = 255 ∧ .start ∉ (main w conf false ["start"] s).2.2 ∧ sent (main w conf false ["start"] s).2.2 = [.ping (some 10000)] := by
  have e : (prepareStart w conf s).1 = none := by
    cases hp : (prepareStart w conf s).1 with
    | none => rfl
    | some st => exact absurd ((prepare_iff w conf s st).1 hp) (h st)
  have e2 : main w conf false ["start"] s = (255, (prepareStart w conf s).2.1, (prepareStart w conf s).2.2) := by
    unfold main processCommand startServer
    simp [e]
  rw [e2]
  dsimp only
  rcases prepare_events w conf s with h1 | h1 <;> rw [h1] <;> simp [sent]

theorem stream_status (w : World σ) (st : Stream) (s : σ) :
    (∃ last, (processCmd w false [.serverStream st, .serverStatus] s).2.2 = .send (.serverStream st) :: last ∧ .start ∉ last ∧ ∀ x ∈ sent last, x = .serverStatus) ∧
    ((processCmd w false [.serverStream st, .serverStatus] s).1 = true ↔
      Done (w.send s (.serverStream st)).1 ∧ Done (w.send (w.send s (.serverStream st)).2 .serverStatus).1) := by
  rcases ha : w.send s (.serverStream st) with ⟨a, s1⟩
  rcases hb : w.send s1 .serverStatus with ⟨b, s2⟩
  cases a <;> cases b <;> simp [processCmd, ha, hb, Done, sent, Cmd.always]

/-- **C99 (start).** Otherwise a server is started once; the configuration that was read is sent at most once, after it; the exit code is 0 if and
only if the server was seen and has done it. -/
theorem C99_start (w : World σ) (conf : Conf) (s : σ) (st : Stream) (h : MayStart w conf s st) :
    ∃ wait, let r := main w conf false ["start"] s
      let c := w.config (w.send s (.ping (some 10000))).2 none
      let b := w.start c.2
      let q := waitOnServer w true conf.timeout (w.now b.2) (turns conf.timeout) sltime0 b.2
      (∀ x ∈ sent wait, ∃ t, x = .ping t) ∧ .start ∉ wait ∧
      ((b.1 = true ∨ q.1 ≠ .reached) → r.1 = 255 ∧ r.2.2 = [.send (.ping (some 10000)), .readConfig none, .start] ++ wait) ∧
      (b.1 = false → q.1 = .reached →
        (∃ last, r.2.2 = [.send (.ping (some 10000)), .readConfig none, .start] ++ wait ++ .send (.serverStream st) :: last ∧ .start ∉ last ∧ ∀ x ∈ sent last, x = .serverStatus) ∧
        (r.1 = 0 ↔ Done (w.send q.2.1 (.serverStream st)).1 ∧ Done (w.send (w.send q.2.1 (.serverStream st)).2 .serverStatus).1)) := by
  obtain ⟨h1, h2, h3⟩ := ping_eq w (some 10000) s
  have hp := (prepare_iff w conf s st).2 h
  have hpe : (prepareStart w conf s).2 = ((w.config (w.send s (.ping (some 10000))).2 none).2, [.send (.ping (some 10000)), .readConfig none]) := by
    have hf : (ping w (some 10000) s).1 = false := by
      cases hx : (ping w (some 10000) s).1 with
      | false => rfl
      | true => exact absurd (h3.1 hx) h.1
    unfold prepareStart
    dsimp only
    rw [hf, h1, h2]
    simp only [Bool.false_eq_true, if_false]
    rw [h.2.1]
    rfl
  have hmain : main w conf false ["start"] s = (if (startServer w conf s).1 then 0 else 255, (startServer w conf s).2.1, (startServer w conf s).2.2) := by
    unfold main processCommand
    simp
  have hss : startServer w conf s = startServer w conf s := rfl
  conv at hss => rhs; unfold startServer
  dsimp only at hss
  rw [hp] at hss
  dsimp only at hss
  rw [hpe] at hss
  dsimp only at hss
  rw [hss] at hmain
  clear hss
  have hw := wait_events w true conf.timeout (w.now (w.start (w.config (w.send s (.ping (some 10000))).2 none).2).2) (turns conf.timeout) sltime0
    (w.start (w.config (w.send s (.ping (some 10000))).2 none).2).2
  dsimp only
  generalize w.start (w.config (w.send s (.ping (some 10000))).2 none).2 = b at *
  generalize hq : waitOnServer w true conf.timeout (w.now b.2) (turns conf.timeout) sltime0 b.2 = q at *
  refine ⟨if b.1 then [] else q.2.2, ?_⟩
  obtain ⟨hw1, hw2⟩ := only_looks q.2.2 hw
  cases hb : b.1 with
  | true =>
    rw [hb] at hmain
    simp only [if_true, Bool.false_eq_true, if_false] at hmain
    rw [hmain]
    refine ⟨by simp [sent], by simp, fun _ => ⟨rfl, rfl⟩, by simp⟩
  | false =>
    rw [hb] at hmain
    simp only [Bool.false_eq_true, if_false, false_or] at hmain ⊢
    refine ⟨hw1, hw2, fun hn => ?_, fun _ hr => ?_⟩
    · cases hq1 : q.1 with
      | reached => exact absurd hq1 hn
      | raised => rw [hq1] at hmain; rw [hmain]; exact ⟨rfl, rfl⟩
      | fuel => rw [hq1] at hmain; rw [hmain]; exact ⟨rfl, rfl⟩
    · rw [hr] at hmain
      dsimp only at hmain
      rw [hmain]
      obtain ⟨⟨last, l1, l2, l3⟩, l4⟩ := stream_status w st q.2.1
      dsimp only
      rw [l1]
      refine ⟨⟨last, by simp, l2, l3⟩, ?_⟩
      rw [← l4]
      cases (processCmd w false [.serverStream st, .serverStatus] q.2.1).1 <;> simp

/-- **C99 (restart).** First `stop` is sent; a server is started only if none was seen any more, and then just as `start` does it; otherwise
the exit code is 255. -/
theorem C99_restart (w : World σ) (conf : Conf) (s : σ) :
    ∃ shown wait, let r := main w conf false ["restart"] s
      let p := w.send s (.words ["stop"])
      let q := waitOnServer w false conf.timeout (w.now p.2) (turns conf.timeout) sltime0 p.2
      let b := main w conf false ["start"] q.2.1
      sent shown = [.words ["stop"]] ∧ .start ∉ shown ∧ (∀ x ∈ sent wait, ∃ t, x = .ping t) ∧ .start ∉ wait ∧
      (q.1 = .reached → r = (b.1, b.2.1, shown ++ wait ++ b.2.2)) ∧ (q.1 ≠ .reached → r = (255, q.2.1, shown ++ wait)) := by
  have h1 := processCmd_one w true (.words ["stop"]) s
  have hw := wait_events w false conf.timeout (w.now (w.send s (.words ["stop"])).2) (turns conf.timeout) sltime0 (w.send s (.words ["stop"])).2
  refine ⟨(processCmd w true [.words ["stop"]] s).2.2,
    (waitOnServer w false conf.timeout (w.now (w.send s (.words ["stop"])).2) (turns conf.timeout) sltime0 (w.send s (.words ["stop"])).2).2.2, ?_⟩
  dsimp only
  have hstart : ∀ s, main w conf false ["start"] s = (if (startServer w conf s).1 then 0 else 255, (startServer w conf s).2.1, (startServer w conf s).2.2) := by
    intro s
    unfold main processCommand
    simp
  have hrestart : main w conf false ["restart"] s = (if (restart w conf s).1 then 0 else 255, (restart w conf s).2.1, (restart w conf s).2.2) := by
    unfold main processCommand
    simp
  have hs : restart w conf s = restart w conf s := rfl
  conv at hs => rhs; unfold restart
  dsimp only at hs
  rw [h1.1] at hs
  rw [hstart, hrestart]
  generalize waitOnServer w false conf.timeout (w.now (w.send s (.words ["stop"])).2) (turns conf.timeout) sltime0 (w.send s (.words ["stop"])).2 = q at *
  refine ⟨h1.2.1, ?_, (only_looks q.2.2 hw).1, (only_looks q.2.2 hw).2, fun hq => ?_, fun hq => ?_⟩
  · simp only [processCmd]
    cases (w.send s (.words ["stop"])).1 <;> simp
  · rw [hq] at hs
    rw [hs]
  · cases hq1 : q.1 with
    | reached => exact absurd hq1 hq
    | raised => rw [hq1] at hs; rw [hs]; rfl
    | fuel => rw [hq1] at hs; rw [hs]; rfl

/-! ## Test of the configuration -/

/-- **C99 (test).** With `-t`, if the configuration is not valid, nothing is sent or started, whatever the command, and the exit code is 255;
without a command it is 0 if and only if the configuration is valid. -/
theorem C99_test (w : World σ) (conf : Conf) (args : List String) (s : σ) :
    ((w.config s none).1 = none → main w conf true args s = (255, (w.config s none).2, [.readConfig none])) ∧
    ((main w conf true [] s).1 = 0 ↔ (w.config s none).1 ≠ none) ∧ (main w conf true [] s).2.2 = [.readConfig none] := by
  refine ⟨fun h => ?_, ?_, ?_⟩
  · unfold main
    by_cases ha : args = [] <;> simp [ha, h]
  · unfold main
    cases h : (w.config s none).1 <;> simp [h]
  · unfold main
    simp

/-! ## What does not hold -/

/-- **C99, refuted: `restart` keeps the server if the configuration is broken.** The configuration is read after the server has been stopped;
`reload` in the same situation keeps it. -/
theorem C99_refuted_restart :
    (main (exampleWorld false) exampleConf false ["restart"] (true, 0)).1 = 255 ∧ (main (exampleWorld false) exampleConf false ["restart"] (true, 0)).2.1.1 = false ∧
    (main (exampleWorld false) exampleConf false ["reload"] (true, 0)).1 = 255 ∧ (main (exampleWorld false) exampleConf false ["reload"] (true, 0)).2.1.1 = true ∧
    (main (exampleWorld false) exampleConf true ["restart"] (true, 0)).2.1.1 = true := by
  refine ⟨?_, ?_, ?_, ?_, ?_⟩ <;> decide +kernel

end Verif.Client
