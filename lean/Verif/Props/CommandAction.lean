import Verif.Lemmas.CommandRetry

/-!
# C41, C55, C56: actions that execute commands
-/

namespace Verif

open CmdAction Spec.CmdAction

/-! ## C41: started when needed, in the right order -/

/-- C41 (partial: the start commands of the families differ). An action started on demand, in any history of calls, whatever commands fail:
a ban or re-ban of a family is executed only while the family is up (its start or repair succeeded and no stop was executed since); a start
command of a family only when a start is due (never started, or stopped or found broken since); a stop command of a family only while it is
up or right after a failed check of it. -/
theorem C41_order_partial {env : Env} (hk : KeepsCommands env) {cfg : Config} (h : OnDemand cfg) (cs : List (Call × Config))
    (hcs : ∀ p ∈ cs, OnDemand p.2) (A B : List Event) (e : Event) (ht : (run env (init cfg) cs).trace = A ++ e :: B) : Right A e :=
  (Inv.run hk cs (Inv.init h) hcs).right A e B ht

/-- C41, whatever the commands of the families (equal ones are executed once for all): no family gets a ban before its start command was
executed with success for some family, or a repair of it. -/
theorem C41_prepared {env : Env} {cfg : Config} (h : cfg.onDemand = true) (cs : List (Call × Config)) (hcs : ∀ p ∈ cs, p.1 ≠ .set)
    (A B : List Event) (t : Tag) (f : Fam) (c : Cmd) (ok : Bool) (ht : (run env (init cfg) cs).trace = A ++ .cmd t f c ok :: B)
    (hb : t = .ban ∨ t = .reban) : Prepared env cfg f A := by
  have key : ∀ (cs : List (Call × Config)) (s : State), InvB env cfg s → (∀ p ∈ cs, p.1 ≠ .set) → InvB env cfg (run env s cs) := by
    intro cs
    induction cs with
    | nil => intro s hs _; exact hs
    | cons p cs ih =>
      intro s hs hp
      obtain ⟨c, cfg'⟩ := p
      exact ih _ (hs.step h c (hp _ (List.mem_cons_self ..)) cfg') (fun q hq => hp q (List.mem_cons_of_mem _ hq))
  have hi : InvB env cfg (init cfg) :=
    ⟨rfl, fun t g c hg => by simp [init] at hg, fun g c hg => by simp [init] at hg, fun f hf => by simp [init, isStarted] at hf,
      fun A t f c ok B h => by simp [init] at h⟩
  exact (key cs _ hi hcs).bans A t f c ok B ht hb

/-- C41: `start()` of an action started on demand executes nothing. -/
theorem C41_lazy (env : Env) (s : State) (cfg : Config) (h : s.cfg.onDemand = true) :
    (step env s .start cfg).trace = s.trace ++ [.call .start, .done .start true] := by
  simp [step, method, start, h]

/-- C41: `start()` of any other action executes the start commands of all its families, if they differ. -/
theorem C41_eager {env : Env} (hk : KeepsCommands env) {cfg : Config} (h : cfg.onDemand = false) (hE : Each cfg .start) (cfg' : Config) :
    ∃ seg ok, (step env (init cfg) .start cfg').trace = .call .start :: (seg ++ [.done .start ok]) ∧
      (∀ f ∈ cfg.families, ∀ c, cfg.op .start f = some c → ∃ A ok, .cmd .start f (env.dyn A f c) ok ∈ seg) := by
  have e : method env cfg' { init cfg with trace := (init cfg).trace ++ [.call .start] } .start =
      operation env .start afterStart cfg.families true { init cfg with trace := (init cfg).trace ++ [.call .start] } := by
    simp [method, start, init, h]
  obtain ⟨seg, h1, h2⟩ := operation_each (env := env) hk (t := .start) (after := afterStart) (fun f r s => ⟨by simp, by simp⟩) (fun f r s h => h.afterStart f r) cfg.families true
    (s := { init cfg with trace := (init cfg).trace ++ [.call .start] }) hE (fun t g c hg => by simp [init] at hg)
  rw [step_trace, e, h1]
  exact ⟨seg, _, List.append_assoc [Event.call Call.start] seg _, h2⟩

/-- C41: `stop()` executes the stop command of every family that is started (if the stop commands differ, too). -/
theorem C41_stop_partial {env : Env} (hk : KeepsCommands env) {cfg : Config} (h : OnDemand cfg) (cs : List (Call × Config)) (hcs : ∀ p ∈ cs, OnDemand p.2)
    (hE : Each (run env (init cfg) cs).cfg .stop) (cfg' : Config) :
    ∃ seg ok, (step env (run env (init cfg) cs) .stop cfg').trace = (run env (init cfg) cs).trace ++ .call .stop :: (seg ++ [.done .stop ok]) ∧
      (∀ f c, (watch f (run env (init cfg) cs).trace).free = false → (run env (init cfg) cs).cfg.op .stop f = some c →
        ∃ A ok, .cmd .stop f (env.dyn A f c) ok ∈ seg) := by
  have hi := Inv.run hk cs (Inv.init h) hcs
  generalize run env (init cfg) cs = s at *
  have hst : ∀ f, (watch f s.trace).free = false → isStarted s f = true := by
    intro f hf
    cases hs : isStarted s f with
    | true => rfl
    | false => rw [hi.free f hs] at hf; cases hf
  rw [step_trace]
  show ∃ seg ok, (stopAll env { s with trace := s.trace ++ [.call .stop] }).2.trace ++ [.done .stop (stopAll env { s with trace := s.trace ++ [.call .stop] }).1] = _ ∧ _
  unfold stopAll
  have e : startedFams { s with trace := s.trace ++ [.call .stop] } = startedFams s := rfl
  rw [e]
  split
  · rename_i hn
    refine ⟨[], true, by simp, fun f c hf => ?_⟩
    have := (mem_startedFams s f).2 (hst f hf)
    rw [hn] at this
    cases this
  · obtain ⟨seg, h1, h2⟩ := operation_each (env := env) hk (t := .stop) (after := afterStop) (fun f r s => ⟨by simp, by simp⟩) (fun f r s h => h.afterStop f r) (startedFams s) true
      (s := { s with trace := s.trace ++ [.call .stop], started := Dict.empty }) hE (hi.recs.congr rfl rfl)
    rw [h1]
    exact ⟨seg, _, by rw [List.append_assoc, List.append_assoc]; rfl, fun f c hf hc => h2 f ((mem_startedFams s f).2 (hst f hf)) c hc⟩

/-- Two families. -/
def famEx : List Fam := ["inet4", "inet6"]

/-- Commands that differ between families: `<tag>-<family>`. -/
def cmdEx (t : Tag) (f : Fam) : Cmd :=
  (match t with
   | .start => "start " | .stop => "stop " | .flush => "flush " | .reload => "" | .check => "check " | .repair => "" | .ban => "ban " | .reban => "reban "
   | .unban => "unban " | .prolong => "prolong ").toList ++ f.toList

/-- An action started on demand, without repair command. -/
def cfgEx : Config where
  op t f := some (if t = .repair ∨ t = .reload then [] else cmdEx t f)
  proc t f k := some (cmdEx t f ++ (toString k).toList)
  families := famEx
  onDemand := true
  check := true
  reban := false
  repairOnUnban := false

/-- All commands succeed, but those that are listed by the number of events before them. -/
def envEx (fails : List Nat) : Env := ⟨fun tr _ _ _ => !fails.contains tr.length, fun _ _ c => c⟩

/-- the commands in a trace, with their results -/
def cmds (tr : List Event) : List (String × Bool) := tr.filterMap fun | .cmd _ _ c ok => some (String.ofList c, ok) | _ => none

theorem cmdEx_start (f : Fam) : cfgEx.op .start f = some ('s' :: ("tart ".toList ++ f.toList)) := rfl

theorem cfgEx_onDemand : OnDemand cfgEx := by
  refine ⟨rfl, ?_, ?_⟩
  · intro f c h
    rw [cmdEx_start] at h
    rintro rfl
    simp at h
  · intro f g c h h'
    rw [cmdEx_start] at h h'
    have := Option.some.inj (h.trans h'.symm)
    exact String.toList_inj.1 (List.append_cancel_left (List.cons.inj this).2)

/-- A history: two bans, an unban, and the end. -/
example : cmds (run (envEx [8, 9]) (init cfgEx) [(.start, cfgEx), (.ban "inet4" 1, cfgEx), (.ban "inet4" 2, cfgEx), (.unban "inet4" 1, cfgEx), (.stop, cfgEx)]).trace =
    [("start inet4", true), ("ban inet41", true), ("ban inet42", true), ("unban inet41", true), ("stop inet4", true)] := by decide +kernel
/-- The same, but the second ban and the check after it fail. -/
example : cmds (run (envEx [7, 8]) (init cfgEx) [(.start, cfgEx), (.ban "inet4" 1, cfgEx), (.ban "inet4" 2, cfgEx), (.unban "inet4" 1, cfgEx), (.stop, cfgEx)]).trace =
    [("start inet4", true), ("ban inet41", true), ("ban inet42", false), ("check inet4", false), ("stop inet4", true), ("start inet4", true), ("check inet4", true),
     ("ban inet42", true), ("unban inet41", true), ("stop inet4", true)] := by decide +kernel
/-- Both families, and a failing start: no ban. -/
example : cmds (run (envEx [1]) (init cfgEx) [(.ban "inet6" 1, cfgEx), (.ban "inet6" 2, cfgEx), (.ban "inet4" 3, cfgEx), (.stop, cfgEx)]).trace =
    [("start inet6", false), ("start inet6", true), ("ban inet62", true), ("start inet4", true), ("ban inet43", true), ("stop inet6", true), ("stop inet4", true)] := by
  decide +kernel
/-- An action that is not started on demand. -/
example : cmds (run (envEx []) (init { cfgEx with onDemand := false }) [(.start, cfgEx), (.stop, cfgEx)]).trace =
    [("start inet4", true), ("start inet6", true), ("stop inet4", true), ("stop inet6", true)] := by decide +kernel

/-- The same commands for both families. -/
def sharedEx : Config := { cfgEx with op := fun t f => some (if t = .repair ∨ t = .reload then [] else if t = .check then cmdEx t f else cmdEx t "all") }

/-- C41 is not true if families share their commands: when the environment of both is found broken, the action is restarted for the first
family, then stopped for the second one, but not started again, since the start command counts as executed for the first. Bans are executed
after that. -/
theorem C41_refuted_restart : ∃ (env : Env) (cfg : Config) (cs : List (Call × Config)) (A B : List Event) (f : Fam) (c b : Cmd), KeepsCommands env ∧ cfg.onDemand = true ∧
    (∀ p ∈ cs, p.1 ≠ .set) ∧ (run env (init cfg) cs).trace = A ++ .cmd .stop f c true :: B ∧ .cmd .ban f b true ∈ B ∧ .done (.check none) true ∈ B ∧
    ∀ e ∈ B, ¬ Starts e ∧ ¬ Restores e := by
  refine ⟨envEx [8, 12], sharedEx, [(.ban "inet4" 1, cfgEx), (.ban "inet6" 2, cfgEx), (.check none, cfgEx), (.ban "inet6" 3, cfgEx)],
    (run (envEx [8, 12]) (init sharedEx) [(.ban "inet4" 1, cfgEx), (.ban "inet6" 2, cfgEx), (.check none, cfgEx), (.ban "inet6" 3, cfgEx)]).trace.take 13,
    (run (envEx [8, 12]) (init sharedEx) [(.ban "inet4" 1, cfgEx), (.ban "inet6" 2, cfgEx), (.check none, cfgEx), (.ban "inet6" 3, cfgEx)]).trace.drop 14,
    "inet6", cmdEx .stop "all", cmdEx .ban "inet6" ++ "3".toList, fun tr f c h => h, rfl, by decide +kernel, by decide +kernel, by decide +kernel, by decide +kernel, ?_⟩
  intro e he
  have : ∀ e ∈ (run (envEx [8, 12]) (init sharedEx) [(.ban "inet4" 1, cfgEx), (.ban "inet6" 2, cfgEx), (.check none, cfgEx), (.ban "inet6" 3, cfgEx)]).trace.drop 14,
      (match e with | .cmd t _ _ _ => decide (t ≠ .start ∧ t ≠ .stop ∧ t ≠ .repair) | _ => true) = true := by decide +kernel
  have := this e he
  cases e with
  | cmd t f c ok => cases t <;> first | exact ⟨fun h => h, fun h => h⟩ | simp at this
  | call c => exact ⟨fun h => h, fun h => h⟩
  | done c ok => exact ⟨fun h => h, fun h => h⟩

/-- C41 is not true for `stop()` if families share their commands: after a stop that failed for one of them, the action is started again for
that one, and the next `stop()` executes nothing, though it reports success. -/
theorem C41_refuted_stop : ∃ (env : Env) (cfg : Config) (cs : List (Call × Config)) (A B : List Event) (f : Fam) (c : Cmd), KeepsCommands env ∧ cfg.onDemand = true ∧
    (∀ p ∈ cs, p.1 ≠ .set) ∧ (∀ f, cfg.op .stop f ≠ some [] ∧ cfg.op .stop f ≠ none) ∧
    (run env (init cfg) cs).trace = A ++ .cmd .start f c true :: B ∧ .done .stop true ∈ B ∧ ∀ e ∈ B, ¬ Restores e := by
  refine ⟨envEx [8], sharedEx, [(.ban "inet4" 1, cfgEx), (.ban "inet6" 2, cfgEx), (.stop, cfgEx), (.ban "inet4" 3, cfgEx), (.stop, cfgEx)],
    (run (envEx [8]) (init sharedEx) [(.ban "inet4" 1, cfgEx), (.ban "inet6" 2, cfgEx), (.stop, cfgEx), (.ban "inet4" 3, cfgEx), (.stop, cfgEx)]).trace.take 12,
    (run (envEx [8]) (init sharedEx) [(.ban "inet4" 1, cfgEx), (.ban "inet6" 2, cfgEx), (.stop, cfgEx), (.ban "inet4" 3, cfgEx), (.stop, cfgEx)]).trace.drop 13,
    "inet4", cmdEx .start "all", fun tr f c h => h, rfl, by decide +kernel, ?_, by decide +kernel, by decide +kernel, ?_⟩
  · intro f
    have : sharedEx.op .stop f = some (cmdEx .stop "all") := rfl
    rw [this]
    exact ⟨by decide +kernel, by simp⟩
  · intro e he
    have : ∀ e ∈ (run (envEx [8]) (init sharedEx) [(.ban "inet4" 1, cfgEx), (.ban "inet6" 2, cfgEx), (.stop, cfgEx), (.ban "inet4" 3, cfgEx), (.stop, cfgEx)]).trace.drop 13,
        (match e with | .cmd t _ _ _ => decide (t ≠ .stop ∧ t ≠ .repair) | _ => true) = true := by decide +kernel
    have := this e he
    cases e with
    | cmd t f c ok => cases t <;> first | exact fun h => h | simp at this
    | call c => exact fun h => h
    | done c ok => exact fun h => h

/-! ## C55: bans are removed -/

/-- C55: while bans of a family remain (something was banned with success and not flushed, stopped, or lost with the environment since), an
unban of the family executes its unban command. -/
theorem C55_unban {env : Env} (hk : KeepsCommands env) {cfg : Config} (h : Each cfg .flush) (cs : List (Call × Config)) (hcs : ∀ p ∈ cs, Each p.2 .flush)
    (f : Fam) (n : Nat) (c : Cmd) (hw : (watch f (run env (init cfg) cs).trace).items = true) (hc : (run env (init cfg) cs).cfg.proc .unban f n = some c) (hc0 : c ≠ [])
    (cfg' : Config) :
    ∃ ok B, (step env (run env (init cfg) cs) (.unban f n) cfg').trace = (run env (init cfg) cs).trace ++ .call (.unban f n) :: .cmd .unban f c ok :: B := by
  have hi := InvX.run hk cs (InvX.init ⟨h.nonempty, h.distinct⟩) (fun p hp => ⟨(hcs p hp).nonempty, (hcs p hp).distinct⟩)
  generalize run env (init cfg) cs = s at *
  have hs := hi.items f (fun h => h) hw
  have e : method env cfg' { s with trace := s.trace ++ [.call (.unban f n)] } (.unban f n) = process env .unban f n { s with trace := s.trace ++ [.call (.unban f n)] } := by
    simp [method, unban, hs]
  obtain ⟨seg, h1, h2, _⟩ := process_attempt (env := env) (t := .unban) (f := f) (n := n) (s := { s with trace := s.trace ++ [.call (.unban f n)] }) hc hc0
  rw [step_trace, e, h1]
  dsimp only
  rcases h2 with ⟨_, rfl⟩ | ⟨mid, _, _, rfl | ⟨_, _, rfl⟩⟩
  · exact ⟨true, [.done (.unban f n) _], by simp only [List.append_assoc, List.cons_append, List.nil_append]; rfl⟩
  · exact ⟨false, mid ++ .cmd .unban f c _ :: [.done (.unban f n) _], by simp only [List.append_assoc, List.cons_append, List.nil_append]; rfl⟩
  · exact ⟨false, mid ++ [.done (.unban f n) _], by simp only [List.append_assoc, List.cons_append, List.nil_append]; rfl⟩

/-- C55 (partial: the flush commands of the families differ): `flush()` executes the flush command of every family with bans. -/
theorem C55_flush_partial {env : Env} (hk : KeepsCommands env) {cfg : Config} (h : Each cfg .flush) (cs : List (Call × Config)) (hcs : ∀ p ∈ cs, Each p.2 .flush)
    (cfg' : Config) :
    ∃ seg ok, (step env (run env (init cfg) cs) .flush cfg').trace = (run env (init cfg) cs).trace ++ .call .flush :: (seg ++ [.done .flush ok]) ∧
      (∀ f c, (watch f (run env (init cfg) cs).trace).items = true → (run env (init cfg) cs).cfg.op .flush f = some c →
        ∃ A ok, .cmd .flush f (env.dyn A f c) ok ∈ seg) ∧
      (ok = true → ∀ f c b, .cmd .flush f c b ∈ seg → b = true) := by
  have hi := InvX.run hk cs (InvX.init ⟨h.nonempty, h.distinct⟩) (fun p hp => ⟨(hcs p hp).nonempty, (hcs p hp).distinct⟩)
  generalize run env (init cfg) cs = s at *
  have hi' := hi.call .flush
  rw [step_trace]
  show ∃ seg ok, (flush env { s with trace := s.trace ++ [.call .flush] }).2.trace ++ [.done .flush (flush env { s with trace := s.trace ++ [.call .flush] }).1] = _ ∧ _
  unfold flush
  obtain ⟨_, seg, h1, h2⟩ := hi'.flushes hk ((s.started.items.filter (fun p => p.2.on && p.2.items)).map (·.1)) true
  obtain ⟨seg', h3, h4⟩ := operation_result (env := env) (t := .flush) (after := afterFlush) (fun f r s => ⟨by simp, by simp⟩)
    ((s.started.items.filter (fun p => p.2.on && p.2.items)).map (·.1)) true { s with trace := s.trace ++ [.call .flush] }
  have hss : seg = seg' := List.append_cancel_left (h1.symm.trans h3)
  subst hss
  refine ⟨seg, _, by rw [h1]; simp only [List.append_assoc, List.cons_append, List.nil_append], ?_, fun hok => (h4.1 hok).2.2⟩
  intro f c hw hc
  refine h2 f ?_ c hc
  have hs := hi.items f (fun h => h) hw
  exact List.mem_map.2 ⟨(f, ⟨true, true⟩), List.mem_filter.2 ⟨(Dict.get?_eq_some_iff _ _ _).1 hs, rfl⟩, rfl⟩

/-- C55 is not true if families share their flush command: after one `flush()` of both, a later `flush()` executes nothing and reports
success, though there are new bans of both. -/
theorem C55_refuted_flush : ∃ (env : Env) (cfg : Config) (cs : List (Call × Config)) (A B : List Event), KeepsCommands env ∧
    (∀ p ∈ cs, p.1 ≠ .set) ∧ (∀ f, cfg.op .flush f ≠ some [] ∧ cfg.op .flush f ≠ none) ∧
    (run env (init cfg) cs).trace = A ++ .call .flush :: B ∧ (∀ f ∈ famEx, (watch f A).items = true) ∧ B = [.done .flush true] := by
  refine ⟨envEx [], sharedEx, [(.ban "inet4" 1, cfgEx), (.ban "inet6" 2, cfgEx), (.flush, cfgEx), (.ban "inet4" 3, cfgEx), (.ban "inet6" 4, cfgEx), (.flush, cfgEx)],
    (run (envEx []) (init sharedEx) [(.ban "inet4" 1, cfgEx), (.ban "inet6" 2, cfgEx), (.flush, cfgEx), (.ban "inet4" 3, cfgEx), (.ban "inet6" 4, cfgEx)]).trace,
    [.done .flush true], fun tr f c h => h, by decide +kernel, ?_, by decide +kernel, by decide +kernel, rfl⟩
  intro f
  have : sharedEx.op .flush f = some (cmdEx .flush "all") := rfl
  rw [this]
  exact ⟨by decide +kernel, by simp⟩

/-- Bans of one family: unban and flush are for it only. -/
example : cmds (run (envEx []) (init cfgEx) [(.ban "inet4" 1, cfgEx), (.unban "inet6" 1, cfgEx), (.unban "inet4" 1, cfgEx), (.flush, cfgEx), (.unban "inet4" 1, cfgEx),
    (.flush, cfgEx), (.ban "inet4" 2, cfgEx), (.flush, cfgEx)]).trace =
    [("start inet4", true), ("ban inet41", true), ("unban inet41", true), ("flush inet4", true), ("ban inet42", true), ("flush inet4", true)] := by decide +kernel
/-- A flush that fails leaves bans to unban. -/
example : cmds (run (envEx [5]) (init cfgEx) [(.ban "inet4" 1, cfgEx), (.flush, cfgEx), (.unban "inet4" 1, cfgEx)]).trace =
    [("start inet4", true), ("ban inet41", true), ("flush inet4", false), ("unban inet41", true)] := by decide +kernel

/-! ## C56: failing commands -/

/-- C56, for the prolonging of a ban, in any state: the command is executed; if it fails, once more after checking and restoring the environment
(if there is a check), and the call succeeds exactly if the last execution did. When bans may have been lost by restoring the environment, a
new epoch of bans begins. -/
theorem C56_prolong (env : Env) (s : State) (f : Fam) (n : Nat) (c : Cmd) (hc : s.cfg.proc .prolong f n = some c) (hc0 : c ≠ []) (cfg' : Config) :
    ∃ seg ok, (step env s (.prolong f n) cfg').trace = s.trace ++ .call (.prolong f n) :: (seg ++ [.done (.prolong f n) ok]) ∧
      Attempt .prolong f c s.cfg.check ok seg ∧ ((∃ e ∈ seg, Restores e) → s.epoch < (step env s (.prolong f n) cfg').epoch) := by
  obtain ⟨seg, h1, h2, h3⟩ := process_attempt (env := env) (t := .prolong) (f := f) (n := n) (s := { s with trace := s.trace ++ [.call (.prolong f n)] }) hc hc0
  refine ⟨seg, _, ?_, h2, fun hr => h3 hr (by simp) (by simp)⟩
  rw [step_trace]
  show (process env .prolong f n { s with trace := s.trace ++ [.call (.prolong f n)] }).2.trace ++ _ = _
  rw [h1]
  simp only [List.append_assoc, List.cons_append, List.nil_append]
  rfl

/-- C56, for bans: the same, after start commands if the action is started on demand; a re-ban is done by its own command if there is one. -/
theorem C56_ban (env : Env) (s : State) (f : Fam) (n : Nat) (c : Cmd) (call : Call) (t : Tag)
    (ht : call = .ban f n ∧ t = .ban ∨ call = .reban f n ∧ t = (if s.cfg.reban = true then .reban else .ban)) (hc : s.cfg.proc t f n = some c) (hc0 : c ≠ []) (cfg' : Config) :
    ∃ pre seg ok, (step env s call cfg').trace = s.trace ++ .call call :: (pre ++ seg ++ [.done call ok]) ∧
      (∀ e ∈ pre, Starts e) ∧ (s.cfg.onDemand = false → pre = []) ∧
      ((s.cfg.onDemand = true ∧ seg = [] ∧ ok = false) ∨ Attempt t f c s.cfg.check ok seg) ∧
      ((∃ e ∈ seg, Restores e) → s.epoch < (step env s call cfg').epoch) := by
  have htt : t = .ban ∨ t = .reban := by
    rcases ht with ⟨_, rfl⟩ | ⟨_, rfl⟩
    · exact Or.inl rfl
    · split
      · exact Or.inr rfl
      · exact Or.inl rfl
  have hb := ban_shape (env := env) (t := t) (f := f) (n := n) (s := { s with trace := s.trace ++ [.call call] })
  have e : method env cfg' { s with trace := s.trace ++ [.call call] } call = ban env t f n { s with trace := s.trace ++ [.call call] } := by
    rcases ht with ⟨rfl, rfl⟩ | ⟨rfl, rfl⟩ <;> rfl
  rw [step_trace, step_epoch, e]
  generalize ban env t f n { s with trace := s.trace ++ [.call call] } = x at *
  obtain ⟨s1, ⟨hc1, he1, pre, ht1, hp1⟩, _, hd, hb⟩ := hb
  dsimp only at hc1 he1 ht1 hd
  have hpre : s.cfg.onDemand = false → pre = [] := by
    intro ho
    have := hd (Or.inl ho)
    rw [this] at ht1
    simpa using ht1
  rcases hb with ⟨h1, _, h2, h3⟩ | ⟨_, h2, h3, h4⟩
  · refine ⟨pre, [], false, by rw [h3, ht1, h2]; simp, hp1, hpre, Or.inl ⟨h1, rfl, rfl⟩, by simp⟩
  · obtain ⟨seg, g1, g2, g3⟩ := process_attempt (env := env) (t := t) (f := f) (n := n) (s := s1) (by rw [hc1]; exact hc) hc0
    refine ⟨pre, seg, x.1, by rw [h3, g1, ht1]; simp, hp1, hpre, Or.inr (by rw [h2, ← hc1]; exact g2), fun hr => ?_⟩
    rw [h4]
    exact Nat.lt_of_le_of_lt he1 (g3 hr (by rcases htt with rfl | rfl <;> simp) (by rcases htt with rfl | rfl <;> simp))

/-- C56 with a repair command, in full. -/
theorem C56_repair (env : Env) (s : State) (f : Fam) (n : Nat) (c k r : Cmd) (hc : s.cfg.proc .ban f n = some c) (hc0 : c ≠ [])
    (hck : s.cfg.check = true) (hk : s.cfg.op .check f = some k) (hk0 : k ≠ []) (hr : s.cfg.op .repair f = some r) (hr0 : r ≠ []) (cfg' : Config) :
    ∃ pre seg ok, (step env s (.ban f n) cfg').trace = s.trace ++ .call (.ban f n) :: (pre ++ seg ++ [.done (.ban f n) ok]) ∧
      (∀ e ∈ pre, Starts e) ∧ (s.cfg.onDemand = false → pre = []) ∧
      ((s.cfg.onDemand = true ∧ seg = [] ∧ ok = false) ∨ Mended .ban f c k r ok seg) := by
  have hb := ban_shape (env := env) (t := .ban) (f := f) (n := n) (s := { s with trace := s.trace ++ [.call (.ban f n)] })
  have e : method env cfg' { s with trace := s.trace ++ [.call (.ban f n)] } (.ban f n) = ban env .ban f n { s with trace := s.trace ++ [.call (.ban f n)] } := rfl
  rw [step_trace, e]
  generalize ban env .ban f n { s with trace := s.trace ++ [.call (.ban f n)] } = x at *
  obtain ⟨s1, ⟨hc1, he1, pre, ht1, hp1⟩, _, hd, hb⟩ := hb
  dsimp only at hc1 he1 ht1 hd
  have hpre : s.cfg.onDemand = false → pre = [] := by
    intro ho
    have := hd (Or.inl ho)
    rw [this] at ht1
    simpa using ht1
  rcases hb with ⟨h1, _, h2, h3⟩ | ⟨_, h2, h3, h4⟩
  · refine ⟨pre, [], false, by rw [h3, ht1, h2]; simp, hp1, hpre, Or.inl ⟨h1, rfl, rfl⟩⟩
  · obtain ⟨seg, g1, g2⟩ := process_mended (env := env) (t := .ban) (f := f) (n := n) (s := s1) (by rw [hc1]; exact hc) hc0 (by rw [hc1]; exact hck)
      (by rw [hc1]; exact hk) hk0 (by rw [hc1]; exact hr) hr0 (Or.inl (by simp))
    exact ⟨pre, seg, x.1, by rw [h3, g1, ht1]; simp, hp1, hpre, Or.inr (by rw [h2]; exact g2)⟩

/-- C56 without a repair command, in full, for an action started on demand (with different start and stop commands of families). -/
theorem C56_restart {env : Env} (hs : Static env) {cfg : Config} (h : OnDemand cfg) (cs : List (Call × Config)) (hcs : ∀ p ∈ cs, OnDemand p.2)
    (s : State) (hrun : s = run env (init cfg) cs) (hE : Each s.cfg .stop) (f : Fam) (n : Nat) (c k p a : Cmd)
    (hc : s.cfg.proc .ban f n = some c) (hc0 : c ≠ []) (hck : s.cfg.check = true) (hk : s.cfg.op .check f = some k) (hk0 : k ≠ [])
    (hr : s.cfg.op .repair f = some []) (hp : s.cfg.op .stop f = some p) (ha : s.cfg.op .start f = some a) (cfg' : Config) :
    ∃ pre seg ok, (step env s (.ban f n) cfg').trace = s.trace ++ .call (.ban f n) :: (pre ++ seg ++ [.done (.ban f n) ok]) ∧
      (∀ e ∈ pre, Starts e) ∧ (seg = [] ∧ ok = false ∨ Restarted .ban f c k p a ok seg) := by
  have hi := Inv.run (env := env) (fun tr f c h => by rw [hs]; exact h) cs (Inv.init h) hcs
  rw [← hrun] at hi
  have hb := ban_shape (env := env) (t := .ban) (f := f) (n := n) (s := { s with trace := s.trace ++ [.call (.ban f n)] })
  have e : method env cfg' { s with trace := s.trace ++ [.call (.ban f n)] } (.ban f n) = ban env .ban f n { s with trace := s.trace ++ [.call (.ban f n)] } := rfl
  rw [step_trace, e]
  generalize ban env .ban f n { s with trace := s.trace ++ [.call (.ban f n)] } = x at *
  obtain ⟨s1, ⟨hc1, he1, pre, ht1, hp1⟩, hrec, hd, hb⟩ := hb
  dsimp only at hc1 he1 ht1 hd
  rcases hb with ⟨h1, _, h2, h3⟩ | ⟨hst, h2, h3, h4⟩
  · exact ⟨pre, [], false, by rw [h3, ht1, h2]; simp, hp1, Or.inl ⟨rfl, rfl⟩⟩
  · obtain ⟨seg, g1, g2⟩ := process_restarted hs (env := env) (t := .ban) (f := f) (n := n) (s := s1) (by rw [hc1]; exact hc) hc0 (by rw [hc1]; exact hck)
      (by rw [hc1]; exact hk) hk0 (by rw [hc1]; exact hr) (by rw [hc1]; exact hp) (by rw [hc1]; exact hE) (by rw [hc1]; exact ha)
      (by rw [hc1]; exact ⟨hi.od.nonempty, hi.od.distinct⟩) (hrec (hi.recs.congr rfl rfl)) (isStarted_isSome (hst hi.od.onDemand)) (by simp)
    exact ⟨pre, seg, x.1, by rw [h3, g1, ht1]; simp, hp1, Or.inr (by rw [h2]; exact g2)⟩

/-- C56: an unban whose check fails is given up, if repairing for an unban is not wanted; nothing is stopped, started or repaired. -/
theorem C56_unban (env : Env) (s : State) (f : Fam) (n : Nat) (hr : s.cfg.repairOnUnban = false) (cfg' : Config) :
    ∃ seg ok, (step env s (.unban f n) cfg').trace = s.trace ++ .call (.unban f n) :: (seg ++ [.done (.unban f n) ok]) ∧
      (∀ t g c b, .cmd t g c b ∈ seg → g = f ∧ (t = .unban ∨ t = .check)) ∧ (step env s (.unban f n) cfg').epoch = s.epoch := by
  have key : ∀ s' : State, s'.cfg = s.cfg → ∃ seg, (process env .unban f n s').2.trace = s'.trace ++ seg ∧
      (∀ t g c b, .cmd t g c b ∈ seg → g = f ∧ (t = .unban ∨ t = .check)) ∧ (process env .unban f n s').2.epoch = s'.epoch := by
    intro s' hs'
    let P : Event → Prop := fun e => ∀ t g c b, e = .cmd t g c b → g = f ∧ (t = .unban ∨ t = .check)
    have hu : ∀ s1 c, Ext P s1 (exec env s1 .unban f c).2 := fun s1 c => Ext.exec (by rintro ok t g c b ⟨⟩; exact ⟨rfl, Or.inl rfl⟩)
    have hk : ∀ s1 c, Ext P s1 (exec env s1 .check f c).2 := fun s1 c => Ext.exec (by rintro ok t g c b ⟨⟩; exact ⟨rfl, Or.inr rfl⟩)
    have hp : Ext P s' (process env .unban f n s').2 ∧ (process env .unban f n s').2.epoch = s'.epoch := by
      unfold process
      rw [hs', hr]
      cases s.cfg.proc .unban f n with
      | none => exact ⟨Ext.refl _ _, rfl⟩
      | some c =>
        dsimp only
        have h1 := hu s' c
        have h1' : (exec env s' .unban f c).2.epoch = s'.epoch := by simp
        generalize exec env s' .unban f c = x at *
        split
        · exact ⟨h1, h1'⟩
        · split
          · have h2 : Ext P x.2 (invariantCheck env f (some (!(decide (Tag.unban = .unban) && !false))) (decide (Tag.unban ≠ .unban)) x.2).2 ∧
                (invariantCheck env f (some (!(decide (Tag.unban = .unban) && !false))) (decide (Tag.unban ≠ .unban)) x.2).2.epoch = x.2.epoch := by
              unfold invariantCheck
              split
              · exact ⟨Ext.refl _ _, rfl⟩
              · split
                · exact ⟨Ext.refl _ _, rfl⟩
                · rename_i k _
                  split
                  · exact ⟨Ext.refl _ _, rfl⟩
                  · split
                    · exact ⟨hk x.2 k, by simp⟩
                    · rw [if_pos (by simp)]
                      exact ⟨hk x.2 k, by simp⟩
            generalize invariantCheck env f (some (!(decide (Tag.unban = .unban) && !false))) (decide (Tag.unban ≠ .unban)) x.2 = y at *
            split
            · unfold again
              exact ⟨h1.trans (h2.1.trans (hu y.2 c)), by rw [exec_epoch, h2.2, h1']⟩
            · exact ⟨h1.trans h2.1, by rw [h2.2, h1']⟩
          · unfold again
            exact ⟨h1.trans (hu x.2 c), by rw [exec_epoch, h1']⟩
    obtain ⟨⟨_, _, seg, h3, h4⟩, h5⟩ := hp
    exact ⟨seg, h3, fun t g c b hm => h4 _ hm t g c b rfl, h5⟩
  have fin : ∃ seg, (method env cfg' { s with trace := s.trace ++ [.call (.unban f n)] } (.unban f n)).2.trace = s.trace ++ [.call (.unban f n)] ++ seg ∧
      (∀ t g c b, .cmd t g c b ∈ seg → g = f ∧ (t = .unban ∨ t = .check)) ∧ (method env cfg' { s with trace := s.trace ++ [.call (.unban f n)] } (.unban f n)).2.epoch = s.epoch := by
    show ∃ seg, (unban env f n { s with trace := s.trace ++ [.call (.unban f n)] }).2.trace = _ ∧ _ ∧ (unban env f n { s with trace := s.trace ++ [.call (.unban f n)] }).2.epoch = _
    unfold unban
    split
    · split
      · exact key { s with trace := s.trace ++ [.call (.unban f n)] } rfl
      · exact ⟨[], by simp, by simp, rfl⟩
    · exact ⟨[], by simp, by simp, rfl⟩
  rw [step_trace, step_epoch]
  obtain ⟨seg, h1, h2, h3⟩ := fin
  rw [h1, h3]
  exact ⟨seg, _, by rw [List.append_assoc, List.append_assoc]; rfl, h2, rfl⟩

/-- C56: `stop()`, `flush()` and `reload()` succeed exactly if all commands they executed did (and none could not be built). -/
theorem C56_result (env : Env) (s : State) (cfg' : Config) (call : Call) (t : Tag) (ht : (call = .stop ∧ t = .stop) ∨ (call = .flush ∧ t = .flush) ∨ (call = .reload ∧ t = .reload))
    (hb : ∀ f, s.cfg.op t f ≠ none) :
    ∃ seg ok, (step env s call cfg').trace = s.trace ++ .call call :: (seg ++ [.done call ok]) ∧ (∀ e ∈ seg, ∃ g c b, e = .cmd t g c b) ∧
      (ok = true ↔ ∀ g c b, .cmd t g c b ∈ seg → b = true) := by
  let P : Event → Prop := fun e => ∃ g c b, e = .cmd t g c b
  have fin : ∃ seg, (method env cfg' { s with trace := s.trace ++ [.call call] } call).2.trace = s.trace ++ [.call call] ++ seg ∧ (∀ e ∈ seg, P e) ∧
      ((method env cfg' { s with trace := s.trace ++ [.call call] } call).1 = true ↔ ∀ g c b, .cmd t g c b ∈ seg → b = true) := by
    have op : ∀ (after : Fam → Bool → State → State) (fs : List Fam) (s' : State), s'.cfg = s.cfg → s'.trace = s.trace ++ [.call call] →
        (∀ f r s, (after f r s).cfg = s.cfg ∧ (after f r s).epoch = s.epoch ∧ (after f r s).trace = s.trace) →
        ∃ seg, (operation env t after fs true s').2.trace = s.trace ++ [.call call] ++ seg ∧ (∀ e ∈ seg, P e) ∧
          ((operation env t after fs true s').1 = true ↔ ∀ g c b, .cmd t g c b ∈ seg → b = true) := by
      intro after fs s' hc' ht' ha
      obtain ⟨seg, h1, h2⟩ := operation_result (env := env) (t := t) (after := after) (fun f r s => ⟨(ha f r s).1, (ha f r s).2.2⟩) fs true s'
      obtain ⟨_, _, seg', h3, h4⟩ := Ext.operation (P := P) (env := env) (t := t) (after := after) (fun f c ok => ⟨f, c, ok, rfl⟩) ha fs true s'
      have hss : seg = seg' := List.append_cancel_left (h1.symm.trans h3)
      subst hss
      refine ⟨seg, by rw [h1, ht'], h4, ?_⟩
      rw [h2, hc']
      exact ⟨fun h => h.2.2, fun h => ⟨rfl, fun f _ => hb f, h⟩⟩
    rcases ht with ⟨rfl, rfl⟩ | ⟨rfl, rfl⟩ | ⟨rfl, rfl⟩
    · show ∃ seg, (stopAll env { s with trace := s.trace ++ [.call .stop] }).2.trace = _ ∧ _ ∧ ((stopAll env { s with trace := s.trace ++ [.call .stop] }).1 = true ↔ _)
      unfold stopAll
      split
      · exact ⟨[], by simp, by simp, by simp⟩
      · exact op afterStop _ _ rfl rfl (fun f r s => ⟨by simp, by simp, by simp⟩)
    · exact op afterFlush _ _ rfl rfl (fun f r s => ⟨by simp, by simp, by simp⟩)
    · exact op (fun _ _ s => s) _ _ rfl rfl (fun f r s => ⟨rfl, rfl, rfl⟩)
  obtain ⟨seg, h1, h2, h3⟩ := fin
  rw [step_trace, h1]
  exact ⟨seg, _, by rw [List.append_assoc, List.append_assoc]; rfl, h2, h3⟩

/-- C56: `reload()` executes the reload command of every started family, if they differ. -/
theorem C56_reload {env : Env} (hk : KeepsCommands env) {cfg : Config} (h : OnDemand cfg) (cs : List (Call × Config)) (hcs : ∀ p ∈ cs, OnDemand p.2)
    (hE : Each (run env (init cfg) cs).cfg .reload) (cfg' : Config) :
    ∃ seg ok, (step env (run env (init cfg) cs) .reload cfg').trace = (run env (init cfg) cs).trace ++ .call .reload :: (seg ++ [.done .reload ok]) ∧
      (∀ f c, (watch f (run env (init cfg) cs).trace).free = false → (run env (init cfg) cs).cfg.op .reload f = some c →
        ∃ A ok, .cmd .reload f (env.dyn A f c) ok ∈ seg) := by
  have hi := Inv.run hk cs (Inv.init h) hcs
  generalize run env (init cfg) cs = s at *
  obtain ⟨seg, h1, h2⟩ := operation_each (env := env) hk (t := .reload) (after := fun _ _ s => s) (fun f r s => ⟨rfl, rfl⟩) (fun f r s h => h) (startedFams s) true
    (s := { s with trace := s.trace ++ [.call .reload] }) hE (hi.recs.congr rfl rfl)
  have e : method env cfg' { s with trace := s.trace ++ [.call .reload] } .reload =
      operation env .reload (fun _ _ s => s) (startedFams s) true { s with trace := s.trace ++ [.call .reload] } := rfl
  rw [step_trace, e, h1]
  refine ⟨seg, _, by rw [List.append_assoc, List.append_assoc]; rfl, fun f c hf hc => h2 f ((mem_startedFams s f).2 ?_) c hc⟩
  cases hs : isStarted s f with
  | true => rfl
  | false => rw [hi.free f hs] at hf; cases hf

/-- C56: a consistency check that succeeds has checked every started family, and executed nothing but commands about the environment. -/
theorem C56_check {env : Env} (hk : KeepsCommands env) {cfg : Config} (h : OnDemand cfg) (cs : List (Call × Config)) (hcs : ∀ p ∈ cs, OnDemand p.2)
    (before : Option Bool) (cfg' : Config) (hck : (run env (init cfg) cs).cfg.check = true) :
    ∃ seg ok, (step env (run env (init cfg) cs) (.check before) cfg').trace = (run env (init cfg) cs).trace ++ .call (.check before) :: (seg ++ [.done (.check before) ok]) ∧
      (∀ e ∈ seg, Service e) ∧
      (ok = true → ∀ f k, (watch f (run env (init cfg) cs).trace).free = false → (run env (init cfg) cs).cfg.op .check f = some k → k ≠ [] →
        ∃ b, .cmd .check f k b ∈ seg) := by
  have hi := Inv.run hk cs (Inv.init h) hcs
  generalize run env (init cfg) cs = s at *
  rw [step_trace]
  have e : method env cfg' { s with trace := s.trace ++ [.call (.check before)] } (.check before) =
      ((checkLoop env before s.started.items true { s with trace := s.trace ++ [.call (.check before)] }).1 == some true,
       (checkLoop env before s.started.items true { s with trace := s.trace ++ [.call (.check before)] }).2) := by
    simp [method, consistencyCheck, hck]
  rw [e]
  dsimp only
  obtain ⟨_, _, seg, h1, h2⟩ := Ext.checkLoop (env := env) before s.started.items true { s with trace := s.trace ++ [.call (.check before)] }
  refine ⟨seg, _, by rw [h1, List.append_assoc, List.append_assoc]; rfl, h2, ?_⟩
  intro hok f k hf hkk hk0
  obtain ⟨seg', h3, h4⟩ := checkLoop_checks (env := env) before s.started.items true { s with trace := s.trace ++ [.call (.check before)] } (by
    intro hn; rw [hn] at hok; simp at hok)
  have hss : seg = seg' := List.append_cancel_left (h1.symm.trans h3)
  subst hss
  have hs : isStarted s f = true := by
    cases hs : isStarted s f with
    | true => rfl
    | false => rw [hi.free f hs] at hf; cases hf
  unfold isStarted at hs
  cases hv : s.started.get? f with
  | none => rw [hv] at hs; cases hs
  | some v => rw [hv] at hs; exact h4 f v ((Dict.get?_eq_some_iff _ _ _).1 hv) hs k hkk hk0

/-- With a repair command. -/
def repairEx : Config := { cfgEx with op := fun t f => some (if t = .reload then [] else if t = .repair then "repair ".toList ++ f.toList else cmdEx t f) }

/-- Repaired and banned; not repaired; the next one starts. -/
example : cmds (run (envEx [7, 8]) (init repairEx) [(.ban "inet4" 1, cfgEx), (.ban "inet4" 2, cfgEx), (.ban "inet4" 2, cfgEx)]).trace =
    [("start inet4", true), ("ban inet41", true), ("ban inet42", true), ("ban inet42", false), ("check inet4", true), ("ban inet42", true)] := by decide +kernel
example : cmds (run (envEx [5, 6]) (init repairEx) [(.ban "inet4" 1, cfgEx), (.ban "inet4" 2, cfgEx)]).trace =
    [("start inet4", true), ("ban inet41", true), ("ban inet42", false), ("check inet4", false), ("repair inet4", true), ("check inet4", true), ("ban inet42", true)] := by decide +kernel
example : cmds (run (envEx [5, 6, 7]) (init repairEx) [(.ban "inet4" 1, cfgEx), (.ban "inet4" 2, cfgEx), (.ban "inet4" 3, cfgEx)]).trace =
    [("start inet4", true), ("ban inet41", true), ("ban inet42", false), ("check inet4", false), ("repair inet4", false), ("start inet4", true), ("ban inet43", true)] := by decide +kernel
example : (run (envEx [5, 6, 7]) (init repairEx) [(.ban "inet4" 1, cfgEx), (.ban "inet4" 2, cfgEx), (.ban "inet4" 3, cfgEx)]).epoch = 1 := by decide +kernel
/-- Re-bans and reloads. -/
example : cmds (run (envEx []) (init { cfgEx with reban := true, op := fun t f => some (if t = .reload then "reload ".toList ++ f.toList else cmdEx t f) })
    [(.reban "inet4" 1, cfgEx), (.reload, cfgEx)]).trace = [("start inet4", true), ("reban inet41", true), ("reload inet4", true)] := by decide +kernel
/-- A check of both families; the second is broken and cannot be repaired. -/
example : cmds (run (envEx [9, 10]) (init repairEx) [(.ban "inet4" 1, cfgEx), (.ban "inet6" 2, cfgEx), (.check none, cfgEx), (.ban "inet6" 3, cfgEx)]).trace =
    [("start inet4", true), ("ban inet41", true), ("start inet6", true), ("ban inet62", true), ("check inet4", false), ("repair inet4", false), ("check inet6", true),
     ("ban inet63", true)] := by decide +kernel
/-- An unban that fails. -/
example : cmds (run (envEx [5, 6]) (init repairEx) [(.ban "inet4" 1, cfgEx), (.unban "inet4" 1, cfgEx)]).trace =
    [("start inet4", true), ("ban inet41", true), ("unban inet41", false), ("check inet4", false)] := by decide +kernel
/-- Nothing to check: once more. -/
example : cmds (run (envEx [5, 6]) (init { cfgEx with check := false }) [(.ban "inet4" 1, cfgEx), (.unban "inet4" 1, cfgEx)]).trace =
    [("start inet4", true), ("ban inet41", true), ("unban inet41", false), ("unban inet41", false)] := by decide +kernel

end Verif
