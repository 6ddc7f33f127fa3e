import Verif.Model.StartArgs
import Verif.Spec.StartArgs
import Verif.Props.CmdLine

/-!
# C111 — the server started by the client
-/

set_option linter.unusedSimpArgs false

namespace Verif.StartArgs

open Verif.CmdLine Verif.CmdLine.Spec Verif.StartArgs.Spec

theorem known_values {c : Conf} (h : Known c) : ∃ s p l t y, c.params .socket = some s ∧ c.params .pidfile = some p ∧ c.params .loglevel = some l ∧
    c.params .logtarget = some t ∧ c.params .syslogsocket = some y := by
  obtain ⟨s, h1⟩ := h .socket (by simp [shared])
  obtain ⟨p, h2⟩ := h .pidfile (by simp [shared])
  obtain ⟨l, h3⟩ := h .loglevel (by simp [shared])
  obtain ⟨t, h4⟩ := h .logtarget (by simp [shared])
  obtain ⟨y, h5⟩ := h .syslogsocket (by simp [shared])
  exact ⟨s, p, l, t, y, h1, h2, h3, h4, h5⟩

theorem args_known {c : Conf} {s p l t y : Text} (h1 : c.params .socket = some s) (h2 : c.params .pidfile = some p) (h3 : c.params .loglevel = some l)
    (h4 : c.params .logtarget = some t) (h5 : c.params .syslogsocket = some y) : asyncArgs c = some (server ::
      (["--async".toList] ++ (["-b".toList] ++ (["-s".toList, s] ++ (["-p".toList, p] ++ ((if c.force then ["-x".toList] else []) ++ (verboseArgs c.verbose ++
        (["--loglevel".toList, l] ++ (["--logtarget".toList, t] ++ (["--syslogsocket".toList, y] ++ [])))))))))) := by
  simp [asyncArgs, logArgs, logParams, h1, h2, h3, h4, h5]

/-- Options that are meant -/
def opts (c : Conf) (s p l t y : Text) : List Opt :=
  [("--async".toList, [])] ++ ([("-b".toList, [])] ++ ([("-s".toList, s)] ++ ([("-p".toList, p)] ++ ((if c.force then [("-x".toList, [])] else []) ++
    (letters (List.replicate (c.verbose - 1).toNat 'v') ++
      ([("--loglevel".toList, l)] ++ ([("--logtarget".toList, t)] ++ ([("--syslogsocket".toList, y)] ++ []))))))))

theorem names_self {n : Text} (h : n ∈ longNames) : Names n n := ⟨h, .inl rfl⟩

theorem spell_if {b : Bool} {w ws : List Text} {o os : List Opt} (h : Word w o) (hs : Spell ws os) :
    Spell ((if b then w else []) ++ ws) ((if b then o else []) ++ os) := by
  cases b
  · exact hs
  · exact .cons h hs

theorem spell_args (c : Conf) (s p l t y : Text) : Spell
      (["--async".toList] ++ (["-b".toList] ++ (["-s".toList, s] ++ (["-p".toList, p] ++ ((if c.force then ["-x".toList] else []) ++ (verboseArgs c.verbose ++
        (["--loglevel".toList, l] ++ (["--logtarget".toList, t] ++ (["--syslogsocket".toList, y] ++ []))))))))) (opts c s p l t y) := by
  refine .cons (.long "async".toList _ (names_self (by decide +kernel)) (by decide +kernel)) ?_
  refine .cons (.flags ['b'] (by simp) (by decide +kernel)) ?_
  refine .cons (.apart [] 's' s (by simp) (by decide +kernel)) ?_
  refine .cons (.apart [] 'p' p (by simp) (by decide +kernel)) ?_
  refine spell_if (.flags ['x'] (by simp) (by decide +kernel)) ?_
  have ht : Spell (["--loglevel".toList, l] ++ (["--logtarget".toList, t] ++ (["--syslogsocket".toList, y] ++ [])))
      ([("--loglevel".toList, l)] ++ ([("--logtarget".toList, t)] ++ ([("--syslogsocket".toList, y)] ++ []))) := by
    refine .cons (.longApart "loglevel".toList _ l (names_self (by decide +kernel)) (by decide +kernel)) ?_
    refine .cons (.longApart "logtarget".toList _ t (names_self (by decide +kernel)) (by decide +kernel)) ?_
    refine .cons (.longApart "syslogsocket".toList _ y (names_self (by decide +kernel)) (by decide +kernel)) ?_
    exact .nil
  unfold verboseArgs
  by_cases hv : c.verbose > 1
  · rw [if_pos hv]
    refine .cons (.flags _ ?_ ?_) ht
    · intro h
      have := congrArg List.length h
      simp at this
      omega
    · intro x hx
      rw [(List.mem_replicate.1 hx).2]
      decide +kernel
  · rw [if_neg hv]
    have : (c.verbose - 1).toNat = 0 := by omega
    rw [this]
    exact ht

theorem opts_clean (secs : Text → Option Int) (c : Conf) (s p l t y : Text) : ∀ o ∈ opts c s p l t y, Clean secs o := by
  have key : ∀ (n v : Text), n ∈ ["--async".toList, "-b".toList, "-s".toList, "-p".toList, "-x".toList, "-v".toList, "--loglevel".toList, "--logtarget".toList,
      "--syslogsocket".toList] → Clean secs (n, v) := by
    intro n v hn
    have h1 : n ∉ ["--str2sec", "-h", "--help", "-V", "--version"].map String.toList ∧ n ≠ "--timeout".toList := by
      revert n
      decide +kernel
    exact ⟨h1.1, fun h => absurd h h1.2⟩
  rintro ⟨n, v⟩ ho
  refine key n v ?_
  simp only [opts, List.mem_append, List.mem_singleton, Prod.mk.injEq, List.not_mem_nil, or_false] at ho
  rcases ho with h | h | h | h | h | h | h | h | h
  · rw [h.1]; decide +kernel
  · rw [h.1]; decide +kernel
  · rw [h.1]; decide +kernel
  · rw [h.1]; decide +kernel
  · split at h
    · rw [(Prod.mk.inj (List.mem_singleton.1 h)).1]; decide +kernel
    · cases h
  · unfold letters at h
    obtain ⟨x, hx, e⟩ := List.mem_map.1 h
    rw [← (Prod.mk.inj e).1, (List.mem_replicate.1 hx).2]
    decide +kernel
  · rw [h.1]; decide +kernel
  · rw [h.1]; decide +kernel
  · rw [h.1]; decide +kernel


/-! ## What the options do -/

theorem step_set (secs : Text → Option Int) (c : Conf) (v : Text) :
    step secs c ("-s".toList, v) = .next (c.set .socket v) ∧ step secs c ("-p".toList, v) = .next (c.set .pidfile v) ∧
    step secs c ("--loglevel".toList, v) = .next (c.set .loglevel v) ∧ step secs c ("--logtarget".toList, v) = .next (c.set .logtarget v) ∧
    step secs c ("--syslogsocket".toList, v) = .next (c.set .syslogsocket v) ∧ step secs c ("-v".toList, v) = .next { c with verbose := c.verbose + 1 } ∧
    step secs c ("-x".toList, v) = .next { c with force := true } ∧ step secs c ("-b".toList, v) = .next { c with background := true } ∧
    step secs c ("--async".toList, v) = .next { c with async := true } :=
  ⟨rfl, rfl, rfl, rfl, rfl, rfl, rfl, rfl, rfl⟩

theorem options_next {secs : Text → Option Int} {c c' : Conf} {o : Opt} {os : List Opt} (h : step secs c o = .next c') :
    options secs c ([o] ++ os) = options secs c' os := by
  simp [options, h]

theorem options_letters (secs : Text → Option Int) (os : List Opt) : ∀ (n : Nat) (c : Conf),
    options secs c (letters (List.replicate n 'v') ++ os) = options secs { c with verbose := c.verbose + n } os
  | 0, c => by
    have : c.verbose + ((0 : Nat) : Int) = c.verbose := by omega
    rw [this]; rfl
  | n + 1, c => by
    have h : letters (List.replicate (n + 1) 'v') ++ os = [("-v".toList, [])] ++ (letters (List.replicate n 'v') ++ os) := rfl
    rw [h, options_next (step_set secs c []).2.2.2.2.2.1, options_letters secs os n]
    have : c.verbose + 1 + ((n : Nat) : Int) = c.verbose + ((n + 1 : Nat) : Int) := by omega
    simp only [this]

theorem options_opts (secs : Text → Option Int) {c : Conf} {s p l t y : Text} (h1 : c.params .socket = some s) (h2 : c.params .pidfile = some p)
    (h3 : c.params .loglevel = some l) (h4 : c.params .logtarget = some t) (h5 : c.params .syslogsocket = some y) :
    options secs {} (opts c s p l t y) = .next (started c) := by
  unfold opts
  rw [options_next (step_set secs _ []).2.2.2.2.2.2.2.2, options_next (step_set secs _ []).2.2.2.2.2.2.2.1, options_next (step_set secs _ s).1,
    options_next (step_set secs _ p).2.1]
  have hx : ∀ (d : Conf) (os : List Opt), d.force = false → options secs d ((if c.force then [("-x".toList, [])] else []) ++ os) =
      options secs { d with force := c.force } os := by
    intro d os hd
    cases hf : c.force
    · have : ({ d with force := false } : Conf) = d := by rw [← hd]
      rw [this]; rfl
    · exact options_next (step_set secs d []).2.2.2.2.2.2.1
  rw [hx _ _ rfl, options_letters, options_next (step_set secs _ l).2.2.1, options_next (step_set secs _ t).2.2.2.1,
    options_next (step_set secs _ y).2.2.2.2.1, options]
  have hv : (1 : Int) + ((c.verbose - 1).toNat : Int) = max 1 c.verbose := by omega
  refine congrArg Step.next ?_
  unfold started
  simp only [Conf.set, Conf.mk.injEq, true_and, and_true]
  refine ⟨hv, ?_⟩
  funext q
  cases q <;> simp [shared, h1, h2, h3, h4, h5]

theorem fill_given (e : Env) : ∀ (ps : List Param) (c : Conf), (∀ p ∈ ps, ∃ v, c.params p = some v) → fill e c ps = some c
  | [], c, _ => rfl
  | p :: ps, c, h => by
    obtain ⟨v, hv⟩ := h p (by simp)
    rw [fill, hv]
    exact fill_given e ps c (fun q hq => h q (by simp [hq]))

/-! ## C111 -/

/-- C111: the command line is given exactly if all settings are known. -/
theorem C111_given (c : Conf) : (∃ a, asyncArgs c = some a) ↔ Known c := by
  constructor
  · rintro ⟨a, h⟩ p hp
    unfold asyncArgs at h
    split at h
    · rename_i s q l h1 h2 h3
      have h4 : ∀ (ps : List (Text × Param)) l, logArgs c ps = some l → ∀ x ∈ ps, ∃ v, c.params x.2 = some v := by
        intro ps
        induction ps with
        | nil => simp
        | cons x ps ih =>
          intro l hl
          rw [logArgs] at hl
          split at hl
          · rename_i v a hv ha
            intro z hz
            rcases List.mem_cons.1 hz with rfl | hz
            · exact ⟨v, hv⟩
            · exact ih a ha z hz
          · cases hl
      have h5 := h4 _ _ h3
      simp only [shared, List.mem_cons, List.not_mem_nil, or_false] at hp
      rcases hp with rfl | rfl | rfl | rfl | rfl
      · exact ⟨_, h1⟩
      · exact ⟨_, h2⟩
      · exact h5 ("loglevel".toList, .loglevel) (by simp [logParams])
      · exact h5 ("logtarget".toList, .logtarget) (by simp [logParams])
      · exact h5 ("syslogsocket".toList, .syslogsocket) (by simp [logParams])
    · cases h
  · intro h
    obtain ⟨s, p, l, t, y, h1, h2, h3, h4, h5⟩ := known_values h
    exact ⟨_, args_known h1 h2 h3 h4 h5⟩

/-- C111: the server reads what the client meant: socket, pid file, log level, log target, socket of syslog, force and verbosity of the client,
whatever these texts are. Nothing is shown and no configuration is needed (`e` is arbitrary but for the name of the level). -/
theorem C111_same (e : Env) (c : Conf) (a : List Text) (h : asyncArgs c = some a) (hl : ∀ l, c.params .loglevel = some l → e.level l = true) :
    initCmdLine e {} a.tail = ([], .go (started c) []) := by
  obtain ⟨s, p, l, t, y, h1, h2, h3, h4, h5⟩ := known_values ((C111_given c).1 ⟨a, h⟩)
  rw [args_known h1 h2 h3 h4 h5] at h
  cases h
  have hg := (C107_words _ _ _).2 ⟨_, [], spell_args c s p l t y, .inr ⟨rfl, by simp⟩, (List.append_nil _).symm⟩
  have hf : fill e (started c) configParams = some (started c) := by
    refine fill_given e _ _ (fun q hq => ?_)
    have hk := (C111_given c).1 ⟨_, args_known h1 h2 h3 h4 h5⟩
    have hq' : q ∈ shared := by revert q; decide
    obtain ⟨v, hv⟩ := hk q hq'
    exact ⟨v, by simp [started, hq', hv]⟩
  have hll : (started c).params .loglevel = some l := by simp [started, shared, h3]
  have htt : (started c).params .logtarget = some t := by simp [started, shared, h4]
  rw [initCmdLine, List.tail_cons, hg]
  simp only [options_opts e.secs h1 h2 h3 h4 h5, hf, hll, htt, hl l h3, if_true]
  exact C107_go e _ _ rfl rfl

/-- C111: it serves in the background, with these settings, and leaves the configuration to the client. -/
theorem C111_serves (e : Env) (c : Conf) (a : List Text) (h : asyncArgs c = some a) (hl : ∀ l, c.params .loglevel = some l → e.level l = true) :
    main e a = .serve (started c) true false := by
  rw [main, C111_same e c a h hl]
  simp [role, started]

/-- C111: a log level that is none: the server shows the error and does not serve. -/
theorem C111_level (e : Env) (c : Conf) (a : List Text) (h : asyncArgs c = some a) (l : Text) (hp : c.params .loglevel = some l) (hl : e.level l = false) :
    initCmdLine e {} a.tail = ([.error], .code false) ∧ main e a = .over false := by
  obtain ⟨s, p, l, t, y, h1, h2, h3, h4, h5⟩ := known_values ((C111_given c).1 ⟨a, h⟩)
  rw [args_known h1 h2 h3 h4 h5] at h
  cases h
  cases h3.symm.trans hp
  have hg := (C107_words _ _ _).2 ⟨_, [], spell_args c s p l t y, .inr ⟨rfl, by simp⟩, (List.append_nil _).symm⟩
  have hf : fill e (started c) configParams = some (started c) := by
    refine fill_given e _ _ (fun q hq => ?_)
    have hk := (C111_given c).1 ⟨_, args_known h1 h2 h3 h4 h5⟩
    have hq' : q ∈ shared := by revert q; decide
    obtain ⟨v, hv⟩ := hk q hq'
    exact ⟨v, by simp [started, hq', hv]⟩
  have hll : (started c).params .loglevel = some l := by simp [started, shared, h3]
  have htt : (started c).params .logtarget = some t := by simp [started, shared, h4]
  have : initCmdLine e {} (server :: (["--async".toList] ++ (["-b".toList] ++ (["-s".toList, s] ++ (["-p".toList, p] ++
      ((if c.force then ["-x".toList] else []) ++ (verboseArgs c.verbose ++
        (["--loglevel".toList, l] ++ (["--logtarget".toList, t] ++ (["--syslogsocket".toList, y] ++ [])))))))))).tail = ([.error], .code false) := by
    rw [initCmdLine, List.tail_cons, hg]
    simp only [options_opts e.secs h1 h2 h3 h4 h5, hf, hll, htt, hl]
    rfl
  exact ⟨this, by rw [main, this]; rfl⟩

/-- C111: the texts of the settings are words of the command line as they are; the program is the first word. -/
theorem C111_words (c : Conf) (a : List Text) (h : asyncArgs c = some a) :
    a.head? = some "fail2ban-server".toList ∧ ∀ p ∈ shared, ∃ v, c.params p = some v ∧ v ∈ a := by
  obtain ⟨s, p, l, t, y, h1, h2, h3, h4, h5⟩ := known_values ((C111_given c).1 ⟨a, h⟩)
  rw [args_known h1 h2 h3 h4 h5] at h
  cases h
  refine ⟨rfl, fun q hq => ?_⟩
  simp only [shared, List.mem_cons, List.not_mem_nil, or_false] at hq
  rcases hq with rfl | rfl | rfl | rfl | rfl
  · exact ⟨s, h1, by simp⟩
  · exact ⟨p, h2, by simp⟩
  · exact ⟨l, h3, by simp⟩
  · exact ⟨t, h4, by simp⟩
  · exact ⟨y, h5, by simp⟩

/-- Refuted: the name of the process that is given to the client is not the name of the server. -/
theorem C111_refuted_pname (e : Env) (c : Conf) (a : List Text) (h : asyncArgs c = some a) (hl : ∀ l, c.params .loglevel = some l → e.level l = true) :
    ∃ c', main e a = .serve c' true false ∧ c'.params .pname = none :=
  ⟨_, C111_serves e c a h hl, by simp [started, shared]⟩

/-- C111: the executed file: beside the interpreted program, else beside the called one, else in `bin`; if it cannot be executed, then that of
`PATH`, with the same words. -/
theorem C111_file (p : Paths) (c : Conf) (a : List Text) (h : asyncArgs c = some a) (hc : c.async = false) :
    ∃ f r, startAsync p c = some (⟨f, false, a⟩ :: r) ∧
      (p.isFile p.own = true → f = p.own) ∧ (p.isFile p.own = false → p.isFile p.caller = true → f = p.caller) ∧
      (p.isFile p.own = false → p.isFile p.caller = false → f = p.bin) ∧
      (p.fails f = false → r = []) ∧ (p.fails f = true → r = [⟨"fail2ban-server".toList, true, a⟩]) := by
  refine ⟨serverPath p, if p.fails (serverPath p) then [⟨server, true, a⟩] else [], ?_, ?_, ?_, ?_, ?_, ?_⟩
  · simp [startAsync, h, launch, hc]
  · intro h1; simp [serverPath, h1]
  · intro h1 h2; simp [serverPath, h1, h2]
  · intro h1 h2; simp [serverPath, h1, h2]
  · intro h1; rw [h1]; rfl
  · intro h1; rw [h1]; rfl

/-- C111: from a client with `--async` the same server gets the same options, from the same interpreter. -/
theorem C111_spawn (p : Paths) (c : Conf) (a : List Text) (h : asyncArgs c = some a) (hc : c.async = true) :
    startAsync p c = some [⟨p.python, false, p.python :: serverPath p :: a.tail⟩] := by
  simp [startAsync, h, launch, hc]

/-! ### Which role the program has -/

/-- C111: the server serves exactly if there is no command but `start`, and it is not interactive; else everything is for the client. -/
theorem C111_role (c : Conf) (args : List Text) :
    role (.go c args) = if c.interactive = false ∧ (args = [] ∨ args = ["start".toList]) then .serve c c.background (!c.async) else .client := by
  unfold role
  cases hi : c.interactive
  · match args with
    | [] => simp [hi]
    | [w] =>
      by_cases hw : w = "start".toList
      · subst hw; simp [hi]
      · have h2 : ¬ (some w = some "start".toList) := fun h => hw (Option.some.inj h)
        have h3 : ¬ ([w] = ["start".toList]) := fun h => hw (List.cons.inj h).1
        simp only [List.length_singleton, List.head?_cons, true_and, and_true, hi]
        rw [if_neg h2, if_pos (by simp), if_neg (fun h => h.elim (fun h => by cases h) h3)]
    | u :: v :: r => simp
  · simp [hi]

/-- C111: commands other than `start` never start a server in this process. -/
theorem C111_command (e : Env) (argv : List Text) (c : Conf) (d k : Bool) (h : main e argv = .serve c d k) :
    ∃ out args, initCmdLine e {} argv.tail = (out, .go c args) ∧ (args = [] ∨ args = ["start".toList]) ∧ c.interactive = false ∧ d = c.background ∧ k = !c.async := by
  unfold main at h
  generalize hr : initCmdLine e {} argv.tail = r at h
  obtain ⟨out, ret⟩ := r
  cases ret with
  | code b => cases h
  | raise => cases h
  | go c' args =>
    simp only [C111_role] at h
    split at h
    · rename_i hc
      cases h
      exact ⟨out, args, rfl, hc.2, hc.1, rfl, rfl⟩
    · cases h

/-! ### Examples -/

/-- Settings of a client: `fail2ban-client -s -x -vv -x start` -/
def exConf : Conf :=
  { force := true, verbose := 3, params := fun
    | .socket => some "-x".toList
    | .pidfile => some "/run/f.pid".toList
    | .loglevel => some "INFO".toList
    | .logtarget => some "--help".toList
    | .syslogsocket => some "auto".toList
    | .pname => some "f2b".toList }

example : asyncArgs exConf = some (["fail2ban-server", "--async", "-b", "-s", "-x", "-p", "/run/f.pid", "-x", "-vv", "--loglevel", "INFO", "--logtarget", "--help",
    "--syslogsocket", "auto"].map String.toList) := by decide +kernel

example : Known exConf := by
  intro p _
  cases p <;> exact ⟨_, rfl⟩

example : (started exConf).params .socket = some "-x".toList ∧ (started exConf).params .logtarget = some "--help".toList ∧ (started exConf).verbose = 3 ∧
    (started exConf).force = true ∧ (started exConf).params .pname = none := by decide +kernel

example : verboseArgs 0 = [] ∧ (started { exConf with verbose := 0 }).verbose = 1 := by decide +kernel

def exPaths : Paths :=
  { isFile := fun f => f == "/b".toList, own := "/a".toList, caller := "/b".toList, bin := "/c".toList, python := "/py".toList, fails := fun f => f == "/b".toList }

example : (startAsync exPaths exConf).map (·.map (fun x => (x.file, x.search))) = some [("/b".toList, false), ("fail2ban-server".toList, true)] := by decide +kernel

example : (startAsync exPaths { exConf with async := true }).map (·.map (fun x => x.args.take 4)) =
    some [["/py", "/b", "--async", "-b"].map String.toList] := by decide +kernel

end Verif.StartArgs
