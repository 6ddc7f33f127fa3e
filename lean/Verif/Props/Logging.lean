import Verif.Lemmas.Logging

set_option linter.unusedSimpArgs false

/-!
# C95 — Where the log of the server goes

For all worlds (files, sockets, which change between commands), all states and all histories of commands.
-/

namespace Verif.Logging

open Verif.LoggingSpec

/-! ## Examples -/

def exampleWorld : World where
  file := fun p => if p = "/var/log/f2b.log".toList then some 1 else none
  isSocket := fun p => decide (p = "/dev/log".toList ∨ p = "/run/other".toList)
  connects := fun _ => true
  journal := false
  system := some "/dev/log".toList
  facility := fun f => decide (f = "DAEMON".toList ∨ f = "USER".toList)
  root := 30

/-- The log was rotated. -/
def exampleLater : World := { exampleWorld with file := fun p => if p = "/var/log/f2b.log".toList then some 2 else none }

def exampleStart : State := (start exampleWorld none none (some { name := "/var/log/f2b.log".toList }) {}).2

example : exampleStart.target = some "/var/log/f2b.log".toList ∧ exampleStart.level = some "INFO".toList ∧ exampleStart.socket = some "auto".toList := by
  decide +kernel

example : logged exampleLater exampleStart 20 = [(.file "/var/log/f2b.log".toList, some 1)] ∧ logged exampleLater exampleStart 10 = [] := by decide +kernel

example : logged exampleLater (flushLogs exampleLater exampleStart).2 20 = [(.file "/var/log/f2b.log".toList, some 2)] := by decide +kernel

/-- A target that is not possible changes nothing. -/
example : (setLogTarget exampleWorld { name := "/none".toList } exampleStart).1 = .failed ∧
    (setLogTarget exampleWorld { name := "/none".toList } exampleStart).2.handlers = exampleStart.handlers := by decide +kernel

def exampleSyslog : State := (setLogTarget exampleWorld { name := "SYSLOG".toList, facility := some "user".toList } exampleStart).2

example : exampleSyslog.handlers = [⟨.syslog "/dev/log".toList "USER".toList, some (.std 0 false false), none⟩] ∧
    exampleSyslog.socket = some "/dev/log".toList := by decide +kernel

/-! ## Targets -/

/-- **C95 (change of target).** If the new target can be used, the log goes to it and only to it, in the format of its options, and the
target is shown; the level is unchanged. -/
theorem C95_target (w : World) (t : Target) (s : State) (hs : s.target ≠ some t.name) (hi : ¬Named t.name "INHERITED") (d : Dest) (n : Option Nat)
    (h : Goes w s.socket t d n) :
    (setLogTarget w t s).1 = .ok ∧ (setLogTarget w t s).2.target = some t.name ∧
    (∃ v f, VerboseIs w s v ∧ (setLogTarget w t s).2.verbose = v ∧ FormatIs t v f ∧ (setLogTarget w t s).2.handlers = [⟨d, f, n⟩]) ∧
    (setLogTarget w t s).2.level = s.level ∧ (setLogTarget w t s).2.real = s.real ∧
    (setLogTarget w t s).2.socket = if Named t.name "SYSLOG" ∧ s.socket = some "auto".toList then w.system else s.socket := by
  rw [set_goes w t s hs hi h]
  exact ⟨rfl, rfl, ⟨_, _, verbosity_spec w s, rfl, format_spec t _, rfl⟩, rfl, rfl, rfl⟩

/-- **C95 (target that cannot be used).** Otherwise the command fails, and the log goes on as before. -/
theorem C95_kept (w : World) (t : Target) (s : State) (hs : s.target ≠ some t.name) (hi : ¬Named t.name "INHERITED")
    (h : ∀ d n, ¬Goes w s.socket t d n) :
    (setLogTarget w t s).1 ≠ .ok ∧ (setLogTarget w t s).2.target = s.target ∧ (setLogTarget w t s).2.handlers = s.handlers ∧
    (setLogTarget w t s).2.level = s.level ∧ (setLogTarget w t s).2.real = s.real ∧ (setLogTarget w t s).2.verbose = s.verbose := by
  obtain ⟨h1, h2⟩ := set_fails w t s hs hi h
  rw [h2]
  refine ⟨?_, rfl, rfl, rfl, rfl, rfl⟩
  rcases h1 with h1 | h1 <;> rw [h1] <;> simp

/-- A target has one destination at most. -/
theorem C95_one (w : World) (socket : Option Str) (t : Target) (d d' : Dest) (n n' : Option Nat) (h : Goes w socket t d n) (h' : Goes w socket t d' n') :
    d = d' ∧ n = n' := by
  have h1 := (connect_ok w t socket d n).2 h
  have h2 := (connect_ok w t socket d' n').2 h'
  rw [h1] at h2
  cases h2
  exact ⟨rfl, rfl⟩

/-- **C95 (the log goes where it is shown).** After all histories of commands, each message goes to exactly the target shown, exactly if its
level is at least the one shown (`NOTSET` is that of the root logger). -/
theorem C95_shown (hs : List Handler) (cs : List (World × Cmd)) (n v : Str) (m : Int)
    (hn : (run { handlers := hs } cs).target = some n) (hi : ¬Named n "INHERITED")
    (hv : (run { handlers := hs } cs).level = some v) (hm : LevelIs v m) :
    ∃ d, IsDestOf n d ∧ ∀ w l, (logged w (run { handlers := hs } cs) l).map (·.1) = if (if m = 0 then w.root else m) ≤ l then [d] else [] := by
  have hinv := inv_run cs (inv_start { handlers := hs } rfl rfl)
  generalize run { handlers := hs } cs = s at hinv hn hv
  obtain ⟨d, f, k, hh, hd⟩ := hinv.dest n hn hi
  have hr := level_unique (hinv.level v hv) hm
  refine ⟨d, hd, fun w l => ?_⟩
  unfold logged effective
  rw [hr, hh]
  generalize (if m = 0 then w.root else m) = e
  split <;> rfl

/-- **C95 (levels).** A level that exists is set and shown in upper case; any other is refused, and nothing changes. -/
theorem C95_level (v : Str) (s : State) (h : s.level ≠ some (v.map Char.toUpper)) :
    (∀ m, LevelIs (v.map Char.toUpper) m → (setLogLevel v s).1 = .ok ∧ (setLogLevel v s).2 = { s with level := some (v.map Char.toUpper), real := m }) ∧
    ((∀ m, ¬LevelIs (v.map Char.toUpper) m) → setLogLevel v s = (.raised, s)) := by
  rcases level_cases v s with ⟨e, _⟩ | ⟨_, l, hl, e⟩ | ⟨_, hn, e⟩
  · exact absurd e h
  · rw [e]
    refine ⟨fun m hm => ?_, fun hn => absurd hl (hn l)⟩
    rw [level_unique hm hl]
    exact ⟨rfl, rfl⟩
  · rw [e]
    exact ⟨fun m hm => absurd hm (hn m), fun _ => rfl⟩

/-- **C95 (rotation).** After `flushlogs`, messages are written to the file that is at the path of the target then, whatever it was before
and whatever happens to the file later. -/
theorem C95_rotated (hs : List Handler) (cs : List (World × Cmd)) (p : Str) (hp : (run { handlers := hs } cs).target = some p)
    (hi : ¬Named p "INHERITED") (hr : ¬Reserved p) (w : World) (k : Nat) (hw : w.file p = some k) (w' : World) (l : Int)
    (hl : (if (run { handlers := hs } cs).real = 0 then w'.root else (run { handlers := hs } cs).real) ≤ l) :
    (flushLogs w (run { handlers := hs } cs)).1 = "rolled over" ∧
    logged w' (flushLogs w (run { handlers := hs } cs)).2 l = [(.file p, some k)] := by
  have hinv := inv_run cs (inv_start { handlers := hs } rfl rfl)
  generalize run { handlers := hs } cs = s at hinv hp hl
  obtain ⟨d, f, k', hh, hd⟩ := hinv.dest p hp hi
  have hd' : d = .file p := by
    cases d with
    | journal => exact absurd (.inl hd) hr
    | syslog => exact absurd (.inr (.inl hd)) hr
    | stdout => exact absurd (hd.elim (fun h => .inr (.inr (.inl h))) (fun h => .inr (.inr (.inr (.inl h))))) hr
    | stderr => exact absurd (.inr (.inr (.inr (.inr hd)))) hr
    | file q => rw [hd.1]
  subst hd'
  have hc : ["STDERR".toList, "STDOUT".toList, "SYSLOG".toList, "SYSTEMD-JOURNAL".toList].contains p = false := by
    rw [← Bool.not_eq_true, List.contains_iff_mem]
    intro hm
    simp only [List.mem_cons, List.not_mem_nil, or_false] at hm
    rcases hm with h | h | h | h
    · exact hr (.inr (.inr (.inr (.inr (by rw [h]; decide +kernel)))))
    · exact hr (.inr (.inr (.inl (by rw [h]; decide +kernel))))
    · exact hr (.inr (.inl (by rw [h]; decide +kernel)))
    · exact hr (.inl (by rw [h]; decide +kernel))
  unfold flushLogs
  rw [hp]
  dsimp only
  rw [hc]
  refine ⟨rfl, ?_⟩
  unfold logged effective
  simp only [Bool.false_eq_true, if_false, if_pos hl, hh, List.map_cons, List.map_nil, Handler.roll, hw]

/-- **C95 (flush does not disturb).** `flushlogs` keeps destinations, formats and settings. -/
theorem C95_flush (w : World) (s : State) : (flushLogs w s).2.handlers.map (fun h => (h.dest, h.fmt)) = s.handlers.map (fun h => (h.dest, h.fmt)) ∧
    (flushLogs w s).2.target = s.target ∧ (flushLogs w s).2.level = s.level ∧ (flushLogs w s).2.real = s.real ∧
    (flushLogs w s).2.socket = s.socket ∧ (flushLogs w s).2.verbose = s.verbose ∧
    ((flushLogs w s).1 = "flushed" ↔ s.target ∈ ["STDERR", "STDOUT", "SYSLOG", "SYSTEMD-JOURNAL"].map (fun n => some n.toList)) := by
  have hm : (s.handlers.map (Handler.roll w)).map (fun h => (h.dest, h.fmt)) = s.handlers.map (fun h => (h.dest, h.fmt)) := by
    rw [List.map_map]
    apply List.map_congr_left
    intro h _
    simp only [Function.comp, Handler.roll]
    split <;> rfl
  unfold flushLogs
  cases ht : s.target with
  | none => exact ⟨hm, rfl, rfl, rfl, rfl, rfl, by simp⟩
  | some t =>
    dsimp only
    by_cases hc : ["STDERR".toList, "STDOUT".toList, "SYSLOG".toList, "SYSTEMD-JOURNAL".toList].contains t = true
    · rw [if_pos hc]
      refine ⟨rfl, ht, rfl, rfl, rfl, rfl, fun _ => ?_, fun _ => rfl⟩
      rw [List.contains_iff_mem] at hc
      simpa using hc
    · rw [if_neg hc]
      refine ⟨hm, rfl, rfl, rfl, rfl, rfl, fun h => absurd (show "rolled over" = "flushed" from h) (by decide), fun h => absurd ?_ hc⟩
      rw [List.contains_iff_mem]
      simpa using h

/-- **C95 (socket).** `syslogsocket` is shown as set, and used by the next change of the target to `SYSLOG` from another one. -/
theorem C95_socket (w : World) (p : Str) (s : State) : (setSyslogSocket w p s).1 = .ok ∧ (setSyslogSocket w p s).2 = { s with socket := some p } := by
  rw [socket_spec]; exact ⟨rfl, rfl⟩

/-- **C95 (start).** The server starts with the level, target and socket of the configuration, if they are possible. -/
theorem C95_start (w : World) (socket level : Option Str) (t : Target) (hi : ¬Named t.name "INHERITED") (hs : List Handler) (m : Int)
    (hm : LevelIs ((level.getD "INFO".toList).map Char.toUpper) m) (d : Dest) (n : Option Nat)
    (hg : Goes w (some (socket.getD "auto".toList)) t d n) :
    let r := start w socket level (some t) { handlers := hs }
    r.1 = .ok ∧ r.2.level = some ((level.getD "INFO".toList).map Char.toUpper) ∧ r.2.real = m ∧ r.2.target = some t.name ∧
    ∃ f, r.2.handlers = [⟨d, f, n⟩] := by
  intro r
  have e : r = start w socket level (some t) { handlers := hs } := rfl
  unfold start at e
  rw [socket_spec] at e
  dsimp only at e
  have hl := (C95_level (level.getD "INFO".toList) { handlers := hs, socket := some (socket.getD "auto".toList) } (by simp)).1 m hm
  simp only [Option.getD_none] at e
  rw [hl.1, hl.2] at e
  dsimp only at e
  rw [set_goes w t _ (by simp) hi hg] at e
  dsimp only at e
  rw [e]
  exact ⟨rfl, rfl, rfl, rfl, _, rfl⟩

/-! ## What does not hold -/

/-- A command that is no change to a target other than `SYSLOG` -/
def noOther : Cmd → Prop
  | .target t => t.name = "SYSLOG".toList
  | _ => True

/-- **C95, refuted: changed socket and options are used.** If the log goes to a socket of syslog, and another socket is set (and shown) or
`SYSLOG` with other options, messages still go to the first socket with the first options, until the target is changed to another one. -/
theorem C95_refuted_socket (s : State) (hs : s.target = some "SYSLOG".toList) (a f : Str) (fm : Option Fmt) (hh : s.handlers = [⟨.syslog a f, fm, none⟩]) (p : Str)
    (w : World) (cs : List (World × Cmd)) (hc : ∀ c ∈ cs, noOther c.2) :
    (setSyslogSocket w p s).1 = .ok ∧ (setSyslogSocket w p s).2.socket = some p ∧
    (run (setSyslogSocket w p s).2 cs).handlers = [⟨.syslog a f, fm, none⟩] := by
  rw [socket_spec]
  refine ⟨rfl, rfl, ?_⟩
  dsimp only
  have key : ∀ (cs : List (World × Cmd)) (s : State), s.target = some "SYSLOG".toList → s.handlers = [⟨.syslog a f, fm, none⟩] → (∀ c ∈ cs, noOther c.2) →
      (run s cs).handlers = [⟨.syslog a f, fm, none⟩] := by
    intro cs
    induction cs with
    | nil => exact fun s _ h _ => h
    | cons c cs ih =>
      intro s ht h hc
      have hk : (step s c).target = some "SYSLOG".toList ∧ (step s c).handlers = [⟨.syslog a f, fm, none⟩] := by
        obtain ⟨w, c⟩ := c
        cases c with
        | level v =>
          show (setLogLevel v s).2.target = _ ∧ (setLogLevel v s).2.handlers = _
          rcases level_cases v s with ⟨_, e⟩ | ⟨_, l, hl, e⟩ | ⟨_, _, e⟩ <;> rw [e] <;> exact ⟨ht, h⟩
        | target t =>
          have hn : t.name = "SYSLOG".toList := hc _ (List.mem_cons_self ..)
          show (setLogTarget w t s).2.target = _ ∧ (setLogTarget w t s).2.handlers = _
          rw [set_same w t s (by rw [ht, hn])]
          exact ⟨ht, h⟩
        | socket q =>
          show (setSyslogSocket w q s).2.target = _ ∧ (setSyslogSocket w q s).2.handlers = _
          rw [socket_spec]
          exact ⟨ht, h⟩
        | flush =>
          show (flushLogs w s).2.target = _ ∧ (flushLogs w s).2.handlers = _
          have hl : ["STDERR".toList, "STDOUT".toList, "SYSLOG".toList, "SYSTEMD-JOURNAL".toList].contains "SYSLOG".toList = true := by decide +kernel
          unfold flushLogs
          rw [ht]
          dsimp only
          rw [if_pos hl]
          exact ⟨ht, h⟩
      exact ih (step s c) hk.1 hk.2 (fun c' hc' => hc c' (List.mem_cons_of_mem _ hc'))
  exact key cs _ hs hh hc

example : exampleSyslog.target = some "SYSLOG".toList ∧ (setSyslogSocket exampleWorld "/run/other".toList exampleSyslog).2.socket = some "/run/other".toList ∧
    logged exampleWorld (setSyslogSocket exampleWorld "/run/other".toList exampleSyslog).2 20 = [(.syslog "/dev/log".toList "USER".toList, none)] := by
  decide +kernel

/-- **C95, refuted: options of a target can be changed.** A target with the name of the one shown changes nothing, whatever its options. -/
theorem C95_refuted_options (w : World) (t : Target) (s : State) (h : s.target = some t.name) : setLogTarget w t s = (.ok, s) := set_same w t s h

/-- **C95, refuted: the server does not start without a log.** It starts, though its target cannot be used, with no target. -/
theorem C95_refuted_start : (start exampleWorld none none (some { name := "/none".toList }) {}).1 = .ok ∧
    (start exampleWorld none none (some { name := "/none".toList }) {}).2.target = none ∧
    ∀ l, logged exampleWorld (start exampleWorld none none (some { name := "/none".toList }) {}).2 l = [] := by
  refine ⟨by decide +kernel, by decide +kernel, fun l => ?_⟩
  have : (start exampleWorld none none (some { name := "/none".toList }) {}).2.handlers = [] := by decide +kernel
  unfold logged
  rw [this]
  simp

/-- **C95, refuted: the answer of `flushlogs` is right.** For a target in lower case or `SYSOUT` it is "rolled over", though no file is opened. -/
theorem C95_refuted_flush : ∃ s : State, s.handlers.map (·.dest) = [.stdout] ∧ s = run {} [(exampleWorld, .target { name := "SYSOUT".toList })] ∧
    (flushLogs exampleWorld s).1 = "rolled over" := ⟨_, by decide +kernel, rfl, by decide +kernel⟩

end Verif.Logging
