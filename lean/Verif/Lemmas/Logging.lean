import Verif.Spec.Logging

set_option linter.unusedSimpArgs false

/-!
# Log of the server — lemmas
-/

namespace Verif.Logging

open Verif.LoggingSpec

theorem named_iff (n : Str) (r : String) : upper n = r.toList ↔ Named n r := Iff.rfl

theorem named_eq {n : Str} {r r' : String} (h : Named n r) (h' : Named n r') : r = r' := by
  unfold Named at h h'
  rw [h] at h'
  exact String.toList_inj.1 h'

theorem asBool_iff (s : Str) : asBool s = true ↔ Yes s := by
  unfold asBool Yes lower
  rw [List.contains_iff_mem]

/-! ## Levels -/

theorem isNumber_iff (s : Str) (n : Nat) : IsNumber s n ↔ s ≠ [] ∧ s.all Char.isDigit = true ∧ number s = n := by
  constructor
  · intro h
    induction h with
    | one c h => exact ⟨by simp, by simp [h], by simp [number]⟩
    | more s n c _ hc ih =>
      refine ⟨by simp, by rw [List.all_append, ih.2.1]; simp [hc], ?_⟩
      unfold number
      rw [List.foldl_append]
      have : s.foldl (fun n c => 10 * n + (c.toNat - '0'.toNat)) 0 = n := ih.2.2
      rw [this]; rfl
  · rintro ⟨h1, h2, rfl⟩
    have key : ∀ (k : Nat) (s : Str), s.length = k → s ≠ [] → s.all Char.isDigit = true → IsNumber s (number s) := by
      intro k
      induction k with
      | zero => intro s hs hn; exact absurd (List.eq_nil_of_length_eq_zero hs) hn
      | succ k ih =>
        intro s hs hn ha
        rcases List.eq_nil_or_concat s with rfl | ⟨t, c, rfl⟩
        · exact absurd rfl hn
        · rw [List.concat_eq_append] at *
          simp only [List.all_append, Bool.and_eq_true, List.all_cons, List.all_nil, and_true] at ha
          by_cases ht : t = []
          · subst ht
            have := IsNumber.one c ha.2
            simpa [number] using this
          · have h3 := ih t (by simpa using hs) ht ha.1
            have := IsNumber.more t _ c h3 ha.2
            unfold number
            rw [List.foldl_append]
            exact this
    exact key _ s rfl h1 h2

theorem levelOf_iff (v : Str) (l : Int) : levelOf v = some l ↔ LevelIs v l := by
  unfold levelOf
  by_cases hd : v ≠ [] ∧ v.all Char.isDigit = true
  · have hc : (!v.isEmpty && v.all Char.isDigit) = true := by
      rw [hd.2, Bool.and_true]
      cases h : v with
      | nil => exact absurd h hd.1
      | cons => rfl
    rw [if_pos hc]
    constructor
    · rintro h
      cases h
      exact .number _ ((isNumber_iff _ _).2 ⟨hd.1, hd.2, rfl⟩)
    · intro h
      cases h with
      | number n h => rw [((isNumber_iff _ _).1 h).2.2]
      | name r l hr hn =>
        exfalso
        have hall := hd.2
        rw [hn] at hall
        revert hall
        simp only [levels, List.mem_cons, Prod.mk.injEq, List.not_mem_nil, or_false] at hr
        rcases hr with h | h | h | h | h | h | h | h | h | h | h | h <;> (rw [h.1]; decide +kernel)
  · have hc : ¬(!v.isEmpty && v.all Char.isDigit) = true := by
      intro hc
      rw [Bool.and_eq_true] at hc
      apply hd
      refine ⟨?_, hc.2⟩
      intro h
      rw [h] at hc
      exact absurd hc.1 (by decide)
    rw [if_neg hc]
    constructor
    · intro h
      obtain ⟨p, hp, rfl⟩ := Option.map_eq_some_iff.1 h
      have hm := List.mem_of_find?_eq_some hp
      have hq := List.find?_some hp
      exact .name p.1 p.2 hm (eq_of_beq hq).symm
    · intro h
      cases h with
      | number n h => exact absurd ⟨((isNumber_iff _ _).1 h).1, ((isNumber_iff _ _).1 h).2.1⟩ hd
      | name r l hr hn =>
        rw [hn]
        simp only [levels, List.mem_cons, Prod.mk.injEq, List.not_mem_nil, or_false] at hr
        rcases hr with h | h | h | h | h | h | h | h | h | h | h | h <;> (rw [h.1, h.2]; decide +kernel)

/-! ## Target -/

theorem facility_iff (w : World) (t : Target) (f : Str) :
    (if w.facility (upper (t.facility.getD "DAEMON".toList)) then upper (t.facility.getD "DAEMON".toList) else "DAEMON".toList) = f ↔ FacilityIs w t f := by
  unfold FacilityIs
  cases ht : t.facility with
  | none =>
    have hd : upper "DAEMON".toList = "DAEMON".toList := by decide +kernel
    simp only [Option.getD_none, hd, ite_self]
    constructor
    · rintro rfl; exact .inr ⟨rfl, by intro g hg; cases hg⟩
    · rintro (⟨g, hg, _⟩ | ⟨h, _⟩)
      · cases hg
      · exact h.symm
  | some g =>
    simp only [Option.getD_some]
    cases hw : w.facility (upper g) with
    | true =>
      simp only [if_true]
      constructor
      · rintro rfl; exact .inl ⟨g, rfl, rfl, hw⟩
      · rintro (⟨g', hg, h, _⟩ | ⟨_, h⟩)
        · cases hg; exact h.symm
        · have := h g rfl
          rw [show g.map Char.toUpper = upper g from rfl, hw] at this; cases this
    | false =>
      simp only [Bool.false_eq_true, if_false]
      constructor
      · rintro rfl; exact .inr ⟨rfl, by intro g' hg; cases hg; exact hw⟩
      · rintro (⟨g', hg, h, h'⟩ | ⟨h, _⟩)
        · cases hg; rw [h] at h'; rw [show g.map Char.toUpper = upper g from rfl, hw] at h'; cases h'
        · exact h.symm

theorem socket_iff (w : World) (socket : Option Str) (p : Str) :
    (if socket = some "auto".toList then w.system else socket) = some p ↔ SocketIs w socket p := by
  unfold SocketIs
  by_cases h : socket = some "auto".toList
  · rw [if_pos h]
    constructor
    · exact fun h' => .inl ⟨h, h'⟩
    · rintro (⟨_, h'⟩ | ⟨h1, h2⟩)
      · exact h'
      · rw [h] at h1; cases h1; exact absurd rfl h2
  · rw [if_neg h]
    constructor
    · intro h'
      refine .inr ⟨h', ?_⟩
      rintro rfl
      exact h h'
    · rintro (⟨h1, _⟩ | ⟨h1, _⟩)
      · exact absurd h1 h
      · exact h1

theorem connect_ok (w : World) (t : Target) (socket : Option Str) (d : Dest) (n : Option Nat) :
    (connect w t socket).2 = .ok (d, n) ↔ Goes w socket t d n := by
  unfold connect
  dsimp only
  by_cases h1 : upper t.name = "SYSTEMD-JOURNAL".toList
  · rw [if_pos h1]
    have hn : Named t.name "SYSTEMD-JOURNAL" := h1
    cases hj : w.journal with
    | true =>
      constructor
      · intro h; cases h; exact .journal hn hj
      · intro h
        cases h with
        | journal => rfl
        | syslog _ _ h => exact absurd (named_eq hn h) (by decide)
        | stdout h => exact absurd h (fun h => h.elim (fun h => absurd (named_eq hn h) (by decide)) (fun h => absurd (named_eq hn h) (by decide)))
        | stderr h => exact absurd (named_eq hn h) (by decide)
        | file _ h => exact absurd (.inl hn) h
    | false =>
      constructor
      · intro h; cases h
      · intro h
        cases h with
        | journal _ h => rw [hj] at h; cases h
        | syslog _ _ h => exact absurd (named_eq hn h) (by decide)
        | stdout h => exact absurd h (fun h => h.elim (fun h => absurd (named_eq hn h) (by decide)) (fun h => absurd (named_eq hn h) (by decide)))
        | stderr h => exact absurd (named_eq hn h) (by decide)
        | file _ h => exact absurd (.inl hn) h
  rw [if_neg h1]
  by_cases h2 : upper t.name = "SYSLOG".toList
  · rw [if_pos h2]
    have hn : Named t.name "SYSLOG" := h2
    dsimp only
    have hs := socket_iff w socket
    have hf := facility_iff w t
    generalize (if socket = some "auto".toList then w.system else socket) = so at hs ⊢
    generalize (if w.facility (upper (t.facility.getD "DAEMON".toList)) then upper (t.facility.getD "DAEMON".toList) else "DAEMON".toList) = fa at hf ⊢
    constructor
    · intro h
      cases so with
      | none => cases h
      | some p =>
        dsimp only at h
        split at h
        · split at h
          · cases h
            exact .syslog p fa hn ((hs p).1 rfl) (by assumption) (by assumption) ((hf fa).1 rfl)
          · cases h
        · cases h
    · intro h
      cases h with
      | syslog p f _ h3 h4 h5 h6 =>
        rw [(hs p).2 h3]
        dsimp only
        rw [if_pos h4, if_pos h5, (hf f).2 h6]
      | journal h => exact absurd (named_eq hn h) (by decide)
      | stdout h => exact absurd h (fun h => h.elim (fun h => absurd (named_eq hn h) (by decide)) (fun h => absurd (named_eq hn h) (by decide)))
      | stderr h => exact absurd (named_eq hn h) (by decide)
      | file _ h => exact absurd (.inr (.inl hn)) h
  rw [if_neg h2]
  by_cases h3 : upper t.name = "STDOUT".toList ∨ upper t.name = "SYSOUT".toList
  · rw [if_pos h3]
    have hn : Named t.name "STDOUT" ∨ Named t.name "SYSOUT" := h3
    constructor
    · intro h; cases h; exact .stdout hn
    · intro h
      cases h with
      | stdout => rfl
      | journal h => exact absurd h h1
      | syslog _ _ h => exact absurd h h2
      | stderr h => exact absurd hn (fun h' => h'.elim (fun h' => absurd (named_eq h h') (by decide)) (fun h' => absurd (named_eq h h') (by decide)))
      | file _ h => exact absurd (hn.elim (fun h => .inr (.inr (.inl h))) (fun h => .inr (.inr (.inr (.inl h))))) h
  rw [if_neg h3]
  by_cases h4 : upper t.name = "STDERR".toList
  · rw [if_pos h4]
    constructor
    · intro h; cases h; exact .stderr h4
    · intro h
      cases h with
      | stderr => rfl
      | journal h => exact absurd h h1
      | syslog _ _ h => exact absurd h h2
      | stdout h => exact absurd h h3
      | file _ h => exact absurd (.inr (.inr (.inr (.inr h4)))) h
  rw [if_neg h4]
  have hr : ¬Reserved t.name := by
    rintro (h | h | h | h | h)
    · exact h1 h
    · exact h2 h
    · exact h3 (.inl h)
    · exact h3 (.inr h)
    · exact h4 h
  constructor
  · intro h
    cases hw : w.file t.name with
    | none => rw [hw] at h; cases h
    | some k => rw [hw] at h; cases h; exact .file k hr hw
  · intro h
    cases h with
    | file k _ h => rw [h]
    | journal h => exact absurd h h1
    | syslog _ _ h => exact absurd h h2
    | stdout h => exact absurd h h3
    | stderr h => exact absurd h h4

theorem connect_error (w : World) (t : Target) (socket : Option Str) (r : Res) (h : (connect w t socket).2 = .error r) :
    r = .failed ∨ r = .raised := by
  unfold connect at h
  dsimp only at h
  split at h
  · dsimp only at h; split at h
    · cases h
    · cases h; exact .inr rfl
  · split at h
    · dsimp only at h
      split at h
      · cases h; exact .inl rfl
      · split at h
        · split at h
          · cases h
          · cases h; exact .inr rfl
        · cases h; exact .inl rfl
    · split at h
      · cases h
      · split at h
        · cases h
        · dsimp only at h; split at h
          · cases h; exact .inl rfl
          · cases h

theorem connect_socket (w : World) (t : Target) (socket : Option Str) :
    (connect w t socket).1 = if Named t.name "SYSLOG" ∧ socket = some "auto".toList then w.system else socket := by
  unfold connect
  dsimp only
  by_cases h1 : upper t.name = "SYSTEMD-JOURNAL".toList
  · have hx : ¬(Named t.name "SYSLOG" ∧ socket = some "auto".toList) := fun h => absurd (named_eq h1 h.1) (by decide)
    rw [if_pos h1, if_neg hx]
  rw [if_neg h1]
  by_cases h2 : upper t.name = "SYSLOG".toList
  · rw [if_pos h2]
    dsimp only
    by_cases h : socket = some "auto".toList
    · rw [if_pos h, if_pos ⟨h2, h⟩]
    · rw [if_neg h, if_neg (fun h' => h h'.2)]
  have hx : ¬(Named t.name "SYSLOG" ∧ socket = some "auto".toList) := fun h' => h2 h'.1
  rw [if_neg h2, if_neg hx]
  split
  · rfl
  · split <;> rfl

theorem goes_dest {w : World} {socket : Option Str} {t : Target} {d : Dest} {n : Option Nat} (h : Goes w socket t d n) : IsDestOf t.name d := by
  cases h with
  | journal h => exact h
  | syslog _ _ h => exact h
  | stdout h => exact h
  | stderr h => exact h
  | file _ h => exact ⟨rfl, h⟩

/-- An opened file is known exactly for files. -/
theorem goes_stream {w : World} {socket : Option Str} {t : Target} {d : Dest} {n : Option Nat} (h : Goes w socket t d n) :
    (∀ p, d = .file p → n = w.file p ∧ n ≠ none) := by
  intro p hp
  cases h with
  | file k _ h => cases hp; exact ⟨h.symm, by simp⟩
  | _ => cases hp

theorem verbosity_spec (w : World) (s : State) : VerboseIs w s (verbosity w s) := by
  unfold VerboseIs verbosity
  constructor
  · intro x hx
    rw [hx]; dsimp only; split <;> rfl
  · intro hx
    rw [hx]
    dsimp only
    unfold effective
    generalize (if s.real = 0 then w.root else s.real) = e
    constructor
    · intro h; rw [if_neg (by omega)]
    · intro h; rw [if_pos h]; congr 1; omega

theorem format_spec (t : Target) (v : Option Int) : FormatIs t v (format t v) := by
  unfold FormatIs format
  dsimp only
  by_cases hj : t.name = "SYSTEMD-JOURNAL".toList
  · rw [if_pos hj]
    exact ⟨fun _ => rfl, fun h => absurd hj h⟩
  rw [if_neg hj]
  refine ⟨fun h => absurd h hj, fun _ => ⟨?_, ?_⟩⟩
  · intro c hc hn
    rw [hc]
    cases c with
    | nil => exact absurd rfl hn
    | cons => rfl
  · intro hc
    refine ⟨formatNo v, withTime t, padded t, ?_, ?_, ?_, ?_, ?_⟩
    · cases hf : t.format with
      | none => rfl
      | some c => rw [hc c hf]
    · unfold withTime
      cases t.datetime with
      | some x => simp [asBool_iff]
      | none =>
        simp only [Bool.not_eq_true', Bool.or_eq_false_iff, beq_eq_false_iff_ne, ne_eq, named_iff, reduceCtorEq, false_and, exists_false, false_or, true_and]
    · unfold padded
      by_cases hs : upper t.name = "SYSLOG".toList
      · have hn : Named t.name "SYSLOG" := hs
        rw [if_pos hs]
        cases t.padding with
        | some x => simp [asBool_iff]
        | none =>
          have h0 : asBool ['0'] = false := by decide +kernel
          simp [h0, hn]
      · have hn : ¬Named t.name "SYSLOG" := hs
        rw [if_neg hs]
        cases t.padding with
        | some x => simp [asBool_iff]
        | none => simp [hn]
    · rintro x rfl h
      unfold formatNo; dsimp only; rw [if_pos h]
    · intro h
      unfold formatNo
      cases v with
      | none => rfl
      | some x =>
        have := h x rfl
        dsimp only; rw [if_neg (by omega)]

/-! ## Commands -/

/-- A change of the target that is none. -/
theorem set_same (w : World) (t : Target) (s : State) (h : s.target = some t.name) : setLogTarget w t s = (.ok, s) := by
  unfold setLogTarget; rw [if_pos h]

theorem set_inherited (w : World) (t : Target) (s : State) (h : s.target ≠ some t.name) (hi : Named t.name "INHERITED") :
    setLogTarget w t s = (.ok, { s with target := some t.name }) := by
  unfold setLogTarget; rw [if_neg h, if_pos (show upper t.name = _ from hi)]

theorem set_goes (w : World) (t : Target) (s : State) (h : s.target ≠ some t.name) (hi : ¬Named t.name "INHERITED") {d : Dest} {n : Option Nat}
    (hg : Goes w s.socket t d n) :
    setLogTarget w t s = (.ok, { s with
      handlers := [⟨d, format t (verbosity w s), n⟩], verbose := verbosity w s, target := some t.name,
      socket := if Named t.name "SYSLOG" ∧ s.socket = some "auto".toList then w.system else s.socket }) := by
  unfold setLogTarget
  rw [if_neg h, if_neg (show ¬upper t.name = _ from hi)]
  dsimp only
  rw [(connect_ok w t s.socket d n).2 hg, connect_socket]
  rfl

theorem set_fails (w : World) (t : Target) (s : State) (h : s.target ≠ some t.name) (hi : ¬Named t.name "INHERITED")
    (hg : ∀ d n, ¬Goes w s.socket t d n) :
    ((setLogTarget w t s).1 = .failed ∨ (setLogTarget w t s).1 = .raised) ∧
    (setLogTarget w t s).2 = { s with socket := if Named t.name "SYSLOG" ∧ s.socket = some "auto".toList then w.system else s.socket } := by
  unfold setLogTarget
  rw [if_neg h, if_neg (show ¬upper t.name = _ from hi)]
  dsimp only
  cases hc : (connect w t s.socket).2 with
  | ok x => exact absurd ((connect_ok w t s.socket x.1 x.2).1 hc) (hg _ _)
  | error r =>
    dsimp only
    rw [connect_socket]
    exact ⟨connect_error w t s.socket r hc, rfl⟩

/-- What a change of the target does. -/
theorem set_cases (w : World) (t : Target) (s : State) :
    (s.target = some t.name ∧ setLogTarget w t s = (.ok, s)) ∨
    (s.target ≠ some t.name ∧ Named t.name "INHERITED" ∧ setLogTarget w t s = (.ok, { s with target := some t.name })) ∨
    (s.target ≠ some t.name ∧ ¬Named t.name "INHERITED" ∧ ∃ d n, Goes w s.socket t d n ∧ setLogTarget w t s = (.ok, { s with
      handlers := [⟨d, format t (verbosity w s), n⟩], verbose := verbosity w s, target := some t.name,
      socket := if Named t.name "SYSLOG" ∧ s.socket = some "auto".toList then w.system else s.socket })) ∨
    (s.target ≠ some t.name ∧ ¬Named t.name "INHERITED" ∧ (∀ d n, ¬Goes w s.socket t d n) ∧
      ((setLogTarget w t s).1 = .failed ∨ (setLogTarget w t s).1 = .raised) ∧
      (setLogTarget w t s).2 = { s with socket := if Named t.name "SYSLOG" ∧ s.socket = some "auto".toList then w.system else s.socket }) := by
  by_cases h : s.target = some t.name
  · exact .inl ⟨h, set_same w t s h⟩
  by_cases hi : Named t.name "INHERITED"
  · exact .inr (.inl ⟨h, hi, set_inherited w t s h hi⟩)
  by_cases hg : ∃ d n, Goes w s.socket t d n
  · obtain ⟨d, n, hg⟩ := hg
    exact .inr (.inr (.inl ⟨h, hi, d, n, hg, set_goes w t s h hi hg⟩))
  · have hg' : ∀ d n, ¬Goes w s.socket t d n := fun d n h => hg ⟨d, n, h⟩
    exact .inr (.inr (.inr ⟨h, hi, hg', set_fails w t s h hi hg'⟩))

theorem socket_spec (w : World) (p : Str) (s : State) : setSyslogSocket w p s = (.ok, { s with socket := some p }) := by
  unfold setSyslogSocket
  by_cases h : s.socket = some p
  · rw [if_pos h]
    cases s; cases h; rfl
  · rw [if_neg h]
    dsimp only
    by_cases ht : s.target = some "SYSLOG".toList
    · rw [if_pos ht]
      exact set_same _ _ _ ht
    · rw [if_neg ht]

theorem level_cases (v : Str) (s : State) :
    (s.level = some (upper v) ∧ setLogLevel v s = (.ok, s)) ∨
    (s.level ≠ some (upper v) ∧ (∃ l, LevelIs (upper v) l ∧ setLogLevel v s = (.ok, { s with real := l, level := some (upper v) }))) ∨
    (s.level ≠ some (upper v) ∧ (∀ l, ¬LevelIs (upper v) l) ∧ setLogLevel v s = (.raised, s)) := by
  unfold setLogLevel
  dsimp only
  by_cases h : s.level = some (upper v)
  · rw [if_pos h]; exact .inl ⟨h, rfl⟩
  · rw [if_neg h]
    cases hl : levelOf (upper v) with
    | none =>
      refine .inr (.inr ⟨h, fun l hl' => ?_, rfl⟩)
      rw [(levelOf_iff _ _).2 hl'] at hl; cases hl
    | some l => exact .inr (.inl ⟨h, l, (levelOf_iff _ _).1 hl, rfl⟩)

theorem level_unique {v : Str} {l l' : Int} (h : LevelIs v l) (h' : LevelIs v l') : l = l' := by
  have := (levelOf_iff v l).2 h
  rw [(levelOf_iff v l').2 h'] at this
  cases this; rfl

/-- The log goes where the target shown says, and the level is that shown. -/
structure Inv (s : State) : Prop where
  dest : ∀ n, s.target = some n → ¬Named n "INHERITED" → ∃ d f k, s.handlers = [⟨d, f, k⟩] ∧ IsDestOf n d
  level : ∀ v, s.level = some v → LevelIs v s.real

theorem inv_step {s : State} (h : Inv s) (c : World × Cmd) : Inv (step s c) := by
  obtain ⟨w, c⟩ := c
  cases c with
  | level v =>
    show Inv (setLogLevel v s).2
    rcases level_cases v s with ⟨_, e⟩ | ⟨_, l, hl, e⟩ | ⟨_, _, e⟩ <;> rw [e]
    · exact h
    · exact ⟨h.dest, fun v' hv => by cases hv; exact hl⟩
    · exact h
  | target t =>
    show Inv (setLogTarget w t s).2
    rcases set_cases w t s with ⟨_, e⟩ | ⟨_, hi, e⟩ | ⟨_, _, d, n, hg, e⟩ | ⟨_, _, _, _, e⟩ <;> rw [e]
    · exact h
    · exact ⟨fun n hn hh => by cases hn; exact absurd hi hh, h.level⟩
    · exact ⟨fun n' hn _ => by cases hn; exact ⟨d, _, n, rfl, goes_dest hg⟩, h.level⟩
    · exact ⟨h.dest, h.level⟩
  | socket p =>
    show Inv (setSyslogSocket w p s).2
    rw [socket_spec]
    exact ⟨h.dest, h.level⟩
  | flush =>
    show Inv (flushLogs w s).2
    unfold flushLogs
    have hr : Inv { s with handlers := s.handlers.map (Handler.roll w) } := by
      refine ⟨fun n hn hi => ?_, h.level⟩
      obtain ⟨d, f, k, hh, hd⟩ := h.dest n hn hi
      dsimp only
      rw [hh]
      cases d <;> exact ⟨_, _, _, rfl, hd⟩
    split
    · split
      · exact h
      · exact hr
    · exact hr

theorem inv_run (cs : List (World × Cmd)) : ∀ {s : State}, Inv s → Inv (run s cs) := by
  induction cs with
  | nil => exact fun h => h
  | cons c cs ih => exact fun h => ih (inv_step h c)

theorem inv_start (s : State) (h1 : s.target = none) (h2 : s.level = none) : Inv s :=
  ⟨fun n hn => (by rw [h1] at hn; cases hn), fun v hv => (by rw [h2] at hv; cases hv)⟩

theorem run_append (s : State) (cs cs' : List (World × Cmd)) : run s (cs ++ cs') = run (run s cs) cs' := List.foldl_append

end Verif.Logging
