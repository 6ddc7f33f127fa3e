import Verif.Spec.Shutdown

set_option linter.unusedSimpArgs false

/-!
# C97 — End of the server

For all numbers of jails in all states, and all failures of the database.
-/

namespace Verif.Shutdown

open Spec.Shutdown

/-! ## Examples -/

def runs : Thread := ⟨true, true, true⟩
def idleThread : Thread := ⟨false, false, false⟩

def exampleServer (pending : List Bool) (delOk : String → Bool) : Server where
  jails := [("a", ⟨runs, runs, true, pending⟩), ("b", ⟨runs, runs, false, []⟩), ("c", ⟨idleThread, idleThread, true, []⟩)]
  db := true
  obs := true
  async := true
  canQuit := true
  delOk := delOk
  obsEnds := false

example : (quit (exampleServer [true] (fun _ => true))).1 = .ok ∧ (quit (exampleServer [true] (fun _ => true))).2.2 =
    [.stopComm, .signals, .observer false, .position "a", .signal "a" .filter, .signal "a" .actions, .signal "b" .filter, .signal "b" .actions,
     .joined "a" .filter, .joined "a" .actions, .dbDel "a", .joined "b" .filter, .joined "b" .actions, .dbDel "b", .dbDel "c",
     .observer true, .dbClose, .asyncStop] := by decide +kernel

example : ∀ j ∈ (exampleServer [true] (fun _ => true)).jails, Sane j.2 ∧ ¬Stuck true j.2 := by decide +kernel

example : Stuck true ⟨runs, runs, true, [true, false]⟩ := by decide +kernel

/-! ## Lemmas -/

theorem updatePending_eq (l : List Bool) :
    updatePending l = (decide (false ∈ l), (l.dropWhile (· == true)).tail, if false ∈ l then (l.takeWhile (· == true)).length + 1 else l.length) := by
  induction l with
  | nil => rfl
  | cons b l ih =>
    cases b with
    | false => simp [updatePending]
    | true =>
      simp only [updatePending, ih]
      by_cases h : false ∈ l <;> simp [h]

/-- State of a jail after the first round -/
def told (db : Bool) (j : Jail) : Jail :=
  if j.isAlive then
    { j with
      filter := if Refused db j then j.filter else j.filter.stop
      actions := j.actions.stop
      pending := if j.files = true ∧ db = true then (j.pending.dropWhile (· == true)).tail else j.pending }
  else j

theorem stopFilter_eq (db : Bool) (n : String) (j : Jail) :
    stopFilter db n j = (decide (Refused db j),
      { j with filter := if Refused db j then j.filter else j.filter.stop,
               pending := if j.files = true ∧ db = true then (j.pending.dropWhile (· == true)).tail else j.pending },
      List.replicate (tried db j) (.position n) ++ (if Refused db j then [] else [.signal n .filter])) := by
  obtain ⟨f, a, files, pending⟩ := j
  unfold stopFilter Refused tried
  dsimp only
  rw [updatePending_eq]
  cases files <;> cases db <;> cases pending with
    | nil => simp
    | cons b l =>
      try simp
      try by_cases h : b = false ∨ false ∈ l <;> simp [h]
      try simpa using h

theorem delJail_tell (db : Bool) (del : String → Bool) (n : String) (j : Jail) :
    delJail db del n true false j = (.ok, some (told db j), tell db n j) := by
  unfold delJail
  by_cases h : j.isAlive = true
  · have h' : j.filter.alive = true ∨ j.actions.alive = true := by simpa [Jail.isAlive] using h
    simp only [h, Bool.or_true, if_true, Bool.false_eq_true, if_false, told, tell, h']
    unfold jailStop passFilter passActions
    simp only [if_true, stopFilter_eq, Bool.false_eq_true, if_false]
    by_cases hr : Refused db j
    · simp [hr]
    · simp [hr]
  · have h' : ¬(j.filter.alive = true ∨ j.actions.alive = true) := by simpa [Jail.isAlive] using h
    have h2 : j.isAlive = false := by simpa using h
    simp only [h2, Bool.or_false, Bool.false_eq_true, if_false, told, tell, h']

theorem delLoop_tell (db : Bool) (del : String → Bool) (js : List (String × Jail)) :
    delLoop db del true false js = (.ok, js.map (fun j => (j.1, told db j.2)), js.flatMap (fun j => tell db j.1 j.2)) := by
  induction js with
  | nil => rfl
  | cons j js ih =>
    obtain ⟨n, j⟩ := j
    simp only [delLoop, delJail_tell, ih, Option.map_some, Option.toList_some, List.map_cons, List.flatMap_cons, List.cons_append, List.nil_append]

theorem told_filter (db : Bool) (j : Jail) (hs : Sane j) :
    (Stuck db j → (told db j).filter.join = none) ∧
    (¬Stuck db j → ∃ t, (told db j).filter.join = some t ∧ t.started = j.filter.started ∧ t.alive = false) := by
  unfold told Stuck
  by_cases ha : j.isAlive = true
  · rw [if_pos ha]
    dsimp only
    by_cases hr : Refused db j
    · rw [if_pos hr]
      unfold Thread.join
      have h1 := hs.1
      cases h2 : j.filter.started <;> cases h3 : j.filter.alive <;> cases h4 : j.filter.active <;> simp_all
    · rw [if_neg hr]
      unfold Thread.join Thread.stop
      have h1 := hs.1
      cases h2 : j.filter.started <;> cases h3 : j.filter.alive <;> simp_all
  · rw [if_neg ha]
    have h0 : j.filter.alive = false := by
      simp only [Jail.isAlive, Bool.or_eq_true, not_or, Bool.not_eq_true] at ha
      exact ha.1
    unfold Thread.join
    cases h2 : j.filter.started <;> simp_all

theorem told_actions (db : Bool) (j : Jail) (hs : Sane j) :
    ∃ t, (told db j).actions.join = some t ∧ t.started = j.actions.started ∧ t.alive = false := by
  unfold told
  by_cases ha : j.isAlive = true
  · rw [if_pos ha]
    dsimp only
    unfold Thread.join Thread.stop
    have h1 := hs.2
    cases h2 : j.actions.started <;> cases h3 : j.actions.alive <;> simp_all
  · rw [if_neg ha]
    have h0 : j.actions.alive = false := by
      simp only [Jail.isAlive, Bool.or_eq_true, not_or, Bool.not_eq_true] at ha
      exact ha.2
    unfold Thread.join
    cases h2 : j.actions.started <;> simp_all

/-- One jail in the second round -/
theorem delJail_await (db : Bool) (del : String → Bool) (n : String) (j : Jail) (hs : Sane j) :
    (Stuck db j → delJail db del n false true (told db j) = (.hang, some (told db j), [])) ∧
    (¬Stuck db j → ∃ r, delJail db del n false true (told db j) =
      (if db = true ∧ del n = false then .raised else .ok, if db = true ∧ del n = false then some r else none, await db n j) ∧
      r.filter.alive = false ∧ r.actions.alive = false) := by
  obtain ⟨hf1, hf2⟩ := told_filter db j hs
  obtain ⟨ta, ha1, ha2, ha3⟩ := told_actions db j hs
  unfold delJail jailStop passFilter passActions joinedEv await
  generalize told db j = k at *
  constructor
  · intro h
    simp [hf1 h]
  · intro h
    obtain ⟨tf, h1, h2, h3⟩ := hf2 h
    refine ⟨{ k with filter := tf, actions := ta }, ?_, h3, ha3⟩
    rw [← h2, ← ha2]
    simp only [Bool.true_or, if_true, Bool.false_eq_true, if_false, h1, ha1, List.nil_append]
    cases db <;> cases hd : del n <;> simp

/-- The second round of all jails -/
theorem delLoop_await (db : Bool) (del : String → Bool) (js : List (String × Jail)) (hs : ∀ j ∈ js, Sane j.2) :
    ∃ r rest, delLoop db del false true (js.map (fun j => (j.1, told db j.2))) = (r, rest, (delLoop db del false true (js.map (fun j => (j.1, told db j.2)))).2.2) ∧
    (r = .ok ↔ ∀ j ∈ js, ¬Stuck db j.2 ∧ (db = true → del j.1 = true)) ∧
    (r = .ok → rest = [] ∧ (delLoop db del false true (js.map (fun j => (j.1, told db j.2)))).2.2 = js.flatMap (fun j => await db j.1 j.2)) ∧
    (∃ tail, js.flatMap (fun j => await db j.1 j.2) = (delLoop db del false true (js.map (fun j => (j.1, told db j.2)))).2.2 ++ tail) := by
  induction js with
  | nil => exact ⟨.ok, [], rfl, by simp, fun _ => ⟨rfl, rfl⟩, [], rfl⟩
  | cons j js ih =>
    obtain ⟨n, j⟩ := j
    obtain ⟨r, rest, e, h1, h2, tail, h3⟩ := ih (fun x hx => hs x (List.mem_cons_of_mem _ hx))
    obtain ⟨hst, hns⟩ := delJail_await db del n j (hs (n, j) (List.mem_cons_self ..))
    simp only [List.map_cons, delLoop, List.flatMap_cons, List.mem_cons, forall_eq_or_imp]
    by_cases h : Stuck db j
    · rw [hst h]
      exact ⟨_, _, rfl, by simp [h], by simp, _, rfl⟩
    · obtain ⟨k, hk, _⟩ := hns h
      rw [hk]
      by_cases hd : db = true ∧ del n = false
      · simp only [if_pos hd]
        refine ⟨_, _, rfl, ?_, by simp, _, rfl⟩
        simp [h, hd.1, hd.2]
      · simp only [if_neg hd]
        refine ⟨_, _, rfl, ?_, ?_, tail, ?_⟩
        · rw [e]
          dsimp only
          rw [h1]
          have : db = true → del n = true := fun hdb => by
            cases hdn : del n with
            | true => rfl
            | false => exact absurd ⟨hdb, hdn⟩ hd
          exact ⟨fun hh => ⟨⟨h, this⟩, hh⟩, fun hh => hh.2⟩
        · intro ho
          rw [e] at ho
          dsimp only at ho
          obtain ⟨h4, h5⟩ := h2 ho
          rw [h5]
          rw [e]
          exact ⟨by simp [h4], rfl⟩
        · rw [h3, List.append_assoc]

/-! ## Theorems -/

/-- All of `quit`, in terms of the two rounds -/
theorem quit_eq (s : Server) (hq : s.canQuit = true) (hs : ∀ j ∈ s.jails, Sane j.2) :
    ∃ r rest second, (quit s).1 = r ∧
      (r = .ok ↔ ∀ j ∈ s.jails, ¬Stuck s.db j.2 ∧ (s.db = true → s.delOk j.1 = true)) ∧
      (quit s).2.1 = (if r = .ok then { s with jails := rest, db := false, async := false, obs := false, canQuit := false }
        else { s with jails := rest, obs := false, canQuit := false }) ∧
      (quit s).2.2 = (if s.async then [Ev.stopComm] else []) ++ [.signals] ++ (if s.obs then [.observer false] else []) ++
        s.jails.flatMap (fun j => tell s.db j.1 j.2) ++ second ++
        (if r = .ok then (if s.obs && !s.obsEnds then [.observer true] else []) ++ (if s.db then [.dbClose] else []) ++ (if s.async then [.asyncStop] else []) else []) ∧
      (r = .ok → rest = [] ∧ second = s.jails.flatMap (fun j => await s.db j.1 j.2)) ∧
      ∃ tail, s.jails.flatMap (fun j => await s.db j.1 j.2) = second ++ tail := by
  obtain ⟨r, rest, e, h1, h2, tail, h3⟩ := delLoop_await s.db s.delOk s.jails hs
  generalize (delLoop s.db s.delOk false true (s.jails.map (fun j => (j.1, told s.db j.2)))).2.2 = second at *
  refine ⟨r, rest, second, ?_, h1, ?_, ?_, h2, tail, h3⟩
  all_goals
    unfold quit stopAllJail
    simp only [hq, Bool.not_true, Bool.false_eq_true, if_false, delLoop_tell, e]
    cases r <;> simp [List.append_assoc]

/-- **C97 (order).** Whatever happens, a shutdown goes through its stages in order: no thread is waited for before all jails are told to
stop, the database is not closed before the last use of it, the socket goes last. -/
theorem C97_order (s : Server) (hs : ∀ j ∈ s.jails, Sane j.2) : ((quit s).2.2.map stage).Pairwise (· ≤ ·) := by
  cases hq : s.canQuit with
  | false => unfold quit; simp [hq]
  | true =>
    obtain ⟨r, rest, second, _, _, _, he, _, tail, ht⟩ := quit_eq s hq hs
    have htell : ∀ x ∈ s.jails.flatMap (fun j => tell s.db j.1 j.2), stage x = 3 := by
      intro x hx
      obtain ⟨j, _, hx⟩ := List.mem_flatMap.1 hx
      unfold tell at hx
      split at hx
      · simp only [List.mem_append, List.mem_replicate, List.mem_singleton] at hx
        rcases hx with (⟨_, rfl⟩ | hx) | rfl
        · rfl
        · split at hx
          · cases hx
          · rw [List.mem_singleton.1 hx]; rfl
        · rfl
      · cases hx
    have hsec : ∀ x ∈ second, stage x = 4 := by
      intro x hx
      have hx : x ∈ s.jails.flatMap (fun j => await s.db j.1 j.2) := by rw [ht]; exact List.mem_append_left _ hx
      obtain ⟨j, _, hx⟩ := List.mem_flatMap.1 hx
      unfold await at hx
      simp only [List.mem_append] at hx
      rcases hx with (hx | hx) | hx
      all_goals
        split at hx
        · rw [List.mem_singleton.1 hx]; rfl
        · cases hx
    have h3 : ((s.jails.flatMap (fun j => tell s.db j.1 j.2)).map stage).Pairwise (· ≤ ·) := by
      rw [List.pairwise_map]
      exact List.Pairwise.imp_of_mem (fun ha hb _ => by rw [htell _ ha, htell _ hb]; exact Nat.le_refl _) (List.pairwise_of_forall (R := fun _ _ => True) (fun _ _ => trivial))
    have h4 : (second.map stage).Pairwise (· ≤ ·) := by
      rw [List.pairwise_map]
      exact List.Pairwise.imp_of_mem (fun ha hb _ => by rw [hsec _ ha, hsec _ hb]; exact Nat.le_refl _) (List.pairwise_of_forall (R := fun _ _ => True) (fun _ _ => trivial))
    have h1 : ∀ x ∈ (if s.async then [Ev.stopComm] else []) ++ [.signals] ++ (if s.obs then [.observer false] else []), stage x ≤ 2 := by
      cases s.async <;> cases s.obs <;> simp [stage]
    have h5 : ∀ x ∈ (if r = .ok then (if s.obs && !s.obsEnds then [Ev.observer true] else []) ++ (if s.db then [.dbClose] else []) ++ (if s.async then [.asyncStop] else []) else []), 5 ≤ stage x := by
      cases r <;> cases s.async <;> cases s.db <;> cases (s.obs && !s.obsEnds) <;> simp [stage]
    rw [he]
    simp only [List.map_append]
    rw [List.pairwise_append, List.pairwise_append, List.pairwise_append]
    refine ⟨⟨⟨?_, h3, ?_⟩, h4, ?_⟩, ?_, ?_⟩
    · cases s.async <;> cases s.obs <;> simp [stage]
    · intro a ha b hb
      rw [← List.map_append, ← List.map_append] at ha
      obtain ⟨x, hx, rfl⟩ := List.mem_map.1 ha
      obtain ⟨y, hy, rfl⟩ := List.mem_map.1 hb
      have := h1 x hx; have := htell y hy; omega
    · intro a ha b hb
      obtain ⟨y, hy, rfl⟩ := List.mem_map.1 hb
      have := hsec y hy
      rcases List.mem_append.1 ha with ha | ha
      · rw [← List.map_append, ← List.map_append] at ha
        obtain ⟨x, hx, rfl⟩ := List.mem_map.1 ha
        have := h1 x hx; omega
      · obtain ⟨x, hx, rfl⟩ := List.mem_map.1 ha
        have := htell x hx; omega
    · cases r <;> cases s.async <;> cases s.db <;> cases (s.obs && !s.obsEnds) <;> simp [stage]
    · intro a ha b hb
      obtain ⟨y, hy, rfl⟩ := List.mem_map.1 hb
      have := h5 y hy
      rcases List.mem_append.1 ha with ha | ha
      · rcases List.mem_append.1 ha with ha | ha
        · rw [← List.map_append, ← List.map_append] at ha
          obtain ⟨x, hx, rfl⟩ := List.mem_map.1 ha
          have := h1 x hx; omega
        · obtain ⟨x, hx, rfl⟩ := List.mem_map.1 ha
          have := htell x hx; omega
      · obtain ⟨x, hx, rfl⟩ := List.mem_map.1 ha
        have := hsec x hx; omega

/-- **C97 (all are told).** Whatever fails, the actions of every jail that runs are told to stop (and so remove their bans), and each filter is
unless a position in a log cannot be written. -/
theorem C97_told (s : Server) (hq : s.canQuit = true) (hs : ∀ j ∈ s.jails, Sane j.2) (n : String) (j : Jail) (hj : (n, j) ∈ s.jails)
    (ha : j.filter.alive = true ∨ j.actions.alive = true) :
    .signal n .actions ∈ (quit s).2.2 ∧ (¬Refused s.db j → .signal n .filter ∈ (quit s).2.2) := by
  obtain ⟨r, rest, second, _, _, _, he, _⟩ := quit_eq s hq hs
  have hm : ∀ x ∈ tell s.db n j, x ∈ (quit s).2.2 := by
    intro x hx
    rw [he]
    exact List.mem_append_left _ (List.mem_append_left _ (List.mem_append_right _ (List.mem_flatMap.2 ⟨(n, j), hj, hx⟩)))
  refine ⟨hm _ ?_, fun hr => hm _ ?_⟩
  · unfold tell; rw [if_pos ha]; simp
  · unfold tell; rw [if_pos ha, if_neg hr]; simp

/-- **C97 (it ends).** The shutdown is complete exactly if every filter can be stopped and the database disables every jail. -/
theorem C97_ends (s : Server) (hq : s.canQuit = true) (hs : ∀ j ∈ s.jails, Sane j.2) :
    (quit s).1 = .ok ↔ ∀ j ∈ s.jails, ¬Stuck s.db j.2 ∧ (s.db = true → s.delOk j.1 = true) := by
  obtain ⟨r, rest, second, h1, h2, _⟩ := quit_eq s hq hs
  rw [h1, h2]

/-- **C97 (complete).** If it is complete, exactly this was done, in this order; no jail is left, and database and socket are closed. -/
theorem C97_complete (s : Server) (hq : s.canQuit = true) (hs : ∀ j ∈ s.jails, Sane j.2) (h : (quit s).1 = .ok) :
    (quit s).2.2 = (if s.async then [Ev.stopComm] else []) ++ [.signals] ++ (if s.obs then [.observer false] else []) ++
      s.jails.flatMap (fun j => tell s.db j.1 j.2) ++ s.jails.flatMap (fun j => await s.db j.1 j.2) ++
      ((if s.obs && !s.obsEnds then [.observer true] else []) ++ (if s.db then [.dbClose] else []) ++ (if s.async then [.asyncStop] else [])) ∧
    (quit s).2.1 = { s with jails := [], db := false, async := false, obs := false, canQuit := false } := by
  obtain ⟨r, rest, second, h1, _, h2, h3, h4, _⟩ := quit_eq s hq hs
  have hr : r = .ok := by rw [← h1, h]
  obtain ⟨h5, h6⟩ := h4 hr
  rw [h3, h2, if_pos hr, if_pos hr, h5, h6]
  exact ⟨rfl, rfl⟩

/-- **C97 (waited for).** In particular every thread that was started has ended before the database is closed. -/
theorem C97_waited (s : Server) (hq : s.canQuit = true) (hs : ∀ j ∈ s.jails, Sane j.2) (h : (quit s).1 = .ok) (n : String) (j : Jail)
    (hj : (n, j) ∈ s.jails) (hdb : s.db = true) :
    ∃ l1 l2, (quit s).2.2 = l1 ++ .dbClose :: l2 ∧ .dbDel n ∈ l1 ∧ (j.filter.started = true → .joined n .filter ∈ l1) ∧
      (j.actions.started = true → .joined n .actions ∈ l1) ∧ l2 = if s.async then [.asyncStop] else [] := by
  rw [(C97_complete s hq hs h).1]
  refine ⟨(if s.async then [Ev.stopComm] else []) ++ [.signals] ++ (if s.obs then [.observer false] else []) ++
      s.jails.flatMap (fun j => tell s.db j.1 j.2) ++ s.jails.flatMap (fun j => await s.db j.1 j.2) ++ (if s.obs && !s.obsEnds then [.observer true] else []),
    if s.async then [.asyncStop] else [], ?_, ?_, ?_, ?_, rfl⟩
  · rw [hdb]; simp [List.append_assoc]
  all_goals
    have hm : ∀ x ∈ await s.db n j, x ∈ (if s.async then [Ev.stopComm] else []) ++ [.signals] ++ (if s.obs then [.observer false] else []) ++
      s.jails.flatMap (fun j => tell s.db j.1 j.2) ++ s.jails.flatMap (fun j => await s.db j.1 j.2) ++ (if s.obs && !s.obsEnds then [.observer true] else []) :=
      fun x hx => List.mem_append_left _ (List.mem_append_right _ (List.mem_flatMap.2 ⟨(n, j), hj, hx⟩))
  · exact hm _ (by unfold await; simp [hdb])
  · exact fun h1 => hm _ (by unfold await; simp [h1])
  · exact fun h1 => hm _ (by unfold await; simp [h1])

/-- **C97 (once).** A second `quit` (another signal, an error at the end of `start`) does nothing, whatever the first one did. -/
theorem C97_once (s : Server) : quit (quit s).2.1 = (.ok, (quit s).2.1, []) := by
  have : (quit s).2.1.canQuit = false := by
    unfold quit
    by_cases h : s.canQuit = true
    · simp only [h, Bool.not_true, Bool.false_eq_true, if_false]
      have hc : (stopAllJail { s with canQuit := false, obs := false }).2.1.canQuit = false := by
        unfold stopAllJail
        dsimp only
        split <;> rfl
      split <;> exact hc
    · have h' : s.canQuit = false := by simpa using h
      simp [h']
  generalize (quit s).2.1 = t at *
  unfold quit
  simp [this]

/-- **C97 (stop of a jail).** `stop` of a jail whose positions can be written ends its threads in turn and removes it, and only it. -/
theorem C97_stop (s : Server) (n : String) (j : Jail) (hj : s.jails.find? (fun k => k.1 == n) = some (n, j))
    (hr : ¬Refused s.db j) (hd : s.db = true → s.delOk n = true) :
    stopJail s n = (.ok, { s with jails := s.jails.filter (fun k => k.1 != n) },
      List.replicate (tried s.db j) (.position n) ++ [.signal n .filter] ++ (if j.filter.started = true then [.joined n .filter] else []) ++
      [.signal n .actions] ++ (if j.actions.started = true then [.joined n .actions] else []) ++ (if s.db = true then [.dbDel n] else [])) := by
  have hjoin : ∀ t : Thread, t.stop.join = some { t.stop with alive := if t.started then false else t.alive } := by
    intro t
    unfold Thread.stop Thread.join
    cases h1 : t.started <;> cases h2 : t.alive <;> simp
  have hdel : delJail s.db s.delOk n true true j = (.ok, none,
      List.replicate (tried s.db j) (.position n) ++ [.signal n .filter] ++ (if j.filter.started = true then [.joined n .filter] else []) ++
      [.signal n .actions] ++ (if j.actions.started = true then [.joined n .actions] else []) ++ (if s.db = true then [.dbDel n] else [])) := by
    unfold delJail jailStop passFilter passActions joinedEv
    simp only [Bool.true_or, if_true, stopFilter_eq, hr, decide_false, Bool.false_eq_true, if_false, hjoin]
    cases hdb : s.db with
    | false => simp [Thread.stop, List.append_assoc]; rfl
    | true => simp [Thread.stop, List.append_assoc, hd hdb]; rfl
  unfold stopJail
  rw [hj]
  dsimp only
  rw [hdel]
  dsimp only
  congr 3
  induction s.jails with
  | nil => rfl
  | cons k l ih =>
    rw [List.flatMap_cons, ih, List.filter_cons]
    cases hk : (k.1 == n) <;> simp [hk, bne]

theorem delJail_kept (db : Bool) (del : String → Bool) (n : String) (stop join : Bool) (j : Jail) (h : join = false ∨ (delJail db del n stop join j).1 ≠ .ok) :
    (delJail db del n stop join j).2.1.isSome = true := by
  revert h
  unfold delJail
  dsimp only
  generalize (if (join || j.isAlive) = true then jailStop db n stop join j else (Res.ok, j, [])) = s
  obtain ⟨r, j', e⟩ := s
  cases r <;> cases join <;> cases db <;> cases hd : del n <;> simp [hd]

/-- Names of the jails left by the loop: a suffix; all if it is not waited for their end, at least one if it failed -/
theorem delLoop_names (db : Bool) (del : String → Bool) (stop join : Bool) (js : List (String × Jail)) :
    (∃ pre, js.map (·.1) = pre ++ (delLoop db del stop join js).2.1.map (·.1)) ∧
    (join = false → (delLoop db del stop join js).2.1.map (·.1) = js.map (·.1)) ∧
    ((delLoop db del stop join js).1 ≠ .ok → (delLoop db del stop join js).2.1 ≠ []) ∧
    (join = true → (delLoop db del stop join js).1 = .ok → (delLoop db del stop join js).2.1 = []) := by
  induction js with
  | nil => simp [delLoop]
  | cons a js ih =>
    obtain ⟨n, j⟩ := a
    obtain ⟨⟨pre, i1⟩, i2, i3, i4⟩ := ih
    have hk := delJail_kept db del n stop join j
    have hg : join = true → (delJail db del n stop join j).1 = .ok → (delJail db del n stop join j).2.1 = none := by
      rintro rfl
      unfold delJail
      dsimp only
      generalize (if (true || j.isAlive) = true then jailStop db n stop true j else (Res.ok, j, [])) = s
      obtain ⟨r, j', e⟩ := s
      cases r <;> cases db <;> cases hd : del n <;> simp [hd]
    unfold delLoop
    rcases hd : delJail db del n stop join j with ⟨r, o, e⟩
    rw [hd] at hk hg
    dsimp only at hk hg ⊢
    cases r with
    | ok =>
      dsimp only
      cases o with
      | none =>
        have hj : join = true := by
          cases join
          · exact absurd (hk (.inl rfl)) (by simp)
          · rfl
        refine ⟨⟨n :: pre, by simp [i1]⟩, fun h => absurd h (by simp [hj]), ?_, ?_⟩
        · simpa using i3
        · simpa using i4
      | some j' =>
        have hj : join = false := by
          cases join
          · rfl
          · exact absurd (hg rfl rfl) (by simp)
        subst hj
        refine ⟨⟨[], ?_⟩, fun _ => ?_, by simp, by simp⟩
        · simp [i2 rfl]
        · simp [i2 rfl]
    | hang =>
      have := hk (.inr (by simp))
      obtain ⟨j', rfl⟩ := Option.isSome_iff_exists.mp this
      exact ⟨⟨[], by simp⟩, fun _ => by simp, by simp, by simp⟩
    | raised =>
      have := hk (.inr (by simp))
      obtain ⟨j', rfl⟩ := Option.isSome_iff_exists.mp this
      exact ⟨⟨[], by simp⟩, fun _ => by simp, by simp, by simp⟩

/-- C97: stopping a jail that does not exist is an error, and changes nothing -/
theorem C97_stop_unknown (s : Server) (n : String) (h : n ∉ s.jails.map (·.1)) : stopJail s n = (.raised, s, []) := by
  have : s.jails.find? (fun j => j.1 == n) = none := by
    rw [List.find?_eq_none]
    intro j hj hn
    exact h (List.mem_map.2 ⟨j, hj, by simpa using hn⟩)
  unfold stopJail
  rw [this]

/-- **C97 (left).** Jails are deleted in their order; if the shutdown is not complete the failed jail and all after it are still there, if it is complete none. -/
theorem C97_left (s : Server) (hq : s.canQuit = true) :
    (∃ pre, s.jails.map (·.1) = pre ++ (quit s).2.1.jails.map (·.1)) ∧ ((quit s).1 ≠ .ok → s.jails ≠ [] ∧ (quit s).2.1.jails ≠ []) ∧
    ((quit s).1 = .ok → (quit s).2.1.jails = []) := by
  have key : (∃ pre, s.jails.map (·.1) = pre ++ (stopAllJail { s with canQuit := false, obs := false }).2.1.jails.map (·.1)) ∧
      ((stopAllJail { s with canQuit := false, obs := false }).1 ≠ .ok → (stopAllJail { s with canQuit := false, obs := false }).2.1.jails ≠ []) ∧
      ((stopAllJail { s with canQuit := false, obs := false }).1 = .ok → (stopAllJail { s with canQuit := false, obs := false }).2.1.jails = []) := by
    unfold stopAllJail
    dsimp only
    obtain ⟨a1, a2, a3, -⟩ := delLoop_names s.db s.delOk true false s.jails
    obtain ⟨b1, -, b3, b4⟩ := delLoop_names s.db s.delOk false true (delLoop s.db s.delOk true false s.jails).2.1
    rcases ha : delLoop s.db s.delOk true false s.jails with ⟨r, l, e⟩
    rw [ha] at a1 a2 a3 b1 b3 b4
    dsimp only at a1 a2 a3 b1 b3 b4 ⊢
    cases r with
    | ok =>
      obtain ⟨pre, hp⟩ := b1
      exact ⟨⟨pre, by rw [← a2 rfl]; exact hp⟩, b3, b4 rfl⟩
    | hang => exact ⟨a1, a3, by simp⟩
    | raised => exact ⟨a1, a3, by simp⟩
  have hl : (quit s).1 = (stopAllJail { s with canQuit := false, obs := false }).1 ∧
      (quit s).2.1.jails = (stopAllJail { s with canQuit := false, obs := false }).2.1.jails := by
    unfold quit
    simp only [hq, Bool.not_true, Bool.false_eq_true, if_false]
    rcases stopAllJail { s with canQuit := false, obs := false } with ⟨r, t, e⟩
    cases r <;> exact ⟨rfl, rfl⟩
  rw [hl.1, hl.2]
  obtain ⟨⟨pre, k1⟩, k2, k3⟩ := key
  refine ⟨⟨pre, k1⟩, fun h => ⟨?_, k2 h⟩, k3⟩
  intro he
  have hn : s.jails.map (·.1) = [] := by rw [he]; rfl
  have := (List.append_eq_nil_iff.mp (k1.symm.trans hn)).2
  exact k2 h (List.map_eq_nil_iff.mp this)

/-- **C97 (files).** A server that runs alone has its number in the PID file and its socket, and leaves neither; one that finds a socket, if
not forced, leaves it as it is. -/
theorem C97_files (f : Files) (me : Nat) (force : Bool) :
    (f.socket = none → startUp f me force = (⟨some me, some me⟩, true) ∧ finish (startUp f me force).1 (startUp f me force).2 = ⟨none, none⟩) ∧
    (f.socket ≠ none → (startUp f me false).2 = false ∧ (finish (startUp f me false).1 (startUp f me false).2).socket = f.socket) := by
  unfold startUp finish
  constructor
  · intro h; simp [h]
  · intro h
    cases h2 : f.socket with
    | none => exact absurd h2 h
    | some x => simp

/-! ## What does not hold -/

/-- **C97, refuted: a shutdown ends.** If a position in a log cannot be written (say, as the database is locked), the filter is not told to
stop and is waited for without end; the database is not closed, and no later signal or command changes this. -/
theorem C97_refuted_hang : ∃ s : Server, s.canQuit = true ∧ (∀ j ∈ s.jails, Sane j.2) ∧ (∀ n, s.delOk n = true) ∧ (quit s).1 = .hang ∧
    .signal "a" .filter ∉ (quit s).2.2 ∧ .dbClose ∉ (quit s).2.2 ∧ .joined "b" .actions ∉ (quit s).2.2 := by
  refine ⟨exampleServer [false] (fun _ => true), by decide +kernel, by decide +kernel, fun _ => rfl, ?_, ?_, ?_, ?_⟩ <;> decide +kernel

/-- **C97, refuted: an error does not prevent the shutdown.** If the database fails to disable a jail, later jails are not waited for, database
and socket stay open; as `quit` is disabled then, the server, though without any answer to clients, cannot be stopped by a further signal. -/
theorem C97_refuted_db : ∃ s : Server, s.canQuit = true ∧ (∀ j ∈ s.jails, Sane j.2 ∧ ¬Stuck s.db j.2) ∧ (quit s).1 = .raised ∧
    .joined "b" .actions ∉ (quit s).2.2 ∧ (quit s).2.1.db = true ∧ (quit s).2.1.async = true ∧ .stopComm ∈ (quit s).2.2 ∧
    ∀ k : Nat, (Nat.repeat (fun t => (quit t).2.1) k (quit s).2.1) = (quit s).2.1 := by
  refine ⟨exampleServer [] (fun n => n != "a"), by decide +kernel, by decide +kernel, by decide +kernel, by decide +kernel, by decide +kernel, by decide +kernel,
    by decide +kernel, ?_⟩
  intro k
  induction k with
  | zero => rfl
  | succ k ih =>
    show (quit (Nat.repeat _ k _)).2.1 = _
    rw [ih, C97_once]

/-- **C97, refuted: a stopped jail does not run.** In the same case `stop` of a jail removes it without telling its filter to stop. -/
theorem C97_refuted_stop : ∃ s : Server, (stopJail s "a").1 = .ok ∧ "a" ∉ (stopJail s "a").2.1.jails.map (·.1) ∧
    (∃ j, ("a", j) ∈ s.jails ∧ j.filter.alive = true) ∧ .signal "a" .filter ∉ (stopJail s "a").2.2 := by
  refine ⟨exampleServer [false] (fun _ => true), by decide +kernel, by decide +kernel, ⟨⟨runs, runs, true, [false]⟩, by simp [exampleServer], rfl⟩, by decide +kernel⟩

/-- **C97, refuted: a second server leaves the files of the first.** The PID file is written before the socket is looked at, and removed in any
case. -/
theorem C97_refuted_pid (first second : Nat) : finish (startUp ⟨some first, some first⟩ second false).1 (startUp ⟨some first, some first⟩ second false).2 = ⟨none, some first⟩ := by
  unfold startUp finish
  simp

/-- **C97, refuted: a server removes its own socket only.** After a forced start the first server, when it ends, removes socket and PID file of
the second. -/
theorem C97_refuted_force (first second : Nat) :
    (startUp ⟨some first, some first⟩ second true).1 = ⟨some second, some second⟩ ∧ finish (startUp ⟨some first, some first⟩ second true).1 true = ⟨none, none⟩ := by
  unfold startUp finish
  simp

end Verif.Shutdown
