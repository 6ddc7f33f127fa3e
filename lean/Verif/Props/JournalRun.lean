import Verif.Lemmas.JournalRun

/-!
# Main loop of monitoring of the systemd journal: each entry once (C79), position over restarts (C80), operation mode (C81)
-/

namespace Verif

open Verif.JournalRun Verif.JournalRunSpec

/-! ## C79 -/

/-- Whatever happens, also while reading fails and while the jail is idle: the entries that were processed are all those with a line from the position at start up to the current one, each once and in order. -/
theorem C79_once (w : World) (ft : Int) (r : Bool) (os : List Op) :
    let w' := run (begin w ft r) os
    processed w' = between w'.journal (begin w ft r).filter.pos w'.filter.pos ∧ (begin w ft r).filter.pos ≤ w'.filter.pos ∧ w'.filter.pos ≤ w'.journal.length := by
  have := run_pos _ os _ (begin_pos w ft r)
  exact ⟨this.eq, this.le, this.len⟩

/-- Reading starts after the last of the entries at the beginning of the journal that are not after the start time: the position known, but not longer ago than the find time; or now, if the journal is empty or cannot be read. -/
theorem C79_start (w : World) (ft : Int) (r : Bool) :
    let n := (begin w ft r).filter.pos
    (∀ i e, i < n → w.journal[i]? = some e → e.received ≤ startTime w ft r) ∧ (∀ e, w.journal[n]? = some e → startTime w ft r < e.received) := by
  dsimp only
  rw [(begin_eq w ft r).1]
  exact ⟨seek_before _ _, seek_at _ _⟩

/-- The entries processed are those received after the start time, if the times of receipt grow. -/
theorem C79_recent (w : World) (ft : Int) (r : Bool) (os : List Op) (hi : Increasing w.journal) (i : Nat) (e : Entry) (he : w.journal[i]? = some e) :
    let w' := run (begin w ft r) os
    i < w'.filter.pos → (i ∈ processed w' ↔ startTime w ft r < e.received ∧ e.good = true) := by
  intro w' hlt
  obtain ⟨h1, h2, h3⟩ := C79_once w ft r os
  have hj : w'.journal[i]? = some e := by
    have : ∀ (os : List Op) (w : World), w.journal[i]? = some e → (run w os).journal[i]? = some e := by
      intro os
      induction os with
      | nil => intro w h; exact h
      | cons o os ih =>
        intro w h
        refine ih _ ?_
        obtain ⟨l, hl⟩ := step_journal w o
        rw [hl, List.getElem?_append_left (List.getElem?_eq_some_iff.1 h).1]
        exact h
    exact this os _ (by rw [(begin_eq w ft r).2.1]; exact he)
  show i ∈ processed (run (begin w ft r) os) ↔ _
  rw [h1]
  unfold between
  rw [List.mem_filter, List.mem_range, (begin_eq w ft r).1]
  have hj' : (run (begin w ft r) os).journal[i]? = some e := hj
  rw [hj']
  simp only [Bool.and_eq_true, decide_eq_true_eq, Option.any_some]
  constructor
  · rintro ⟨_, h, hg⟩
    exact ⟨seek_after _ _ hi i e h he, hg⟩
  · rintro ⟨h, hg⟩
    exact ⟨hlt, seek_lt _ _ i e he h, hg⟩

/-- A jail that is active and not idle reads the journal to its end, and is in operation then. -/
theorem C79_reads (w : World) (ha : w.filter.active = true) (hi : w.filter.idle = false) (he : w.filter.phase ≠ .ended) (hp : w.filter.pos ≤ w.journal.length) :
    ∃ n, n ≤ 3 * (w.journal.length - w.filter.pos) + 3 ∧ (steps w n).filter.pos = w.journal.length ∧ (steps w n).filter.inOperation = true ∧ (steps w n).journal = w.journal := by
  have hkey : ∀ (k : Nat) (w : World), w.filter.active = true → w.filter.idle = false → w.filter.phase ≠ .ended → w.filter.pos ≤ w.journal.length →
      3 * (w.journal.length - w.filter.pos) + (match w.filter.phase with | .inner => 0 | .top => 1 | .tail => 2 | .ended => 3) ≤ k →
      ∃ n, n ≤ k + 1 ∧ (steps w n).filter.pos = w.journal.length ∧ (steps w n).filter.inOperation = true ∧ (steps w n).journal = w.journal := by
    intro k
    induction k with
    | zero =>
      intro w ha hi he hp hk
      have hph : w.filter.phase = .inner := by
        cases h : w.filter.phase <;> rw [h] at hk
        · dsimp only at hk; omega
        · dsimp only at hk; omega
        · exact absurd h he
      refine ⟨1, Nat.le_refl _, ?_⟩
      show (step w (.step false)).filter.pos = _ ∧ _ ∧ _
      have hs : step w (.step false) = innerStep w false := by unfold step; rw [hph]
      rcases innerStep_cases w false with ⟨h, _⟩ | ⟨_, _, e⟩ | ⟨_, _, x, hx, _⟩ | ⟨_, _, x, hx, _⟩
      · rw [ha] at h; cases h
      · show (step w (.step false)).filter.pos = _ ∧ (step w (.step false)).filter.inOperation = true ∧ (step w (.step false)).journal = _
        rw [hs, e]; exact ⟨by dsimp only; omega, rfl, rfl⟩
      · have := (List.getElem?_eq_some_iff.1 hx).1; omega
      · have := (List.getElem?_eq_some_iff.1 hx).1; omega
    | succ k ih =>
      intro w ha hi he hp hk
      have next : ∀ w', step w (.step false) = w' → w'.filter.active = true → w'.filter.idle = false → w'.filter.phase ≠ .ended → w'.filter.pos ≤ w'.journal.length → w'.journal = w.journal →
          3 * (w'.journal.length - w'.filter.pos) + (match w'.filter.phase with | .inner => 0 | .top => 1 | .tail => 2 | .ended => 3) ≤ k →
          ∃ n, n ≤ k + 1 + 1 ∧ (steps w n).filter.pos = w.journal.length ∧ (steps w n).filter.inOperation = true ∧ (steps w n).journal = w.journal := by
        intro w' hw h1 h2 h3 h4 h5 h6
        obtain ⟨n, q1, q2, q3, q4⟩ := ih w' h1 h2 h3 h4 h6
        refine ⟨n + 1, by omega, ?_⟩
        show (steps (step w (.step false)) n).filter.pos = _ ∧ (steps (step w (.step false)) n).filter.inOperation = true ∧ (steps (step w (.step false)) n).journal = _
        rw [hw]
        exact ⟨by rw [q2, h5], q3, by rw [q4, h5]⟩
      cases hph : w.filter.phase with
      | ended => exact absurd hph he
      | top =>
        rw [hph] at hk
        have hs : step w (.step false) = { w with filter := { w.filter with modified := 0, phase := .inner } } := by
          unfold step; rw [hph]; dsimp only
          unfold topStep; dsimp only
          rw [if_neg (by simp [ha]), if_neg (by simp [hi])]
        exact next _ hs ha hi (by simp) hp rfl (by dsimp only at hk ⊢; omega)
      | tail =>
        rw [hph] at hk
        obtain ⟨f1, _, _, f4, _, f6, f7, _, _, f10⟩ := tailStep_frame w
        have hs : step w (.step false) = tailStep w := by unfold step; rw [hph]
        refine next _ hs (by rw [f6]; exact ha) (by rw [f7]; exact hi) (by rw [f10]; simp) (by rw [f4, f1]; exact hp) f1 ?_
        rw [f1, f4, f10]; dsimp only at hk ⊢; omega
      | inner =>
        rw [hph] at hk
        have hs : step w (.step false) = innerStep w false := by unfold step; rw [hph]
        rcases innerStep_cases w false with ⟨h, _⟩ | ⟨_, hl, e⟩ | ⟨_, _, x, hx, _, e⟩ | ⟨_, _, x, hx, _, f, hf, e⟩
        · rw [ha] at h; cases h
        · refine ⟨1, by omega, ?_⟩
          show (step w (.step false)).filter.pos = _ ∧ (step w (.step false)).filter.inOperation = true ∧ (step w (.step false)).journal = _
          rw [hs, e]
          exact ⟨by rcases hl with hl | hl; (cases hl); (dsimp only; omega), rfl, rfl⟩
        · have hlt := (List.getElem?_eq_some_iff.1 hx).1
          refine next _ (hs.trans e) ha hi (by simp) hlt rfl ?_
          dsimp only at hk ⊢; omega
        · have hlt := (List.getElem?_eq_some_iff.1 hx).1
          have fr := operation_frame { w.filter with ticks := w.filter.ticks + 1 } w.now w.filter.pos x.time
          rw [← hf] at fr
          refine next _ (hs.trans e) (by show f.active = true; rw [fr.2.2.1]; exact ha) (by show f.idle = false; rw [fr.2.2.2.2.2.2.2.1]; exact hi) ?_ hlt rfl ?_
          · dsimp only; rw [hph]; split <;> simp
          · dsimp only at hk ⊢
            rw [hph]
            by_cases hm : w.filter.modified + 1 ≥ 100
            · rw [if_pos hm]; dsimp only; omega
            · rw [if_neg hm]; dsimp only; omega
  obtain ⟨n, h1, h2⟩ := hkey _ w ha hi he hp (Nat.le_refl _)
  refine ⟨n, ?_, h2⟩
  cases h : w.filter.phase <;> rw [h] at h1
  · dsimp only at h1; omega
  · dsimp only at h1; omega
  · dsimp only at h1; omega
  · exact absurd h he

/-- While the jail is idle nothing is read. -/
theorem C79_idle (w : World) (ha : w.filter.active = true) (hi : w.filter.idle = true) (hp : w.filter.phase = .top) (n : Nat) :
    processed (steps w n) = processed w ∧ (steps w n).filter.pos = w.filter.pos := by
  induction n generalizing w with
  | zero => exact ⟨rfl, rfl⟩
  | succ n ih =>
    have hs : step w (.step false) = { w with filter := { w.filter with ticks := w.filter.ticks + 1 } } := by
      unfold step; rw [hp]; dsimp only
      unfold topStep; dsimp only
      rw [if_neg (by simp [ha]), if_pos hi]
    show processed (steps (step w (.step false)) n) = _ ∧ (steps (step w (.step false)) n).filter.pos = _
    rw [hs]
    exact ih _ ha hi hp

/-! ## C80 -/

/-- At any time the last position that is saved, pending or about to be pending is the time of the last entry processed. -/
theorem C80_known (w : World) (ft : Int) (r : Bool) (os : List Op) :
    let w' := run (begin w ft r) os
    (match w'.filter.line, w'.filter.pend with
      | some t, _ => some t
      | none, some t => some t
      | none, none => w'.saved) = latest w' w.saved := by
  obtain ⟨_, _, _, _, h5, h6, h7, h8, _⟩ := begin_eq w ft r
  have h0 : known (begin w ft r) = latest (begin w ft r) w.saved := by
    unfold known latest; rw [h5, h6, h7, h8]; rfl
  have := run_known _ w.saved os _ (begin_pos w ft r) h0
  dsimp only
  rw [← this]
  unfold known
  cases (run (begin w ft r) os).filter.line <;> cases (run (begin w ft r) os).filter.pend <;> rfl

/-- When the jail has stopped, the position of the last entry processed is saved, if all entries have lines. -/
theorem C80_saved (w : World) (ft : Int) (r : Bool) (os : List Op) (hd : w.database = true) (hg : ∀ e ∈ w.journal, e.good = true) (ho : ∀ e, Op.append e ∈ os → e.good = true)
    (he : (run (begin w ft r) os).filter.phase = .ended) : (run (begin w ft r) os).saved = latest (run (begin w ft r) os) w.saved := by
  obtain ⟨_, h2, _, h4, _, _, h7, h8, h9, _⟩ := begin_eq w ft r
  have hE : Ends (begin w ft r) := ⟨by rw [h4]; exact hd, fun _ => h7, fun _ => ⟨h7, h8⟩, by rw [h2]; exact hg⟩
  have hl := (run_ends os _ ho hE).ended he
  have := C80_known w ft r os
  dsimp only at this
  rw [hl.1, hl.2] at this
  exact this

/-- Also when the number of steps is a multiple of 100 the position is saved, however long ago it was saved before. -/
theorem C80_ticks (w : World) (hd : w.database = true) (hp : w.filter.phase = .tail) (ht : w.filter.ticks % 100 = 0) :
    (step w (.step false)).filter.pend = none := by
  have hs : step w (.step false) = tailStep w := by unfold step; rw [hp]
  rw [hs]
  have htick : (pendLine { w.filter with modified := 0, phase := .top }).ticks = w.filter.ticks := by unfold pendLine; split <;> rfl
  unfold tailStep
  dsimp only at htick ⊢
  generalize pendLine _ = f at htick ⊢
  rw [if_neg (by simp [hd])]
  split
  · rfl
  · rename_i h
    simp only [htick, ht, Bool.and_eq_true, Bool.or_eq_true, beq_self_eq_true, true_or, and_true, Bool.not_eq_true, Option.isSome_eq_false_iff, Option.isNone_iff_eq_none] at h
    exact h

/-- A position is not pending for long: after each round of reading, either nothing is pending or less than ten seconds have passed since the position was saved. -/
theorem C80_pending (w : World) (hd : w.database = true) (hp : w.filter.phase = .tail) :
    let w' := step w (.step false)
    w'.filter.line = none ∧ (w'.filter.pend = none ∨ w'.now < w'.filter.nextUpdate) ∧ (w'.saved ≠ w.saved → w'.filter.nextUpdate = w'.now + 10 * 1000000) ∧
    (w.filter.active = false → w'.filter.pend = none) := by
  have hs : step w (.step false) = tailStep w := by unfold step; rw [hp]
  dsimp only
  rw [hs]
  refine ⟨tailStep_line w hd, ?_⟩
  have hact : (pendLine { w.filter with modified := 0, phase := .top }).active = w.filter.active := (pendLine_frame { w.filter with modified := 0, phase := .top }).2.2.1
  unfold tailStep
  dsimp only at hact ⊢
  generalize pendLine _ = f at hact ⊢
  rw [if_neg (by simp [hd])]
  split
  · exact ⟨Or.inl rfl, fun _ => rfl, fun _ => rfl⟩
  · rename_i hn
    have hn' : f.pend = none ∨ (w.now < f.nextUpdate ∧ f.active = true) := by
      cases hq : f.pend with
      | none => exact Or.inl rfl
      | some t =>
        right
        rw [hq] at hn
        simp only [Option.isSome_some, Bool.true_and, Bool.or_eq_true, not_or, decide_eq_true_eq, beq_iff_eq, Bool.not_eq_true'] at hn
        exact ⟨by omega, by simpa using hn.2⟩
    refine ⟨hn'.imp id (fun h => h.1), fun h => absurd rfl h, fun ha => ?_⟩
    rcases hn' with h | ⟨_, h⟩
    · exact h
    · rw [hact, ha] at h; cases h

/-- After a stop and a new start, reading goes on with the first entry that was not read: none is processed again and none is skipped — if times of receipt grow, there are no other times of the source, all entries have lines, and the last one is younger than the find time. -/
theorem C80_resume (w : World) (ft : Int) (r : Bool) (os : List Op) (more : List Entry) (now' ft' : Int) (hd : w.database = true)
    (he : (run (begin w ft r) os).filter.phase = .ended)
    (hj : Increasing ((run (begin w ft r) os).journal ++ more)) (hs : ∀ e ∈ (run (begin w ft r) os).journal, e.time = e.received ∧ e.good = true)
    (i : Nat) (b : Bool) (hl : (run (begin w ft r) os).filter.processed.getLast? = some (i, b))
    (e : Entry) (hi : (run (begin w ft r) os).journal[i]? = some e) (hr : now' - ft' ≤ e.received) :
    (begin { run (begin w ft r) os with journal := (run (begin w ft r) os).journal ++ more, now := now' } ft' true).filter.pos = (run (begin w ft r) os).filter.pos := by
  obtain ⟨a1, a2, a3⟩ := run_mem os (begin w ft r)
  have hb := begin_eq w ft r
  have hsav := C80_saved w ft r os hd (fun e he => (hs e (a1 e (by rw [hb.2.1]; exact he))).2) (fun e he => (hs e (a2 e he)).2) he
  have hdb : (run (begin w ft r) os).database = true := by rw [a3, hb.2.2.2.1]; exact hd
  have honce := C79_once w ft r os
  dsimp only at honce
  generalize hw : run (begin w ft r) os = w' at *
  have ht : w'.saved = some e.received := by
    rw [hsav]; unfold latest; rw [hl]; dsimp only; rw [hi]
    simp [(hs e (List.mem_of_getElem? hi)).1]
  have hlen := (List.getElem?_eq_some_iff.1 hi).1
  have hst : startTime { w' with journal := w'.journal ++ more, now := now' } ft' true = e.received := by
    unfold startTime
    rw [if_pos ⟨rfl, by show w'.journal ++ more ≠ []; intro h; have := congrArg List.length h; simp at this; rw [this.1] at hlen; simp at hlen⟩]
    show max (if w'.database = true then w'.saved.getD 0 else 0) (now' - ft') = _
    rw [if_pos hdb, ht]
    show max e.received (now' - ft') = _
    omega
  rw [(begin_eq { w' with journal := w'.journal ++ more, now := now' } ft' true).1, hst]
  show seek e.received (w'.journal ++ more) = w'.filter.pos
  -- the last entry processed is the last one read
  have hlast : i + 1 = w'.filter.pos := by
    have hmem : i ∈ processed w' := List.mem_map.2 ⟨(i, b), List.mem_of_getLast? hl, rfl⟩
    have hlt : i < w'.filter.pos := by
      rw [honce.1] at hmem
      exact List.mem_range.1 (List.mem_filter.1 hmem).1
    rcases Nat.lt_or_ge (i + 1) w'.filter.pos with h | h
    · exfalso
      have hp1 : w'.filter.pos = (w'.filter.pos - 1) + 1 := by omega
      have hstart : (begin w ft r).filter.pos ≤ w'.filter.pos - 1 := by
        rw [honce.1] at hmem
        have hm := (List.mem_filter.1 hmem).2
        simp only [Bool.and_eq_true, decide_eq_true_eq] at hm
        omega
      have hbt := honce.1
      rw [hp1, between_succ _ _ _ hstart] at hbt
      have hlt' : w'.filter.pos - 1 < w'.journal.length := by omega
      rw [List.getElem?_eq_getElem hlt'] at hbt
      have hg := (hs w'.journal[w'.filter.pos - 1] (List.getElem_mem hlt')).2
      simp only [Option.any_some, hg, if_true] at hbt
      have hq : (processed w').getLast? = some i := by
        unfold processed; rw [List.getLast?_map, hl]; rfl
      rw [hbt, List.getLast?_concat] at hq
      injection hq with hq
      omega
    · omega
  have hi' : (w'.journal ++ more)[i]? = some e := by rw [List.getElem?_append_left hlen]; exact hi
  apply Nat.le_antisymm
  · rcases Nat.lt_or_ge w'.filter.pos (seek e.received (w'.journal ++ more)) with h | h
    · exfalso
      have hle := seek_le e.received (w'.journal ++ more)
      have hlt : w'.filter.pos < (w'.journal ++ more).length := by omega
      have := seek_before e.received _ _ _ h (List.getElem?_eq_getElem hlt)
      have hpw := List.pairwise_iff_getElem.1 hj i w'.filter.pos (by simp; omega) hlt (by omega)
      have he' : (w'.journal ++ more)[i] = e := (List.getElem?_eq_some_iff.1 hi').2
      rw [he'] at hpw
      omega
    · exact h
  · apply seek_ge
    · simp; omega
    · intro k x hk hx
      obtain ⟨k1, k2⟩ := List.getElem?_eq_some_iff.1 hx
      obtain ⟨l1, l2⟩ := List.getElem?_eq_some_iff.1 hi'
      rcases Nat.lt_or_ge k i with h | h
      · have hpw := List.pairwise_iff_getElem.1 hj k i k1 l1 h
        rw [k2, l2] at hpw; omega
      · have : k = i := by omega
        subst this
        rw [hi'] at hx; injection hx with hx; rw [hx]; exact Int.le_refl _

/-- Nothing is lost, also if the server is killed at any moment: after any life with any number of restarts, a new start begins not after any entry that was not read yet, unless it is older than the find time. Times of receipt have to grow, and times of the source are not later. -/
theorem C80_nothing_lost (w : World) (hw : w.saved = none) (hp : w.filter.pend = none) (hl : w.filter.line = none) (h0 : w.filter.pos ≤ w.journal.length)
    (es : List Event) (hr : ∀ t r, Event.restart t r ∈ es → r = true) (hi : Increasing (life w es).journal) (hs : Sourced (life w es).journal) (hpos : ∀ e ∈ (life w es).journal, 0 < e.received)
    (ft : Int) (i : Nat) (e : Entry) (h : (life w es).filter.pos ≤ i) (he : (life w es).journal[i]? = some e) (hn : (life w es).now - ft < e.received) :
    (begin (life w es) ft true).filter.pos ≤ i := by
  have key : ∀ (es : List Event) (w : World), (∀ t r, Event.restart t r ∈ es → r = true) → Increasing (life w es).journal → Sourced (life w es).journal → w.database = true → w.filter.pos ≤ w.journal.length → Behind w →
      (∀ e ∈ (life w es).journal, 0 < e.received) →
      (∀ x ∈ (life w es).journal.drop w.journal.length, ∀ t, (w.saved = some t ∨ w.filter.pend = some t ∨ w.filter.line = some t) → t < x.received) → Behind (life w es) := by
    intro es
    induction es with
    | nil => intro w _ _ _ _ _ h _ _; exact h
    | cons ev es ih =>
      intro w hr hi hs hdb hlen hb hpos hnew
      cases ev with
      | op o =>
        have hi : Increasing (life (step w o) es).journal := hi
        have hs : Sourced (life (step w o) es).journal := hs
        have hpos : ∀ e ∈ (life (step w o) es).journal, 0 < e.received := hpos
        obtain ⟨l, hl⟩ := life_journal es (step w o)
        obtain ⟨l', hl'⟩ := step_journal w o
        have hi1 : Increasing (step w o).journal := by rw [hl] at hi; exact (List.pairwise_append.1 hi).1
        have hs1 : Sourced (step w o).journal := fun e he => hs e (by rw [hl]; simp [he])
        have hbs : Behind (step w o) := by
          refine step_behind w o hi1 hs1 ?_ hb
          rintro x rfl t ht
          refine hnew x ?_ t ht
          show x ∈ ((life (step w (.append x)) es).journal).drop w.journal.length
          rw [hl]
          show x ∈ ((w.journal ++ [x]) ++ l).drop w.journal.length
          rw [List.append_assoc, List.drop_left]; simp
        refine ih (step w o) (fun t r h => hr t r (by simp [h])) hi hs (by rw [step_database]; exact hdb) ?_ hbs hpos ?_
        · have hlen' : (step w o).filter.pos ≤ (step w o).journal.length := by
            cases o with
            | append e => show w.filter.pos ≤ (w.journal ++ [e]).length; simp; omega
            | clock t => exact hlen
            | stop => exact hlen
            | idle b => exact hlen
            | step fail =>
              unfold step; dsimp only
              split
              · obtain ⟨f1, _, _, f4, _⟩ := topStep_frame w
                rw [f1, f4]; exact hlen
              · rcases innerStep_cases w fail with ⟨_, e⟩ | ⟨_, _, e⟩ | ⟨_, _, x, hx, hg, e⟩ | ⟨_, _, x, hx, hg, f, _, e⟩
                · rw [e]; exact hlen
                · rw [e]; exact hlen
                · rw [e]; exact (List.getElem?_eq_some_iff.1 hx).1
                · rw [e]; exact (List.getElem?_eq_some_iff.1 hx).1
              · obtain ⟨f1, _, _, f4, _⟩ := tailStep_frame w
                rw [f1, f4]; exact hlen
              · exact hlen
          exact hlen'
        · intro x hx t ht
          -- times known are from before or of an entry read
          have hold : (w.saved = some t ∨ w.filter.pend = some t ∨ w.filter.line = some t) ∨ ∃ y, y ∈ w.journal ∧ y.time = t := by
            cases o with
            | append e => exact Or.inl ht
            | clock t => exact Or.inl ht
            | stop => exact Or.inl ht
            | idle b => exact Or.inl ht
            | step fail =>
              revert ht
              unfold step; dsimp only
              split
              · exact fun ht => Or.inl (topStep_times w t ht)
              · rcases innerStep_cases w fail with ⟨_, e⟩ | ⟨_, _, e⟩ | ⟨_, _, x, hx, hg, e⟩ | ⟨_, _, x, hx, hg, f, hf, e⟩
                · rw [e]; exact Or.inl
                · rw [e]; exact Or.inl
                · rw [e]; exact Or.inl
                · rw [e]
                  have fr := operation_frame { w.filter with ticks := w.filter.ticks + 1 } w.now w.filter.pos x.time
                  rw [← hf] at fr
                  rintro (ht | ht | ht)
                  · exact Or.inl (Or.inl ht)
                  · exact Or.inl (Or.inr (Or.inl (fr.2.2.2.1.symm.trans ht)))
                  · exact Or.inr ⟨x, List.mem_of_getElem? hx, Option.some.inj ht⟩
              · exact fun ht => Or.inl (tailStep_times w t ht)
              · exact Or.inl
          have hxl : x ∈ l := by rw [hl, List.drop_left] at hx; exact hx
          rcases hold with hold | ⟨y, hy, rfl⟩
          · refine hnew x ?_ t hold
            show x ∈ (life (step w o) es).journal.drop w.journal.length
            rw [hl, hl', List.append_assoc, List.drop_left]; simp [hxl]
          · have hlt : y.received < x.received := by
              rw [hl] at hi
              exact (List.pairwise_append.1 hi).2.2 y (by rw [hl']; simp [hy]) x hxl
            have := hs1 y (by rw [hl']; simp [hy])
            omega
      | restart t r =>
        have hrt : r = true := hr t r (by simp)
        subst hrt
        have hi : Increasing (life (begin w t true) es).journal := hi
        have hs : Sourced (life (begin w t true) es).journal := hs
        have hpos : ∀ e ∈ (life (begin w t true) es).journal, 0 < e.received := hpos
        obtain ⟨b1, b2, _, b4, b5, b6, b7, b8, _⟩ := begin_eq w t true
        obtain ⟨l, hl⟩ := life_journal es (begin w t true)
        have hi1 : Increasing w.journal := by rw [hl, b2] at hi; exact (List.pairwise_append.1 hi).1
        refine ih (begin w t true) (fun t r h => hr t r (by simp [h])) hi hs (by rw [b4]; exact hdb) ?_ ?_ hpos ?_
        · rw [b1, b2]; exact seek_le _ _
        · intro i e h1 h2 u hu
          rw [b5, b7, b8] at hu
          rw [b2] at h2
          rw [b1] at h1
          rcases hu with hu | hu | hu
          · rcases Nat.lt_or_ge i w.filter.pos with hlt | hge
            · have ha := seek_after _ _ hi1 i e h1 h2
              have hne : w.journal ≠ [] := by intro hn; rw [hn] at h2; simp at h2
              unfold startTime at ha
              rw [if_pos ⟨rfl, hne⟩] at ha
              rw [if_pos hdb, hu] at ha
              simp only [Option.getD_some] at ha
              omega
            · exact hb i e hge h2 u (Or.inl hu)
          · cases hu
          · cases hu
        · intro x hx u hu
          rw [b5, b7, b8] at hu
          rw [b2] at hx
          rcases hu with hu | hu | hu
          · exact hnew x hx u (Or.inl hu)
          · cases hu
          · cases hu
  have hfin : startTime (life w es) ft true < e.received → (begin (life w es) ft true).filter.pos ≤ i := by
    intro hlt
    rw [(begin_eq _ _ _).1]
    exact seek_lt _ _ i e he hlt
  have hne : (life w es).journal ≠ [] := by intro hn'; rw [hn'] at he; simp at he
  have hzero : 0 < e.received := hpos e (List.mem_of_getElem? he)
  refine hfin ?_
  unfold startTime
  rw [if_pos ⟨rfl, hne⟩]
  by_cases hdb : (life w es).database = true
  · rw [if_pos hdb]
    have hB := key es w hr hi hs (by rw [← life_database es w]; exact hdb) h0 (by
      intro i e _ _ t ht
      rw [hw, hp, hl] at ht
      rcases ht with ht | ht | ht <;> cases ht) hpos (by
      intro x _ t ht
      rw [hw, hp, hl] at ht
      rcases ht with ht | ht | ht <;> cases ht)
    cases hsv : (life w es).saved with
    | none => simp only [Option.getD_none]; omega
    | some t =>
      have := hB i e h he t (Or.inl hsv)
      simp only [Option.getD_some]; omega
  · rw [if_neg hdb]; omega

/-- A world with this journal, at this time, with this position saved. -/
def journalWorld (j : List Entry) (now : Int) (saved : Option Int) : World :=
  ⟨⟨.ended, false, false, true, 0, .second 0, 0, 0, none, none, 0, []⟩, j, now, true, saved⟩

/-- Steps of the loop as operations. -/
def loops (n : Nat) : List Op := List.replicate n (.step false)

/-- A filter that read two entries is stopped and started again; both had another time of the source. -/
def sourceWorld : World := run (begin (journalWorld [⟨1000, some 900, true⟩, ⟨1010, some 950, true⟩] 2000 none) 5000 true) (loops 3 ++ [.stop] ++ loops 3)

/-- With times of the source entries are processed again after a stop and a start: the position saved is the time of the source, but the journal is searched by times of receipt. -/
theorem C80_refuted_source : sourceWorld.filter.phase = .ended ∧ processed sourceWorld = [0, 1] ∧ sourceWorld.saved = some 950 ∧
    processed (run (begin sourceWorld 5000 true) (loops 3)) = [0, 1] := by decide +kernel

/-- A filter is stopped between two entries received at the same time. -/
def equalWorld : World := run (begin (journalWorld [⟨1000, none, true⟩, ⟨1000, none, true⟩] 2000 none) 5000 true) (loops 2 ++ [.stop] ++ loops 3)

/-- An entry received at the same time as the last one processed is never processed after a stop and a start, whatever happens then. -/
theorem C80_refuted_equal : equalWorld.filter.phase = .ended ∧ processed equalWorld = [0] ∧ equalWorld.journal.length = 2 ∧
    ∀ os, 1 ∉ processed (run (begin equalWorld 5000 true) os) := by
  refine ⟨by decide +kernel, by decide +kernel, by decide +kernel, fun os h => ?_⟩
  rw [(C79_once equalWorld 5000 true os).1] at h
  have hb : (begin equalWorld 5000 true).filter.pos = 2 := by decide +kernel
  have := (List.mem_filter.1 h).2
  rw [hb] at this
  simp at this

/-- A filter that processed an entry meets one without a line, and is stopped then. -/
def lineWorld : World := run (begin (journalWorld [⟨1000, none, true⟩, ⟨1010, none, false⟩] 2000 none) 5000 true) (loops 3 ++ [.stop] ++ loops 1)

/-- If an entry raises an error and the jail is stopped then, the position of the entries before is not saved, and they are processed again. -/
theorem C80_refuted_line : lineWorld.filter.phase = .ended ∧ processed lineWorld = [0] ∧ lineWorld.saved = none ∧
    processed (run (begin lineWorld 5000 true) (loops 2)) = [0] := by decide +kernel

/-- If reading at the end of the journal fails at start, entries that were written while the server was down are never processed. -/
theorem C80_refuted_unreadable (os : List Op) :
    let w := begin (journalWorld [⟨1000, none, true⟩, ⟨1010, none, true⟩] 2000 (some 1000)) 5000 false
    1 ∉ processed (run w os) := by
  intro w h
  rw [(C79_once (journalWorld [⟨1000, none, true⟩, ⟨1010, none, true⟩] 2000 (some 1000)) 5000 false os).1] at h
  have hb : (begin (journalWorld [⟨1000, none, true⟩, ⟨1010, none, true⟩] 2000 (some 1000)) 5000 false).filter.pos = 2 := by decide +kernel
  have := (List.mem_filter.1 h).2
  rw [hb] at this
  simp at this

/-! ## C81 -/

/-- When an entry is read: the jail is in operation if it was, if the entry is not older than a second, or if it is after the time until which old entries are expected. That time is set when the entry that was the last one at start is reached, or one after the start: it is later than then by the time needed so far. -/
theorem C81_switch (w : World) (e : Entry) (hp : w.filter.phase = .inner) (ha : w.filter.active = true) (he : w.journal[w.filter.pos]? = some e) (hg : e.good = true) :
    let w' := step w (.step false)
    (w'.filter.inOperation = true ↔ w.filter.inOperation = true ∨ w.now - e.time ≤ 1000000 ∨ ∃ t, w.filter.start = .second t ∧ t < e.time) ∧
    w'.filter.processed = w.filter.processed ++ [(w.filter.pos, w'.filter.inOperation)] ∧
    (∀ t c, w.filter.start = .first t c → w'.filter.inOperation = false →
      ((w.filter.pos = c ∨ t < e.time) → w'.filter.start = .second (w.now + (w.now - t))) ∧ (¬ (w.filter.pos = c ∨ t < e.time) → w'.filter.start = .first t c)) ∧
    (∀ t, w.filter.start = .second t → w'.filter.start = .second t) := by
  dsimp only
  have hs : step w (.step false) = innerStep w false := by unfold step; rw [hp]
  rw [hs]
  rcases innerStep_cases w false with ⟨h, _⟩ | ⟨_, h, _⟩ | ⟨_, _, x, hx, h, _⟩ | ⟨_, _, x, hx, _, f, hf, e'⟩
  · rw [ha] at h; cases h
  · have := (List.getElem?_eq_some_iff.1 he).1
    rcases h with h | h
    · cases h
    · omega
  · rw [he] at hx; injection hx with hx; rw [← hx, hg] at h; cases h
  · rw [he] at hx; injection hx with hx; subst hx
    rw [e']
    dsimp only
    have hop : f.inOperation = (operation { w.filter with ticks := w.filter.ticks + 1 } w.now w.filter.pos e.time).inOperation := by rw [hf]
    have hst : f.start = (operation { w.filter with ticks := w.filter.ticks + 1 } w.now w.filter.pos e.time).start := by rw [hf]
    unfold operation at hop hst
    dsimp only at hop hst
    by_cases h1 : w.filter.inOperation = true
    · rw [if_pos h1] at hop hst
      dsimp only at hop hst
      rw [h1] at hop
      refine ⟨⟨fun _ => Or.inl h1, fun _ => hop⟩, rfl, fun t c _ hn => ?_, fun t ht => by rw [hst, ht]⟩
      rw [hop] at hn; cases hn
    · rw [if_neg h1] at hop hst
      by_cases h2 : e.time ≥ w.now - 1000000
      · rw [if_pos h2] at hop hst
        dsimp only at hop hst
        refine ⟨⟨fun _ => Or.inr (Or.inl (by omega)), fun _ => hop⟩, rfl, fun t c _ hn => ?_, fun t ht => by rw [hst, ht]⟩
        rw [hop] at hn; cases hn
      · rw [if_neg h2] at hop hst
        cases hq : w.filter.start with
        | first t c =>
          rw [hq] at hop hst
          dsimp only at hop hst
          refine ⟨⟨fun h => ?_, ?_⟩, rfl, ?_, fun t ht => by cases ht⟩
          · split at hop <;> (rw [hop] at h; exact Or.inl h)
          · rintro (h | h | ⟨t', h, _⟩)
            · exact absurd h h1
            · omega
            · cases h
          · intro t' c' h _
            injection h with ha hb
            subst ha; subst hb
            refine ⟨fun h => ?_, fun h => ?_⟩
            · rw [if_pos (h.imp id (fun h => h))] at hst
              rw [hst]
              show Start.second (w.now * 2 - t) = _
              congr 1; omega
            · rw [if_neg (fun h' => h (h'.imp id (fun h => h)))] at hst
              rw [hst]
        | second t =>
          rw [hq] at hop hst
          dsimp only at hop hst
          refine ⟨⟨fun h => ?_, ?_⟩, rfl, fun t' c h _ => (by cases h), ?_⟩
          · split at hop
            · rename_i h3; exact Or.inr (Or.inr ⟨t, rfl, h3⟩)
            · rw [hop] at h; exact Or.inl h
          · rintro (h | h | ⟨t', h, h3⟩)
            · exact absurd h h1
            · omega
            · injection h with h
              subst h
              rw [if_pos h3] at hop; exact hop
          · intro t' h
            split at hst
            · rw [hst, ← h]
            · rw [hst, ← h]

theorem inOperation_step (w : World) (o : Op) (h : w.filter.inOperation = true) : (step w o).filter.inOperation = true := by
  cases o with
  | append e => exact h
  | clock t => exact h
  | stop => exact h
  | idle b => exact h
  | step fail =>
    unfold step; dsimp only
    split
    · rw [(topStep_frame w).2.2.2.2.2.2.2.1]; exact h
    · rcases innerStep_cases w fail with ⟨_, e⟩ | ⟨_, _, e⟩ | ⟨_, _, x, hx, hg, e⟩ | ⟨_, _, x, hx, hg, f, hf, e⟩
      · rw [e]; exact h
      · rw [e]
      · rw [e]; exact h
      · rw [e]
        show f.inOperation = true
        rw [hf]; unfold operation
        rw [if_pos h]; exact h
    · rw [(tailStep_frame w).2.2.2.2.2.2.2.1]; exact h
    · exact h

/-- Once in operation, a jail stays so: all entries processed afterwards are processed in operation. -/
theorem C81_stays (w : World) (h : w.filter.inOperation = true) (os : List Op) :
    (run w os).filter.inOperation = true ∧ ∃ l, (run w os).filter.processed = w.filter.processed ++ l ∧ ∀ x ∈ l, x.2 = true := by
  induction os generalizing w with
  | nil => exact ⟨h, [], by simp [run], by simp⟩
  | cons o os ih =>
    have hs := inOperation_step w o h
    have hp : ∃ l, (step w o).filter.processed = w.filter.processed ++ l ∧ ∀ x ∈ l, x.2 = true := by
      cases o with
      | append e => exact ⟨[], by simp [step], by simp⟩
      | clock t => exact ⟨[], by simp [step], by simp⟩
      | stop => exact ⟨[], by simp [step], by simp⟩
      | idle b => exact ⟨[], by simp [step], by simp⟩
      | step fail =>
        revert hs
        unfold step; dsimp only
        split
        · intro _; exact ⟨[], by rw [(topStep_frame w).2.2.2.2.1]; simp, by simp⟩
        · rcases innerStep_cases w fail with ⟨_, e⟩ | ⟨_, _, e⟩ | ⟨_, _, x, hx, hg, e⟩ | ⟨_, _, x, hx, hg, f, hf, e⟩
          · rw [e]; intro _; exact ⟨[], by simp, by simp⟩
          · rw [e]; intro _; exact ⟨[], by simp, by simp⟩
          · rw [e]; intro _; exact ⟨[], by simp, by simp⟩
          · rw [e]; intro hs
            exact ⟨[(w.filter.pos, f.inOperation)], rfl, by intro x hx; rw [List.mem_singleton.1 hx]; exact hs⟩
        · intro _; exact ⟨[], by rw [(tailStep_frame w).2.2.2.2.1]; simp, by simp⟩
        · intro _; exact ⟨[], by simp, by simp⟩
    obtain ⟨l, hl, hl'⟩ := hp
    obtain ⟨i1, l2, i2, i3⟩ := ih (step w o) hs
    refine ⟨i1, l ++ l2, ?_, ?_⟩
    · show (run (step w o) os).filter.processed = _
      rw [i2, hl]; simp
    · intro x hx
      rcases List.mem_append.1 hx with hx | hx
      · exact hl' x hx
      · exact i3 x hx

/-- Old entries found at start are not processed in operation (so they are not taken as if they just happened), as long as reading does not fail and the clock does not go back. -/
theorem C81_backlog (w : World) (ft : Int) (hj : w.journal ≠ []) (os : List Op) (hc : Calm w.now os) (ho : ∀ e ∈ w.journal, e.time < w.now - 1000000)
    (i : Nat) (b : Bool) (h : (i, b) ∈ (run (begin w ft true) os).filter.processed) (hi : i < w.journal.length) : b = false := by
  have key : ∀ (os : List Op) (v : World), Calm w.now os → w.now ≤ v.now → (∀ i e, i < w.journal.length → v.journal[i]? = some e → e ∈ w.journal) → w.journal.length ≤ v.journal.length →
      (v.filter.inOperation = true → w.journal.length ≤ v.filter.pos) → (∀ t c, v.filter.start = .first t c → t = w.now) → (∀ t, v.filter.start = .second t → w.now ≤ t) →
      (∀ x ∈ v.filter.processed, x.1 < w.journal.length → x.2 = false) → ∀ x ∈ (run v os).filter.processed, x.1 < w.journal.length → x.2 = false := by
    intro os
    induction os with
    | nil => intro v _ _ _ _ _ _ _ h; exact h
    | cons o os ih =>
      intro v hc hn hm hl hop h1 h2 hpr
      cases o with
      | append e =>
        refine ih _ hc hn ?_ ?_ hop h1 h2 hpr
        · intro i x hi hx
          have hx' : (v.journal ++ [e])[i]? = some x := hx
          rw [List.getElem?_append_left (by omega)] at hx'
          exact hm i x hi hx'
        · show w.journal.length ≤ (v.journal ++ [e]).length
          simp; omega
      | clock t => exact ih _ hc.2 hc.1 hm hl hop h1 h2 hpr
      | stop => exact ih _ hc hn hm hl hop h1 h2 hpr
      | idle b => exact ih _ hc hn hm hl hop h1 h2 hpr
      | step fail =>
        obtain ⟨hf, hc⟩ := hc
        subst hf
        show ∀ x ∈ (run (step v (.step false)) os).filter.processed, _
        unfold step
        dsimp only
        split
        · obtain ⟨f1, f2, _, f4, f5, _, _, f8, f9, _⟩ := topStep_frame v
          exact ih _ hc (by rw [f2]; exact hn) (by rw [f1]; exact hm) (by rw [f1]; exact hl) (by rw [f8, f4]; exact hop) (by rw [f9]; exact h1) (by rw [f9]; exact h2) (by rw [f5]; exact hpr)
        · rename_i hph
          rcases innerStep_cases v false with ⟨_, e⟩ | ⟨_, hx, e⟩ | ⟨_, _, x, hx, hg, e⟩ | ⟨ha, _, x, hx, hg, f, hf, e⟩
          · rw [e]; exact ih _ hc hn hm hl hop h1 h2 hpr
          · rw [e]
            refine ih _ hc hn hm hl (fun _ => ?_) h1 h2 hpr
            rcases hx with hx | hx
            · cases hx
            · exact Nat.le_trans hl hx
          · rw [e]
            exact ih _ hc hn hm hl (fun h => Nat.le_succ_of_le (hop h)) h1 h2 hpr
          · obtain ⟨s1, s2, s3, s4⟩ := C81_switch v x hph ha hx hg
            have hs : step v (.step false) = innerStep v false := by unfold step; rw [hph]
            rw [hs] at s1 s2 s3 s4
            -- an entry of the backlog does not switch
            have hold : v.filter.pos < w.journal.length → (innerStep v false).filter.inOperation = false := by
              intro hlt
              rw [Bool.eq_false_iff]
              intro ht
              have hxo := ho x (hm _ x hlt hx)
              rcases s1.1 ht with h | h | ⟨t, h, h'⟩
              · have := hop h; omega
              · omega
              · have := h2 t h; omega
            have hpos : (innerStep v false).filter.pos = v.filter.pos + 1 := by rw [e]
            have hjr : (innerStep v false).journal = v.journal := by rw [e]
            have hnw : (innerStep v false).now = v.now := by rw [e]
            have hrest : (∀ t c, (innerStep v false).filter.start = .first t c → t = w.now) ∧ (∀ t, (innerStep v false).filter.start = .second t → w.now ≤ t) := by
              cases hq : v.filter.start with
              | second t =>
                rw [s4 t hq]
                exact ⟨fun t c h => (by cases h), fun u h => (by injection h with h; subst h; exact h2 t hq)⟩
              | first t c =>
                have ht0 := h1 t c hq
                cases hio : (innerStep v false).filter.inOperation with
                | false =>
                  by_cases hcc : v.filter.pos = c ∨ t < x.time
                  · rw [(s3 t c hq hio).1 hcc]
                    exact ⟨fun t c h => (by cases h), fun u h => (by injection h with h; omega)⟩
                  · rw [(s3 t c hq hio).2 hcc]
                    exact ⟨fun u d h => (by injection h with h _; subst h; exact ht0), fun u h => (by cases h)⟩
                | true =>
                  have hst : (innerStep v false).filter.start = f.start := by rw [e]
                  rw [hst, hf]
                  unfold operation
                  dsimp only
                  split
                  · rw [hq]; exact ⟨fun u d h => (by injection h with h _; subst h; exact ht0), fun u h => (by cases h)⟩
                  · split
                    · dsimp only; rw [hq]; exact ⟨fun u d h => (by injection h with h _; subst h; exact ht0), fun u h => (by cases h)⟩
                    · rw [hq]
                      dsimp only
                      split
                      · exact ⟨fun u d h => (by cases h), fun u h => (by injection h with h; omega)⟩
                      · exact ⟨fun u d h => (by injection h with h _; subst h; exact ht0), fun u h => (by cases h)⟩
            refine ih _ hc (by rw [hnw]; exact hn) (by rw [hjr]; exact hm) (by rw [hjr]; exact hl) ?_ hrest.1 hrest.2 ?_
            · intro hio
              rw [hpos]
              rcases Nat.lt_or_ge v.filter.pos w.journal.length with hlt | hge
              · rw [hold hlt] at hio; cases hio
              · omega
            · rw [s2]
              intro y hy hyl
              rcases List.mem_append.1 hy with hy | hy
              · exact hpr y hy hyl
              · rw [List.mem_singleton.1 hy] at hyl ⊢
                exact hold hyl
        · obtain ⟨f1, f2, _, f4, f5, _, _, f8, f9, _⟩ := tailStep_frame v
          exact ih _ hc (by rw [f2]; exact hn) (by rw [f1]; exact hm) (by rw [f1]; exact hl) (by rw [f8, f4]; exact hop) (by rw [f9]; exact h1) (by rw [f9]; exact h2) (by rw [f5]; exact hpr)
        · exact ih _ hc hn hm hl hop h1 h2 hpr
  have hb : (begin w ft true).filter.inOperation = false ∧ (begin w ft true).filter.start = .first w.now (w.journal.length - 1) := by
    unfold begin
    dsimp only
    rw [if_pos (by simp [hj])]
    exact ⟨rfl, rfl⟩
  obtain ⟨_, b2, b3, _, _, b6, _⟩ := begin_eq w ft true
  exact key os (begin w ft true) hc (by rw [b3]; exact Int.le_refl _) (by rw [b2]; intro i e _ h; exact List.mem_of_getElem? h) (by rw [b2]; exact Nat.le_refl _)
    (by rw [hb.1]; intro h; cases h) (by rw [hb.2]; intro t c h; injection h with h _; exact h.symm) (by rw [hb.2]; intro t h; cases h)
    (by rw [b6]; intro x hx; simp at hx) (i, b) h hi

/-- A jail with an empty journal is in operation from the start. -/
theorem C81_empty (w : World) (ft : Int) (r : Bool) (h : r = false ∨ w.journal = []) : (begin w ft r).filter.inOperation = true := by
  unfold begin
  dsimp only
  rw [if_neg (by rcases h with h | h <;> simp [h])]

/-- A single error while old entries are read makes the jail operate: the next entry, an hour old, is processed in operation, that is, as if it just happened. -/
theorem C81_refuted_error :
    let w := begin (journalWorld [⟨1000000, none, true⟩, ⟨2000000, none, true⟩, ⟨3000000, none, true⟩] 3600000000 none) 7200000000 true
    (run w [.step false, .step false, .step true, .step false, .step false, .step false]).filter.processed = [(0, false), (1, true)] ∧
    (run w (loops 3)).filter.processed = [(0, false), (1, false)] := by decide +kernel

/-! ## Examples -/

/-- Three entries, the last two after the position that is saved; one is added while the jail is idle. -/
def journal0 : World := journalWorld [⟨10000000, none, true⟩, ⟨20000000, some 19000000, true⟩, ⟨30000000, none, true⟩] 40000000 (some 10000000)

example : let w := run (begin journal0 600000000 true) (loops 5 ++ [.idle true, .append ⟨41000000, none, true⟩] ++ loops 3 ++ [.clock 41500000, .idle false] ++ loops 4 ++ [.stop] ++ loops 3)
    w.filter.processed = [(1, false), (2, false), (3, true)] ∧ w.saved = some 41000000 ∧ w.filter.phase = .ended := by decide +kernel

example : Increasing journal0.journal ∧ Sourced journal0.journal ∧ (begin journal0 600000000 true).filter.pos = 1 ∧ startTime journal0 15000000 true = 25000000 := by
  refine ⟨?_, ?_, ?_, ?_⟩
  · simp [Increasing, journal0, journalWorld]
  · simp [Sourced, journal0, journalWorld, Entry.time]
  · decide +kernel
  · decide +kernel

example : Calm journal0.now (loops 2 ++ [.clock 41500000]) ∧ (∀ e ∈ journal0.journal, e.time < journal0.now - 1000000) := by
  refine ⟨?_, ?_⟩
  · simp [Calm, loops, List.replicate, journal0, journalWorld]
  · decide +kernel

end Verif
