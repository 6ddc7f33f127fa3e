import Verif.Spec.JournalRun

namespace Verif.JournalRunSpec

open Verif.JournalRun

theorem operation_frame (f : Filter) (now : Int) (i : Nat) (tm : Int) :
    (operation f now i tm).pos = f.pos ∧ (operation f now i tm).processed = f.processed ∧ (operation f now i tm).active = f.active ∧
    (operation f now i tm).pend = f.pend ∧ (operation f now i tm).line = f.line ∧ (operation f now i tm).modified = f.modified ∧
    (operation f now i tm).phase = f.phase ∧ (operation f now i tm).idle = f.idle ∧ (operation f now i tm).ticks = f.ticks ∧
    (operation f now i tm).nextUpdate = f.nextUpdate := by
  unfold operation
  split
  · exact ⟨rfl, rfl, rfl, rfl, rfl, rfl, rfl, rfl, rfl, rfl⟩
  · split
    · exact ⟨rfl, rfl, rfl, rfl, rfl, rfl, rfl, rfl, rfl, rfl⟩
    · split <;> split <;> exact ⟨rfl, rfl, rfl, rfl, rfl, rfl, rfl, rfl, rfl, rfl⟩

/-- All that the top of the loop can do. -/
theorem topStep_frame (w : World) :
    (topStep w).journal = w.journal ∧ (topStep w).now = w.now ∧ (topStep w).database = w.database ∧ (topStep w).filter.pos = w.filter.pos ∧
    (topStep w).filter.processed = w.filter.processed ∧ (topStep w).filter.active = w.filter.active ∧ (topStep w).filter.idle = w.filter.idle ∧
    (topStep w).filter.inOperation = w.filter.inOperation ∧ (topStep w).filter.start = w.filter.start ∧ (topStep w).filter.line = w.filter.line := by
  unfold topStep
  dsimp only
  split
  · split <;> exact ⟨rfl, rfl, rfl, rfl, rfl, rfl, rfl, rfl, rfl, rfl⟩
  · split <;> exact ⟨rfl, rfl, rfl, rfl, rfl, rfl, rfl, rfl, rfl, rfl⟩

theorem pendLine_frame (f : Filter) : (pendLine f).pos = f.pos ∧ (pendLine f).processed = f.processed ∧ (pendLine f).active = f.active ∧ (pendLine f).idle = f.idle ∧
    (pendLine f).inOperation = f.inOperation ∧ (pendLine f).start = f.start ∧ (pendLine f).phase = f.phase ∧ (pendLine f).line = none := by
  unfold pendLine
  split
  · exact ⟨rfl, rfl, rfl, rfl, rfl, rfl, rfl, rfl⟩
  · rename_i h; exact ⟨rfl, rfl, rfl, rfl, rfl, rfl, rfl, h⟩

theorem tailStep_frame (w : World) :
    (tailStep w).journal = w.journal ∧ (tailStep w).now = w.now ∧ (tailStep w).database = w.database ∧ (tailStep w).filter.pos = w.filter.pos ∧
    (tailStep w).filter.processed = w.filter.processed ∧ (tailStep w).filter.active = w.filter.active ∧ (tailStep w).filter.idle = w.filter.idle ∧
    (tailStep w).filter.inOperation = w.filter.inOperation ∧ (tailStep w).filter.start = w.filter.start ∧ (tailStep w).filter.phase = .top := by
  unfold tailStep
  dsimp only
  obtain ⟨p1, p2, p3, p4, p5, p6, p7, _⟩ := pendLine_frame { w.filter with modified := 0, phase := .top }
  split
  · exact ⟨rfl, rfl, rfl, rfl, rfl, rfl, rfl, rfl, rfl, rfl⟩
  · split <;> exact ⟨rfl, rfl, rfl, p1, p2, p3, p4, p5, p6, p7⟩

/-- What reading can do: nothing but leaving the loop, no entry, an entry without line, an entry. -/
theorem innerStep_cases (w : World) (fail : Bool) :
    (w.filter.active = false ∧ innerStep w fail = { w with filter := { w.filter with phase := .tail } }) ∨
    (w.filter.active = true ∧ (fail = true ∨ w.filter.pos ≥ w.journal.length) ∧
      innerStep w fail = { w with filter := { w.filter with ticks := w.filter.ticks + 1, inOperation := true, phase := .tail } }) ∨
    (w.filter.active = true ∧ fail = false ∧ ∃ e, w.journal[w.filter.pos]? = some e ∧ e.good = false ∧
      innerStep w fail = { w with filter := { w.filter with ticks := w.filter.ticks + 1, pos := w.filter.pos + 1, phase := .top } }) ∨
    (w.filter.active = true ∧ fail = false ∧ ∃ e, w.journal[w.filter.pos]? = some e ∧ e.good = true ∧
      ∃ f, f = operation { w.filter with ticks := w.filter.ticks + 1 } w.now w.filter.pos e.time ∧
        innerStep w fail = { w with filter := { f with line := some e.time, processed := w.filter.processed ++ [(w.filter.pos, f.inOperation)], pos := w.filter.pos + 1, modified := w.filter.modified + 1, phase := if w.filter.modified + 1 ≥ 100 then .tail else w.filter.phase } }) := by
  unfold innerStep
  dsimp only
  by_cases ha : w.filter.active = true
  · right
    rw [if_neg (by simp [ha])]
    cases fail with
    | true =>
      left
      exact ⟨ha, Or.inl rfl, rfl⟩
    | false =>
      rw [if_neg (by simp)]
      cases hj : w.journal[w.filter.pos]? with
      | none =>
        left
        exact ⟨ha, Or.inr (List.getElem?_eq_none_iff.1 hj), rfl⟩
      | some e =>
        right
        dsimp only
        by_cases hg : e.good = true
        · right
          rw [if_neg (by simp [hg])]
          obtain ⟨h1, h2, h3, h4, h5, h6, h7, h8, h9, h10⟩ := operation_frame { w.filter with ticks := w.filter.ticks + 1 } w.now w.filter.pos e.time
          refine ⟨ha, rfl, e, rfl, hg, _, rfl, ?_⟩
          dsimp only at h1 h2 h6 h7
          generalize operation { w.filter with ticks := w.filter.ticks + 1 } w.now w.filter.pos e.time = f at h1 h2 h6 h7
          rw [h1, h2, h6]
          split
          · rfl
          · rw [h7]
        · left
          rw [if_pos (by simp [hg])]
          exact ⟨ha, rfl, e, rfl, by simpa using hg, rfl⟩
  · left
    rw [if_pos (by simp [ha])]
    exact ⟨by simpa using ha, rfl⟩

/-! ## Each entry once -/

theorem between_self (j : List Entry) (a : Nat) : between j a a = [] := by
  unfold between
  rw [List.filter_eq_nil_iff]
  intro i hi
  simp only [List.mem_range] at hi
  simp; omega

theorem between_succ (j : List Entry) (a b : Nat) (h : a ≤ b) :
    between j a (b + 1) = between j a b ++ (if j[b]?.any (fun e => e.good) then [b] else []) := by
  unfold between
  rw [List.range_succ, List.filter_append]
  congr 1
  rw [List.filter_cons, List.filter_nil]
  simp [h]

theorem between_append (j : List Entry) (e : Entry) (a b : Nat) (h : b ≤ j.length) : between (j ++ [e]) a b = between j a b := by
  unfold between
  apply List.filter_congr
  intro i hi
  rw [List.mem_range] at hi
  rw [List.getElem?_append_left (by omega)]

/-- What holds for positions. -/
structure Pos (a : Nat) (w : World) : Prop where
  le : a ≤ w.filter.pos
  len : w.filter.pos ≤ w.journal.length
  eq : processed w = between w.journal a w.filter.pos

theorem step_pos (a : Nat) (w : World) (o : Op) (h : Pos a w) : Pos a (step w o) := by
  cases o with
  | append e =>
    refine ⟨h.le, ?_, ?_⟩
    · show w.filter.pos ≤ (w.journal ++ [e]).length
      have := h.len
      simp; omega
    · show processed w = between (w.journal ++ [e]) a w.filter.pos
      rw [between_append _ _ _ _ h.len, h.eq]
  | clock t => exact ⟨h.le, h.len, h.eq⟩
  | stop => exact ⟨h.le, h.len, h.eq⟩
  | idle b => exact ⟨h.le, h.len, h.eq⟩
  | step fail =>
    unfold step
    dsimp only
    split
    · obtain ⟨h1, _, _, h4, h5, _⟩ := topStep_frame w
      exact ⟨by rw [h4]; exact h.le, by rw [h1, h4]; exact h.len, by unfold processed; rw [h1, h4, h5]; exact h.eq⟩
    · rcases innerStep_cases w fail with ⟨_, e⟩ | ⟨_, _, e⟩ | ⟨_, _, x, hx, hg, e⟩ | ⟨_, _, x, hx, hg, f, _, e⟩
      · rw [e]; exact ⟨h.le, h.len, h.eq⟩
      · rw [e]; exact ⟨h.le, h.len, h.eq⟩
      · rw [e]
        have hlt : w.filter.pos < w.journal.length := by
          have := (List.getElem?_eq_some_iff.1 hx).1; exact this
        refine ⟨Nat.le_succ_of_le h.le, hlt, ?_⟩
        show processed w = between w.journal a (w.filter.pos + 1)
        rw [between_succ _ _ _ h.le, hx, h.eq]
        simp [hg]
      · rw [e]
        have hlt : w.filter.pos < w.journal.length := by
          have := (List.getElem?_eq_some_iff.1 hx).1; exact this
        refine ⟨Nat.le_succ_of_le h.le, hlt, ?_⟩
        show (w.filter.processed ++ [(w.filter.pos, f.inOperation)]).map Prod.fst = between w.journal a (w.filter.pos + 1)
        have he : w.filter.processed.map Prod.fst = between w.journal a w.filter.pos := h.eq
        rw [between_succ _ _ _ h.le, hx, List.map_append, he]
        simp [hg]
    · obtain ⟨h1, _, _, h4, h5, _⟩ := tailStep_frame w
      exact ⟨by rw [h4]; exact h.le, by rw [h1, h4]; exact h.len, by unfold processed; rw [h1, h4, h5]; exact h.eq⟩
    · exact h

theorem run_pos (a : Nat) : ∀ (os : List Op) (w : World), Pos a w → Pos a (run w os)
  | [], _, h => h
  | o :: os, w, h => run_pos a os _ (step_pos a w o h)

theorem seek_le (t : Int) : ∀ es : List Entry, seek t es ≤ es.length
  | [] => Nat.le_refl 0
  | e :: es => by
    unfold seek
    split
    · have := seek_le t es; simp; omega
    · simp

theorem seek_before (t : Int) : ∀ (es : List Entry) (i : Nat) (e : Entry), i < seek t es → es[i]? = some e → e.received ≤ t
  | [], i, e, h, _ => by simp [seek] at h
  | x :: es, i, e, h, he => by
    unfold seek at h
    split at h
    · rename_i hx
      cases i with
      | zero => simp at he; rw [← he]; exact hx
      | succ i => exact seek_before t es i e (by omega) (by simpa using he)
    · omega

theorem seek_at (t : Int) : ∀ (es : List Entry) (e : Entry), es[seek t es]? = some e → t < e.received
  | [], e, h => by simp [seek] at h
  | x :: es, e, h => by
    unfold seek at h
    split at h
    · exact seek_at t es e (by simpa using h)
    · rename_i hx
      simp at h
      rw [← h]; omega

theorem seek_after (t : Int) (es : List Entry) (hi : Increasing es) (i : Nat) (e : Entry) (h : seek t es ≤ i) (he : es[i]? = some e) : t < e.received := by
  have hlen : i < es.length := (List.getElem?_eq_some_iff.1 he).1
  have hs : seek t es < es.length := by omega
  have h0 := seek_at t es es[seek t es] (List.getElem?_eq_getElem hs)
  rcases Nat.lt_or_ge (seek t es) i with hlt | hge
  · have := List.pairwise_iff_getElem.1 hi (seek t es) i hs hlen hlt
    have he' : es[i] = e := (List.getElem?_eq_some_iff.1 he).2
    rw [he'] at this
    omega
  · have : i = seek t es := by omega
    subst this
    have he' : es[seek t es] = e := (List.getElem?_eq_some_iff.1 he).2
    rw [he'] at h0; exact h0

/-- The start of the loop. -/
theorem begin_eq (w : World) (ft : Int) (r : Bool) :
    (begin w ft r).filter.pos = seek (startTime w ft r) w.journal ∧ (begin w ft r).journal = w.journal ∧ (begin w ft r).now = w.now ∧
    (begin w ft r).database = w.database ∧ (begin w ft r).saved = w.saved ∧ (begin w ft r).filter.processed = [] ∧ (begin w ft r).filter.line = none ∧
    (begin w ft r).filter.pend = none ∧ (begin w ft r).filter.phase = .top ∧ (begin w ft r).filter.active = true ∧ (begin w ft r).filter.idle = false ∧
    (begin w ft r).filter.modified = 0 ∧ (begin w ft r).filter.nextUpdate = 0 := by
  unfold begin startTime
  by_cases h : r = true ∧ w.journal ≠ []
  · have h' : (r && !w.journal.isEmpty) = true := by simp [h.1, h.2]
    dsimp only
    rw [if_pos h', if_pos h]
    exact ⟨rfl, rfl, rfl, rfl, rfl, rfl, rfl, rfl, rfl, rfl, rfl, rfl, rfl⟩
  · have h' : ¬ (r && !w.journal.isEmpty) = true := by simpa using h
    dsimp only
    rw [if_neg h', if_neg h]
    exact ⟨rfl, rfl, rfl, rfl, rfl, rfl, rfl, rfl, rfl, rfl, rfl, rfl, rfl⟩

theorem begin_pos (w : World) (ft : Int) (r : Bool) : Pos (begin w ft r).filter.pos (begin w ft r) := by
  obtain ⟨h1, h2, _, _, _, h6, _⟩ := begin_eq w ft r
  refine ⟨Nat.le_refl _, ?_, ?_⟩
  · rw [h1, h2]; exact seek_le _ _
  · rw [between_self]; unfold processed; rw [h6]; rfl

/-! ## Position in the database -/

/-- The last time known: not yet pending, pending or saved. -/
def known (w : World) : Option Int := match w.filter.line with
  | some t => some t
  | none => match w.filter.pend with
    | some t => some t
    | none => w.saved

theorem latest_append (w : World) (e : Entry) (b : Option Int) (h : ∀ x ∈ w.filter.processed, x.1 < w.journal.length) :
    latest { w with journal := w.journal ++ [e] } b = latest w b := by
  unfold latest
  dsimp only
  cases hl : w.filter.processed.getLast? with
  | none => rfl
  | some x =>
    have := h x (List.mem_of_getLast? hl)
    dsimp only
    rw [List.getElem?_append_left this]

theorem processed_lt {a : Nat} {w : World} (h : Pos a w) : ∀ x ∈ w.filter.processed, x.1 < w.filter.pos := by
  intro x hx
  have : x.1 ∈ processed w := List.mem_map_of_mem hx
  rw [h.eq] at this
  unfold between at this
  exact List.mem_range.1 (List.mem_filter.1 this).1

theorem known_flush (w : World) : known (flush w) = known w ∨ w.filter.pend = none := by
  unfold known flush
  dsimp only
  cases w.filter.pend with
  | none => exact Or.inr rfl
  | some t => left; cases w.filter.line <;> rfl

theorem topStep_known (w : World) : known (topStep w) = known w := by
  unfold topStep
  dsimp only
  split
  · split
    · rename_i h
      rcases known_flush { w with filter := { w.filter with phase := .ended } } with hk | hk
      · rw [hk]; rfl
      · have hk' : w.filter.pend = none := hk
        rw [hk'] at h; simp at h
    · rfl
  · split <;> rfl

theorem tailStep_known (w : World) : known (tailStep w) = known w := by
  unfold tailStep
  dsimp only
  have hp : known { w with filter := pendLine { w.filter with modified := 0, phase := .top } } = known w := by
    unfold known pendLine
    cases hl : w.filter.line <;> simp only [hl]
  split
  · rfl
  · split
    · rename_i h
      rcases known_flush { w with filter := pendLine { w.filter with modified := 0, phase := .top } } with hk | hk
      · exact hk.trans hp
      · have hk' : (pendLine { w.filter with modified := 0, phase := .top }).pend = none := hk
        rw [hk'] at h; simp at h
    · exact hp

theorem step_known (a : Nat) (b : Option Int) (w : World) (o : Op) (hp : Pos a w) (h : known w = latest w b) : known (step w o) = latest (step w o) b := by
  have hlt : ∀ x ∈ w.filter.processed, x.1 < w.journal.length := fun x hx => Nat.lt_of_lt_of_le (processed_lt hp x hx) hp.len
  cases o with
  | append e =>
    show known w = latest { w with journal := w.journal ++ [e] } b
    rw [latest_append w e b hlt, h]
  | clock t => exact h
  | stop => exact h
  | idle b => exact h
  | step fail =>
    unfold step
    dsimp only
    split
    · obtain ⟨h1, _, _, _, h5, _⟩ := topStep_frame w
      rw [topStep_known, h]; unfold latest; rw [h1, h5]
    · rcases innerStep_cases w fail with ⟨_, e⟩ | ⟨_, _, e⟩ | ⟨_, _, x, hx, hg, e⟩ | ⟨_, _, x, hx, hg, f, _, e⟩
      · rw [e]; exact h
      · rw [e]; exact h
      · rw [e]; exact h
      · rw [e]
        unfold known latest
        simp [hx]
    · obtain ⟨h1, _, _, _, h5, _⟩ := tailStep_frame w
      rw [tailStep_known, h]; unfold latest; rw [h1, h5]
    · exact h

theorem run_known (a : Nat) (b : Option Int) : ∀ (os : List Op) (w : World), Pos a w → known w = latest w b → known (run w os) = latest (run w os) b
  | [], _, _, h => h
  | o :: os, w, hp, h => run_known a b os _ (step_pos a w o hp) (step_known a b w o hp h)

/-- At the end nothing is left pending, if lines are. -/
structure Ends (w : World) : Prop where
  db : w.database = true
  top : w.filter.phase = .top → w.filter.line = none
  ended : w.filter.phase = .ended → w.filter.line = none ∧ w.filter.pend = none
  good : ∀ e ∈ w.journal, e.good = true

theorem tailStep_line (w : World) (h : w.database = true) : (tailStep w).filter.line = none := by
  unfold tailStep
  dsimp only
  rw [if_neg (by simp [h])]
  have := (pendLine_frame { w.filter with modified := 0, phase := .top }).2.2.2.2.2.2.2
  split <;> exact this

theorem topStep_pend (w : World) (hd : w.database = true) (h : (topStep w).filter.phase = .ended) (hp : w.filter.phase = .top) : (topStep w).filter.pend = none := by
  revert h
  unfold topStep
  dsimp only
  split
  · split
    · intro _; rfl
    · rename_i hn
      intro _
      cases hq : w.filter.pend with
      | none => rfl
      | some t => rw [hq, hd] at hn; simp at hn
  · split
    · intro h; rw [hp] at h; cases h
    · intro h; cases h

theorem step_ends (w : World) (o : Op) (hg : ∀ e, o = .append e → e.good = true) (h : Ends w) : Ends (step w o) := by
  cases o with
  | append e =>
    refine ⟨h.db, h.top, h.ended, ?_⟩
    intro x hx
    rcases List.mem_append.1 hx with hx | hx
    · exact h.good x hx
    · rw [List.mem_singleton.1 hx]; exact hg e rfl
  | clock t => exact ⟨h.db, h.top, h.ended, h.good⟩
  | stop => exact ⟨h.db, h.top, h.ended, h.good⟩
  | idle b => exact ⟨h.db, h.top, h.ended, h.good⟩
  | step fail =>
    unfold step
    dsimp only
    split
    · rename_i hp
      obtain ⟨h1, _, h3, _, _, _, _, _, _, h10⟩ := topStep_frame w
      refine ⟨by rw [h3]; exact h.db, fun _ => by rw [h10]; exact h.top hp, fun he => ⟨by rw [h10]; exact h.top hp, topStep_pend w h.db he hp⟩, by rw [h1]; exact h.good⟩
    · rename_i hp
      rcases innerStep_cases w fail with ⟨_, e⟩ | ⟨_, _, e⟩ | ⟨_, _, x, hx, hg, e⟩ | ⟨_, _, x, hx, hg, f, _, e⟩
      · rw [e]; exact ⟨h.db, fun hh => (by cases hh), fun hh => (by cases hh), h.good⟩
      · rw [e]; exact ⟨h.db, fun hh => (by cases hh), fun hh => (by cases hh), h.good⟩
      · exact absurd (h.good x (List.mem_of_getElem? hx)) (by simp [hg])
      · rw [e]
        refine ⟨h.db, fun hh => ?_, fun hh => ?_, h.good⟩
        · exfalso
          dsimp only at hh
          rw [hp] at hh
          split at hh <;> cases hh
        · exfalso
          dsimp only at hh
          rw [hp] at hh
          split at hh <;> cases hh
    · obtain ⟨h1, _, h3, _, _, _, _, _, _, h10⟩ := tailStep_frame w
      refine ⟨by rw [h3]; exact h.db, fun _ => tailStep_line w h.db, fun he => (by rw [h10] at he; cases he), by rw [h1]; exact h.good⟩
    · exact h

theorem run_ends : ∀ (os : List Op) (w : World), (∀ e, Op.append e ∈ os → e.good = true) → Ends w → Ends (run w os)
  | [], _, _, h => h
  | o :: os, w, hg, h => run_ends os _ (fun e he => hg e (by simp [he])) (step_ends w o (fun e he => hg e (by simp [he])) h)

/-! ## Nothing is lost -/

/-- Times known for the position are before all entries not read yet. -/
def Behind (w : World) : Prop := ∀ i e, w.filter.pos ≤ i → w.journal[i]? = some e → ∀ t, (w.saved = some t ∨ w.filter.pend = some t ∨ w.filter.line = some t) → t < e.received

/-- What comes later in the journal is only more of it. -/
theorem step_journal (w : World) (o : Op) : ∃ es, (step w o).journal = w.journal ++ es := by
  cases o with
  | append e => exact ⟨[e], rfl⟩
  | clock t => exact ⟨[], by simp [step]⟩
  | stop => exact ⟨[], by simp [step]⟩
  | idle b => exact ⟨[], by simp [step]⟩
  | step fail =>
    refine ⟨[], ?_⟩
    rw [List.append_nil]
    unfold step
    dsimp only
    split
    · exact (topStep_frame w).1
    · rcases innerStep_cases w fail with ⟨_, e⟩ | ⟨_, _, e⟩ | ⟨_, _, x, hx, hg, e⟩ | ⟨_, _, x, hx, hg, f, _, e⟩ <;> rw [e]
    · exact (tailStep_frame w).1
    · rfl

theorem life_journal : ∀ (es : List Event) (w : World), ∃ l, (life w es).journal = w.journal ++ l
  | [], w => ⟨[], by simp [life]⟩
  | .op o :: es, w => by
    obtain ⟨l, h⟩ := step_journal w o
    obtain ⟨l', h'⟩ := life_journal es (step w o)
    exact ⟨l ++ l', by show (life (step w o) es).journal = _; rw [h', h]; simp⟩
  | .restart t r :: es, w => by
    obtain ⟨l', h'⟩ := life_journal es (begin w t r)
    exact ⟨l', by show (life (begin w t r) es).journal = _; rw [h', (begin_eq w t r).2.1]⟩

theorem topStep_times (w : World) (t : Int) (h : (topStep w).saved = some t ∨ (topStep w).filter.pend = some t ∨ (topStep w).filter.line = some t) :
    w.saved = some t ∨ w.filter.pend = some t ∨ w.filter.line = some t := by
  revert h
  unfold topStep
  dsimp only
  split
  · split
    · rintro (h | h | h)
      · exact Or.inr (Or.inl h)
      · cases h
      · exact Or.inr (Or.inr h)
    · exact id
  · split <;> exact id

theorem tailStep_times (w : World) (t : Int) (h : (tailStep w).saved = some t ∨ (tailStep w).filter.pend = some t ∨ (tailStep w).filter.line = some t) :
    w.saved = some t ∨ w.filter.pend = some t ∨ w.filter.line = some t := by
  revert h
  unfold tailStep
  dsimp only
  have hp : ∀ t, (pendLine { w.filter with modified := 0, phase := .top }).pend = some t → w.filter.pend = some t ∨ w.filter.line = some t := by
    intro t
    unfold pendLine
    cases hl : w.filter.line with
    | none => simp only; exact Or.inl
    | some u => simp only; exact Or.inr
  have hl := (pendLine_frame { w.filter with modified := 0, phase := .top }).2.2.2.2.2.2.2
  split
  · exact id
  · split
    · rintro (h | h | h)
      · exact Or.inr (hp t h)
      · cases h
      · exact absurd (hl.symm.trans h) (by simp)
    · rintro (h | h | h)
      · exact Or.inl h
      · exact Or.inr (hp t h)
      · exact absurd (hl.symm.trans h) (by simp)

theorem step_behind (w : World) (o : Op) (hi : Increasing (step w o).journal) (hs : Sourced (step w o).journal)
    (ho : ∀ e, o = .append e → ∀ t, (w.saved = some t ∨ w.filter.pend = some t ∨ w.filter.line = some t) → t < e.received)
    (h : Behind w) : Behind (step w o) := by
  cases o with
  | append x =>
    intro i e hi' he t ht
    have he' : (w.journal ++ [x])[i]? = some e := he
    rcases Nat.lt_or_ge i w.journal.length with hlt | hge
    · rw [List.getElem?_append_left hlt] at he'
      exact h i e hi' he' t ht
    · rw [List.getElem?_append_right hge] at he'
      have hx : e = x := by
        cases hn : i - w.journal.length with
        | zero => rw [hn] at he'; simp at he'; exact he'.symm
        | succ n => rw [hn] at he'; simp at he'
      rw [hx]
      exact ho x rfl t ht
  | clock t => exact h
  | stop => exact h
  | idle b => exact h
  | step fail =>
    revert hi hs
    unfold step
    dsimp only
    split
    · intro hi hs i e h1 h2 t ht
      obtain ⟨f1, _, _, f4, _⟩ := topStep_frame w
      rw [f4] at h1; rw [f1] at h2
      exact h i e h1 h2 t (topStep_times w t ht)
    · rcases innerStep_cases w fail with ⟨_, e⟩ | ⟨_, _, e⟩ | ⟨_, _, x, hx, hg, e⟩ | ⟨_, _, x, hx, hg, f, hf, e⟩
      · rw [e]; intro _ _; exact h
      · rw [e]; intro _ _; exact h
      · rw [e]; intro _ _ i y h1 h2 t ht
        exact h i y (by have : w.filter.pos + 1 ≤ i := h1; omega) h2 t ht
      · rw [e]
        intro hi hs i y h1 h2 t ht
        have h1' : w.filter.pos + 1 ≤ i := h1
        have h2' : w.journal[i]? = some y := h2
        have hi' : Increasing w.journal := hi
        have hs' : Sourced w.journal := hs
        have fr := operation_frame { w.filter with ticks := w.filter.ticks + 1 } w.now w.filter.pos x.time
        have ht' : w.saved = some t ∨ f.pend = some t ∨ some x.time = some t := ht
        rw [hf, fr.2.2.2.1] at ht'
        rcases ht' with ht | ht | ht
        · exact h i y (by omega) h2' t (Or.inl ht)
        · exact h i y (by omega) h2' t (Or.inr (Or.inl ht))
        · injection ht with ht
          subst ht
          obtain ⟨g1, g2⟩ := List.getElem?_eq_some_iff.1 hx
          obtain ⟨k1, k2⟩ := List.getElem?_eq_some_iff.1 h2'
          have q := List.pairwise_iff_getElem.1 hi' w.filter.pos i g1 k1 (by omega)
          rw [g2, k2] at q
          have := hs' x (List.mem_of_getElem? hx)
          omega
    · intro hi hs i e h1 h2 t ht
      obtain ⟨f1, _, _, f4, _⟩ := tailStep_frame w
      rw [f4] at h1; rw [f1] at h2
      exact h i e h1 h2 t (tailStep_times w t ht)
    · intro _ _; exact h

theorem seek_ge (t : Int) : ∀ (es : List Entry) (n : Nat), n ≤ es.length → (∀ i e, i < n → es[i]? = some e → e.received ≤ t) → n ≤ seek t es
  | [], n, h, _ => by simp at h; omega
  | x :: es, 0, _, _ => Nat.zero_le _
  | x :: es, n + 1, h, hb => by
    unfold seek
    rw [if_pos (hb 0 x (by omega) rfl)]
    have := seek_ge t es n (by simpa using h) (fun i e hi he => hb (i + 1) e (by omega) (by simpa using he))
    omega

theorem seek_lt (t : Int) (es : List Entry) (i : Nat) (e : Entry) (he : es[i]? = some e) (h : t < e.received) : seek t es ≤ i := by
  rcases Nat.lt_or_ge i (seek t es) with hlt | hge
  · have := seek_before t es i e hlt he
    omega
  · exact hge

theorem step_database (w : World) (o : Op) : (step w o).database = w.database := by
  cases o with
  | append e => rfl
  | clock t => rfl
  | stop => rfl
  | idle b => rfl
  | step fail =>
    unfold step; dsimp only
    split
    · exact (topStep_frame w).2.2.1
    · rcases innerStep_cases w fail with ⟨_, e⟩ | ⟨_, _, e⟩ | ⟨_, _, x, hx, hg, e⟩ | ⟨_, _, x, hx, hg, f, _, e⟩ <;> rw [e]
    · exact (tailStep_frame w).2.2.1
    · rfl

theorem life_database : ∀ (es : List Event) (w : World), (life w es).database = w.database
  | [], _ => rfl
  | .op o :: es, w => (life_database es (step w o)).trans (step_database w o)
  | .restart t r :: es, w => (life_database es (begin w t r)).trans (begin_eq w t r).2.2.2.1

theorem run_mem : ∀ (os : List Op) (w : World), (∀ x ∈ w.journal, x ∈ (run w os).journal) ∧ (∀ e, Op.append e ∈ os → e ∈ (run w os).journal) ∧ (run w os).database = w.database := by
  intro os
  induction os with
  | nil => intro w; exact ⟨fun x hx => hx, fun e he => by simp at he, rfl⟩
  | cons o os ih =>
    intro w
    obtain ⟨i1, i2, i3⟩ := ih (step w o)
    obtain ⟨l, hl⟩ := step_journal w o
    refine ⟨fun x hx => i1 x (by rw [hl]; simp [hx]), ?_, i3.trans (step_database w o)⟩
    intro e he
    rcases List.mem_cons.1 he with he | he
    · subst he
      exact i1 e (by show e ∈ w.journal ++ [e]; simp)
    · exact i2 e he

end Verif.JournalRunSpec
