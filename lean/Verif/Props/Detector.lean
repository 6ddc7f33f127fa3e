import Verif.Lemmas.DetectorOrder

/-!
# The search for the date of a line

* C62 The date of a line is found whatever the lines before were.
* C63 The pattern of dates changes only for a reason.
-/

namespace Verif

open Detector DetectorSpec

namespace Detector

theorem ready_id {defaults : List Template} {s : State} (h : s.entries ≠ []) : ready defaults s = s := by
  unfold ready
  have : s.entries.isEmpty = false := by simpa using h
  rw [this]; rfl

theorem matchTime_eq {defaults : List Template} {env : Env} {s : State} {line : List Char} (h : s.entries ≠ []) :
    matchTime defaults env s line = match choose env s line with | none => (s, .nothing) | some c => accept env s line c := by
  unfold matchTime
  rw [ready_id h]
  rfl

theorem accept_templates {env : Env} {s : State} {line : List Char} {c : Cand} : ((accept env s line c).1.entries.map (·.t)).Perm (s.entries.map (·.t)) := by
  have hm : (hit env s.entries c).map (·.t) = s.entries.map (·.t) := by
    cases he : s.entries[c.idx]? with
    | none =>
      unfold hit
      rw [List.modify_eq_self (by simpa using he)]
    | some e =>
      obtain ⟨a, d, e1, e2⟩ := split_at he
      have := hit_split env a d e c.start c.stop
      rw [e2] at this
      rw [e1]
      have e3 : hit env (a ++ e :: d) c = a ++ counted env.now c.start e :: d := this
      rw [e3]; simp [counted]
  unfold accept
  cases he : s.entries[c.idx]? with
  | none => exact List.Perm.refl _
  | some e =>
    simp only
    cases h1 : line[c.start]? with
    | none => simp only; rw [hm]
    | some f =>
      simp only
      cases h2 : charLast line c.stop with
      | none => simp only; rw [hm]
      | some l =>
        simp only
        by_cases hi : s.lastIdx = some c.idx
        · simp only [hi, if_true]; rw [hm]
        · simp only [hi, if_false]
          obtain ⟨x, hx⟩ : ∃ x, (hit env s.entries c)[c.idx]? = some x := by
            refine ⟨_, List.getElem?_eq_getElem ?_⟩
            unfold hit
            rw [List.length_modify]
            exact (List.getElem?_eq_some_iff.1 he).1
          obtain ⟨a, b, d, e1, _, e3, _⟩ := reorder_split (fu := if s.firstUnused = c.idx then s.firstUnused + 1 else s.firstUnused) hx
          rw [e3, ← hm]
          conv => rhs; rw [e1]
          exact perm_forward _ a b d rfl

theorem accept_not_nothing {env : Env} {s : State} {line : List Char} {c : Cand} : (accept env s line c).2 ≠ .nothing := by
  unfold accept
  cases s.entries[c.idx]? with
  | none => simp
  | some e =>
    cases line[c.start]? with
    | none => simp
    | some f =>
      simp only
      cases charLast line c.stop with
      | none => simp
      | some l => simp

theorem run_templates (defaults ts : List Template) (hn : ts ≠ []) : ∀ (hist : List (Env × List Char)) (s : State),
    (s.entries.map (·.t)).Perm ts → ((run defaults s hist).entries.map (·.t)).Perm ts := by
  intro hist
  induction hist with
  | nil => exact fun s h => h
  | cons x rest ih =>
    intro s h
    obtain ⟨env, line⟩ := x
    have e : run defaults s ((env, line) :: rest) = run defaults (matchTime defaults env s line).1 rest := rfl
    rw [e]
    apply ih
    have hs : s.entries ≠ [] := by
      intro h0; rw [h0] at h; exact hn (by simpa using h.symm)
    rw [matchTime_eq hs]
    cases choose env s line with
    | none => exact h
    | some c => exact accept_templates.trans h

theorem perm_ne_nil {s : State} {ts : List Template} (h : (s.entries.map (·.t)).Perm ts) (hn : ts ≠ []) : s.entries ≠ [] := by
  intro h0; rw [h0] at h; exact hn (by simpa using h.symm)

theorem fresh_templates (ts : List Template) : ((fresh ts).entries.map (·.t)).Perm ts := by
  unfold fresh
  rw [List.map_map]
  have : ((·.t) ∘ fun t => ({ t } : Entry)) = id := rfl
  rw [this, List.map_id]

theorem mem_of_entry {s : State} {ts : List Template} (h : (s.entries.map (·.t)).Perm ts) {i : Nat} {e : Entry} (he : s.entries[i]? = some e) : e.t ∈ ts :=
  h.subset (List.mem_map_of_mem (List.mem_of_getElem? he))

theorem small_of {s : State} {ts : List Template} {line : List Char} (h : (s.entries.map (·.t)).Perm ts) (hp : ∀ t ∈ ts, Proper t)
    (hl : line.length < 2 ^ 31) : Small s line := by
  intro e he a b hm
  have := (hp e.t (h.subset (List.mem_map_of_mem he))).whole line a b hm
  omega

theorem choose_proper {env : Env} {s : State} {ts : List Template} {line : List Char} {c : Cand} (h : (s.entries.map (·.t)).Perm ts) (hp : ∀ t ∈ ts, Proper t)
    (hc : Chooses env s line c) : c.start < line.length ∧ c.stop ≤ line.length := by
  obtain ⟨e, he, hs⟩ := choose_sound hc
  have pr := hp e.t (mem_of_entry h he)
  rcases hs with hs | ⟨_, _, _, hs⟩
  · exact pr.whole _ _ _ hs
  · exact pr.part _ _ _ _ _ hs

end Detector

/-! ## C62 The date of a line is found whatever the lines before were -/

/-- No template gets lost, and none is added. -/
theorem C62_templates (defaults ts : List Template) (hn : ts ≠ []) (hist : List (Env × List Char)) :
    ((run defaults (fresh ts) hist).entries.map (·.t)).Perm ts := run_templates defaults ts hn hist _ (fresh_templates ts)

/-- Without templates, the default ones are used. -/
theorem C62_defaults (defaults : List Template) (env : Env) (line : List Char) :
    matchTime defaults env (fresh []) line = matchTime defaults env (fresh defaults) line := by
  cases defaults with
  | nil => rfl
  | cons t ts =>
    unfold matchTime
    have : ready (t :: ts) (fresh []) = ready (t :: ts) (fresh (t :: ts)) := rfl
    rw [this]

/-- Whatever the lines before were: no date is found exactly if no template finds one. -/
theorem C62_found (defaults ts : List Template) (hn : ts ≠ []) (hist : List (Env × List Char)) (env : Env) (line : List Char)
    (hp : ∀ t ∈ ts, Proper t) (he : ∀ t ∈ ts, Extends t) (hl : line.length < 2 ^ 31) :
    (matchTime defaults env (run defaults (fresh ts) hist) line).2 = .nothing ↔ ∀ t ∈ ts, t.search line = none := by
  have perm := C62_templates defaults ts hn hist
  revert perm
  generalize run defaults (fresh ts) hist = s
  intro perm
  rw [matchTime_eq (perm_ne_nil perm hn)]
  have sm := small_of perm hp hl
  cases hc : choose env s line with
  | none =>
    refine ⟨fun _ t ht => ?_, fun _ => rfl⟩
    obtain ⟨e, hm, rfl⟩ := List.mem_map.1 (perm.symm.subset ht)
    exact (choose_none sm hc).1 e hm
  | some c =>
    refine ⟨fun h => absurd h accept_not_nothing, fun h => ?_⟩
    obtain ⟨e, h1, h2⟩ := choose_sound (choose_some sm hc)
    have ht := mem_of_entry perm h1
    have h0 := h e.t ht
    rcases h2 with h2 | ⟨_, _, _, h2⟩
    · rw [h0] at h2; cases h2
    · exact absurd h0 (he e.t ht _ _ _ (by rw [h2]; simp))

/-- A date is one that the returned template finds, in the line or at the place of its last date. -/
theorem C62_sound (defaults ts : List Template) (hn : ts ≠ []) (hist : List (Env × List Char)) (env : Env) (line : List Char)
    (hp : ∀ t ∈ ts, Proper t) (hl : line.length < 2 ^ 31) (a b : Nat) (t : Template)
    (h : (matchTime defaults env (run defaults (fresh ts) hist) line).2 = .date a b t) :
    t ∈ ts ∧ (t.search line = some (a, b) ∨ t.anchored = false ∧
      t.searchIn line (run defaults (fresh ts) hist).lastPos (run defaults (fresh ts) hist).lastEnd = some (a, b)) := by
  have perm := C62_templates defaults ts hn hist
  revert perm h
  generalize run defaults (fresh ts) hist = s
  intro h perm
  rw [matchTime_eq (perm_ne_nil perm hn)] at h
  have sm := small_of perm hp hl
  cases hc : choose env s line with
  | none => rw [hc] at h; cases h
  | some c =>
    rw [hc] at h
    have ch := choose_some sm hc
    obtain ⟨e, h1, h2⟩ := choose_sound ch
    obtain ⟨p1, p2⟩ := choose_proper perm hp ch
    obtain ⟨_, _, _, _, _, e1, _⟩ := accept_split (env := env) h1 p1 p2
    simp only [e1, Result.date.injEq] at h
    obtain ⟨rfl, rfl, rfl⟩ := h
    refine ⟨mem_of_entry perm h1, ?_⟩
    rcases h2 with h2 | ⟨_, h3, _, h2⟩
    · exact .inl h2
    · exact .inr ⟨h3, h2⟩

/-- The search succeeds if no template finds the empty text behind the last character. The full claim, for all templates, is false: see below. -/
theorem C62_no_error_partial (defaults ts : List Template) (hn : ts ≠ []) (hist : List (Env × List Char)) (env : Env) (line : List Char)
    (hp : ∀ t ∈ ts, Proper t) (hl : line.length < 2 ^ 31) : (matchTime defaults env (run defaults (fresh ts) hist) line).2 ≠ .error := by
  have perm := C62_templates defaults ts hn hist
  revert perm
  generalize run defaults (fresh ts) hist = s
  intro perm
  rw [matchTime_eq (perm_ne_nil perm hn)]
  have sm := small_of perm hp hl
  cases hc : choose env s line with
  | none => simp
  | some c =>
    have ch := choose_some sm hc
    obtain ⟨e, h1, _⟩ := choose_sound ch
    obtain ⟨p1, p2⟩ := choose_proper perm hp ch
    obtain ⟨_, _, _, _, _, e1, _⟩ := accept_split (env := env) h1 p1 p2
    simp [e1]

/-- One date: it is counted for its template, the template may move forward, all others keep their order, and the place of the date is remembered. -/
theorem C62_step (defaults ts : List Template) (env : Env) (s : State) (line : List Char) (hn : s.entries ≠ []) (perm : (s.entries.map (·.t)).Perm ts)
    (hp : ∀ t ∈ ts, Proper t) (hl : line.length < 2 ^ 31) (a b : Nat) (t : Template) (h : (matchTime defaults env s line).2 = .date a b t) :
    ∃ A B C e, s.entries = A ++ B ++ e :: C ∧ e.t = t ∧ (matchTime defaults env s line).1.entries = A ++ counted env.now a e :: (B ++ C) ∧
      Placed s (A ++ B).length (counted env.now a e) A.length ∧ Chooses env s line ⟨a, b, (A ++ B).length⟩ ∧
      (matchTime defaults env s line).1.lastIdx = some A.length ∧
      (matchTime defaults env s line).1.lastPos = a ∧ (matchTime defaults env s line).1.lastEnd = b ∧
      (matchTime defaults env s line).1.before = (if a = 0 then none else line[a - 1]?) ∧ (matchTime defaults env s line).1.first = line[a]? ∧
      (matchTime defaults env s line).1.last = (if b = 0 then line.getLast? else line[b - 1]?) ∧ (matchTime defaults env s line).1.after = line[b]? := by
  rw [matchTime_eq hn] at h ⊢
  have sm := small_of perm hp hl
  cases hc : choose env s line with
  | none => rw [hc] at h; cases h
  | some c =>
    rw [hc] at h
    have ch := choose_some sm hc
    obtain ⟨e, h1, _⟩ := choose_sound ch
    obtain ⟨p1, p2⟩ := choose_proper perm hp ch
    obtain ⟨A, B, C, q1, q2, q3, q4, q5, q6, q7, q8, q9, q10, q11, q12⟩ := accept_split (env := env) h1 p1 p2
    simp only [q3, Result.date.injEq] at h
    obtain ⟨rfl, rfl, rfl⟩ := h
    refine ⟨A, B, C, e, q1, rfl, q4, ?_, by rw [q2]; exact ch, q5, q6, q9, q7, q8, q10, q11⟩
    rw [q2]
    by_cases hi : s.lastIdx = some c.idx
    · rw [if_pos hi] at q12
      simp only [Prod.mk.injEq] at q12
      exact .same (.inl hi) q12.1
    · rw [if_neg hi] at q12
      simp only [Prod.mk.injEq] at q12
      rw [reorder_pos] at q12
      by_cases h0 : c.idx = 0
      · rw [if_pos h0] at q12
        exact .same (.inr h0) (by omega)
      · rw [if_neg h0] at q12
        have hh : hit env s.entries c = A ++ B ++ counted env.now c.start e :: C := by
          have := hit_split env (A ++ B) C e c.start c.stop
          rw [q2, ← q1] at this
          exact this
        have hg : (hit env s.entries c)[c.idx]? = some (counted env.now c.start e) := by rw [hh, ← q2]; exact get_mid ..
        have other : ∀ m, m ≠ c.idx → (hit env s.entries c)[m]? = s.entries[m]? := by
          intro m hm
          unfold hit
          rw [List.getElem?_modify]
          simp [Ne.symm hm]
        have hlt : c.idx < s.entries.length := (List.getElem?_eq_some_iff.1 h1).1
        have hgoal : goal (if s.firstUnused = c.idx then s.firstUnused + 1 else s.firstUnused) c.idx = wanted s c.idx := by
          unfold goal wanted
          by_cases hf : s.firstUnused = c.idx
          · rw [if_pos hf, if_neg (by omega), if_neg (by omega)]
          · rw [if_neg hf]
        have hlt2 : wanted s c.idx < c.idx := by rw [← hgoal]; exact goal_lt h0
        have sp := newPos_spec (fu := if s.firstUnused = c.idx then s.firstUnused + 1 else s.firstUnused) hg
        rw [hgoal, other _ (by omega), other _ (by omega)] at sp
        obtain ⟨y, hy⟩ : ∃ y, s.entries[wanted s c.idx]? = some y := ⟨_, List.getElem?_eq_getElem (by omega)⟩
        obtain ⟨z, hz⟩ : ∃ z, s.entries[c.idx - 1]? = some z := ⟨_, List.getElem?_eq_getElem (by omega)⟩
        rcases sp with ⟨k1, y', k2, k3⟩ | ⟨k1, k2⟩
        · exact .wanted y' hi h0 k2 k3 (by rw [q12.1, k1])
        · rcases k2 with ⟨k2, z', k3, k4⟩ | ⟨k2, k3⟩
          · exact .one y z' hi h0 hy (k1 y hy) k3 k4 (by rw [q12.1, k2])
          · exact .stay y z hi h0 hy (k1 y hy) hz (k3 z hz) (by rw [q12.1, k2])

/-- A line without date changes nothing. -/
theorem C62_nothing (defaults : List Template) (env : Env) (s : State) (line : List Char) (hn : s.entries ≠ [])
    (h : (matchTime defaults env s line).2 = .nothing) : (matchTime defaults env s line).1 = s := by
  rw [matchTime_eq hn] at h ⊢
  cases hc : choose env s line with
  | none => rfl
  | some c => rw [hc] at h; exact absurd h accept_not_nothing

/-- At any time, the templates that found dates are tried before those that did not, and these are tried in the order they were given. -/
theorem C62_order (defaults ts : List Template) (hn : ts ≠ []) (hist : List (Env × List Char)) (hp : ∀ t ∈ ts, Proper t) (hw : ∀ t ∈ ts, 0 < t.weight)
    (hl : ∀ x ∈ hist, x.2.length < 2 ^ 31) : Sorted ts (run defaults (fresh ts) hist) := by
  have key : ∀ (hist : List (Env × List Char)) (s : State), (∀ x ∈ hist, x.2.length < 2 ^ 31) → (s.entries.map (·.t)).Perm ts → Inv ts s →
      Inv ts (run defaults s hist) := by
    intro hist
    induction hist with
    | nil => exact fun s _ _ h => h
    | cons x rest ih =>
      intro s hl perm inv
      obtain ⟨env, line⟩ := x
      have e : run defaults s ((env, line) :: rest) = run defaults (matchTime defaults env s line).1 rest := rfl
      rw [e, matchTime_eq (perm_ne_nil perm hn)]
      have hl' := fun y hy => hl y (List.mem_cons_of_mem _ hy)
      have sm := small_of perm hp (hl (env, line) (List.mem_cons_self ..))
      cases hc : choose env s line with
      | none => exact ih s hl' perm inv
      | some c =>
        have ch := choose_some sm hc
        obtain ⟨e, h1, _⟩ := choose_sound ch
        obtain ⟨p1, p2⟩ := choose_proper perm hp ch
        exact ih _ hl' (accept_templates.trans perm) (accept_inv inv h1 p1 p2 (hw _ (mem_of_entry perm h1)))
  refine (key hist (fresh ts) hl (fresh_templates ts) ⟨⟨?_, ?_, ?_⟩, ?_, ?_⟩).sorted
  · simp [fresh]
  · intro e he
    simp only [fresh, List.drop_zero, List.mem_map] at he
    obtain ⟨t, _, rfl⟩ := he
    rfl
  · have : (fresh ts).entries.drop (fresh ts).firstUnused = (fresh ts).entries := rfl
    rw [this]
    simp only [fresh, List.map_map]
    have : ((·.t) ∘ fun t => ({ t } : Entry)) = id := rfl
    rw [this, List.map_id]
    exact List.Sublist.refl _
  · simp [fresh]
  · rintro i e ⟨h, _⟩; cases h

/-- Two templates of the same name are refused, or ignored; others are tried last. -/
theorem C62_append (s : State) (t : Template) (ignoreDup : Bool) :
    append s t ignoreDup = if ∃ e ∈ s.entries, e.t.name = t.name then (if ignoreDup then some s else none) else some { s with entries := s.entries ++ [{ t }] } := by
  unfold append
  have : (s.entries.any (fun e => e.t.name == t.name)) = true ↔ ∃ e ∈ s.entries, e.t.name = t.name := by simp
  by_cases h : ∃ e ∈ s.entries, e.t.name = t.name
  · rw [if_pos h, if_pos (this.2 h)]
  · rw [if_neg h, if_neg (fun h' => h (this.1 h'))]

/-! ## C63 The pattern of dates changes only for a reason -/

/-- The template that dated the last line. -/
def Dated (s : State) (t : Template) : Prop := ∃ i e, LastUsed s i e ∧ e.t = t

namespace Detector

theorem dated_ne_nil {s : State} {t : Template} (h : Dated s t) : s.entries ≠ [] := by
  obtain ⟨i, e, ⟨_, h⟩, _⟩ := h
  intro h0; rw [h0] at h; simp at h

/-- The state after a line with a date. -/
theorem dated_after {defaults : List Template} {env : Env} {s : State} {line : List Char} {a b : Nat} {t : Template}
    (h : (matchTime defaults env s line).2 = .date a b t) : Dated (matchTime defaults env s line).1 t ∧ (matchTime defaults env s line).1.lastPos = a ∧
      (matchTime defaults env s line).1.lastEnd = b ∧ (matchTime defaults env s line).1.before = charBefore line a ∧
      (matchTime defaults env s line).1.after = line[b]? := by
  unfold matchTime at h ⊢
  revert h
  generalize ready defaults s = s
  simp only
  cases choose env s line with
  | none => intro h; cases h
  | some c =>
    simp only
    intro h
    unfold accept at h ⊢
    cases he : s.entries[c.idx]? with
    | none => rw [he] at h; cases h
    | some e =>
      rw [he] at h
      simp only at h ⊢
      cases h1 : line[c.start]? with
      | none => rw [h1] at h; cases h
      | some f =>
        rw [h1] at h
        simp only at h ⊢
        cases h2 : charLast line c.stop with
        | none => rw [h2] at h; cases h
        | some l =>
          rw [h2] at h
          simp only [Result.date.injEq] at h ⊢
          obtain ⟨rfl, rfl, rfl⟩ := h
          refine ⟨?_, by simp, by simp, by simp, by simp⟩
          obtain ⟨p, d, e1, e2⟩ := split_at he
          have hh : hit env s.entries c = p ++ counted env.now c.start e :: d := by
            have := hit_split env p d e c.start c.stop
            rw [e2, ← e1] at this
            exact this
          have hg : (hit env s.entries c)[c.idx]? = some (counted env.now c.start e) := by rw [hh, ← e2]; exact get_mid ..
          by_cases hi : s.lastIdx = some c.idx
          · simp only [hi, if_true]
            exact ⟨c.idx, counted env.now c.start e, ⟨rfl, hg⟩, rfl⟩
          · simp only [hi, if_false]
            obtain ⟨a', b', d', _, _, e3, e4⟩ := reorder_split (fu := if s.firstUnused = c.idx then s.firstUnused + 1 else s.firstUnused) hg
            exact ⟨a'.length, counted env.now c.start e, ⟨by rw [e4], by rw [e3]; exact get_mid ..⟩, rfl⟩

theorem choose_last {env : Env} {s : State} {line : List Char} {i : Nat} {e : Entry} {m : Nat × Nat} {ig : Bool} (hl : LastUsed s i e)
    (ht : tryLast env s line e = (some m, ig)) (hk : Kept s e m) : choose env s line = some ⟨m.1, m.2, i⟩ := by
  unfold choose
  rw [hl.1]
  simp only [hl.2, ht]
  rw [if_pos (keeps_iff.2 hk)]

theorem matchTime_choose {defaults : List Template} {env : Env} {s : State} {line : List Char} {c : Cand} {e : Entry} (hn : s.entries ≠ [])
    (hc : choose env s line = some c) (he : s.entries[c.idx]? = some e) (h1 : c.start < line.length) (h2 : c.stop ≤ line.length) :
    (matchTime defaults env s line).2 = .date c.start c.stop e.t := by
  rw [matchTime_eq hn, hc]
  obtain ⟨_, _, _, _, _, e1, _⟩ := accept_split (env := env) he h1 h2
  exact e1

end Detector

/-- Once a template anchored at the begin or end of lines was used, it dates all lines in which it finds a date. -/
theorem C63_anchored (defaults : List Template) (env : Env) (s : State) (line : List Char) (a b : Nat) (t : Template)
    (h : (matchTime defaults env s line).2 = .date a b t) (ha : t.anchored = true) (hp : Proper t) (hist : List (Env × List Char))
    (hh : ∀ x ∈ hist, t.search x.2 ≠ none) (env' : Env) (line' : List Char) (m : Nat × Nat) (hm : t.search line' = some m) :
    (matchTime defaults env' (run defaults (matchTime defaults env s line).1 hist) line').2 = .date m.1 m.2 t := by
  have step : ∀ (s : State) (env : Env) (line : List Char) (m : Nat × Nat), Dated s t → t.search line = some m →
      (matchTime defaults env s line).2 = .date m.1 m.2 t := by
    intro s env line m hd hm
    have hn := dated_ne_nil hd
    obtain ⟨i, e, hl, rfl⟩ := hd
    have ht : tryLast env s line e = (some m, true) := by unfold tryLast; rw [if_pos ha, hm]
    have hc := choose_last hl ht (.inr (.inl ha))
    obtain ⟨p1, p2⟩ := hp.whole _ _ _ hm
    exact matchTime_choose hn hc hl.2 p1 p2
  have all : ∀ (hist : List (Env × List Char)) (s : State), Dated s t → (∀ x ∈ hist, t.search x.2 ≠ none) → Dated (run defaults s hist) t := by
    intro hist
    induction hist with
    | nil => exact fun s h _ => h
    | cons x rest ih =>
      intro s hd hh
      obtain ⟨env, line⟩ := x
      have e : run defaults s ((env, line) :: rest) = run defaults (matchTime defaults env s line).1 rest := rfl
      rw [e]
      refine ih _ ?_ (fun y hy => hh y (List.mem_cons_of_mem _ hy))
      cases hm : t.search line with
      | none => exact absurd hm (hh (env, line) (List.mem_cons_self ..))
      | some m => exact (dated_after (step s env line m hd hm)).1
  exact step _ _ _ _ (all hist _ (dated_after h).1 hh) hm

/-- As long as lines have a date of this template at the same place, between the same characters, this date is used, whatever else the lines contain. -/
theorem C63_same_place (defaults : List Template) (env : Env) (s : State) (line : List Char) (a b : Nat) (t : Template)
    (h : (matchTime defaults env s line).2 = .date a b t) (ha : t.anchored = false) (hp : Proper t) (hist : List (Env × List Char))
    (hh : ∀ x ∈ hist, Repeats t a b line x.2) (env' : Env) (line' : List Char) (hr : Repeats t a b line line') :
    (matchTime defaults env' (run defaults (matchTime defaults env s line).1 hist) line').2 = .date a b t := by
  let P : State → Prop := fun s => Dated s t ∧ s.lastPos = a ∧ s.lastEnd = b ∧ s.before = charBefore line a ∧ s.after = line[b]?
  have step : ∀ (s : State) (env : Env) (line' : List Char), P s → Repeats t a b line line' → (matchTime defaults env s line').2 = .date a b t := by
    rintro s env line' ⟨hd, e1, e2, e3, e4⟩ ⟨r1, r2, r3⟩
    have hn := dated_ne_nil hd
    obtain ⟨i, e, hl, rfl⟩ := hd
    have fits : sameBounds env s line' = true := by
      refine sameBounds_iff.2 ⟨.inl ?_, .inl (by rw [e2, e4]; exact r2)⟩
      rw [e1, e3]
      unfold charBefore
      by_cases h0 : a = 0
      · rw [if_pos h0, if_pos h0]
      · rw [if_neg h0, if_neg h0]
        rcases r1 with r1 | r1
        · exact absurd r1 h0
        · exact r1
    have ht : tryLast env s line' e = (some (a, b), false) := by
      unfold tryLast; rw [if_neg (by simp [ha]), if_pos fits, e1, e2, r3]
    have hc := choose_last hl ht (.inr (.inr (by rw [e1, e2])))
    obtain ⟨p1, p2⟩ := hp.part _ _ _ _ _ r3
    exact matchTime_choose hn hc hl.2 p1 p2
  have all : ∀ (hist : List (Env × List Char)) (s : State), P s → (∀ x ∈ hist, Repeats t a b line x.2) → P (run defaults s hist) := by
    intro hist
    induction hist with
    | nil => exact fun s h _ => h
    | cons x rest ih =>
      intro s hP hh
      obtain ⟨env, line'⟩ := x
      have e : run defaults s ((env, line') :: rest) = run defaults (matchTime defaults env s line').1 rest := rfl
      rw [e]
      refine ih _ ?_ (fun y hy => hh y (List.mem_cons_of_mem _ hy))
      have hr := hh (env, line') (List.mem_cons_self ..)
      obtain ⟨k1, k2, k3, k4, k5⟩ := dated_after (step s env line' hP hr)
      refine ⟨k1, k2, k3, ?_, by rw [k5]; exact hr.2.1⟩
      rw [k4]
      unfold charBefore
      by_cases h0 : a = 0
      · rw [if_pos h0, if_pos h0]
      · rw [if_neg h0, if_neg h0]
        rcases hr.1 with r1 | r1
        · exact absurd r1 h0
        · exact r1
  exact step _ _ _ (all hist _ (dated_after h) hh) hr

/-- A date at the begin of a line is preferred, if the last date was at the begin of its line, unless the last of the templates finds another one. The full
claim, for all templates and wherever the last date was, is false: see below. -/
theorem C63_start_partial (defaults ts : List Template) (env : Env) (s : State) (line : List Char) (perm : (s.entries.map (·.t)).Perm ts)
    (hp : ∀ t ∈ ts, Proper t) (hl : line.length < 2 ^ 31) (two : 1 < s.entries.length) (hs : s.lastPos ≤ 1)
    (hanch : ∀ t ∈ ts, t.anchored = true → ∀ p q, t.search line = some (p, q) → p ≤ 1)
    (hlast : ∀ e, s.entries[s.entries.length - 1]? = some e → ∀ p q, e.t.search line = some (p, q) → p ≤ 1)
    (h : ∃ t ∈ ts, ∃ q, t.search line = some (0, q)) : ∃ a b t, a ≤ 1 ∧ (matchTime defaults env s line).2 = .date a b t := by
  have hn : s.entries ≠ [] := by intro h0; rw [h0] at two; simp at two
  have sm := small_of perm hp hl
  obtain ⟨t, ht, q, hq⟩ := h
  obtain ⟨g, hg, rfl⟩ := List.mem_map.1 (perm.symm.subset ht)
  cases hc : choose env s line with
  | none => rw [(choose_none sm hc).1 g hg] at hq; cases hq
  | some c =>
    have ch := choose_some sm hc
    obtain ⟨e, h1, _⟩ := choose_sound ch
    obtain ⟨p1, p2⟩ := choose_proper perm hp ch
    refine ⟨c.start, c.stop, e.t, ?_, matchTime_choose hn hc h1 p1 p2⟩
    obtain ⟨k, hk, hgk⟩ := List.mem_iff_getElem.1 hg
    have hgk' : s.entries[k]? = some g := by rw [List.getElem?_eq_getElem hk, hgk]
    have anch : ∀ {i : Nat} {e : Entry} {p q : Nat}, s.entries[i]? = some e → e.t.anchored = true → e.t.search line = some (p, q) → p ≤ 1 :=
      fun h1 h2 h3 => hanch _ (mem_of_entry perm h1) h2 _ _ h3
    have sel : ∀ {skip kept}, (skip = some k → ∃ f, kept = some f ∧ f.start = 0) → Selects env s line skip kept c → c.start ≤ 1 := by
      intro skip kept hk0 hs'
      cases hs' with
      | final e' f1 f2 _ =>
        rcases f2 with f2 | f2 | f2 | f2
        · have hx := f1.entry
          rw [show c.idx = s.entries.length - 1 by omega] at hx
          exact hlast e' hx _ _ f1.search
        · exact anch f1.entry f2 f1.search
        · omega
        · omega
      | nearest f1 f2 =>
        by_cases hsk : skip = some k
        · obtain ⟨f, hf1, hf2⟩ := hk0 hsk
          rcases f2.reserved f hf1 with h | h
          · rw [h]; omega
          · omega
        · rcases f2.others ⟨0, q, k⟩ ⟨g, hgk', hq, hsk⟩ with h | h | h
          · simp only at h; omega
          · rw [h]; simp
          · have := h.1; simp only at this; omega
    cases ch with
    | same e' again hl' ht' hkept =>
      rcases hkept with h | h | h
      · omega
      · generalize hm : some (c.start, c.stop) = x at ht'
        cases ht' with
        | anchored h3 => exact anch hl'.2 h3 hm.symm
        | place h3 => rw [h] at h3; cases h3
        | moved h3 => rw [h] at h3; cases h3
      · simp only [Prod.mk.injEq] at h; omega
    | moved i e' again m hl' ht' hnk hsel =>
      refine sel ?_ hsel
      intro hsk
      cases again with
      | true => cases hsk
      | false =>
        cases hsk
        have : e' = g := by have := hl'.2; rw [hgk'] at this; cases this; rfl
        subst this
        refine ⟨_, rfl, ?_⟩
        generalize hm : some m = x at ht'
        cases ht' with
        | anchored => rw [hq] at hm; cases hm; rfl
        | moved => rw [hq] at hm; cases hm; rfl
    | other i e' again hl' ht' hsel =>
      refine sel ?_ hsel
      intro hsk
      cases again with
      | true => cases hsk
      | false =>
        cases hsk
        have : e' = g := by have := hl'.2; rw [hgk'] at this; cases this; rfl
        subst this
        generalize hm : (none : Option (Nat × Nat)) = x at ht'
        cases ht' with
        | anchored => rw [hq] at hm; cases hm
        | moved => rw [hq] at hm; cases hm
    | first _ hsel => exact sel (fun h => by cases h) hsel

/-! ### Examples: a "date" is a run of one character -/

namespace DetectorSample

/-- The first run of the character from a position on. -/
def spanOf (c : Char) (l : List Char) (i : Nat) : Option (Nat × Nat) :=
  let k := ((l.drop i).takeWhile (fun x => decide (x ≠ c))).length
  let r := (((l.drop i).drop k).takeWhile (fun x => decide (x = c))).length
  if r = 0 then none else some (i + k, i + k + r)

def word (c : Char) : Template := { name := String.singleton c, search := fun l => spanOf c l 0, searchIn := fun l p q => spanOf c (l.take q) p }

/-- A template anchored at the begin. -/
def begins (c : Char) : Template :=
  { name := "^" ++ String.singleton c, anchored := true, weight := 100
    search := fun l => if l.head? = some c then spanOf c l 0 else none
    searchIn := fun l p q => if p = 0 ∧ l.head? = some c then spanOf c (l.take q) 0 else none }

/-- `{NONE}`: the empty text at the begin of any line. -/
def empty : Template := { name := "{NONE}", anchored := true, search := fun _ => some (0, 0), searchIn := fun _ p _ => if p = 0 then some (0, 0) else none }

def env (now : Int := 0) : Env := ⟨now, fun _ => false, fun c => c.isAlphanum⟩

def view : Result → Option (Nat × Nat × String)
  | .date a b t => some (a, b, t.name)
  | _ => none

def isError : Result → Bool
  | .error => true
  | _ => false

/-- The names in their order, after some lines. -/
def names (ts : List Template) (lines : List String) : List String :=
  ((run [] (fresh ts) (lines.map (fun l => (env, l.toList)))).entries.map (fun e => e.t.name))

/-- The date of a line after some others. -/
def dateAfter (ts : List Template) (lines : List String) (line : String) : Option (Nat × Nat × String) :=
  view (matchTime [] env (run [] (fresh ts) (lines.map (fun l => (env, l.toList)))) line.toList).2

theorem spanOf_bounds {c : Char} {l : List Char} {i a b : Nat} (h : spanOf c l i = some (a, b)) : a < l.length ∧ b ≤ l.length := by
  unfold spanOf at h
  simp only at h
  split at h
  · cases h
  · rename_i hr
    simp only [Option.some.injEq, Prod.mk.injEq] at h
    obtain ⟨rfl, rfl⟩ := h
    have h1 := ((((l.drop i).drop ((l.drop i).takeWhile (fun x => decide (x ≠ c))).length)).takeWhile_sublist (fun x => decide (x = c))).length_le
    simp only [List.length_drop] at h1 hr ⊢
    omega

theorem word_proper (c : Char) : Proper (word c) where
  whole l a b h := spanOf_bounds h
  part l p q a b h := by
    have := spanOf_bounds (l := l.take q) h
    rw [List.length_take] at this
    omega

-- both templates find their dates, used ones come first
example : names [word 'a', word 'b', word 'c'] ["--ccc", "x"] = ["c", "a", "b"] := by decide +kernel
example : dateAfter [word 'a', word 'b', word 'c'] ["--ccc", "x"] "--bb" = some (2, 4, "b") := by decide +kernel
example : dateAfter [word 'a', word 'b', word 'c'] ["--ccc", "x"] "----" = none := by decide +kernel
example : Sorted [word 'a', word 'b'] (run [] (fresh [word 'a', word 'b']) [(env, "bb".toList)]) :=
  C62_order [] [word 'a', word 'b'] (by simp) [(env, "bb".toList)] (by simp [word_proper]) (by simp [word]) (by decide)
-- the date stays where it was, whatever the text contains
example : dateAfter [word 'a', word 'b', word 'c'] ["[bb] x"] "[bb] aa cc" = some (1, 3, "b") := by decide +kernel
-- the anchored template goes on with dates of other length
example : dateAfter [begins 'a', word 'a', word 'b'] ["aa x"] "aaaa bb" = some (0, 4, "^a") := by decide +kernel
-- a template is tried in front of another one when it was used more often
example : names [word 'a', word 'b'] ["a", "b", "b", "a", "b"] = ["b", "a"] := by decide +kernel

end DetectorSample

open DetectorSample

/-- An empty line raises an exception with the date pattern `{NONE}` (or any other pattern that may be empty at the end of a line). -/
theorem C62_refuted_empty_line (e : Env) : (matchTime [] e (fresh [empty]) []).2 = .error ∧ ∀ l, l ≠ [] → (matchTime [] e (fresh [empty]) l).2 = .date 0 0 empty := by
  refine ⟨rfl, ?_⟩
  intro l hl
  cases l with
  | nil => exact absurd rfl hl
  | cons c l => simp [matchTime, ready, fresh, choose, scan, empty, stops, accept, charLast, hit, reorder, List.getLast?_cons]

/-- A date of other length at the begin of a line is given up for a date within the text if this is one of the last template of the list. -/
theorem C63_refuted_start : dateAfter [word 'a', word 'z'] ["aa x"] "aaa x z" = some (6, 7, "z") ∧
    (word 'a').search "aaa x z".toList = some (0, 3) := by
  constructor <;> decide +kernel

/-- A date at the begin of a line is ignored if there is another one at the place of the last date. -/
theorem C63_refuted_place : dateAfter [word 'a', word 'z'] ["x aa y"] "a aa y" = some (2, 4, "a") ∧
    (word 'a').search "a aa y".toList = some (0, 1) := by
  constructor <;> decide +kernel

end Verif
