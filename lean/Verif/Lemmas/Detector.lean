import Verif.Spec.Detector

/-! # Lemmas about the choice of a date -/

namespace Verif.Detector

open DetectorSpec

theorem drop_cons_iff {α : Type} {l : List α} {i : Nat} {x : α} {r : List α} (h : l.drop i = x :: r) :
    l[i]? = some x ∧ l.drop (i + 1) = r ∧ i < l.length := by
  have hi : i < l.length := by
    rcases Nat.lt_or_ge i l.length with h1 | h1
    · exact h1
    · rw [List.drop_eq_nil_of_le h1] at h; cases h
  refine ⟨?_, ?_, hi⟩
  · have : (l.drop i)[0]? = some x := by rw [h]; rfl
    simpa using this
  · have : (l.drop i).drop 1 = r := by rw [h]; rfl
    simpa [List.drop_drop] using this

theorem stops_iff {env : Env} {s : State} {e : Entry} {rest : List Entry} {i a b : Nat} (h : s.entries.drop i = e :: rest) :
    stops env s e rest a = true ↔ Final env s ⟨a, b, i⟩ e := by
  obtain ⟨h1, h2, h3⟩ := drop_cons_iff h
  have e1 : rest.isEmpty = true ↔ i + 1 = s.entries.length := by
    rw [List.isEmpty_iff, ← h2, List.drop_eq_nil_iff]; omega
  have e2 : nextUnused env rest = true ↔ ∃ n, s.entries[i + 1]? = some n ∧ env.shared n.t.name = false := by
    have : s.entries[i + 1]? = rest[0]? := by rw [← h2]; simp
    rw [this]
    cases rest with
    | nil => simp [nextUnused]
    | cons n r => simp [nextUnused]
  unfold stops Final
  simp only [Bool.or_eq_true, Bool.and_eq_true, decide_eq_true_eq, Bool.not_eq_true', Bool.or_eq_false_iff, decide_eq_false_iff_not, e1, e2, Nat.not_lt]
  constructor
  · rintro (((h | h) | h) | h)
    · exact .inl h
    · exact .inr (.inl h)
    · exact .inr (.inr (.inl ⟨h.1.1, h.1.2, h.2⟩))
    · exact .inr (.inr (.inr h))
  · rintro (h | h | h | h)
    · exact .inl (.inl (.inl h))
    · exact .inl (.inl (.inr h))
    · exact .inl (.inr ⟨⟨h.1, h.2.1⟩, h.2.2⟩)
    · exact .inr h

theorem reserve_start {f : Option Cand} {c : Cand} :
    (reserve f c = none ∧ f = none ∧ 0x7fffffff ≤ c.start) ∨ (reserve f c = some c ∧ ∀ g, f = some g → c.start < g.start) ∨
    (∃ g, reserve f c = some g ∧ f = some g ∧ g.start ≤ c.start) := by
  cases f with
  | none =>
    unfold reserve
    by_cases h : c.start < 0x7fffffff
    · right; left; exact ⟨if_pos h, fun g hg => by cases hg⟩
    · left; exact ⟨if_neg h, rfl, Nat.le_of_not_lt h⟩
  | some g =>
    by_cases h : c.start < g.start
    · right; left
      refine ⟨by unfold reserve; exact if_pos h, fun g' hg => ?_⟩
      cases hg; exact h
    · right; right
      exact ⟨g, by unfold reserve; exact if_neg h, rfl, Nat.le_of_not_lt h⟩

/-- All dates are found within the first 2147483647 characters. -/
def Small (s : State) (line : List Char) : Prop := ∀ e ∈ s.entries, ∀ a b, e.t.search line = some (a, b) → a < 0x7fffffff

/-- The result of the search from a place of the list on. -/
theorem scan_spec (env : Env) (s : State) (line : List Char) (skip : Option Nat) (small : Small s line) : ∀ (es : List Entry) (i : Nat) (found : Option Cand), s.entries.drop i = es →
    (∃ c e, scan env s line skip found i es = some c ∧ i ≤ c.idx ∧ Finds s line skip c e ∧ Final env s c e ∧
      ∀ d f, i ≤ d.idx → d.idx < c.idx → Finds s line skip d f → ¬Final env s d f) ∨
    ((∀ d f, i ≤ d.idx → Finds s line skip d f → ¬Final env s d f) ∧
      ((scan env s line skip found i es = none ∧ found = none ∧ ∀ d f, i ≤ d.idx → ¬Finds s line skip d f) ∨
        ∃ c, scan env s line skip found i es = some c ∧ Nearest found (fun d => i ≤ d.idx ∧ ∃ f, Finds s line skip d f) c)) := by
  intro es
  induction es with
  | nil =>
    intro i found h
    have hl : s.entries.length ≤ i := List.drop_eq_nil_iff.1 h
    have nof : ∀ d f, i ≤ d.idx → ¬Finds s line skip d f := by
      intro d f hi hf
      have := hf.entry
      rw [List.getElem?_eq_none (by omega)] at this
      cases this
    right
    refine ⟨fun d f hi hf => absurd hf (nof d f hi), ?_⟩
    have e : scan env s line skip found i [] = found := rfl
    rw [e]
    cases found with
    | none => left; exact ⟨rfl, rfl, nof⟩
    | some c =>
      right
      refine ⟨c, rfl, ⟨.inl rfl, ?_, ?_⟩⟩
      · intro f hf; cases hf; exact .inl rfl
      · rintro d ⟨hi, f, hf⟩; exact absurd hf (nof d f hi)
  | cons x rest ih =>
    intro i found h
    obtain ⟨hx, hr, hlt⟩ := drop_cons_iff h
    have e : scan env s line skip found i (x :: rest) =
        if skip = some i then scan env s line skip found (i + 1) rest
        else match x.t.search line with
          | none => scan env s line skip found (i + 1) rest
          | some m => if stops env s x rest m.1 then some ⟨m.1, m.2, i⟩ else scan env s line skip (reserve found ⟨m.1, m.2, i⟩) (i + 1) rest := rfl
    rw [e]
    have pass : (∀ d f, d.idx = i → ¬Finds s line skip d f) →
        (∃ c e, scan env s line skip found (i + 1) rest = some c ∧ i ≤ c.idx ∧ Finds s line skip c e ∧ Final env s c e ∧
          ∀ d f, i ≤ d.idx → d.idx < c.idx → Finds s line skip d f → ¬Final env s d f) ∨
        ((∀ d f, i ≤ d.idx → Finds s line skip d f → ¬Final env s d f) ∧
          ((scan env s line skip found (i + 1) rest = none ∧ found = none ∧ ∀ d f, i ≤ d.idx → ¬Finds s line skip d f) ∨
            ∃ c, scan env s line skip found (i + 1) rest = some c ∧ Nearest found (fun d => i ≤ d.idx ∧ ∃ f, Finds s line skip d f) c)) := by
      intro no
      have step : ∀ d f, i ≤ d.idx → Finds s line skip d f → i + 1 ≤ d.idx := by
        intro d f hi hf
        rcases Nat.lt_or_ge i d.idx with h1 | h1
        · exact h1
        · exact absurd hf (no d f (by omega))
      rcases ih (i + 1) found hr with ⟨c, e, h1, h2, h3, h4, h5⟩ | ⟨h1, h2⟩
      · left
        exact ⟨c, e, h1, by omega, h3, h4, fun d f hi hl hf => h5 d f (step d f hi hf) hl hf⟩
      · right
        refine ⟨fun d f hi hf => h1 d f (step d f hi hf) hf, ?_⟩
        rcases h2 with ⟨a1, a2, a3⟩ | ⟨c, a1, a2⟩
        · exact .inl ⟨a1, a2, fun d f hi hf => a3 d f (step d f hi hf) hf⟩
        · refine .inr ⟨c, a1, ?_, a2.reserved, ?_⟩
          · rcases a2.mem with h | ⟨h, hf⟩
            · exact .inl h
            · exact .inr ⟨by omega, hf⟩
          · rintro d ⟨hi, f, hf⟩
            exact a2.others d ⟨step d f hi hf, f, hf⟩
    by_cases hs : skip = some i
    · rw [if_pos hs]
      refine pass ?_
      rintro d f hd hf
      exact hf.notSkipped (by rw [hd, hs])
    · rw [if_neg hs]
      cases hm : x.t.search line with
      | none =>
        refine pass ?_
        rintro d f hd hf
        have := hf.entry
        rw [hd, hx] at this
        cases this
        have := hf.search
        rw [hm] at this
        cases this
      | some m =>
        obtain ⟨a, b⟩ := m
        have fx : Finds s line skip ⟨a, b, i⟩ x := ⟨hx, hm, hs⟩
        have ux : ∀ d f, d.idx = i → Finds s line skip d f → d = ⟨a, b, i⟩ ∧ f = x := by
          rintro ⟨d1, d2, d3⟩ f hd hf
          have h1 := hf.entry
          simp only at hd h1
          subst hd
          rw [hx] at h1
          cases h1
          have h2 := hf.search
          rw [hm] at h2
          simp only [Option.some.injEq, Prod.mk.injEq] at h2
          exact ⟨by rw [h2.1, h2.2], rfl⟩
        by_cases hst : stops env s x rest a = true
        · left
          refine ⟨⟨a, b, i⟩, x, by simp only [hst, if_true], Nat.le_refl _, fx, (stops_iff h).1 hst, ?_⟩
          intro d f h1 h2
          simp only at h2
          omega
        · have nf : ¬Final env s ⟨a, b, i⟩ x := fun hf => hst ((stops_iff h).2 hf)
          simp only [hst, Bool.false_eq_true, if_false]
          have step : ∀ d f, i ≤ d.idx → Finds s line skip d f → (d = ⟨a, b, i⟩ ∧ f = x) ∨ i + 1 ≤ d.idx := by
            intro d f hi hf
            rcases Nat.lt_or_ge i d.idx with h1 | h1
            · exact .inr h1
            · exact .inl (ux d f (by omega) hf)
          rcases ih (i + 1) (reserve found ⟨a, b, i⟩) hr with ⟨c, e, h1, h2, h3, h4, h5⟩ | ⟨h1, h2⟩
          · left
            refine ⟨c, e, h1, by omega, h3, h4, fun d f hi hl hf => ?_⟩
            rcases step d f hi hf with ⟨rfl, rfl⟩ | h6
            · exact nf
            · exact h5 d f h6 hl hf
          · right
            refine ⟨fun d f hi hf => ?_, ?_⟩
            · rcases step d f hi hf with ⟨rfl, rfl⟩ | h6
              · exact nf
              · exact h1 d f h6 hf
            · have hsm : a < 0x7fffffff := small x (List.mem_of_getElem? hx) a b hm
              rcases reserve_start (f := found) (c := ⟨a, b, i⟩) with ⟨_, _, r3⟩ | ⟨r1, r2⟩ | ⟨g, r1, r2, r3⟩
              · exact absurd hsm (Nat.not_lt.2 r3)
              · rcases h2 with ⟨_, a2, _⟩ | ⟨c, a1, a2⟩
                · rw [a2] at r1; cases r1
                · refine .inr ⟨c, a1, ?_, ?_, ?_⟩
                  · rcases a2.mem with h | ⟨h, hf⟩
                    · rw [r1] at h; cases h; exact .inr ⟨Nat.le_refl _, x, fx⟩
                    · exact .inr ⟨by omega, hf⟩
                  · intro f hf
                    have := r2 f hf
                    rcases a2.reserved _ r1 with h | h
                    · rw [h]; exact .inr this
                    · exact .inr (Nat.lt_trans h this)
                  · rintro d ⟨hi, f, hf⟩
                    rcases step d f hi hf with ⟨rfl, rfl⟩ | h6
                    · rcases a2.reserved _ r1 with h | h
                      · exact .inr (.inl h)
                      · exact .inl h
                    · rcases a2.others d ⟨h6, f, hf⟩ with h | h | ⟨h, h7⟩
                      · exact .inl h
                      · exact .inr (.inl h)
                      · refine .inr (.inr ⟨h, .inr ?_⟩)
                        rcases h7 with h7 | h7
                        · rw [r1] at h7; cases h7; exact h6
                        · exact h7
              · rcases h2 with ⟨_, a2, _⟩ | ⟨c, a1, a2⟩
                · rw [a2] at r1; cases r1
                · rw [r1, ← r2] at a2
                  refine .inr ⟨c, a1, ?_, a2.reserved, ?_⟩
                  · rcases a2.mem with h | ⟨h, hf⟩
                    · exact .inl h
                    · exact .inr ⟨by omega, hf⟩
                  · rintro d ⟨hi, f, hf⟩
                    rcases step d f hi hf with ⟨rfl, rfl⟩ | h6
                    · rcases a2.reserved g r2 with h | h
                      · rw [h]
                        rcases Nat.lt_or_ge g.start a with h8 | h8
                        · exact .inl h8
                        · exact .inr (.inr ⟨by simp only at r3 ⊢; omega, .inl r2⟩)
                      · left; simp only at r3 ⊢; omega
                    · exact a2.others d ⟨h6, f, hf⟩

theorem selects_of_scan {env : Env} {s : State} {line : List Char} {skip : Option Nat} {found : Option Cand} (small : Small s line) {c : Cand}
    (h : scan env s line skip found 0 s.entries = some c) : Selects env s line skip found c := by
  rcases scan_spec env s line skip small s.entries 0 found rfl with ⟨c', e, h1, _, h3, h4, h5⟩ | ⟨h1, h2⟩
  · rw [h] at h1; cases h1
    exact .final e h3 h4 (fun d f hl hf => h5 d f (Nat.zero_le _) hl hf)
  · rcases h2 with ⟨h2, _⟩ | ⟨c', h2, h3⟩
    · rw [h] at h2; cases h2
    · rw [h] at h2; cases h2
      refine .nearest (fun d f hf => h1 d f (Nat.zero_le _) hf) ⟨?_, h3.reserved, ?_⟩
      · rcases h3.mem with h | ⟨_, h⟩
        · exact .inl h
        · exact .inr h
      · intro d hd; exact h3.others d ⟨Nat.zero_le _, hd⟩

theorem nothing_of_scan {env : Env} {s : State} {line : List Char} {skip : Option Nat} {found : Option Cand} (small : Small s line)
    (h : scan env s line skip found 0 s.entries = none) : found = none ∧ ∀ d f, ¬Finds s line skip d f := by
  rcases scan_spec env s line skip small s.entries 0 found rfl with ⟨c', e, h1, _⟩ | ⟨_, h2⟩
  · rw [h] at h1; cases h1
  · rcases h2 with ⟨_, h2, h3⟩ | ⟨c', h2, _⟩
    · exact ⟨h2, fun d f => h3 d f (Nat.zero_le _)⟩
    · rw [h] at h2; cases h2

theorem charBefore_eq {line : List Char} {k : Nat} {x : Option Char} : charBefore line k = x ↔ if k = 0 then x = none else line[k - 1]? = x := by
  unfold charBefore
  by_cases h : k = 0
  · rw [if_pos h, if_pos h]; exact eq_comm
  · rw [if_neg h, if_neg h]

theorem not_any {p : Char → Bool} {x : Option Char} : (!x.any p) = true ↔ ∀ c, x = some c → p c = false := by
  cases x with
  | none => simp
  | some c => simp

theorem sameBounds_iff {env : Env} {s : State} {line : List Char} : sameBounds env s line = true ↔ Fits env s line := by
  unfold sameBounds Fits
  simp only [Bool.and_eq_true, Bool.or_eq_true, decide_eq_true_eq, charBefore_eq, not_any]

theorem tried (env : Env) (s : State) (line : List Char) (e : Entry) : Tried env s line e (tryLast env s line e).1 (!(tryLast env s line e).2) := by
  unfold tryLast
  by_cases h : e.t.anchored = true
  · rw [if_pos h]; exact .anchored h
  · rw [if_neg h]
    have h' : e.t.anchored = false := by simpa using h
    by_cases hb : sameBounds env s line = true
    · rw [if_pos hb]; exact .place h' (sameBounds_iff.1 hb)
    · rw [if_neg hb]; exact .moved h' (fun hf => hb (sameBounds_iff.2 hf))

theorem keeps_iff {s : State} {e : Entry} {m : Nat × Nat} : keeps s e m = true ↔ Kept s e m := by
  obtain ⟨a, b⟩ := m
  unfold keeps Kept
  simp only [Bool.or_eq_true, Bool.and_eq_true, decide_eq_true_eq, Prod.mk.injEq, or_assoc]

/-- The choice by its rules. -/
theorem choose_some {env : Env} {s : State} {line : List Char} (small : Small s line) {c : Cand} (h : choose env s line = some c) :
    Chooses env s line c := by
  unfold choose at h
  cases hi : s.lastIdx with
  | none =>
    rw [hi] at h
    exact .first (fun i e hl => by rw [LastUsed, hi] at hl; cases hl.1) (selects_of_scan small h)
  | some i =>
    rw [hi] at h
    simp only at h
    cases he : s.entries[i]? with
    | none =>
      rw [he] at h
      refine .first (fun j e hl => ?_) (selects_of_scan small h)
      rw [LastUsed, hi] at hl
      cases hl.1
      rw [he] at hl
      cases hl.2
    | some e =>
      rw [he] at h
      simp only at h
      have ht := tried env s line e
      revert h ht
      generalize tryLast env s line e = r
      obtain ⟨m, ig⟩ := r
      intro h ht
      have es : (if (!ig) = true then none else some i) = (if ig = true then some i else none : Option Nat) := by cases ig <;> rfl
      cases m with
      | none =>
        simp only at h ht
        refine .other i e (!ig) ⟨hi, he⟩ ht ?_
        rw [es]; exact selects_of_scan small h
      | some m =>
        simp only at h ht
        by_cases hk : keeps s e m = true
        · rw [if_pos hk] at h
          cases h
          exact .same e (!ig) ⟨hi, he⟩ ht (keeps_iff.1 hk)
        · rw [if_neg hk] at h
          refine .moved i e (!ig) m ⟨hi, he⟩ ht (fun hf => hk (keeps_iff.2 hf)) ?_
          rw [es]; exact selects_of_scan small h

/-- Nothing is found: no template finds anything in the line, nor the last one at its place. -/
theorem choose_none {env : Env} {s : State} {line : List Char} (small : Small s line) (h : choose env s line = none) :
    (∀ e ∈ s.entries, e.t.search line = none) ∧
    ∀ i e, LastUsed s i e → e.t.anchored = false → Fits env s line → e.t.searchIn line s.lastPos s.lastEnd = none := by
  have all : ∀ skip found, scan env s line skip found 0 s.entries = none → (∀ i e, skip = some i → s.entries[i]? = some e → e.t.search line = none) →
      ∀ e ∈ s.entries, e.t.search line = none := by
    intro skip found hs hk e he
    obtain ⟨k, hlt, hk'⟩ := List.mem_iff_getElem.1 he
    have hg : s.entries[k]? = some e := by rw [List.getElem?_eq_getElem hlt, hk']
    by_cases hs' : skip = some k
    · exact hk k e hs' hg
    · cases hm : e.t.search line with
      | none => rfl
      | some m => exact absurd ⟨hg, hm, hs'⟩ ((nothing_of_scan small hs).2 ⟨m.1, m.2, k⟩ e)
  unfold choose at h
  cases hi : s.lastIdx with
  | none =>
    rw [hi] at h
    exact ⟨all _ _ h (fun i e h => by cases h), fun i e hl => by rw [LastUsed, hi] at hl; cases hl.1⟩
  | some i =>
    rw [hi] at h
    simp only at h
    cases he : s.entries[i]? with
    | none =>
      rw [he] at h
      refine ⟨all _ _ h (fun i e h => by cases h), fun j e hl => ?_⟩
      rw [LastUsed, hi] at hl
      cases hl.1
      rw [he] at hl
      cases hl.2
    | some e =>
      rw [he] at h
      simp only at h
      have ht : ∀ m ig, tryLast env s line e = (m, ig) → m = none ∧ scan env s line (if ig = true then some i else none) none 0 s.entries = none := by
        intro m ig hr
        rw [hr] at h
        cases m with
        | none => exact ⟨rfl, h⟩
        | some m =>
          simp only at h
          by_cases hk : keeps s e m = true
          · rw [if_pos hk] at h; cases h
          · rw [if_neg hk] at h
            exact absurd (nothing_of_scan small h).1 (by simp)
      have last : ∀ j f, LastUsed s j f → f = e := by
        rintro j f ⟨h1, h2⟩
        rw [hi] at h1; cases h1
        rw [he] at h2; cases h2; rfl
      have skipped : e.t.search line = none → ∀ (ig : Bool) k f, (if ig = true then some i else none) = some k → s.entries[k]? = some f → f.t.search line = none := by
        intro hn ig k f hk hf
        cases ig with
        | false => cases hk
        | true => cases hk; rw [he] at hf; cases hf; exact hn
      by_cases ha : e.t.anchored = true
      · have hr : tryLast env s line e = (e.t.search line, true) := by unfold tryLast; rw [if_pos ha]
        obtain ⟨h1, h2⟩ := ht _ _ hr
        refine ⟨all _ _ h2 (skipped h1 true), fun j f hl hf => ?_⟩
        rw [last j f hl, ha] at hf; cases hf
      · by_cases hb : sameBounds env s line = true
        · have hr : tryLast env s line e = (e.t.searchIn line s.lastPos s.lastEnd, false) := by unfold tryLast; rw [if_neg ha, if_pos hb]
          obtain ⟨h1, h2⟩ := ht _ _ hr
          refine ⟨all _ _ h2 (fun k f hk => by cases hk), fun j f hl _ _ => ?_⟩
          rw [last j f hl]; exact h1
        · have hr : tryLast env s line e = (e.t.search line, true) := by unfold tryLast; rw [if_neg ha, if_neg hb]
          obtain ⟨h1, h2⟩ := ht _ _ hr
          exact ⟨all _ _ h2 (skipped h1 true), fun j f _ _ hf => absurd (sameBounds_iff.2 hf) hb⟩

/-- The chosen template exists and found the date. -/
theorem choose_sound {env : Env} {s : State} {line : List Char} {c : Cand} (h : Chooses env s line c) :
    ∃ e, s.entries[c.idx]? = some e ∧ (e.t.search line = some (c.start, c.stop) ∨
      LastUsed s c.idx e ∧ e.t.anchored = false ∧ Fits env s line ∧ e.t.searchIn line s.lastPos s.lastEnd = some (c.start, c.stop)) := by
  have tr : ∀ {i e m again}, LastUsed s i e → Tried env s line e (some m) again → e.t.search line = some m ∨
      LastUsed s i e ∧ e.t.anchored = false ∧ Fits env s line ∧ e.t.searchIn line s.lastPos s.lastEnd = some m := by
    intro i e m again hl ht
    generalize hm : some m = x at ht
    cases ht with
    | anchored => exact .inl rfl
    | place h1 h2 => exact .inr ⟨hl, h1, h2, rfl⟩
    | moved => exact .inl rfl
  have sel : ∀ {skip kept}, Selects env s line skip kept c → kept = some c ∨ ∃ e, Finds s line skip c e := by
    intro skip kept hs
    cases hs with
    | final e h1 => exact .inr ⟨e, h1⟩
    | nearest _ h2 => exact h2.mem
  cases h with
  | same e again hl ht _ => exact ⟨e, hl.2, tr hl ht⟩
  | moved i e again m hl ht _ hs =>
    rcases sel hs with h | ⟨f, h⟩
    · cases h; exact ⟨e, hl.2, tr hl ht⟩
    · exact ⟨f, h.entry, .inl h.search⟩
  | other i e again hl ht hs =>
    rcases sel hs with h | ⟨f, h⟩
    · cases h
    · exact ⟨f, h.entry, .inl h.search⟩
  | first _ hs =>
    rcases sel hs with h | ⟨f, h⟩
    · cases h
    · exact ⟨f, h.entry, .inl h.search⟩

end Verif.Detector
