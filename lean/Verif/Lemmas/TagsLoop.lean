import Verif.Lemmas.Tags

/-! # Lemmas on the outer loop of tag interpolation -/

namespace Verif

namespace Tags
open Spec.Tags

variable {ignore : Text → Bool} {conditional : Text} {addrepl : Text → Option Text}

/-- all names for which there may be a replacement -/
def knownNames (keys : List Text) (conditional : Text) (A : List Text) : List Text :=
  keys ++ keys.map (fun k => k.take (k.length - (conditional.length + 1))) ++ A

theorem repl_known {tags : Defs} {keys A : List Text} (hk : ∀ k, tags.get? k ≠ none → k ∈ keys) (hA : ∀ n, addrepl n ≠ none → n ∈ A)
    (n : Text) (h : repl tags conditional addrepl n ≠ none) : n ∈ knownNames keys conditional A := by
  unfold repl at h
  by_cases h1 : tags.get? (n ++ '?' :: conditional) = none
  · by_cases h2 : tags.get? n = none
    · have : addrepl n ≠ none := by
        intro e
        apply h
        by_cases hc : conditional ≠ []
        · simp [hc, h1, h2, e]
        · simp [hc, h2, e]
      simp [knownNames, hA n this]
    · simp [knownNames, hk n h2]
  · have := hk _ h1
    simp only [knownNames, List.mem_append, List.mem_map]
    refine Or.inl (Or.inr ⟨_, this, ?_⟩)
    simp

/-- one tag: what is the same afterwards -/
theorem substTag_ok {fuel : Nat} {s s' : SubstState} {tag : Text} (h : substTag ignore conditional addrepl fuel s tag = .ok s') :
    (s' = s ∧ (ignore tag = true ∨ tag ∈ s.done)) ∨
    (¬ (ignore tag = true ∨ tag ∈ s.done) ∧ ∃ value rplc,
      replaceLoop ignore s.tags conditional addrepl tag fuel ((s.tags.get? tag).getD []) ((s.repCounts.get? tag).getD Dict.empty) 0
        = .ok (value, rplc) ∧
      s'.tags = (if (s.tags.get? tag).getD [] ≠ value then s.tags.insert tag value else s.tags) ∧
      s'.done = (if '<' ∈ value then s.done else tag :: s.done) ∧
      s'.repCounts = (if (decide ((s.tags.get? tag).getD [] ≠ value) && (search value 0).isSome) || s.repCounts.contains tag
        then s.repCounts.insert tag rplc else s.repCounts) ∧
      s'.repFlag = (s.repFlag || (decide ((s.tags.get? tag).getD [] ≠ value) && (search value 0).isSome))) := by
  unfold substTag at h
  by_cases hc : ignore tag = true ∨ tag ∈ s.done
  · rw [if_pos hc] at h; cases h; exact Or.inl ⟨rfl, hc⟩
  · rw [if_neg hc] at h
    dsimp only at h
    cases hr : replaceLoop ignore s.tags conditional addrepl tag fuel ((s.tags.get? tag).getD []) ((s.repCounts.get? tag).getD Dict.empty) 0 with
    | fuel => rw [hr] at h; cases h
    | selfRef a b => rw [hr] at h; cases h
    | ok x =>
      obtain ⟨value, rplc⟩ := x
      rw [hr] at h
      cases h
      exact Or.inr ⟨hc, value, rplc, rfl, rfl, rfl, rfl, rfl⟩

theorem substTag_keys {fuel : Nat} {s s' : SubstState} {tag : Text} (ht : tag ∈ s.tags.keys)
    (h : substTag ignore conditional addrepl fuel s tag = .ok s') : s'.tags.keys = s.tags.keys := by
  rcases substTag_ok h with ⟨rfl, _⟩ | ⟨_, value, rplc, _, h2, _⟩
  · rfl
  · rw [h2]
    split
    · exact Dict.keys_insert_of_mem _ ht _
    · rfl

theorem substTag_other {fuel : Nat} {s s' : SubstState} {tag k : Text} (hk : k ≠ tag)
    (h : substTag ignore conditional addrepl fuel s tag = .ok s') : s'.tags.get? k = s.tags.get? k := by
  rcases substTag_ok h with ⟨rfl, _⟩ | ⟨_, value, rplc, _, h2, _⟩
  · rfl
  · rw [h2]
    split
    · exact Dict.get?_insert_ne _ hk _
    · rfl

/-- induction over a pass -/
theorem substPass_induction {fuel : Nat} (P : SubstState → Prop) (keys : List Text)
    (hP : ∀ s tag s', tag ∈ keys → P s → substTag ignore conditional addrepl fuel s tag = .ok s' → P s') :
    ∀ (ks : List Text), (∀ k ∈ ks, k ∈ keys) → ∀ (s s' : SubstState), P s →
    substPass ignore conditional addrepl fuel ks s = .ok s' → P s' := by
  intro ks
  induction ks with
  | nil => intro _ s s' hs h; cases h; exact hs
  | cons k ks ih =>
    intro hk s s' hs h
    rw [substPass] at h
    cases ht : substTag ignore conditional addrepl fuel s k with
    | ok s1 => simp only [ht] at h; exact ih (fun k' hk' => hk k' (by simp [hk'])) s1 s' (hP s k s1 (hk k (by simp)) hs ht) h
    | selfRef a b => simp only [ht] at h; cases h
    | fuel => simp only [ht] at h; cases h

/-- the flag stays set -/
theorem substTag_flag {fuel : Nat} {s s' : SubstState} {tag : Text} (h : substTag ignore conditional addrepl fuel s tag = .ok s')
    (hf : s.repFlag = true) : s'.repFlag = true := by
  rcases substTag_ok h with ⟨rfl, _⟩ | ⟨_, value, rplc, _, _, _, _, h5⟩
  · exact hf
  · rw [h5, hf]; rfl

/-- each tag is visited once in a pass -/
theorem substPass_visit {fuel : Nat} (P : SubstState → Prop) (keys : List Text)
    (hP : ∀ s tag s', tag ∈ keys → P s → substTag ignore conditional addrepl fuel s tag = .ok s' → P s') :
    ∀ (ks : List Text), ks.Nodup → (∀ k ∈ ks, k ∈ keys) → ∀ (s s' : SubstState), P s →
    substPass ignore conditional addrepl fuel ks s = .ok s' → ∀ k ∈ ks,
    ∃ s1 s2, P s1 ∧ substTag ignore conditional addrepl fuel s1 k = .ok s2 ∧ s2.tags.get? k = s'.tags.get? k ∧ s1.tags.get? k = s.tags.get? k ∧
      (s2.repFlag = true → s'.repFlag = true) := by
  intro ks
  induction ks with
  | nil => intro _ _ s s' _ _ k hk; simp at hk
  | cons k0 ks ih =>
    intro hn hk s s' hs h k hkk
    rw [substPass] at h
    cases ht : substTag ignore conditional addrepl fuel s k0 with
    | selfRef a b => simp only [ht] at h; cases h
    | fuel => simp only [ht] at h; cases h
    | ok s1 =>
      simp only [ht] at h
      rw [List.nodup_cons] at hn
      have hks : ∀ k ∈ ks, k ∈ keys := fun k hk' => hk k (by simp [hk'])
      have hP1 := hP s k0 s1 (hk k0 (by simp)) hs ht
      rcases List.mem_cons.1 hkk with e | e
      · subst e
        refine ⟨s, s1, hs, ht, ?_, rfl, ?_⟩
        · refine (substPass_induction (fun x => x.tags.get? k = s1.tags.get? k) ks ?_ ks (fun _ h => h) s1 s' rfl h).symm
          intro x tg x' htg hx hx'
          have hne : k ≠ tg := fun e => hn.1 (by rw [e]; exact htg)
          rw [substTag_other hne hx', hx]
        · exact fun hf => substPass_induction (fun x => x.repFlag = true) ks (fun x tg x' _ hx hx' => substTag_flag hx' hx) ks (fun _ h => h)
            s1 s' hf h
      · obtain ⟨x1, x2, h1, h2, h3, h4, h5⟩ := ih hn.2 hks s1 s' hP1 h k e
        have hne : k ≠ k0 := fun e' => hn.1 (by rw [← e']; exact e)
        exact ⟨x1, x2, h1, h2, h3, by rw [h4, substTag_other hne ht], h5⟩

/-- the end of the outer loop: an invariant holds before the last pass, in which nothing had to be repeated -/
theorem substLoop_last {fuel : Nat} (P : SubstState → Prop) (keys : List Text)
    (hflag : ∀ s b, P s → P { s with repFlag := b }) (hkeys : ∀ s, P s → s.tags.keys = keys)
    (hP : ∀ s tag s', tag ∈ keys → P s → substTag ignore conditional addrepl fuel s tag = .ok s' → P s') :
    ∀ (n : Nat) (s : SubstState) (r : Defs), P s → substLoop ignore conditional addrepl fuel n s = .ok r →
    ∃ s0 s1, P s0 ∧ s0.repFlag = false ∧ P s1 ∧ substPass ignore conditional addrepl fuel keys s0 = .ok s1 ∧ s1.repFlag = false ∧ r = s1.tags := by
  intro n
  induction n with
  | zero => intro s r _ h; cases h
  | succ n ih =>
    intro s r hs h
    rw [substLoop, hkeys s hs] at h
    have hs0 := hflag s false hs
    cases hp : substPass ignore conditional addrepl fuel keys { s with repFlag := false } with
    | selfRef a b => simp only [hp] at h; cases h
    | fuel => simp only [hp] at h; cases h
    | ok s1 =>
      simp only [hp] at h
      have hs1 : P s1 := substPass_induction P keys hP keys (fun _ h => h) _ s1 hs0 hp
      by_cases hf : s1.repFlag = true
      · rw [if_pos hf] at h; exact ih s1 r hs1 h
      · rw [if_neg hf] at h
        cases h
        exact ⟨_, s1, hs0, rfl, hs1, hp, by simpa using hf, rfl⟩

/-! ### enough fuel -/

theorem substTag_mono (fuel : Nat) (s : SubstState) (tag : Text) (k : Nat) (h : substTag ignore conditional addrepl fuel s tag ≠ .fuel) :
    substTag ignore conditional addrepl (fuel + k) s tag = substTag ignore conditional addrepl fuel s tag := by
  unfold substTag at *
  by_cases hc : ignore tag = true ∨ tag ∈ s.done
  · rw [if_pos hc, if_pos hc]
  · rw [if_neg hc] at h ⊢
    rw [if_neg hc]
    dsimp only at h ⊢
    rw [replaceLoop_mono]
    intro e
    rw [e] at h
    exact h rfl

theorem substPass_mono (fuel : Nat) (ks : List Text) : ∀ (s : SubstState) (k : Nat), substPass ignore conditional addrepl fuel ks s ≠ .fuel →
    substPass ignore conditional addrepl (fuel + k) ks s = substPass ignore conditional addrepl fuel ks s := by
  induction ks with
  | nil => intro s k _; rfl
  | cons t ks ih =>
    intro s k h
    rw [substPass] at h
    rw [substPass, substPass]
    have : substTag ignore conditional addrepl fuel s t ≠ .fuel := by intro e; rw [e] at h; exact h rfl
    rw [substTag_mono fuel s t k this]
    cases ht : substTag ignore conditional addrepl fuel s t with
    | selfRef a b => rfl
    | fuel => rfl
    | ok s1 => simp only [ht] at h ⊢; exact ih s1 k h

theorem substLoop_mono (fuel n : Nat) : ∀ (s : SubstState) (k j : Nat), substLoop ignore conditional addrepl fuel n s ≠ .fuel →
    substLoop ignore conditional addrepl (fuel + k) (n + j) s = substLoop ignore conditional addrepl fuel n s := by
  induction n with
  | zero => intro s k j h; exact absurd rfl h
  | succ n ih =>
    intro s k j h
    rw [substLoop] at h
    rw [show n + 1 + j = (n + j) + 1 by omega, substLoop, substLoop]
    have : substPass ignore conditional addrepl fuel s.tags.keys { s with repFlag := false } ≠ .fuel := by intro e; rw [e] at h; exact h rfl
    rw [substPass_mono fuel _ _ k this]
    cases hp : substPass ignore conditional addrepl fuel s.tags.keys { s with repFlag := false } with
    | selfRef a b => rfl
    | fuel => rfl
    | ok s1 =>
      simp only [hp] at h ⊢
      by_cases hf : s1.repFlag = true
      · rw [if_pos hf] at h ⊢; rw [if_pos hf]; exact ih s1 k j h
      · rw [if_neg hf, if_neg hf]

/-- what is left of the budgets of all tags -/
def budgets (K keys : List Text) (s : SubstState) : Nat := (keys.map (fun t => budget K ((s.repCounts.get? t).getD Dict.empty))).sum

theorem substTag_budgets {fuel : Nat} {K keys A : List Text} (hKA : K = knownNames keys conditional A) (hA : ∀ n, addrepl n ≠ none → n ∈ A)
    {s s' : SubstState} {tag : Text} (hk : s.tags.keys = keys) (ht : tag ∈ keys)
    (h : substTag ignore conditional addrepl fuel s tag = .ok s') :
    budgets K keys s' ≤ budgets K keys s ∧ (s.repFlag = false → s'.repFlag = true → budgets K keys s' < budgets K keys s) := by
  rcases substTag_ok h with ⟨rfl, _⟩ | ⟨_, value, rplc, h1, h2, h3, h4, h5⟩
  · exact ⟨Nat.le_refl _, fun a b => by rw [a] at b; cases b⟩
  · have hK : ∀ n, repl s.tags conditional addrepl n ≠ none → n ∈ K := by
      intro n hn
      rw [hKA]
      refine repl_known ?_ hA n hn
      intro k hk'
      rw [← hk]
      exact (Dict.mem_keys_iff _ _).2 (by cases e : s.tags.get? k with
        | none => exact absurd e hk'
        | some v => exact ⟨v, rfl⟩)
    have hgen := replaceLoop_general K hK fuel _ _ _ _ _ h1
    have hle : budget K rplc ≤ budget K ((s.repCounts.get? tag).getD Dict.empty) := by
      rcases hgen with ⟨_, e, _⟩ | e
      · rw [e]; exact Nat.le_refl _
      · omega
    have hpt : ∀ t ∈ keys, budget K ((s'.repCounts.get? t).getD Dict.empty) ≤ budget K ((s.repCounts.get? t).getD Dict.empty) := by
      intro t _
      rw [h4]
      split
      · by_cases e : t = tag
        · subst e; rw [Dict.get?_insert_self]; exact hle
        · rw [Dict.get?_insert_ne _ e]; exact Nat.le_refl _
      · exact Nat.le_refl _
    refine ⟨sum_le keys _ _ hpt, fun hf0 hf1 => ?_⟩
    rw [h5, hf0, Bool.false_or] at hf1
    refine sum_lt keys _ _ hpt tag ht ?_
    rw [h4, hf1, Bool.true_or, if_pos rfl, Dict.get?_insert_self]
    rcases hgen with ⟨e, _, _⟩ | e
    · simp [e] at hf1
    · exact e

theorem substTag_terminates {K keys A : List Text} (hKA : K = knownNames keys conditional A) (hA : ∀ n, addrepl n ≠ none → n ∈ A)
    (s : SubstState) (tag : Text) (hk : s.tags.keys = keys) : ∃ fuel, substTag ignore conditional addrepl fuel s tag ≠ .fuel := by
  have hK : ∀ n, repl s.tags conditional addrepl n ≠ none → n ∈ K := by
    intro n hn
    rw [hKA]
    refine repl_known ?_ hA n hn
    intro k hk'
    rw [← hk]
    exact (Dict.mem_keys_iff _ _).2 (by cases e : s.tags.get? k with
      | none => exact absurd e hk'
      | some v => exact ⟨v, rfl⟩)
  obtain ⟨fuel, hf⟩ := replaceLoop_terminates (ignore := ignore) (tag := tag) K hK _ _ ((s.tags.get? tag).getD [])
    ((s.repCounts.get? tag).getD Dict.empty) 0 (Nat.le_refl _) (Nat.le_refl _)
  refine ⟨fuel, ?_⟩
  unfold substTag
  split
  · intro e; cases e
  · dsimp only
    cases hr : replaceLoop ignore s.tags conditional addrepl tag fuel ((s.tags.get? tag).getD []) ((s.repCounts.get? tag).getD Dict.empty) 0 with
    | fuel => exact absurd hr hf
    | selfRef a b => intro e; cases e
    | ok x => intro e; cases e

theorem substPass_terminates {K keys A : List Text} (hKA : K = knownNames keys conditional A) (hA : ∀ n, addrepl n ≠ none → n ∈ A)
    (ks : List Text) (hks : ∀ k ∈ ks, k ∈ keys) : ∀ (s : SubstState), s.tags.keys = keys →
    ∃ fuel, substPass ignore conditional addrepl fuel ks s ≠ .fuel := by
  induction ks with
  | nil => intro s _; exact ⟨0, by rw [substPass]; intro e; cases e⟩
  | cons t ks ih =>
    intro s hk
    obtain ⟨f1, h1⟩ := substTag_terminates (ignore := ignore) hKA hA s t hk
    cases ht : substTag ignore conditional addrepl f1 s t with
    | fuel => exact absurd ht h1
    | selfRef a b => exact ⟨f1, by rw [substPass]; simp only [ht]; intro e; cases e⟩
    | ok s1 =>
      obtain ⟨f2, h2⟩ := ih (fun k hk' => hks k (by simp [hk'])) s1 (by rw [substTag_keys (by rw [hk]; exact hks t (by simp)) ht, hk])
      refine ⟨f1 + f2, ?_⟩
      rw [substPass, substTag_mono f1 s t f2 h1, ht]
      show substPass ignore conditional addrepl (f1 + f2) ks s1 ≠ .fuel
      rw [Nat.add_comm, substPass_mono f2 ks s1 f1 h2]
      exact h2

theorem substLoop_terminates {K keys A : List Text} (hKA : K = knownNames keys conditional A) (hA : ∀ n, addrepl n ≠ none → n ∈ A) :
    ∀ (b : Nat) (s : SubstState), s.tags.keys = keys → budgets K keys s ≤ b →
    ∃ fuel n, substLoop ignore conditional addrepl fuel n s ≠ .fuel := by
  intro b
  induction b using Nat.strongRecOn with
  | _ b ih =>
  intro s hk hb
  obtain ⟨f1, h1⟩ := substPass_terminates (ignore := ignore) hKA hA keys (fun _ h => h) { s with repFlag := false } hk
  cases hp : substPass ignore conditional addrepl f1 keys { s with repFlag := false } with
  | fuel => exact absurd hp h1
  | selfRef a b => exact ⟨f1, 1, by rw [substLoop, hk]; simp only [hp]; intro e; cases e⟩
  | ok s1 =>
    by_cases hf : s1.repFlag = true
    · have hinv : s1.tags.keys = keys ∧ budgets K keys s1 ≤ budgets K keys s ∧ (s1.repFlag = true → budgets K keys s1 < budgets K keys s) := by
        refine substPass_induction (fun x => x.tags.keys = keys ∧ budgets K keys x ≤ budgets K keys s ∧
          (x.repFlag = true → budgets K keys x < budgets K keys s)) keys ?_ keys (fun _ h => h) _ s1 ?_ hp
        · intro x t x' ht ⟨hx1, hx2, hx3⟩ hx
          have hb' := substTag_budgets hKA hA hx1 ht hx
          refine ⟨by rw [substTag_keys (by rw [hx1]; exact ht) hx, hx1], by omega, fun hf' => ?_⟩
          cases hfx : x.repFlag with
          | true => have := hx3 hfx; omega
          | false => have := hb'.2 hfx hf'; omega
        · exact ⟨hk, Nat.le_refl _, fun e => by cases e⟩
      obtain ⟨f2, n, h2⟩ := ih (budgets K keys s1) (by have := hinv.2.2 hf; omega) s1 hinv.1 (Nat.le_refl _)
      refine ⟨f1 + f2, n + 1, ?_⟩
      rw [substLoop, hk, substPass_mono f1 keys _ f2 h1, hp]
      show (if s1.repFlag = true then substLoop ignore conditional addrepl (f1 + f2) n s1 else .ok s1.tags) ≠ .fuel
      rw [if_pos hf]
      have := substLoop_mono f2 n s1 f1 0 h2
      rw [Nat.add_comm f2 f1, Nat.add_zero] at this
      rw [this]
      exact h2
    · refine ⟨f1, 1, ?_⟩
      rw [substLoop, hk]
      simp only [hp]
      rw [if_neg hf]
      intro e; cases e

/-! ### errors -/

theorem substPass_selfRef {fuel : Nat} (P : SubstState → Prop) (keys : List Text)
    (hP : ∀ s tag s', tag ∈ keys → P s → substTag ignore conditional addrepl fuel s tag = .ok s' → P s') (a b : Text) :
    ∀ (ks : List Text), (∀ k ∈ ks, k ∈ keys) → ∀ (s : SubstState), P s →
    substPass ignore conditional addrepl fuel ks s = .selfRef a b →
    ∃ s0 t, t ∈ keys ∧ P s0 ∧ substTag ignore conditional addrepl fuel s0 t = .selfRef a b := by
  intro ks
  induction ks with
  | nil => intro _ s _ h; cases h
  | cons k ks ih =>
    intro hk s hs h
    rw [substPass] at h
    cases ht : substTag ignore conditional addrepl fuel s k with
    | ok s1 => simp only [ht] at h; exact ih (fun k' hk' => hk k' (by simp [hk'])) s1 (hP s k s1 (hk k (by simp)) hs ht) h
    | selfRef x y => simp only [ht] at h; cases h; exact ⟨s, k, hk k (by simp), hs, ht⟩
    | fuel => simp only [ht] at h; cases h

theorem substLoop_selfRef {fuel : Nat} (P : SubstState → Prop) (keys : List Text)
    (hflag : ∀ s b, P s → P { s with repFlag := b }) (hkeys : ∀ s, P s → s.tags.keys = keys)
    (hP : ∀ s tag s', tag ∈ keys → P s → substTag ignore conditional addrepl fuel s tag = .ok s' → P s') (a b : Text) :
    ∀ (n : Nat) (s : SubstState), P s → substLoop ignore conditional addrepl fuel n s = .selfRef a b →
    ∃ s0 t, t ∈ keys ∧ P s0 ∧ substTag ignore conditional addrepl fuel s0 t = .selfRef a b := by
  intro n
  induction n with
  | zero => intro s _ h; cases h
  | succ n ih =>
    intro s hs h
    rw [substLoop, hkeys s hs] at h
    have hs0 := hflag s false hs
    cases hp : substPass ignore conditional addrepl fuel keys { s with repFlag := false } with
    | selfRef x y =>
      simp only [hp] at h; cases h
      exact substPass_selfRef P keys hP _ _ keys (fun _ h => h) _ hs0 hp
    | fuel => simp only [hp] at h; cases h
    | ok s1 =>
      simp only [hp] at h
      have hs1 : P s1 := substPass_induction P keys hP keys (fun _ h => h) _ s1 hs0 hp
      by_cases hf : s1.repFlag = true
      · rw [if_pos hf] at h; exact ih s1 hs1 h
      · rw [if_neg hf] at h; cases h

end Tags

end Verif
