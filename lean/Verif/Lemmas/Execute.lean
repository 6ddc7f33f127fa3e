import Verif.Spec.Execute

/-!
# Execution of commands — lemmas
-/

namespace Verif.ExecuteLemmas

open Verif.Execute Verif.ExecuteSpec

theorem waitFor_spec {α : Type} (cond : Nat → Option α) (late : Nat → Nat) (interval last : Nat) (hi : 0 < interval) :
    ∀ (fuel now k stm : Nat), last + 1 < fuel + now → 0 < fuel →
      ∃ r t k', waitFor cond late interval last fuel now k stm = some (r, t, k') ∧ cond t = r ∧ now ≤ t ∧ (r = none → last < t) ∧
        (t = now ∨ ∃ t0 k0, now ≤ t0 ∧ t0 < t ∧ t0 ≤ last ∧ cond t0 = none ∧ t ≤ t0 + sleepTime + late k0)
  | 0, _, _, _, _, h => by omega
  | fuel + 1, now, k, stm, hf, _ => by
    unfold waitFor
    cases hc : cond now with
    | some r => exact ⟨some r, now, k, rfl, hc, Nat.le_refl _, by simp, Or.inl rfl⟩
    | none =>
      dsimp only
      by_cases hl : now > last
      · rw [if_pos hl]
        exact ⟨none, now, k, rfl, hc, Nat.le_refl _, fun _ => hl, Or.inl rfl⟩
      · rw [if_neg hl]
        have hs : 0 < min (stm + interval) sleepTime := by
          have : 0 < sleepTime := by decide
          omega
        have hs2 : min (stm + interval) sleepTime ≤ sleepTime := Nat.min_le_right _ _
        generalize min (stm + interval) sleepTime = s at hs hs2
        obtain ⟨r, t, k', h1, h2, h3, h4, h5⟩ := waitFor_spec cond late interval last hi fuel (now + s + late k) (k + 1) s (by omega) (by omega)
        refine ⟨r, t, k', h1, h2, by omega, h4, Or.inr ?_⟩
        rcases h5 with h5 | ⟨t0, k0, h6, h7, h8, h9, h10⟩
        · exact ⟨now, k, Nat.le_refl _, by omega, by omega, hc, by omega⟩
        · exact ⟨t0, k0, by omega, h7, h8, h9, h10⟩

/-- How the wait for the process ends. -/
theorem ended_spec (e : Env) (tree : Bool) (timeout : Nat) :
    (∃ c t, ended e tree timeout = ⟨some c, [], t⟩ ∧ e.poll [] t = some c ∧
      (t = 0 ∨ ∃ t0 k, t0 < t ∧ t0 ≤ timeout ∧ e.poll [] t0 = none ∧ t ≤ t0 + sleepTime + e.late k)) ∨
    (∃ t k, ended e tree timeout = killed e tree t k ∧ e.poll [] t = none ∧ timeout < t ∧ ∃ t0 k0, t0 ≤ timeout ∧ e.poll [] t0 = none ∧ t ≤ t0 + sleepTime + e.late k0) := by
  unfold ended
  cases h0 : e.poll [] 0 with
  | some c => exact Or.inl ⟨c, 0, rfl, h0, Or.inl rfl⟩
  | none =>
    obtain ⟨r, t, k, h1, h2, h3, h4, h5⟩ := waitFor_spec (e.poll []) e.late 1 timeout (by omega) (timeout + 2) 0 0 0 (by omega) (by omega)
    dsimp only
    rw [h1]
    cases r with
    | some c =>
      refine Or.inl ⟨c, t, rfl, h2, ?_⟩
      rcases h5 with h5 | ⟨t0, k0, _, h7, h8, h9, h10⟩
      · exact Or.inl h5
      · exact Or.inr ⟨t0, k0, h7, h8, h9, h10⟩
    | none =>
      have h4 := h4 rfl
      refine Or.inr ⟨t, k, rfl, h2, h4, ?_⟩
      rcases h5 with h5 | ⟨t0, k0, _, h7, h8, h9, h10⟩
      · omega
      · exact ⟨t0, k0, h8, h9, h10⟩

theorem waitFor_looks {α : Type} (cond : Nat → Option α) (late : Nat → Nat) (last : Nat) (hl : ∀ k, late k = 0) :
    ∀ (fuel k : Nat) (r : Option α) (t k' : Nat), waitFor cond late 1 last fuel (looks k) k (min k sleepTime) = some (r, t, k') →
      t = looks k' ∧ k ≤ k' ∧ ∀ j, k ≤ j → j < k' → cond (looks j) = none ∧ looks j ≤ last
  | 0, _, _, _, _, h => by simp [waitFor] at h
  | fuel + 1, k, r, t, k', h => by
    unfold waitFor at h
    cases hc : cond (looks k) with
    | some c =>
      rw [hc] at h
      simp only [Option.some.injEq, Prod.mk.injEq] at h
      obtain ⟨_, rfl, rfl⟩ := h
      exact ⟨rfl, Nat.le_refl _, fun j h1 h2 => by omega⟩
    | none =>
      rw [hc] at h
      dsimp only at h
      by_cases hg : looks k > last
      · rw [if_pos hg] at h
        simp only [Option.some.injEq, Prod.mk.injEq] at h
        obtain ⟨_, rfl, rfl⟩ := h
        exact ⟨rfl, Nat.le_refl _, fun j h1 h2 => by omega⟩
      · rw [if_neg hg] at h
        have e1 : min (min k sleepTime + 1) sleepTime = min (k + 1) sleepTime := by omega
        have e2 : looks k + min (k + 1) sleepTime + late k = looks (k + 1) := by rw [hl]; rfl
        rw [e1, e2] at h
        obtain ⟨h1, h2, h3⟩ := waitFor_looks cond late last hl fuel (k + 1) r t k' h
        refine ⟨h1, by omega, fun j h4 h5 => ?_⟩
        by_cases hj : j = k
        · subst hj; exact ⟨hc, by omega⟩
        · exact h3 j (by omega) h5

theorem ended_looks (e : Env) (tree : Bool) (timeout : Nat) (hl : ∀ k, e.late k = 0) :
    ∃ k, (∀ j, j < k → e.poll [] (looks j) = none ∧ looks j ≤ timeout) ∧
      ((∃ c, ended e tree timeout = ⟨some c, [], looks k⟩ ∧ e.poll [] (looks k) = some c) ∨
       (ended e tree timeout = killed e tree (looks k) k ∧ e.poll [] (looks k) = none ∧ timeout < looks k)) := by
  unfold ended
  cases h0 : e.poll [] 0 with
  | some c => exact ⟨0, by intro j h; omega, Or.inl ⟨c, rfl, h0⟩⟩
  | none =>
    obtain ⟨r, t, k, h1, h2, h3, h4, h5⟩ := waitFor_spec (e.poll []) e.late 1 timeout (by omega) (timeout + 2) 0 0 0 (by omega) (by omega)
    obtain ⟨rfl, _, h6⟩ := waitFor_looks (e.poll []) e.late timeout hl (timeout + 2) 0 r t k h1
    dsimp only
    rw [h1]
    refine ⟨k, fun j hj => h6 j (by omega) hj, ?_⟩
    cases r with
    | some c => exact Or.inl ⟨c, rfl, h2⟩
    | none => exact Or.inr ⟨rfl, h2, h4 rfl⟩

end Verif.ExecuteLemmas
