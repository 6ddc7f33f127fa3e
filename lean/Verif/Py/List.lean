/-! Small additions about lists. -/

namespace Verif

/-- Induction from the end of a list. -/
theorem list_snoc_induction {α : Type} {P : List α → Prop} (nil : P [])
    (snoc : ∀ l a, P l → P (l ++ [a])) : ∀ l, P l := by
  intro l
  have : ∀ r : List α, P r.reverse := by
    intro r
    induction r with
    | nil => exact nil
    | cons a r ih => rw [List.reverse_cons]; exact snoc _ _ ih
  have h := this l.reverse
  rwa [List.reverse_reverse] at h

theorem append_eq_snoc_cases {α : Type} {l p q : List α} {a : α} (h : l ++ [a] = p ++ q) :
    (q = [] ∧ p = l ++ [a]) ∨ ∃ q', q = q' ++ [a] ∧ l = p ++ q' := by
  rcases List.eq_nil_or_concat q with rfl | ⟨q', b, hq⟩
  · left; exact ⟨rfl, by simpa using h.symm⟩
  · right
    have hq : q = q' ++ [b] := by rw [hq, List.concat_eq_append]
    rw [hq, ← List.append_assoc] at h
    have h1 := List.append_inj' h rfl
    refine ⟨q', ?_, h1.1⟩
    rw [hq]
    have := h1.2
    simp only [List.cons.injEq, and_true] at this
    rw [this]

theorem append_eq_singleton_of_ne_nil {α : Type} {p q : List α} {a : α} (h : [a] = p ++ q) (hp : p ≠ []) :
    p = [a] ∧ q = [] := by
  cases p with
  | nil => exact absurd rfl hp
  | cons b p =>
    simp only [List.cons_append, List.cons.injEq] at h
    obtain ⟨rfl, h2⟩ := h
    have hp' : p = [] ∧ q = [] := List.append_eq_nil_iff.1 h2.symm
    rw [hp'.1, hp'.2]; exact ⟨rfl, rfl⟩

end Verif
