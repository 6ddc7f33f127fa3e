import Verif.Spec.Settings

set_option linter.unusedSimpArgs false

/-!
# Settings of jails at run time — lemmas
-/

namespace Verif.SettingsLemmas

open Verif.Settings Verif.SettingsSpec

theorem extraName_iff (g o : String) : extraName g = some o ↔ g = "bantime." ++ o := by
  unfold extraName
  constructor
  · intro h
    split at h
    · rename_i hp
      injection h with h
      have hp := List.isPrefixOf_iff_prefix.mp hp
      obtain ⟨t, ht⟩ := hp
      have h8 : g.toList.drop 8 = t := by rw [← ht]; rfl
      rw [h8] at h
      apply String.toList_injective
      rw [← ht, ← h]
      simp
    · cases h
  · rintro rfl
    have : ("bantime." ++ o).toList = "bantime.".toList ++ o.toList := by simp
    rw [this]
    rw [if_pos (List.isPrefixOf_iff_prefix.mpr ⟨_, rfl⟩)]
    have h8 : List.drop 8 ("bantime.".toList ++ o.toList) = o.toList := rfl
    rw [h8, String.ofList_toList]

theorem upd_self (d : String → Option Val) (k : String) (v : Option Val) : upd d k v k = v := by simp [upd]
theorem upd_ne (d : String → Option Val) (k k' : String) (v : Option Val) (h : k' ≠ k) : upd d k v k' = d k' := by simp [upd, h]

theorem rebuild_frame (env : Env) (be : String → Option Val) (k : String) (h : k ≠ "evformula") : (rebuild env be).2 k = be k := by
  unfold rebuild
  split
  · rfl
  · split
    · rfl
    · exact upd_ne _ _ _ _ h

theorem prepare_frame (env : Env) (be : String → Option Val) (opt : String) (v : Option String) (k : String) (h : k ≠ "evformula") (h2 : k ≠ "evmultipliers") :
    (prepare env be opt v).2 k = be k := by
  unfold prepare
  split
  · split
    · split
      · rfl
      · rw [rebuild_frame _ _ _ h, upd_ne _ _ _ _ h2]
    · exact rebuild_frame _ _ _ h
  · rfl

theorem store_frame (env : Env) (be : String → Option Val) (opt : String) (v : Option String) (k : String) (h : k ≠ opt) : (store env be opt v).2 k = be k := by
  unfold store
  dsimp only
  split
  · simp [upd, h]
  · split
    · cases v with
      | none => simp [upd, h]
      | some s =>
        dsimp only
        cases env.seconds s <;> simp [upd, h]
    · simp [upd, h]

theorem setExtra_frame (env : Env) (be : String → Option Val) (opt v k : String) (h : k ≠ opt) (h1 : k ≠ "evformula") (h2 : k ≠ "evmultipliers") :
    (setExtra env be opt v).2 k = be k := by
  unfold setExtra
  dsimp only
  generalize (if v = "" then none else some v) = w
  split
  · rw [prepare_frame _ _ _ _ _ h1 h2, store_frame _ _ _ _ _ h]
  · exact store_frame _ _ _ _ _ h

theorem addIgnores_shape (env : Env) : ∀ (vs : List String) (j : Jail), ∃ l, (addIgnores env j vs).2 = { j with ignoreIp := l }
  | [], j => ⟨j.ignoreIp, rfl⟩
  | v :: vs, j => by
    unfold addIgnores
    cases h : env.addIgnore j.ignoreIp v with
    | none => exact ⟨j.ignoreIp, rfl⟩
    | some l =>
      obtain ⟨l', hl⟩ := addIgnores_shape env vs { j with ignoreIp := l }
      exact ⟨l', by dsimp only; rw [hl]⟩

theorem orFail_map {α : Type} (j : Jail) (o : Option α) (f : α → Jail) : ((orFail j (o.map f)).2 = j ∧ o = none) ∨ ∃ a, o = some a ∧ (orFail j (o.map f)).2 = f a := by
  cases o with
  | none => exact Or.inl ⟨rfl, rfl⟩
  | some a => exact Or.inr ⟨a, rfl, rfl⟩

theorem shown_extra (j : Jail) (be : String → Option Val) (g : String) (h : ∀ o, g = "bantime." ++ o → be o = j.extra o) :
    shown { j with extra := be } g = shown j g := by
  cases he : extraName g with
  | none => simp [shown, he]
  | some o =>
    have := h o ((extraName_iff g o).mp he)
    simp [shown, he, this]

theorem orFail_frame {α : Type} (j : Jail) (o : Option α) (f : α → Jail) (g : String) (h : ∀ a, shown (f a) g = shown j g) :
    shown (orFail j (o.map f)).2 g = shown j g := by
  cases o with
  | none => rfl
  | some a => exact h a

theorem ite_frame (j : Jail) (c : Prop) [Decidable c] (a b : Bool × Jail) (g : String) (ha : c → shown a.2 g = shown j g) (hb : ¬c → shown b.2 g = shown j g) :
    shown (if c then a else b).2 g = shown j g := by
  by_cases h : c
  · rw [if_pos h]; exact ha h
  · rw [if_neg h]; exact hb h

theorem setOne_frame (env : Env) (j : Jail) (opt v g : String) (hg : g ∉ changes opt) : shown (setOne env j opt v).2 g = shown j g := by
  unfold setOne
  refine ite_frame j _ _ _ g (fun h => ?_) (fun h => ?_)
  · refine ite_frame j _ _ _ g (fun _ => by simp [shown]) (fun _ => ite_frame j _ _ _ g (fun _ => by simp [shown]) (fun _ => rfl))
  refine ite_frame j _ _ _ g (fun h => ?_) (fun h => ?_)
  · subst h; simp [changes] at hg; simp [shown, hg]
  refine ite_frame j _ _ _ g (fun h => ?_) (fun h => ?_)
  · subst h; simp [changes] at hg; exact orFail_frame _ _ _ _ fun a => by simp [shown, hg]
  refine ite_frame j _ _ _ g (fun h => ?_) (fun h => ?_)
  · subst h; simp [changes] at hg; simp [shown, hg]
  refine ite_frame j _ _ _ g (fun h => ?_) (fun h => ?_)
  · subst h; simp [changes] at hg; exact orFail_frame _ _ _ _ fun a => by simp [shown, hg]
  refine ite_frame j _ _ _ g (fun h => ?_) (fun h => ?_)
  · subst h; simp [changes] at hg
    dsimp only
    exact ite_frame j _ _ _ g (fun _ => by simp [shown, hg]) (fun _ => rfl)
  refine ite_frame j _ _ _ g (fun h => ?_) (fun h => ?_)
  · subst h; simp [changes] at hg
    exact ite_frame j _ _ _ g (fun _ => by simp [shown, hg]) (fun _ => ite_frame j _ _ _ g (fun _ => by simp [shown, hg]) (fun _ => rfl))
  refine ite_frame j _ _ _ g (fun h => ?_) (fun h => ?_)
  · subst h; simp [changes] at hg
    exact ite_frame j _ _ _ g (fun _ => by simp [shown, hg]) (fun _ => rfl)
  refine ite_frame j _ _ _ g (fun h => ?_) (fun h => ?_)
  · subst h; simp [changes] at hg; exact orFail_frame _ _ _ _ fun a => by simp [shown, hg]
  refine ite_frame j _ _ _ g (fun h => ?_) (fun h => ?_)
  · subst h; simp [changes] at hg
    exact ite_frame j _ _ _ g (fun _ => by simp [shown, hg]) (fun _ => rfl)
  refine ite_frame j _ _ _ g (fun h => ?_) (fun h => ?_)
  · subst h; simp [changes] at hg; exact orFail_frame _ _ _ _ fun a => by simp [shown, hg]
  refine ite_frame j _ _ _ g (fun h => ?_) (fun h => ?_)
  · subst h; simp [changes] at hg; simp [shown, hg]
  refine ite_frame j _ _ _ g (fun h => ?_) (fun h => ?_)
  · subst h; simp [changes] at hg; exact orFail_frame _ _ _ _ fun a => by simp [shown, hg]
  refine ite_frame j _ _ _ g (fun h => ?_) (fun h => ?_)
  · subst h; simp [changes] at hg; exact orFail_frame _ _ _ _ fun a => by simp [shown, hg]
  refine ite_frame j _ _ _ g (fun h => ?_) (fun h => ?_)
  · subst h; simp [changes] at hg
    exact ite_frame j _ _ _ g (fun _ => by simp [shown, hg]) (fun _ => rfl)
  refine ite_frame j _ _ _ g (fun h => ?_) (fun h => ?_)
  · subst h; simp [changes] at hg; exact orFail_frame _ _ _ _ fun a => by simp [shown, hg]
  refine ite_frame j _ _ _ g (fun h => ?_) (fun h => ?_)
  · subst h; simp [changes] at hg; exact orFail_frame _ _ _ _ fun a => by simp [shown, hg]
  refine ite_frame j _ _ _ g (fun h => ?_) (fun h => ?_)
  · subst h; simp [changes] at hg
    cases env.int v with
    | none => rfl
    | some n => exact ite_frame j _ _ _ g (fun _ => rfl) (fun _ => by simp [shown, hg])
  refine ite_frame j _ _ _ g (fun h => ?_) (fun h => ?_)
  · subst h; simp [changes] at hg; exact orFail_frame _ _ _ _ fun a => by simp [shown, hg]
  cases he : extraName opt with
  | none => rfl
  | some o =>
    have ho := (extraName_iff opt o).mp he
    dsimp only
    apply shown_extra
    intro o' hg'
    have hne : ∀ x, x ≠ "bantime." → True := fun _ _ => trivial
    unfold changes at hg
    have hb : ∀ s : String, s.toList.head? ≠ some 'b' → opt ≠ s := by
      rintro s hs rfl
      apply hs; rw [ho]; simp
    have a1 := hb "addignoreip" (by decide)
    have a2 := hb "delignoreip" (by decide)
    have a3 := hb "addfailregex" (by decide)
    have a4 := hb "delfailregex" (by decide)
    have a5 := hb "addignoreregex" (by decide)
    have a6 := hb "delignoreregex" (by decide)
    have a7 := hb "idle" (by decide)
    simp only [a1, a2, a3, a4, a5, a6, a7, or_self, if_false] at hg
    simp only [List.mem_cons, List.not_mem_nil, or_false, not_or] at hg
    apply setExtra_frame
    · rintro rfl; exact hg.1 (hg'.trans ho.symm)
    · rintro rfl; exact hg.2.1 hg'
    · rintro rfl; exact hg.2.2 hg'

theorem put_same (s : Server) (name : String) (j : Jail) (h : s name = some j) : put s name j = s := by
  funext n
  unfold put
  split
  · rename_i e; rw [e, h]
  · rfl

theorem ite_failed (j : Jail) (c : Prop) [Decidable c] (a b : Bool × Jail) (h : (if c then a else b).1 = false) (ha : c → a.1 = false → a.2 = j) (hb : ¬c → b.1 = false → b.2 = j) :
    (if c then a else b).2 = j := by
  by_cases hc : c
  · rw [if_pos hc] at h ⊢; exact ha hc h
  · rw [if_neg hc] at h ⊢; exact hb hc h

theorem orFail_failed {α : Type} (j : Jail) (o : Option α) (f : α → Jail) (h : (orFail j (o.map f)).1 = false) : (orFail j (o.map f)).2 = j := by
  cases o with
  | none => rfl
  | some a => cases h

/-- A refused command with one value changes nothing, unless it is for `bantime.*`. -/
theorem setOne_failed (env : Env) (j : Jail) (opt v : String) (he : extraName opt = none) (h : (setOne env j opt v).1 = false) : (setOne env j opt v).2 = j := by
  unfold setOne at h ⊢
  refine ite_failed j _ _ _ h (fun _ h => ?_) (fun _ h => ?_)
  · refine ite_failed j _ _ _ h (fun _ h => by cases h) (fun _ h => ite_failed j _ _ _ h (fun _ h => by cases h) (fun _ _ => rfl))
  iterate 1 refine ite_failed j _ _ _ h (fun _ h => by cases h) (fun _ h => ?_)
  iterate 1 refine ite_failed j _ _ _ h (fun _ h => orFail_failed _ _ _ h) (fun _ h => ?_)
  iterate 1 refine ite_failed j _ _ _ h (fun _ h => by cases h) (fun _ h => ?_)
  iterate 1 refine ite_failed j _ _ _ h (fun _ h => orFail_failed _ _ _ h) (fun _ h => ?_)
  refine ite_failed j _ _ _ h (fun _ h => ?_) (fun _ h => ?_)
  · exact ite_failed j _ _ _ h (fun _ h => by cases h) (fun _ _ => rfl)
  refine ite_failed j _ _ _ h (fun _ h => ?_) (fun _ h => ?_)
  · exact ite_failed j _ _ _ h (fun _ h => by cases h) (fun _ h => ite_failed j _ _ _ h (fun _ h => by cases h) (fun _ _ => rfl))
  refine ite_failed j _ _ _ h (fun _ h => ?_) (fun _ h => ?_)
  · exact ite_failed j _ _ _ h (fun _ h => by cases h) (fun _ _ => rfl)
  iterate 1 refine ite_failed j _ _ _ h (fun _ h => orFail_failed _ _ _ h) (fun _ h => ?_)
  refine ite_failed j _ _ _ h (fun _ h => ?_) (fun _ h => ?_)
  · exact ite_failed j _ _ _ h (fun _ h => by cases h) (fun _ _ => rfl)
  iterate 1 refine ite_failed j _ _ _ h (fun _ h => orFail_failed _ _ _ h) (fun _ h => ?_)
  iterate 1 refine ite_failed j _ _ _ h (fun _ h => by cases h) (fun _ h => ?_)
  iterate 2 refine ite_failed j _ _ _ h (fun _ h => orFail_failed _ _ _ h) (fun _ h => ?_)
  refine ite_failed j _ _ _ h (fun _ h => ?_) (fun _ h => ?_)
  · exact ite_failed j _ _ _ h (fun _ h => by cases h) (fun _ _ => rfl)
  iterate 2 refine ite_failed j _ _ _ h (fun _ h => orFail_failed _ _ _ h) (fun _ h => ?_)
  refine ite_failed j _ _ _ h (fun _ h => ?_) (fun _ h => ?_)
  · cases hi : env.int v with
    | none => rfl
    | some n =>
      rw [hi] at h
      exact ite_failed j _ _ _ h (fun _ _ => rfl) (fun _ h => by cases h)
  iterate 1 refine ite_failed j _ _ _ h (fun _ h => orFail_failed _ _ _ h) (fun _ h => ?_)
  rw [he]

theorem ite_inv (P : Jail → Prop) (c : Prop) [Decidable c] (a b : Bool × Jail) (ha : c → P a.2) (hb : ¬c → P b.2) : P (if c then a else b).2 := by
  by_cases hc : c
  · rw [if_pos hc]; exact ha hc
  · rw [if_neg hc]; exact hb hc

theorem orFail_inv {α : Type} (P : Jail → Prop) (j : Jail) (o : Option α) (f : α → Jail) (h0 : P j) (h : ∀ a, P (f a)) : P (orFail j (o.map f)).2 := by
  cases o with
  | none => exact h0
  | some a => exact h a

theorem useDnsOf_mem (env : Env) (s : String) : useDnsOf env s ∈ ["yes", "warn", "no", "raw"] := by
  unfold useDnsOf
  split
  · rename_i h; simpa using h
  · simp

theorem setOne_consistent (env : Env) (j : Jail) (opt v : String) (hj : Consistent j) : Consistent (setOne env j opt v).2 := by
  obtain ⟨c1, c2, c3, c4, c5⟩ := hj
  have hj : Consistent j := ⟨c1, c2, c3, c4, c5⟩
  unfold setOne
  refine ite_inv Consistent _ _ _ (fun _ => ?_) (fun _ => ?_)
  · exact ite_inv Consistent _ _ _ (fun _ => ⟨c1, c2, c3, rfl, c5⟩) (fun _ => ite_inv Consistent _ _ _ (fun _ => ⟨c1, c2, c3, rfl, c5⟩) (fun _ => hj))
  iterate 1 refine ite_inv Consistent _ _ _ (fun _ => ⟨c1, c2, c3, c4, c5⟩) (fun _ => ?_)
  iterate 1 refine ite_inv Consistent _ _ _ (fun _ => orFail_inv Consistent _ _ _ hj (fun _ => ⟨c1, c2, c3, c4, c5⟩)) (fun _ => ?_)
  iterate 1 refine ite_inv Consistent _ _ _ (fun _ => ⟨c1, c2, c3, c4, c5⟩) (fun _ => ?_)
  iterate 1 refine ite_inv Consistent _ _ _ (fun _ => orFail_inv Consistent _ _ _ hj (fun _ => ⟨c1, c2, c3, c4, c5⟩)) (fun _ => ?_)
  refine ite_inv Consistent _ _ _ (fun _ => ?_) (fun _ => ?_)
  · exact ite_inv Consistent _ _ _ (fun _ => ⟨c1, c2, c3, c4, c5⟩) (fun _ => hj)
  refine ite_inv Consistent _ _ _ (fun _ => ?_) (fun _ => ?_)
  · exact ite_inv Consistent _ _ _ (fun _ => ⟨c1, c2, c3, c4, c5⟩) (fun _ => ite_inv Consistent _ _ _ (fun _ => ⟨c1, c2, c3, c4, c5⟩) (fun _ => hj))
  refine ite_inv Consistent _ _ _ (fun _ => ?_) (fun _ => ?_)
  · exact ite_inv Consistent _ _ _ (fun _ => ⟨c1, c2, c3, c4, c5⟩) (fun _ => hj)
  iterate 1 refine ite_inv Consistent _ _ _ (fun _ => orFail_inv Consistent _ _ _ hj (fun _ => ⟨c1, c2, c3, c4, c5⟩)) (fun _ => ?_)
  refine ite_inv Consistent _ _ _ (fun _ => ?_) (fun _ => ?_)
  · exact ite_inv Consistent _ _ _ (fun _ => ⟨c1, c2, c3, c4, c5⟩) (fun _ => hj)
  iterate 1 refine ite_inv Consistent _ _ _ (fun _ => orFail_inv Consistent _ _ _ hj (fun _ => ⟨c1, c2, c3, c4, c5⟩)) (fun _ => ?_)
  iterate 1 refine ite_inv Consistent _ _ _ (fun _ => ⟨c1, c2, c3, c4, useDnsOf_mem env v⟩) (fun _ => ?_)
  iterate 1 refine ite_inv Consistent _ _ _ (fun _ => orFail_inv Consistent _ _ _ hj (fun _ => ⟨rfl, c2, c3, c4, c5⟩)) (fun _ => ?_)
  iterate 1 refine ite_inv Consistent _ _ _ (fun _ => orFail_inv Consistent _ _ _ hj (fun _ => ⟨c1, rfl, c3, c4, c5⟩)) (fun _ => ?_)
  refine ite_inv Consistent _ _ _ (fun _ => ?_) (fun _ => ?_)
  · exact ite_inv Consistent _ _ _ (fun _ => ⟨c1, rfl, c3, c4, c5⟩) (fun _ => hj)
  iterate 2 refine ite_inv Consistent _ _ _ (fun _ => orFail_inv Consistent _ _ _ hj (fun _ => ⟨c1, c2, c3, c4, c5⟩)) (fun _ => ?_)
  refine ite_inv Consistent _ _ _ (fun _ => ?_) (fun _ => ?_)
  · cases env.int v with
    | none => exact hj
    | some n => exact ite_inv Consistent _ _ _ (fun _ => hj) (fun hn => ⟨c1, c2, (by simpa using (by omega : 1 ≤ n)), c4, c5⟩)
  iterate 1 refine ite_inv Consistent _ _ _ (fun _ => orFail_inv Consistent _ _ _ hj (fun _ => ⟨c1, c2, c3, c4, c5⟩)) (fun _ => ?_)
  cases extraName opt with
  | none => exact hj
  | some o => exact ⟨c1, c2, c3, c4, c5⟩

theorem addAll_fail (env : Env) : ∀ (vs : List String) (j : Jail), ∃ n, n ≤ vs.length ∧ (addAll (addFailRegex env) j vs).2 = { j with failRegex := j.failRegex ++ vs.take n } ∧
    ((addAll (addFailRegex env) j vs).1 = true ↔ ∀ v ∈ vs, env.okFail j.prefRegex (decide (j.maxLines > 1)) j.useDns v = true) ∧
    ((addAll (addFailRegex env) j vs).1 = true → n = vs.length) ∧ ∀ v ∈ vs.take n, env.okFail j.prefRegex (decide (j.maxLines > 1)) j.useDns v = true
  | [], j => ⟨0, by simp, by simp [addAll], by simp [addAll], by simp, by simp⟩
  | v :: vs, j => by
    unfold addAll
    cases hv : env.okFail j.prefRegex (decide (j.maxLines > 1)) j.useDns v with
    | false =>
      have e : addFailRegex env j v = (false, j) := by unfold addFailRegex; rw [hv]; rfl
      rw [e]
      exact ⟨0, by simp, by simp, by simp [hv], by simp, by simp⟩
    | true =>
      have e : addFailRegex env j v = (true, { j with failRegex := j.failRegex ++ [v] }) := by unfold addFailRegex; rw [hv]; rfl
      rw [e]
      obtain ⟨n, h1, h2, h3, h4, h5⟩ := addAll_fail env vs { j with failRegex := j.failRegex ++ [v] }
      refine ⟨n + 1, by simpa using h1, ?_, ?_, ?_, ?_⟩
      · dsimp only; simp only [if_true]; rw [h2]; simp
      · dsimp only; simp only [if_true]; rw [h3]; simp [hv]
      · dsimp only; simp only [if_true]; intro h; have := h4 h; simp [this]
      · intro x hx
        simp only [List.take_succ_cons, List.mem_cons] at hx
        rcases hx with rfl | hx
        · exact hv
        · exact h5 x hx

theorem addAll_ignore (env : Env) : ∀ (vs : List String) (j : Jail), ∃ n, n ≤ vs.length ∧ (addAll (addIgnoreRegex env) j vs).2 = { j with ignoreRegex := j.ignoreRegex ++ vs.take n } ∧
    ((addAll (addIgnoreRegex env) j vs).1 = true ↔ ∀ v ∈ vs, env.okRegex j.useDns v = true) ∧
    ((addAll (addIgnoreRegex env) j vs).1 = true → n = vs.length) ∧ ∀ v ∈ vs.take n, env.okRegex j.useDns v = true
  | [], j => ⟨0, by simp, by simp [addAll], by simp [addAll], by simp, by simp⟩
  | v :: vs, j => by
    unfold addAll
    cases hv : env.okRegex j.useDns v with
    | false =>
      have e : addIgnoreRegex env j v = (false, j) := by unfold addIgnoreRegex; rw [hv]; rfl
      rw [e]
      exact ⟨0, by simp, by simp, by simp [hv], by simp, by simp⟩
    | true =>
      have e : addIgnoreRegex env j v = (true, { j with ignoreRegex := j.ignoreRegex ++ [v] }) := by unfold addIgnoreRegex; rw [hv]; rfl
      rw [e]
      obtain ⟨n, h1, h2, h3, h4, h5⟩ := addAll_ignore env vs { j with ignoreRegex := j.ignoreRegex ++ [v] }
      refine ⟨n + 1, by simpa using h1, ?_, ?_, ?_, ?_⟩
      · dsimp only; simp only [if_true]; rw [h2]; simp
      · dsimp only; simp only [if_true]; rw [h3]; simp [hv]
      · dsimp only; simp only [if_true]; intro h; have := h4 h; simp [this]
      · intro x hx
        simp only [List.take_succ_cons, List.mem_cons] at hx
        rcases hx with rfl | hx
        · exact hv
        · exact h5 x hx

theorem delAt_spec (l : List String) (i : Int) : PyDel l i (delAt l i) := by
  have key : ∀ n, n < l.length → ∃ a x b, l = a ++ x :: b ∧ l.eraseIdx n = a ++ b ∧ a.length = n := by
    intro n hn
    refine ⟨l.take n, l[n], l.drop (n + 1), ?_, List.eraseIdx_eq_take_drop_succ l n, by simp; omega⟩
    rw [List.getElem_cons_drop, List.take_append_drop]
  unfold delAt PyDel
  by_cases h : 0 ≤ i
  · rw [if_pos h]
    by_cases hl : i.toNat < l.length
    · obtain ⟨a, x, b, h1, h2, h3⟩ := key _ hl
      exact Or.inl ⟨a, x, b, h1, h2, Or.inl (by omega)⟩
    · exact Or.inr ⟨by omega, List.eraseIdx_of_length_le (by omega)⟩
  · rw [if_neg h]
    by_cases hl : 0 ≤ i + l.length
    · rw [if_pos hl]
      obtain ⟨a, x, b, h1, h2, h3⟩ := key (i + l.length).toNat (by omega)
      exact Or.inl ⟨a, x, b, h1, h2, Or.inr (by omega)⟩
    · rw [if_neg hl]
      exact Or.inr ⟨by omega, rfl⟩

theorem intList_spec (env : Env) : ∀ (ws : List String) (l : List Int), intList env ws = some l → ws.map env.int = l.map some
  | [], l, h => by simp [intList] at h; subst h; rfl
  | w :: ws, l, h => by
    unfold intList at h
    cases hw : env.int w with
    | none => rw [hw] at h; simp at h
    | some n =>
      cases hl : intList env ws with
      | none => rw [hw, hl] at h; simp at h
      | some l' =>
        rw [hw, hl] at h
        simp at h
        subst h
        simp [hw, intList_spec env ws l' hl]

/-- Text or absent. -/
def IsText (be : String → Option Val) (k : String) : Prop := be k = none ∨ ∃ s, be k = some (.str s)

structure Prepared (env : Env) (be : String → Option Val) : Prop where
  mult : Multipliers env be (multipliersOf be)
  factor : IsText be "factor"
  formula : IsText be "formula"

theorem text_of_isText (be : String → Option Val) (k d : String) (h : IsText be k) : Text be k d (textOf be k d) := by
  rcases h with h | ⟨s, h⟩
  · exact Or.inr ⟨h, by simp [textOf, h]⟩
  · exact Or.inl (by simp [textOf, h])

theorem rebuild_effective (env : Env) (be : String → Option Val) (hp : Prepared env be) (h : (rebuild env be).1 = true) :
    Prepared env (rebuild env be).2 ∧ Effective env (rebuild env be).2 := by
  have fr := rebuild_frame env be
  have e : (rebuild env be).2 = upd be "evformula" (some (.formula (multipliersOf be) (textOf be "factor" "1") (textOf be "formula" defaultFormula) (be "maxtime") (be "rndtime"))) := by
    unfold rebuild at h ⊢
    split at h
    · cases h
    · rename_i n1
      split at h
      · cases h
      · rename_i n2
        rw [if_neg n1, if_neg n2]
  have hm : Multipliers env (rebuild env be).2 (multipliersOf be) := by
    have := hp.mult
    unfold Multipliers at this ⊢
    rw [fr "multipliers" (by decide)]
    exact this
  have hmo : multipliersOf (rebuild env be).2 = multipliersOf be := by
    unfold multipliersOf
    rw [fr "evmultipliers" (by decide)]
  have hfa : IsText (rebuild env be).2 "factor" := by unfold IsText; rw [fr "factor" (by decide)]; exact hp.factor
  have hfo : IsText (rebuild env be).2 "formula" := by unfold IsText; rw [fr "formula" (by decide)]; exact hp.formula
  refine ⟨⟨by rw [hmo]; exact hm, hfa, hfo⟩, multipliersOf be, textOf be "factor" "1", textOf be "formula" defaultFormula, ?_, hm, ?_, ?_⟩
  · rw [fr "maxtime" (by decide), fr "rndtime" (by decide), e, upd_self]
  · have := text_of_isText be "factor" "1" hp.factor
    unfold Text at this ⊢
    rw [fr "factor" (by decide)]
    exact this
  · have := text_of_isText be "formula" defaultFormula hp.formula
    unfold Text at this ⊢
    rw [fr "formula" (by decide)]
    exact this

theorem store_value (env : Env) (be : String → Option Val) (opt : String) (v : Option String) (h : opt ≠ "increment") (h2 : opt ≠ "maxtime") (h3 : opt ≠ "rndtime") :
    store env be opt v = (true, upd be opt (v.map Val.str)) := by
  simp [store, h, h2, h3]

theorem effective_congr (env : Env) (be be' : String → Option Val)
    (h : ∀ k, k ∈ ["evformula", "maxtime", "rndtime", "multipliers", "factor", "formula"] → be' k = be k) (he : Effective env be) : Effective env be' := by
  obtain ⟨ms, fa, fo, h1, h2, h3, h4⟩ := he
  refine ⟨ms, fa, fo, ?_, ?_, ?_, ?_⟩
  · rw [h _ (by simp), h _ (by simp), h _ (by simp)]; exact h1
  · unfold Multipliers at h2 ⊢; rw [h _ (by simp)]; exact h2
  · unfold Text at h3 ⊢; rw [h _ (by simp)]; exact h3
  · unfold Text at h4 ⊢; rw [h _ (by simp)]; exact h4

theorem prepared_congr (env : Env) (be be' : String → Option Val)
    (h : ∀ k, k ∈ ["evmultipliers", "multipliers", "factor", "formula"] → be' k = be k) (hp : Prepared env be) : Prepared env be' := by
  refine ⟨?_, ?_, ?_⟩
  · have e : multipliersOf be' = multipliersOf be := by unfold multipliersOf; rw [h _ (by simp)]
    rw [e]
    have := hp.mult
    unfold Multipliers at this ⊢; rw [h _ (by simp)]; exact this
  · have := hp.factor
    unfold IsText at this ⊢; rw [h _ (by simp)]; exact this
  · have := hp.formula
    unfold IsText at this ⊢; rw [h _ (by simp)]; exact this

theorem isText_upd (be : String → Option Val) (k opt : String) (v : Option String) (h : IsText be k) : IsText (upd be opt (v.map Val.str)) k := by
  by_cases hk : k = opt
  · subst hk
    unfold IsText
    rw [upd_self]
    cases v with
    | none => exact Or.inl rfl
    | some s => exact Or.inr ⟨s, rfl⟩
  · unfold IsText
    rw [upd_ne _ _ _ _ hk]
    exact h

theorem setExtra_effective (env : Env) (be : String → Option Val) (opt value : String) (h1 : opt ≠ "evformula") (h2 : opt ≠ "evmultipliers")
    (hp : Prepared env be) (he : be "evformula" = none ∨ Effective env be) (h : (setExtra env be opt value).1 = true) :
    Prepared env (setExtra env be opt value).2 ∧ Effective env (setExtra env be opt value).2 := by
  unfold setExtra at h ⊢
  dsimp only at h ⊢
  generalize (if value = "" then none else some value) = v at h ⊢
  by_cases hs : (store env be opt v).1 = true
  · rw [if_pos hs] at h ⊢
    have fr := fun k (hk : k ≠ opt) => store_frame env be opt v k hk
    by_cases hm : opt = "multipliers"
    · subst hm
      rw [store_value env be _ v (by decide) (by decide) (by decide)] at h ⊢
      dsimp only at h ⊢
      unfold prepare at h ⊢
      rw [if_pos (by simp)] at h ⊢
      rw [if_pos rfl] at h ⊢
      cases hi : intList env ((v.map env.words).getD []) with
      | none => rw [hi] at h; cases h
      | some l =>
        rw [hi] at h
        dsimp only at h ⊢
        apply rebuild_effective _ _ _ h
        refine ⟨?_, ?_, ?_⟩
        · have e : multipliersOf (upd (upd be "multipliers" (v.map Val.str)) "evmultipliers" (some (.ints l))) = l := by simp [multipliersOf, upd]
          rw [e]
          unfold Multipliers
          rw [upd_ne _ _ _ _ (by decide), upd_self]
          cases v with
          | none =>
            simp [intList] at hi
            exact Or.inl ⟨rfl, hi⟩
          | some s => exact Or.inr ⟨s, rfl, intList_spec env _ _ hi⟩
        · unfold IsText
          rw [upd_ne _ _ _ _ (by decide), upd_ne _ _ _ _ (by decide)]
          exact hp.factor
        · unfold IsText
          rw [upd_ne _ _ _ _ (by decide), upd_ne _ _ _ _ (by decide)]
          exact hp.formula
    · have hp' : Prepared env (store env be opt v).2 := by
        refine ⟨?_, ?_, ?_⟩
        · have e : multipliersOf (store env be opt v).2 = multipliersOf be := by unfold multipliersOf; rw [fr _ (Ne.symm h2)]
          rw [e]
          have := hp.mult
          unfold Multipliers at this ⊢
          rw [fr _ (Ne.symm hm)]
          exact this
        · by_cases hf : opt = "factor"
          · rw [store_value env be _ v (by simp [hf]) (by simp [hf]) (by simp [hf])]
            exact isText_upd _ _ _ _ hp.factor
          · unfold IsText; rw [fr _ (Ne.symm hf)]; exact hp.factor
        · by_cases hf : opt = "formula"
          · rw [store_value env be _ v (by simp [hf]) (by simp [hf]) (by simp [hf])]
            exact isText_upd _ _ _ _ hp.formula
          · unfold IsText; rw [fr _ (Ne.symm hf)]; exact hp.formula
      unfold prepare at h ⊢
      by_cases hc : (["formula", "factor", "maxtime", "rndtime", "multipliers"].contains opt || ((store env be opt v).2 "evformula").isNone) = true
      · rw [if_pos hc] at h ⊢
        rw [if_neg hm] at h ⊢
        exact rebuild_effective _ _ hp' h
      · rw [if_neg hc]
        refine ⟨hp', ?_⟩
        simp only [Bool.or_eq_true, not_or, Bool.not_eq_true] at hc
        obtain ⟨hc1, hc2⟩ := hc
        rw [fr _ (Ne.symm h1)] at hc2
        rcases he with he | he
        · rw [he] at hc2; cases hc2
        · apply effective_congr env be _ _ he
          intro k hk
          apply fr
          rintro rfl
          simp at hc1 hk
          simp [hc1] at hk
          exact h1 hk
  · rw [if_neg hs] at h
    exact absurd h hs

end Verif.SettingsLemmas
