import Verif.Lemmas.FindGroups

/-! # Merging the lines of a connection -/

namespace Verif.Find

open Spec.Find

/-- the event is no failure -/
def excused (env : FindEnv) (e : Ev) (h : List Ev) : Bool :=
  (e.flag "nofail" || e.flag "mlfgained") && !several (e :: h) && !(decide (status env h = .pending) && !e.flag "mlfgained")

theorem status_cons (env : FindEnv) (e : Ev) (h : List Ev) :
    status env (e :: h) = if excused env e h then .nofail else if ids env (val (e :: h)) = some none then .pending else .report := rfl

/-- the failure kept for a connection -/
structure Rep (env : FindEnv) (h : List Ev) (f : Fail) : Prop where
  about : About env h f
  pending : f.pending = decide (status env h = .pending)
  nofail : f.groups.truthy "nofail" = decide (status env h = .nofail)
  gained : f.groups.truthy "mlfgained" = true → status env h = .nofail
  noforget : ∀ e, h = [e] → e.flag "mlfforget" = false
  excusedLines : status env h = .nofail → f.lines = [] ∧ f.nofailLines = waiting env h
  pendingLines : status env h = .pending → f.lines = waiting env h
  otherLines : status env h ≠ .nofail → f.nofailLines = []

theorem Tried_iff {h : List Ev} (hf : ∀ e, h = [e] → e.flag "mlfforget" = false) (u : String) : Tried h u ↔ ∃ e ∈ h, e.user = some u := by
  constructor
  · rintro ⟨e, he, hu, _⟩; exact ⟨e, he, hu⟩
  · rintro ⟨e, he, hu⟩
    exact ⟨e, he, hu, fun c => by rw [hf e c.1] at c; exact absurd c.2 (by simp)⟩

theorem mem_updateUsers (l : List String) (o : Option String) (u : String) :
    u ∈ updateUsers l o ↔ u ∈ l ∨ o.filter (fun s => decide (s ≠ "")) = some u := by
  cases o with
  | none => simp [updateUsers]
  | some v =>
    simp only [updateUsers, Option.filter]
    by_cases e : v = ""
    · simp [e]
    · by_cases m : v ∈ l
      · simp only [ne_eq, e, not_false_eq_true, if_true, m, decide_true, Option.some.injEq]
        exact ⟨Or.inl, fun h => h.elim id (fun h => h ▸ m)⟩
      · simp [e, m, eq_comm]

theorem nodup_updateUsers {l : List String} (hl : l.Nodup) (o : Option String) : (updateUsers l o).Nodup := by
  cases o with
  | none => exact hl
  | some v =>
    simp only [updateUsers]
    split
    · split
      · exact hl
      · rename_i m
        rw [List.nodup_append]
        refine ⟨hl, by simp, ?_⟩
        intro a ha b hb
        rw [List.mem_singleton] at hb
        subst hb
        exact fun e => m (e ▸ ha)
    · exact hl

theorem one_lt_length_iff {l : List String} (hl : l.Nodup) : 1 < l.length ↔ ∃ a ∈ l, ∃ b ∈ l, a ≠ b := by
  match l, hl with
  | [], _ => simp
  | [a], _ => simp
  | a :: b :: r, hl =>
    refine ⟨fun _ => ⟨a, by simp, b, by simp, ?_⟩, fun _ => by simp⟩
    intro e
    subst e
    simp at hl

theorem several_iff (h : List Ev) : several h = true ↔ ∃ a, (∃ e ∈ h, e.user = some a) ∧ ∃ b, (∃ e ∈ h, e.user = some b) ∧ a ≠ b := by
  simp only [several, List.any_eq_true, Bool.and_eq_true, decide_eq_true_eq, Option.isSome_iff_exists]
  constructor
  · rintro ⟨e, he, e', he', ⟨⟨a, ha⟩, ⟨b, hb⟩⟩, hne⟩
    exact ⟨a, ⟨e, he, ha⟩, b, ⟨e', he', hb⟩, fun c => hne (by rw [ha, hb, c])⟩
  · rintro ⟨a, ⟨e, he, ha⟩, b, ⟨e', he', hb⟩, hne⟩
    exact ⟨e, he, e', he', ⟨⟨a, ha⟩, ⟨b, hb⟩⟩, fun c => hne (by rw [ha, hb] at c; exact Option.some.inj c)⟩

theorem several_users {h : List Ev} {l : List String} (hl : l.Nodup) (hm : ∀ u, u ∈ l ↔ ∃ e ∈ h, e.user = some u) :
    decide (1 < l.length) = several h := by
  rw [Bool.eq_iff_iff, decide_eq_true_eq, one_lt_length_iff hl, several_iff]
  constructor
  · rintro ⟨a, ha, b, hb, hne⟩
    exact ⟨a, (hm a).1 ha, b, (hm b).1 hb, hne⟩
  · rintro ⟨a, ha, b, hb, hne⟩
    exact ⟨a, (hm a).2 ha, b, (hm b).2 hb, hne⟩

theorem several_single (e : Ev) : several [e] = false := by
  rw [← Bool.not_eq_true, several_iff]
  rintro ⟨a, ⟨x, hx, ha⟩, b, ⟨y, hy, hb⟩, hne⟩
  rw [List.mem_singleton] at hx hy
  subst hx; subst hy
  rw [ha] at hb
  exact hne (Option.some.inj hb)

/-- the groups of the new failure as merged -/
def prep (g : Groups) : Groups :=
  Dict.erase (if g.truthy "mlfgained" && !g.truthy "nofail" then g.insert "nofail" (g.val "mlfgained") else g) "mlfforget"

theorem prep_val (g : Groups) (k : String) (hk : k ∉ flags) : (prep g).val k = g.val k := by
  simp only [flags, List.mem_cons, List.not_mem_nil, or_false, not_or] at hk
  simp only [prep, Groups.val_erase, if_neg hk.2.2]
  split
  · rw [Groups.val_insert, if_neg hk.1]
  · rfl

theorem prep_nofail (g : Groups) : (prep g).truthy "nofail" = (g.truthy "nofail" || g.truthy "mlfgained") := by
  rw [Groups.truthy_eq]
  simp only [prep, Groups.val_erase]
  rw [if_neg (by decide)]
  cases h1 : g.truthy "mlfgained" <;> cases h2 : g.truthy "nofail" <;> rw [Groups.truthy_eq] at h1 h2 <;> simp [Groups.val_insert] <;> simp_all

theorem prep_gained (g : Groups) : (prep g).truthy "mlfgained" = g.truthy "mlfgained" := by
  rw [Groups.truthy_eq, Groups.truthy_eq]
  simp only [prep, Groups.val_erase]
  rw [if_neg (by decide)]
  split
  · rw [Groups.val_insert, if_neg (by decide)]
  · rfl

theorem nofail_eq (g : Groups) (b : Bool) (hb : b = g.truthy "mlfgained") :
    (b || Groups.truthy (if b && !g.truthy "nofail" then g.insert "nofail" (g.val "mlfgained") else g) "nofail") = (g.truthy "nofail" || g.truthy "mlfgained") := by
  subst hb
  cases h1 : g.truthy "mlfgained" <;> cases h2 : g.truthy "nofail" <;> simp [h2]

theorem forget_eq (g : Groups) (b : Bool) :
    Groups.truthy (if b then g.insert "nofail" (g.val "mlfgained") else g) "mlfforget" = g.truthy "mlfforget" := by
  cases b
  · rfl
  · rw [if_pos rfl, Groups.truthy_eq, Groups.truthy_eq, Groups.val_insert, if_neg (by decide)]

/-- the failure before the flags are checked -/
def mid (k : Fail) (g : Groups) : Fail :=
  let pending := !g.truthy "mlfgained" && k.pending
  { groups := Groups.updateSome (Dict.erase (Dict.erase k.groups "nofail") "mlfgained") (prep g)
    users := updateUsers k.users (g.val "user")
    lines := if !(k.groups.truthy "nofail" || k.groups.truthy "mlfgained") && !pending then [] else k.lines
    nofailLines := k.nofailLines
    pending
    ip := k.ip }

theorem merge_some (k : Fail) (g : Groups) (lines : List TLine) :
    mergeFailure (some k) g lines
      = (mergeEnd (mid k g) (updateUsers k.users (g.val "user")) (g.truthy "nofail" || g.truthy "mlfgained") (g.truthy "mlfforget") lines,
          !g.truthy "mlfforget") := by
  unfold mergeFailure
  simp only [nofail_eq g _ rfl, forget_eq]
  have hu : Groups.val (Dict.erase (if g.truthy "mlfgained" && !g.truthy "nofail" then g.insert "nofail" (g.val "mlfgained") else g) "mlfforget") "user"
      = g.val "user" := prep_val g "user" (by decide)
  rw [hu]
  unfold mid prep
  congr 2
  cases g.truthy "mlfgained" <;> cases k.pending <;> cases (k.groups.truthy "nofail" || k.groups.truthy "mlfgained") <;> simp

theorem merge_none (g : Groups) (lines : List TLine) :
    mergeFailure none g lines
      = (mergeEnd { groups := prep g, users := if g.truthy "mlfforget" then [] else updateUsers [] (g.val "user") }
          (if g.truthy "mlfforget" then [] else updateUsers [] (g.val "user")) (g.truthy "nofail" || g.truthy "mlfgained") (g.truthy "mlfforget") lines,
          !g.truthy "mlfforget") := by
  unfold mergeFailure
  simp only [nofail_eq g _ rfl, forget_eq]
  have hu : Groups.val (Dict.erase (if g.truthy "mlfgained" && !g.truthy "nofail" then g.insert "nofail" (g.val "mlfgained") else g) "mlfforget") "user"
      = g.val "user" := prep_val g "user" (by decide)
  rw [hu]
  unfold prep
  cases g.truthy "mlfforget" <;> simp

/-- the result of a merge -/
structure Merged (env : FindEnv) (e : Ev) (h : List Ev) (f : Fail) : Prop where
  vals : ∀ k, k ∉ flags → f.groups.val k = val (e :: h) k
  users : ∀ u, u ∈ f.users ↔ Tried (e :: h) u
  once : f.users.Nodup
  host : f.ip = lastHost env h
  pending : f.pending = false
  nofail : f.groups.truthy "nofail" = excused env e h
  gained : f.groups.truthy "mlfgained" = true → excused env e h = true
  yes : excused env e h = true → e.flag "mlfforget" = false → f.lines = [] ∧ f.nofailLines = waiting env (e :: h)
  no : excused env e h = false → f.lines = waiting env (e :: h) ∧ f.nofailLines = []

theorem val_cons (e : Ev) (h : List Ev) (k : String) : val (e :: h) k = (e.vals k).or (val h k) := by
  simp only [val, List.findSome?]
  cases e.vals k <;> rfl

theorem flag_eq (i : Nat) (g : Groups) (lines : List TLine) (k : String) : Ev.flag ⟨i, g.val, lines⟩ k = g.truthy k := by
  rw [Groups.truthy_eq]; rfl

theorem user_eq (i : Nat) (g : Groups) (lines : List TLine) : Ev.user ⟨i, g.val, lines⟩ = (g.val "user").filter (fun s => decide (s ≠ "")) := rfl

theorem merged_none (env : FindEnv) (i : Nat) (g : Groups) (lines : List TLine) : Merged env ⟨i, g.val, lines⟩ [] (mergeFailure none g lines).1 := by
  rw [merge_none]
  have hx : excused env ⟨i, g.val, lines⟩ [] = (g.truthy "nofail" || g.truthy "mlfgained") := by
    simp [excused, several_single, status, flag_eq]
  have hu : ∀ u, u ∈ (if g.truthy "mlfforget" then [] else updateUsers [] (g.val "user")) ↔ Tried [⟨i, g.val, lines⟩] u := by
    intro u
    cases hf : g.truthy "mlfforget"
    · rw [Tried_iff (fun e he => by cases he; rw [flag_eq, hf])]
      simp [mem_updateUsers, user_eq]
    · simp [Tried, flag_eq, hf]
  have ho : (if g.truthy "mlfforget" then [] else updateUsers [] (g.val "user")).Nodup := by
    split
    · simp
    · exact nodup_updateUsers (by simp) _
  have hl : ¬ 1 < (if g.truthy "mlfforget" then [] else updateUsers [] (g.val "user")).length := by
    rw [one_lt_length_iff ho]
    rintro ⟨a, ha, b, hb, hne⟩
    rw [hu] at ha hb
    obtain ⟨x, hx, ha, _⟩ := ha
    obtain ⟨y, hy, hb, _⟩ := hb
    rw [List.mem_singleton] at hx hy
    subst hx; subst hy
    rw [ha] at hb
    exact hne (Option.some.inj hb)
  have hw : waiting env [⟨i, g.val, lines⟩] = lines := by simp [waiting, status]
  generalize (if g.truthy "mlfforget" then [] else updateUsers [] (g.val "user")) = U at hu ho hl
  simp only [mergeEnd, Bool.false_or, decide_eq_false hl, Bool.false_eq_true, if_false, Bool.not_false, Bool.and_true]
  have hv : ∀ k, k ∉ flags → (prep g).val k = val [⟨i, g.val, lines⟩] k := by
    intro k hk
    rw [prep_val g k hk, val_cons]
    simp [val]
  have hg : (prep g).truthy "mlfgained" = true → excused env ⟨i, g.val, lines⟩ [] = true := by
    intro h
    rw [prep_gained] at h
    rw [hx, h, Bool.or_true]
  have hn : (prep g).truthy "nofail" = excused env ⟨i, g.val, lines⟩ [] := by rw [hx, prep_nofail]
  cases hnf : (g.truthy "nofail" || g.truthy "mlfgained")
  · rw [hnf] at hx
    exact ⟨hv, hu, ho, rfl, rfl, hn, hg, fun h => by (rw [hx] at h; cases h), fun _ => ⟨by simp [hw], rfl⟩⟩
  · rw [hnf] at hx
    cases hf : g.truthy "mlfforget"
    · exact ⟨hv, hu, ho, rfl, rfl, hn, hg, fun _ _ => ⟨rfl, by simp [hw]⟩, fun h => by (rw [hx] at h; cases h)⟩
    · exact ⟨hv, hu, ho, rfl, rfl, hn, hg, fun _ h => by (rw [flag_eq, hf] at h; cases h), fun h => by (rw [hx] at h; cases h)⟩

theorem merged_some (env : FindEnv) (i : Nat) (g : Groups) (lines : List TLine) {h : List Ev} (h0 : h ≠ []) {k : Fail} (r : Rep env h k) :
    Merged env ⟨i, g.val, lines⟩ h (mergeFailure (some k) g lines).1 := by
  rw [merge_some]
  have hu : ∀ u, u ∈ updateUsers k.users (g.val "user") ↔ ∃ e ∈ (⟨i, g.val, lines⟩ :: h : List Ev), e.user = some u := by
    intro u
    rw [mem_updateUsers, r.about.users, Tried_iff r.noforget]
    simp [user_eq, or_comm]
  have ho : (updateUsers k.users (g.val "user")).Nodup := nodup_updateUsers r.about.once _
  have hs := several_users ho hu
  have ht : ∀ u, u ∈ updateUsers k.users (g.val "user") ↔ Tried (⟨i, g.val, lines⟩ :: h) u := by
    intro u
    rw [hu, Tried_iff]
    intro e he
    exact absurd (List.cons.inj he).2 h0
  have hx : excused env ⟨i, g.val, lines⟩ h
      = ((g.truthy "nofail" || g.truthy "mlfgained") && !((!g.truthy "mlfgained" && k.pending) || decide (1 < (updateUsers k.users (g.val "user")).length))) := by
    simp only [excused, flag_eq, r.pending, hs]
    cases g.truthy "nofail" <;> cases g.truthy "mlfgained" <;> cases decide (status env h = .pending) <;> cases several (⟨i, g.val, lines⟩ :: h) <;> rfl
  have hm1 : ∀ j, j ∉ flags → (mid k g).groups.val j = val (⟨i, g.val, lines⟩ :: h) j := by
    intro j hj
    have hj' := hj
    simp only [flags, List.mem_cons, List.not_mem_nil, or_false, not_or] at hj'
    rw [val_cons, ← r.about.vals j hj]
    simp only [mid, Groups.val_updateSome, prep_val g j hj, Groups.val_erase, if_neg hj'.1, if_neg hj'.2.1]
  have hm2 : (mid k g).groups.truthy "nofail" = (g.truthy "nofail" || g.truthy "mlfgained") := by
    rw [← prep_nofail g, Groups.truthy_eq, Groups.truthy_eq]
    simp only [mid, Groups.val_updateSome, Groups.val_erase]
    simp
  have hm3 : (mid k g).groups.truthy "mlfgained" = g.truthy "mlfgained" := by
    rw [← prep_gained g, Groups.truthy_eq, Groups.truthy_eq]
    simp only [mid, Groups.val_updateSome, Groups.val_erase]
    simp
  -- lines kept
  have hlines : (mid k g).nofailLines ++ (mid k g).lines ++ lines = waiting env (⟨i, g.val, lines⟩ :: h) := by
    simp only [waiting, flag_eq]
    cases hst : status env h with
    | nofail =>
      have hn := r.nofail
      rw [hst] at hn
      obtain ⟨l1, l2⟩ := r.excusedLines hst
      simp only [mid, hn, l1, l2, ite_self]
      simp
    | pending =>
      have hn := r.nofail
      have hp := r.pending
      have l1 := r.pendingLines hst
      have l2 := r.otherLines (by rw [hst]; decide)
      have hg : k.groups.truthy "mlfgained" = false := by
        rw [← Bool.not_eq_true]; intro c; have := r.gained c; rw [hst] at this; cases this
      rw [hst] at hn hp
      simp only [mid, hn, hp, hg, l1, l2]
      cases g.truthy "mlfgained" <;> simp
    | report =>
      have hn := r.nofail
      have hp := r.pending
      have l2 := r.otherLines (by rw [hst]; decide)
      have hg : k.groups.truthy "mlfgained" = false := by
        rw [← Bool.not_eq_true]; intro c; have := r.gained c; rw [hst] at this; cases this
      rw [hst] at hn hp
      simp [mid, hn, hp, hg, l2]
  -- excused: there was no failure waiting
  have hyes : excused env ⟨i, g.val, lines⟩ h = true → (mid k g).lines = [] := by
    intro hex
    cases hst : status env h with
    | nofail =>
      simp only [mid, (r.excusedLines hst).1, ite_self]
    | pending =>
      have hn := r.nofail
      have hp := r.pending
      have hg : k.groups.truthy "mlfgained" = false := by
        rw [← Bool.not_eq_true]; intro c; have := r.gained c; rw [hst] at this; cases this
      rw [hst] at hn hp
      rw [hx, hp] at hex
      simp only [mid, hn, hp, hg]
      cases hgg : g.truthy "mlfgained"
      · rw [hgg] at hex; simp at hex
      · simp
    | report =>
      have hn := r.nofail
      have hp := r.pending
      have hg : k.groups.truthy "mlfgained" = false := by
        rw [← Bool.not_eq_true]; intro c; have := r.gained c; rw [hst] at this; cases this
      rw [hst] at hn hp
      simp [mid, hn, hp, hg]
  have hmp : (mid k g).pending = (!g.truthy "mlfgained" && k.pending) := rfl
  have hmu : (mid k g).users = updateUsers k.users (g.val "user") := rfl
  have hmi : (mid k g).ip = lastHost env h := r.about.host
  rw [← hmp] at hx
  unfold mergeEnd
  rw [← hmu] at ho ht hx ⊢
  generalize mid k g = M at *
  rcases hr : (M.pending || decide (1 < M.users.length)) with _ | _
  · -- not reset
    rw [hr, Bool.not_false, Bool.and_true] at hx
    simp only [Bool.false_eq_true, if_false, Bool.not_false, Bool.and_true]
    have hg' : M.groups.truthy "mlfgained" = true → excused env ⟨i, g.val, lines⟩ h = true := by
      intro c; rw [hm3] at c; rw [hx, c, Bool.or_true]
    have hn' : M.groups.truthy "nofail" = excused env ⟨i, g.val, lines⟩ h := by rw [hm2, hx]
    cases hnf : (g.truthy "nofail" || g.truthy "mlfgained")
    · rw [hnf] at hx
      exact ⟨hm1, ht, ho, hmi, rfl, hn', hg', fun c => by (rw [hx] at c; cases c), fun _ => ⟨hlines, rfl⟩⟩
    · rw [hnf] at hx
      have hl0 := hyes hx
      cases hf : g.truthy "mlfforget"
      · refine ⟨hm1, ht, ho, hmi, rfl, hn', hg', fun _ _ => ⟨hl0, ?_⟩, fun c => by (rw [hx] at c; cases c)⟩
        rw [← hlines, hl0]; simp
      · exact ⟨hm1, ht, ho, hmi, rfl, hn', hg', fun _ c => by (rw [flag_eq, hf] at c; cases c), fun c => by (rw [hx] at c; cases c)⟩
  · -- reset
    rw [hr, Bool.not_true, Bool.and_false] at hx
    simp only [if_true, Bool.not_true, Bool.and_false, Bool.not_false]
    refine ⟨?_, ht, ho, hmi, rfl, ?_, ?_, fun c => by (rw [hx] at c; cases c), fun _ => ⟨hlines, rfl⟩⟩
    · intro j hj
      have hj' := hj
      simp only [flags, List.mem_cons, List.not_mem_nil, or_false, not_or] at hj'
      rw [← hm1 j hj]
      simp only [Groups.val_erase, if_neg hj'.1, if_neg hj'.2.1]
    · rw [hx, Groups.truthy_eq]
      simp [Groups.val_erase]
    · rw [Groups.truthy_eq]
      simp [Groups.val_erase]

end Verif.Find
