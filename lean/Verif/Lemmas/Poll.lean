import Verif.Spec.Poll

/-! # Polling -/

namespace Verif.Poll

open PollSpec

theorem commonError_same (s : Poll) : s.commonError.logs = s.logs ∧ s.commonError.prev = s.prev ∧ s.commonError.cnt = s.cnt := by
  unfold Poll.commonError
  split <;> exact ⟨rfl, rfl, rfl⟩

theorem mem_delLog (s : Poll) (p q : String) : q ∈ (s.delLog p).logs ↔ q ∈ s.logs ∧ q ≠ p := by
  unfold Poll.delLog
  split
  · simp
  · rename_i h
    constructor
    · intro hq; exact ⟨hq, by rintro rfl; exact h hq⟩
    · exact fun h => h.1

theorem delLog_ne (s : Poll) {p q : String} (h : q ≠ p) : (s.delLog p).prev.get? q = s.prev.get? q ∧ (s.delLog p).cnt.get? q = s.cnt.get? q := by
  unfold Poll.delLog
  split
  · exact ⟨Dict.get?_erase_ne _ h, Dict.get?_erase_ne _ h⟩
  · exact ⟨rfl, rfl⟩

/-- A file that is there. -/
theorem isModified_some (s : Poll) (p : String) (st : Stat) :
    (s.isModified p (some st)).2.logs = s.logs ∧ (∀ q, q ≠ p → (s.isModified p (some st)).2.prev.get? q = s.prev.get? q ∧ (s.isModified p (some st)).2.cnt.get? q = s.cnt.get? q) ∧
    (s.isModified p (some st)).2.prev.get? p = some (some st) ∧ (s.isModified p (some st)).2.cnt.get? p = some 0 ∧
    ((s.isModified p (some st)).1 = true ↔ s.prev.get? p ≠ some (some st)) ∧ (s.isModified p (some st)).2.errors = s.errors ∧ (s.isModified p (some st)).2.idle = s.idle := by
  unfold Poll.isModified
  dsimp only
  split
  · rename_i h
    refine ⟨rfl, fun q hq => ⟨rfl, Dict.get?_insert_ne _ hq _⟩, h, by simp, by simp [h], rfl, rfl⟩
  · rename_i h
    exact ⟨rfl, fun q hq => ⟨Dict.get?_insert_ne _ hq _, Dict.get?_insert_ne _ hq _⟩, by simp, by simp, by simp [h], rfl, rfl⟩

/-- A file that is not there. -/
theorem isModified_none (s : Poll) (p : String) :
    (s.isModified p none).1 = false ∧ (∀ q, q ≠ p → (s.isModified p none).2.prev.get? q = s.prev.get? q ∧ (s.isModified p none).2.cnt.get? q = s.cnt.get? q ∧
      (q ∈ (s.isModified p none).2.logs ↔ q ∈ s.logs)) ∧ (p ∈ (s.isModified p none).2.logs → p ∈ s.logs ∧ (s.isModified p none).2.prev.get? p = s.prev.get? p) := by
  unfold Poll.isModified
  dsimp only
  split
  · exact ⟨rfl, fun q _ => ⟨rfl, rfl, Iff.rfl⟩, fun h => ⟨h, rfl⟩⟩
  · obtain ⟨c1, c2, c3⟩ := commonError_same { s with cnt := s.cnt.insert p ((s.cnt.get? p).getD 0 + 1) }
    dsimp only at c1 c2 c3
    split
    · refine ⟨rfl, fun q hq => ?_, fun h => ?_⟩
      · rw [mem_delLog, (delLog_ne _ hq).1, (delLog_ne _ hq).2, c1, c2, c3]
        exact ⟨rfl, Dict.get?_insert_ne _ hq _, by simp [hq]⟩
      · rw [mem_delLog] at h
        exact absurd rfl h.2
    · refine ⟨rfl, fun q hq => ?_, fun h => ?_⟩
      · rw [c1, c2, c3]
        exact ⟨rfl, Dict.get?_insert_ne _ hq _, Iff.rfl⟩
      · rw [c1] at h
        rw [c2]
        exact ⟨h, rfl⟩

theorem isModified_ne (s : Poll) (st : Option Stat) {p q : String} (hq : q ≠ p) :
    (s.isModified p st).2.prev.get? q = s.prev.get? q ∧ (s.isModified p st).2.cnt.get? q = s.cnt.get? q ∧ (q ∈ (s.isModified p st).2.logs ↔ q ∈ s.logs) := by
  cases st with
  | none => exact (isModified_none s p).2.1 q hq
  | some st =>
    have h := isModified_some s p st
    exact ⟨(h.2.1 q hq).1, (h.2.1 q hq).2, by rw [h.1]⟩

/-! ## The invariant -/

/-- What is known of a file; `h` are the modifications and what `stat` they have. -/
structure Inv (p : String) (w : World) (h : List (Stat × Nat)) : Prop where
  cur : ∀ st, w.stat p = some st → (st, w.version p) ∈ h
  nd : (h.map Prod.fst).Nodup
  le : ∀ x ∈ h, x.2 ≤ w.version p
  rd : w.read p ≤ w.version p
  seen : p ∈ w.filter.logs → ∀ st, w.filter.prev.get? p = some (some st) → ∃ v, (st, v) ∈ h ∧ (p ∈ w.mods ∨ v ≤ w.read p)

/-- `stat` values of a file after a step. -/
def after (p : String) (seen : List Stat) : Step → List Stat
  | .write q st => if q = p then st :: seen else seen
  | _ => seen

theorem distinct_cons {p : String} {seen : List Stat} {s : Step} {l : List Step} (h : Distinct p seen (s :: l)) :
    Distinct p (after p seen s) l ∧ ∀ st, s = .write p st → st ∉ seen := by
  cases s with
  | write q st =>
    unfold Distinct at h
    by_cases e : q = p
    · subst e
      rw [if_pos rfl] at h
      refine ⟨by rw [after, if_pos rfl]; exact h.2, ?_⟩
      rintro st' e
      cases e
      exact h.1
    · rw [if_neg e] at h
      refine ⟨by rw [after, if_neg e]; exact h, ?_⟩
      rintro st' e'
      cases e'
      exact absurd rfl e
  | _ => exact ⟨h, fun _ e => by cases e⟩

theorem step_inv {p : String} {w : World} {h : List (Stat × Nat)} {s : Step} (inv : Inv p w h) (hw : ∀ st, s = .write p st → st ∉ h.map Prod.fst) (hm : ¬Missed p w s) :
    ∃ h', Inv p (step w s) h' ∧ h'.map Prod.fst = after p (h.map Prod.fst) s := by
  cases s with
  | write q st =>
    unfold step after
    dsimp only
    by_cases e : q = p
    · subst e
      refine ⟨(st, w.version q + 1) :: h, ⟨?_, ?_, ?_, ?_, ?_⟩, by simp⟩
      · intro st' hs
        simp only [update, if_true, Option.some.injEq] at hs ⊢
        subst hs
        simp
      · rw [List.map_cons, List.nodup_cons]
        exact ⟨hw st rfl, inv.nd⟩
      · intro x hx
        simp only [update, if_true]
        rcases List.mem_cons.mp hx with rfl | hx
        · exact Nat.le_refl _
        · exact Nat.le_succ_of_le (inv.le x hx)
      · simp only [update, if_true]
        exact Nat.le_succ_of_le inv.rd
      · intro hl st' hs
        obtain ⟨v, h1, h2⟩ := inv.seen hl st' hs
        exact ⟨v, List.mem_cons_of_mem _ h1, h2⟩
    · have e' : p ≠ q := fun x => e x.symm
      rw [if_neg e]
      refine ⟨h, ⟨?_, inv.nd, ?_, ?_, inv.seen⟩, rfl⟩
      · intro st' hs
        simp only [update, if_neg e'] at hs ⊢
        exact inv.cur st' hs
      · simp only [update, if_neg e']
        exact inv.le
      · simp only [update, if_neg e']
        exact inv.rd
  | vanish q =>
    refine ⟨h, ⟨?_, inv.nd, inv.le, inv.rd, inv.seen⟩, rfl⟩
    intro st hs
    simp only [step, update] at hs
    split at hs
    · cases hs
    · exact inv.cur st hs
  | add q =>
    refine ⟨h, ⟨inv.cur, inv.nd, inv.le, inv.rd, ?_⟩, rfl⟩
    show p ∈ (w.filter.addLog q).logs → ∀ st, (w.filter.addLog q).prev.get? p = some (some st) → _
    unfold Poll.addLog
    split
    · exact inv.seen
    · rename_i hq
      intro hl st hs
      dsimp only at hl hs
      by_cases e : p = q
      · subst e; simp at hs
      · rw [Dict.get?_insert_ne _ e] at hs
        rcases List.mem_append.mp hl with hl | hl
        · exact inv.seen hl st hs
        · exact absurd (List.mem_singleton.mp hl) e
  | del q =>
    refine ⟨h, ⟨inv.cur, inv.nd, inv.le, inv.rd, ?_⟩, rfl⟩
    show p ∈ (w.filter.delLog q).logs → ∀ st, (w.filter.delLog q).prev.get? p = some (some st) → _
    intro hl st hs
    rw [mem_delLog] at hl
    rw [(delLog_ne _ hl.2).1] at hs
    exact inv.seen hl.1 st hs
  | begin =>
    refine ⟨h, ?_, rfl⟩
    unfold step
    dsimp only
    split
    · exact ⟨inv.cur, inv.nd, inv.le, inv.rd, inv.seen⟩
    · exact inv
  | check =>
    refine ⟨h, ?_, rfl⟩
    unfold step
    dsimp only
    split
    · exact inv
    · rename_i q qs _
      refine ⟨inv.cur, inv.nd, inv.le, inv.rd, ?_⟩
      dsimp only
      intro hl st hs
      have keep : (p ∈ w.mods → p ∈ (if (w.filter.isModified q (w.stat q)).1 = true then w.mods ++ [q] else w.mods)) := by
        intro hp; split
        · exact List.mem_append_left _ hp
        · exact hp
      by_cases e : p = q
      · subst e
        cases hst : w.stat p with
        | none =>
          rw [hst] at hl hs keep
          obtain ⟨h1, _, h2⟩ := isModified_none w.filter p
          obtain ⟨h3, h4⟩ := h2 hl
          rw [h4] at hs
          obtain ⟨v, hv, h5⟩ := inv.seen h3 st hs
          exact ⟨v, hv, h5.imp keep id⟩
        | some st' =>
          rw [hst] at hl hs keep
          obtain ⟨h1, _, h2, _, h3, _⟩ := isModified_some w.filter p st'
          rw [h2] at hs
          cases hs
          by_cases hb : (w.filter.isModified p (some st)).1 = true
          · refine ⟨_, inv.cur st hst, .inl ?_⟩
            rw [if_pos hb]
            simp
          · have : w.filter.prev.get? p = some (some st) := Classical.byContradiction (fun hc => hb (h3.mpr hc))
            rw [h1] at hl
            obtain ⟨v, hv, h5⟩ := inv.seen hl st this
            exact ⟨v, hv, h5.imp keep id⟩
      · obtain ⟨h1, _, h3⟩ := isModified_ne w.filter (w.stat q) e
        rw [h1] at hs
        rw [h3] at hl
        obtain ⟨v, hv, h5⟩ := inv.seen hl st hs
        exact ⟨v, hv, h5.imp keep id⟩
  | read =>
    refine ⟨h, ?_, rfl⟩
    unfold step
    dsimp only
    split
    · rename_i q qs ht hq
      have hne : w.filter.idle = true → q ≠ p := by
        rintro hi rfl
        exact hm ⟨ht, by rw [hq]; rfl, hi⟩
      refine ⟨inv.cur, inv.nd, inv.le, ?_, ?_⟩
      · dsimp only
        split
        · unfold update
          split
          · rename_i e; subst e; exact Nat.le_refl _
          · exact inv.rd
        · exact inv.rd
      · dsimp only
        intro hl st hs
        obtain ⟨v, hv, h5⟩ := inv.seen hl st hs
        refine ⟨v, hv, ?_⟩
        by_cases e : p = q
        · subst e
          right
          rw [if_pos]
          · unfold update; rw [if_pos rfl]; exact inv.le _ hv
          · refine ⟨?_, hl⟩
            cases hi : w.filter.idle with
            | false => rfl
            | true => exact absurd rfl (hne hi)
        · rcases h5 with h5 | h5
          · left
            rw [hq] at h5
            rcases List.mem_cons.mp h5 with h5 | h5
            · exact absurd h5 e
            · exact h5
          · right
            split
            · unfold update; rw [if_neg e]; exact h5
            · exact h5
    · exact inv
  | fail =>
    refine ⟨h, ?_, rfl⟩
    unfold step
    dsimp only
    split
    · rename_i q qs ht hq
      refine ⟨inv.cur, inv.nd, inv.le, inv.rd, ?_⟩
      intro hl st hs
      obtain ⟨v, hv, h5⟩ := inv.seen hl st hs
      refine ⟨v, hv, h5.imp (fun h5 => ?_) id⟩
      rw [hq] at h5
      rcases List.mem_cons.mp h5 with rfl | h5
      · exact absurd ⟨ht, by rw [hq]; rfl⟩ hm
      · exact h5
    · exact inv
  | raise =>
    refine ⟨h, ?_, rfl⟩
    unfold step
    dsimp only
    split
    · rename_i q qs ht hq
      refine ⟨inv.cur, inv.nd, inv.le, inv.rd, ?_⟩
      dsimp only
      obtain ⟨c1, c2, _⟩ := commonError_same w.filter
      rw [c1, c2]
      intro hl st hs
      obtain ⟨v, hv, h5⟩ := inv.seen hl st hs
      refine ⟨v, hv, .inr ?_⟩
      rcases h5 with h5 | h5
      · exact absurd ⟨ht, h5⟩ hm
      · exact h5
    · exact inv

theorem run_inv {p : String} : ∀ {l : List Step} {w : World} {h : List (Stat × Nat)}, Inv p w h → Distinct p (h.map Prod.fst) l → Reads p w l → ∃ h', Inv p (run w l) h' := by
  intro l
  induction l with
  | nil => intro w h inv _ _; exact ⟨h, inv⟩
  | cons s l ih =>
    intro w h inv hd hr
    obtain ⟨hd, hw⟩ := distinct_cons hd
    obtain ⟨h', inv', e⟩ := step_inv inv hw hr.1
    rw [← e] at hd
    exact ih inv' hd hr.2

theorem addLogs_prev : ∀ (logs : List String) (s : Poll), (∀ q st, s.prev.get? q = some st → st = none) → (∀ q ∈ s.logs, s.prev.get? q = some none ∧ s.cnt.get? q = some 0) →
    (∀ q st, (logs.foldl Poll.addLog s).prev.get? q = some st → st = none) ∧ (∀ q ∈ (logs.foldl Poll.addLog s).logs, (logs.foldl Poll.addLog s).prev.get? q = some none ∧
      (logs.foldl Poll.addLog s).cnt.get? q = some 0) ∧ (∀ q, q ∈ (logs.foldl Poll.addLog s).logs ↔ q ∈ s.logs ∨ q ∈ logs) ∧
      (logs.foldl Poll.addLog s).idle = s.idle ∧ (logs.foldl Poll.addLog s).errors = s.errors := by
  intro logs
  induction logs with
  | nil => intro s h1 h2; exact ⟨h1, h2, by simp, rfl, rfl⟩
  | cons p logs ih =>
    intro s h1 h2
    rw [List.foldl_cons]
    have a1 : ∀ q st, (s.addLog p).prev.get? q = some st → st = none := by
      intro q st hq
      unfold Poll.addLog at hq
      split at hq
      · exact h1 q st hq
      · by_cases e : q = p
        · subst e; simp at hq; exact hq.symm
        · rw [Dict.get?_insert_ne _ e] at hq; exact h1 q st hq
    have a2 : ∀ q ∈ (s.addLog p).logs, (s.addLog p).prev.get? q = some none ∧ (s.addLog p).cnt.get? q = some 0 := by
      unfold Poll.addLog
      split
      · exact h2
      · intro q hq
        dsimp only at hq ⊢
        by_cases e : q = p
        · subst e; simp
        · rw [Dict.get?_insert_ne _ e, Dict.get?_insert_ne _ e]
          rcases List.mem_append.mp hq with hq | hq
          · exact h2 q hq
          · exact absurd (List.mem_singleton.mp hq) e
    have a3 : ∀ q, q ∈ (s.addLog p).logs ↔ q ∈ s.logs ∨ q = p := by
      intro q
      unfold Poll.addLog
      split
      · rename_i hp
        constructor
        · exact .inl
        · rintro (h | rfl)
          · exact h
          · exact hp
      · simp
    have a4 : (s.addLog p).idle = s.idle ∧ (s.addLog p).errors = s.errors := by
      unfold Poll.addLog; split <;> exact ⟨rfl, rfl⟩
    obtain ⟨b1, b2, b3, b4, b5⟩ := ih _ a1 a2
    refine ⟨b1, b2, fun q => ?_, by rw [b4, a4.1], by rw [b5, a4.2]⟩
    rw [b3, a3, List.mem_cons]
    constructor
    · rintro ((h | h) | h) <;> simp [h]
    · rintro (h | h | h) <;> simp [h]

theorem start_inv (logs : List String) (stat : String → Option Stat) (p : String) : Inv p (start logs stat) ((stat p).toList.map (fun st => (st, 1))) := by
  have h := (addLogs_prev logs ⟨[], Dict.empty, Dict.empty, 0, false⟩ (by simp) (by simp)).1
  refine ⟨?_, ?_, ?_, Nat.zero_le _, ?_⟩
  · intro st hs
    have hs : stat p = some st := hs
    rw [hs]
    simp [start]
  · cases stat p <;> simp
  · intro x hx
    cases hs : stat p with
    | none => rw [hs] at hx; simp at hx
    | some st => rw [hs] at hx; simp at hx; rw [hx]; exact Nat.le_refl _
  · intro _ st hs
    have := h p _ hs
    cases this

/-- The content of a file whose `stat` is the one remembered is read, unless it is still to be read. -/
theorem inv_seen {p : String} {w : World} {h : List (Stat × Nat)} (inv : Inv p w h) (hl : p ∈ w.filter.logs) {st : Stat} (hs : w.stat p = some st)
    (hp : w.filter.prev.get? p = some (some st)) (hm : p ∉ w.mods) : w.read p = w.version p := by
  obtain ⟨v, hv, h1⟩ := inv.seen hl st hp
  rcases h1 with h1 | h1
  · exact absurd h1 hm
  · have h2 := inv.cur st hs
    have : v = w.version p := by
      have e1 := (Dict.lookup_eq_some_iff inv.nd st v).mpr hv
      have e2 := (Dict.lookup_eq_some_iff inv.nd st _).mpr h2
      rw [e1] at e2
      exact Option.some.inj e2
    rw [this] at h1
    exact Nat.le_antisymm inv.rd h1

end Verif.Poll
