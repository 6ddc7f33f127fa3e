import Verif.Model.FailManager
import Verif.Py.List

/-! Auxiliary lemmas about the model of the failure manager. -/

namespace Verif.FailManager

open Verif

/-- entry stored for a new address -/
def newEntry (t : Ticket) (c : Nat) : Ticket := if t.failures < c then t.setRetry c else t

theorem setRetry_id (t : Ticket) (c : Nat) : (t.setRetry c).id = t.id := by
  unfold Ticket.setRetry; simp only; split <;> split <;> rfl

theorem setRetry_retry (t : Ticket) (c : Nat) : (t.setRetry c).retry = c := by
  unfold Ticket.setRetry; simp only; split <;> split <;> rfl

theorem setRetry_time (t : Ticket) (c : Nat) : (t.setRetry c).time = t.time := by
  unfold Ticket.setRetry; simp only; split <;> split <;> rfl

theorem setRetry_firstTime (t : Ticket) (c : Nat) : (t.setRetry c).firstTime = t.firstTime := by
  unfold Ticket.setRetry; simp only; split <;> split <;> rfl

theorem setRetry_matches (t : Ticket) (c : Nat) (hc : c ≠ 0) : (t.setRetry c).matches' = t.matches' := by
  unfold Ticket.setRetry; simp only [hc, if_false]; split <;> rfl

theorem newEntry_id (t : Ticket) (c : Nat) : (newEntry t c).id = t.id := by
  unfold newEntry; split <;> simp [setRetry_id]

theorem newEntry_time (t : Ticket) (c : Nat) : (newEntry t c).time = t.time := by
  unfold newEntry; split <;> simp [setRetry_time]

theorem newEntry_firstTime (t : Ticket) (c : Nat) : (newEntry t c).firstTime = t.firstTime := by
  unfold newEntry; split <;> simp [setRetry_firstTime]

theorem newEntry_matches (t : Ticket) (c : Nat) : (newEntry t c).matches' = t.matches' := by
  unfold newEntry; split
  · rename_i h; exact setRetry_matches t c (by omega)
  · rfl

theorem newEntry_retry (t : Ticket) (c : Nat) :
    (newEntry t c).retry = if t.failures < c then c else t.retry := by
  unfold newEntry; split <;> simp [setRetry_retry]

theorem newEntry_retry_le (t : Ticket) (c : Nat) : (newEntry t c).retry ≤ max c t.retry := by
  rw [newEntry_retry]; split <;> omega

/-! ### `adjustTime`, `inc`, `setMatches` -/

theorem adjustTime_id (t : Ticket) (u : Int) (m : Nat) : (t.adjustTime u m).id = t.id := by
  unfold Ticket.adjustTime; split
  · simp only; split <;> rfl
  · rfl

theorem adjustTime_matches (t : Ticket) (u : Int) (m : Nat) : (t.adjustTime u m).matches' = t.matches' := by
  unfold Ticket.adjustTime; split
  · simp only; split <;> rfl
  · rfl

theorem adjustTime_failures (t : Ticket) (u : Int) (m : Nat) : (t.adjustTime u m).failures = t.failures := by
  unfold Ticket.adjustTime; split
  · simp only; split <;> rfl
  · rfl

theorem adjustTime_time (t : Ticket) (u : Int) (m : Nat) : (t.adjustTime u m).time = max t.time u := by
  unfold Ticket.adjustTime; split
  · simp only; omega
  · omega

theorem adjustTime_firstTime (t : Ticket) (u : Int) (m : Nat) :
    (t.adjustTime u m).firstTime = if t.time < u ∧ t.firstTime < u - m then u - m else t.firstTime := by
  unfold Ticket.adjustTime; split
  · rename_i h1
    simp only; split
    · rename_i h2; rw [if_pos ⟨h1, h2⟩]
    · rename_i h2; rw [if_neg (fun h => h2 h.2)]
  · rename_i h1; rw [if_neg (fun h => h1 h.1)]

theorem adjustTime_retry (t : Ticket) (u : Int) (m : Nat) :
    (t.adjustTime u m).retry =
      if t.time < u ∧ t.firstTime < u - m then roundHalfEven (t.retry * m) (u - t.firstTime).toNat else t.retry := by
  unfold Ticket.adjustTime; split
  · rename_i h1
    simp only; split
    · rename_i h2; rw [if_pos ⟨h1, h2⟩]
    · rename_i h2; rw [if_neg (fun h => h2 h.2)]
  · rename_i h1; rw [if_neg (fun h => h1 h.1)]

theorem adjustTime_retry_le (t : Ticket) (u : Int) (m : Nat) : (t.adjustTime u m).retry ≤ t.retry := by
  rw [adjustTime_retry]; split
  · rename_i h; apply roundHalfEven_le <;> omega
  · exact Nat.le_refl _

theorem inc_id (t : Ticket) (ms : List String) (a c : Nat) : (t.inc ms a c).1.id = t.id := by
  unfold Ticket.inc; simp only; split
  · rfl
  · split <;> rfl

theorem inc_time (t : Ticket) (ms : List String) (a c : Nat) : (t.inc ms a c).1.time = t.time := by
  unfold Ticket.inc; simp only; split
  · rfl
  · split <;> rfl

theorem inc_firstTime (t : Ticket) (ms : List String) (a c : Nat) : (t.inc ms a c).1.firstTime = t.firstTime := by
  unfold Ticket.inc; simp only; split
  · rfl
  · split <;> rfl

theorem inc_retry (t : Ticket) (ms : List String) (a c : Nat) : (t.inc ms a c).1.retry = t.retry + c := by
  unfold Ticket.inc; simp only; split
  · rfl
  · split <;> rfl

theorem inc_failures (t : Ticket) (ms : List String) (a c : Nat) : (t.inc ms a c).1.failures = t.failures + a := by
  unfold Ticket.inc; simp only; split
  · rfl
  · split <;> rfl

theorem inc_ok (t : Ticket) (ms : List String) (a c : Nat) :
    (t.inc ms a c).2 = true ↔ (ms = [] ∨ t.matches' ≠ none) := by
  unfold Ticket.inc; simp only; split
  · rename_i h; simp [h]
  · rename_i h; split <;> simp_all

theorem inc_getMatches (t : Ticket) (ms : List String) (a c : Nat) (h : (t.inc ms a c).2 = true) :
    (t.inc ms a c).1.getMatches = t.getMatches ++ ms := by
  revert h
  unfold Ticket.inc Ticket.getMatches; simp only; split
  · rename_i h; simp [h]
  · split <;> simp_all

theorem inc_matches_none (t : Ticket) (ms : List String) (a c : Nat) :
    (t.inc ms a c).1.matches' = none ↔ t.matches' = none := by
  unfold Ticket.inc; simp only; split
  · rfl
  · split <;> simp_all

theorem inc_fail_matches (t : Ticket) (ms : List String) (a c : Nat) (h : (t.inc ms a c).2 = false) :
    (t.inc ms a c).1.matches' = none := by
  rw [inc_matches_none]
  have := inc_ok t ms a c
  by_cases hn : t.matches' = none
  · exact hn
  · rw [this.2 (Or.inr hn)] at h; cases h

theorem setMatches_id (t : Ticket) (ms : List String) : (t.setMatches ms).id = t.id := by
  unfold Ticket.setMatches; split <;> rfl
theorem setMatches_time (t : Ticket) (ms : List String) : (t.setMatches ms).time = t.time := by
  unfold Ticket.setMatches; split <;> rfl
theorem setMatches_firstTime (t : Ticket) (ms : List String) : (t.setMatches ms).firstTime = t.firstTime := by
  unfold Ticket.setMatches; split <;> rfl
theorem setMatches_retry (t : Ticket) (ms : List String) : (t.setMatches ms).retry = t.retry := by
  unfold Ticket.setMatches; split <;> rfl
theorem setMatches_failures (t : Ticket) (ms : List String) : (t.setMatches ms).failures = t.failures := by
  unfold Ticket.setMatches; split <;> rfl
theorem setMatches_getMatches (t : Ticket) (ms : List String) : (t.setMatches ms).getMatches = ms := by
  unfold Ticket.setMatches Ticket.getMatches; split
  · rename_i h; simp [h]
  · rfl

/-! ### `updateTracked` -/

section upd
variable (s : FailManager) (f t : Ticket) (c : Nat) (m : Bool)

/-- time used for the update -/
abbrev repTime : Int := if m then f.time else t.time
/-- lines used for the update -/
abbrev repLines : List String := if m then [] else if s.maxMatches ≠ 0 then t.getMatches else []

theorem updateTracked_retry :
    (s.updateTracked f t c m).1.retry = (f.adjustTime (repTime f t m) s.maxTime).retry + c := by
  unfold updateTracked
  simp only
  generalize hI : Ticket.inc _ _ _ _ = I
  have hr := congrArg (fun x => x.1.retry) hI
  simp only [inc_retry] at hr
  rcases I with ⟨d, b⟩
  cases b
  · simp only at hr ⊢; rw [← hr]
  · simp only at hr ⊢
    split
    · split <;> simp [setMatches_retry, ← hr]
    · simp [setMatches_retry, ← hr]

theorem updateTracked_failures :
    (s.updateTracked f t c m).1.failures =
      f.failures + (if m then 1 else if t.failures = 0 then 1 else t.failures) := by
  unfold updateTracked
  simp only
  generalize hI : Ticket.inc _ _ _ _ = I
  have hr := congrArg (fun x => x.1.failures) hI
  simp only [inc_failures, adjustTime_failures] at hr
  rcases I with ⟨d, b⟩
  cases b
  · simp only at hr ⊢; rw [← hr]
  · simp only at hr ⊢
    split
    · split <;> simp [setMatches_failures, ← hr]
    · simp [setMatches_failures, ← hr]

theorem updateTracked_id : (s.updateTracked f t c m).1.id = f.id := by
  unfold updateTracked
  simp only
  generalize hI : Ticket.inc _ _ _ _ = I
  have hr := congrArg (fun x => x.1.id) hI
  simp only [inc_id, adjustTime_id] at hr
  rcases I with ⟨d, b⟩
  cases b
  · exact hr.symm
  · simp only at hr ⊢
    split
    · split <;> simp [setMatches_id, ← hr]
    · simp [setMatches_id, ← hr]

theorem updateTracked_time : (s.updateTracked f t c m).1.time = max f.time (repTime f t m) := by
  unfold updateTracked
  simp only
  generalize hI : Ticket.inc _ _ _ _ = I
  have hr := congrArg (fun x => x.1.time) hI
  simp only [inc_time, adjustTime_time] at hr
  rcases I with ⟨d, b⟩
  cases b
  · exact hr.symm
  · simp only at hr ⊢
    split
    · split <;> simp [setMatches_time, ← hr]
    · simp [setMatches_time, ← hr]

theorem updateTracked_firstTime :
    (s.updateTracked f t c m).1.firstTime = (f.adjustTime (repTime f t m) s.maxTime).firstTime := by
  unfold updateTracked
  simp only
  generalize hI : Ticket.inc _ _ _ _ = I
  have hr := congrArg (fun x => x.1.firstTime) hI
  simp only [inc_firstTime] at hr
  rcases I with ⟨d, b⟩
  cases b
  · exact hr.symm
  · simp only at hr ⊢
    split
    · split <;> simp [setMatches_firstTime, ← hr]
    · simp [setMatches_firstTime, ← hr]

theorem updateTracked_ok :
    (s.updateTracked f t c m).2 = true ↔ (repLines s t m = [] ∨ f.matches' ≠ none) := by
  unfold updateTracked
  simp only
  generalize hI : Ticket.inc _ _ _ _ = I
  have hr := congrArg (fun x => x.2 = true) hI
  simp only [inc_ok, adjustTime_matches] at hr
  rcases I with ⟨d, b⟩
  cases b
  · simp only at hr ⊢; rw [← hr]
  · simp only [eq_iff_iff, iff_true] at hr ⊢
    have hr' : (repLines s t m = [] ∨ f.matches' ≠ none) := hr
    split
    · split <;> simp only [true_iff] <;> exact hr'
    · simp only [true_iff]; exact hr'

/-- lines kept after a successful update -/
theorem updateTracked_getMatches (h : (s.updateTracked f t c m).2 = true) :
    (s.updateTracked f t c m).1.getMatches =
      lastN s.maxMatches (f.getMatches ++ repLines s t m) := by
  revert h
  unfold updateTracked
  simp only
  generalize hI : Ticket.inc _ _ _ _ = I
  have hr : I.2 = true → I.1.getMatches = f.getMatches ++ repLines s t m := by
    intro h2
    rw [← hI] at h2 ⊢
    rw [inc_getMatches _ _ _ _ h2]
    have : ∀ u, (f.adjustTime u s.maxTime).getMatches = f.getMatches := by
      intro u; simp only [Ticket.getMatches, adjustTime_matches]
    rw [this]
  rcases I with ⟨d, b⟩
  cases b
  · simp
  · simp only [true_implies] at hr ⊢
    intro _
    split
    · split
      · simp only [setMatches_getMatches, hr]
      · rename_i h1 h2
        rw [hr] at h2
        simp only [hr, lastN]
        have : (f.getMatches ++ repLines s t m).length - s.maxMatches = 0 := by omega
        rw [this, List.drop_zero]
    · rename_i h1
      have h1 : s.maxMatches = 0 := by omega
      simp [setMatches_getMatches, lastN, h1]

/-- after a `KeyError` the object has no lines -/
theorem updateTracked_fail_matches (h : (s.updateTracked f t c m).2 = false) :
    (s.updateTracked f t c m).1.matches' = none := by
  revert h
  unfold updateTracked
  simp only
  generalize hI : Ticket.inc _ _ _ _ = I
  have hr : I.2 = false → I.1.matches' = none := by
    intro h2
    rw [← hI] at h2 ⊢
    exact inc_fail_matches _ _ _ _ h2
  rcases I with ⟨d, b⟩
  cases b
  · simp only [true_implies] at hr ⊢; exact hr
  · simp only; split
    · split <;> simp
    · simp

/-- the `matches` key survives an update if `maxMatches` is not zero -/
theorem updateTracked_matches_ne_none (hM : s.maxMatches ≠ 0) (hf : f.matches' ≠ none) :
    (s.updateTracked f t c m).1.matches' ≠ none := by
  unfold updateTracked
  simp only [hM, ne_eq, not_false_eq_true, if_true]
  generalize hI : Ticket.inc _ _ _ _ = I
  have hr : I.1.matches' ≠ none := by
    rw [← hI]; intro hc; rw [inc_matches_none, adjustTime_matches] at hc; exact hf hc
  rcases I with ⟨d, b⟩
  cases b
  · exact hr
  · simp only
    split
    · rename_i hlt
      unfold Ticket.setMatches
      split
      · rename_i he
        exfalso
        have hl : (lastN s.maxMatches d.getMatches).length = 0 := by rw [he]; rfl
        simp only [lastN, List.length_drop] at hl
        omega
      · simp
    · exact hr

end upd

/-! ### `addFailure` -/

theorem get?_addNew_self (s : FailManager) (t : Ticket) (c : Nat) (o : Bool) :
    (s.addNew t c o).2.failList.get? t.id =
      if o || t.isBan then s.failList.get? t.id else some (newEntry t c) := by
  unfold addNew newEntry
  split
  · rfl
  · simp

theorem get?_addNew_ne (s : FailManager) (t : Ticket) (c : Nat) (o : Bool) {x : Fid} (h : x ≠ t.id) :
    (s.addNew t c o).2.failList.get? x = s.failList.get? x := by
  unfold addNew
  split
  · rfl
  · simp [Dict.get?_insert_ne _ h]

theorem get?_addFailure_ne (s : FailManager) (t : Ticket) (c : Nat) (o m : Bool) {x : Fid} (h : x ≠ t.id) :
    (s.addFailure t c o m).2.failList.get? x = s.failList.get? x := by
  unfold addFailure
  split
  · generalize updateTracked _ _ _ _ _ = r
    rcases r with ⟨d, b⟩
    cases b
    · simp only; rw [get?_addNew_ne _ _ _ _ h]; exact Dict.get?_insert_ne _ h _
    · simp only; exact Dict.get?_insert_ne _ h _
  · exact get?_addNew_ne _ _ _ _ h

theorem get?_addFailure_new (s : FailManager) (t : Ticket) (c : Nat) (o m : Bool)
    (hn : s.failList.get? t.id = none) :
    (s.addFailure t c o m).2.failList.get? t.id = if o || t.isBan then none else some (newEntry t c) := by
  unfold addFailure
  rw [hn]
  simp only [get?_addNew_self, hn]

theorem get?_addFailure_tracked (s : FailManager) (t f : Ticket) (c : Nat) (o m : Bool)
    (hn : s.failList.get? t.id = some f) :
    (s.addFailure t c o m).2.failList.get? t.id =
      if (s.updateTracked f t c m).2 then some (s.updateTracked f t c m).1
      else if o || t.isBan then some (s.updateTracked f t c m).1 else some (newEntry t c) := by
  unfold addFailure
  rw [hn]
  simp only
  generalize updateTracked _ _ _ _ _ = r
  rcases r with ⟨d, b⟩
  cases b
  · simp [get?_addNew_self]
  · simp

/-- configuration is untouched by `addFailure` -/
theorem addFailure_cfg (s : FailManager) (t : Ticket) (c : Nat) (o m : Bool) :
    (s.addFailure t c o m).2.maxRetry = s.maxRetry ∧ (s.addFailure t c o m).2.maxTime = s.maxTime ∧
    (s.addFailure t c o m).2.maxMatches = s.maxMatches := by
  unfold addFailure addNew
  split
  · generalize updateTracked _ _ _ _ _ = r
    rcases r with ⟨d, b⟩
    cases b
    · simp only; split <;> simp
    · simp
  · split <;> simp

/-! ### `cleanup` -/

theorem cleanup_items (s : FailManager) (time : Int) :
    (s.cleanup time).failList.items =
      s.failList.items.filter (fun kv => decide (time - s.maxTime < kv.2.time)) := by
  unfold cleanup
  simp only
  generalize hT : time - (s.maxTime : Int) = T
  generalize htd : (List.filter (fun kv : Fid × Ticket => decide (kv.2.time ≤ T)) s.failList.items) = td
  have hsplit : ∀ kv ∈ s.failList.items, (kv ∈ td ↔ kv.2.time ≤ T) := by
    intro kv hkv; rw [← htd, List.mem_filter]; simp [hkv]
  simp only [List.length_map]
  split
  · rename_i h
    have h0 : td = [] := List.eq_nil_of_length_eq_zero h.2
    symm
    rw [List.filter_eq_self]
    intro kv hkv
    have := hsplit kv hkv
    rw [h0] at this
    simp only [List.not_mem_nil, false_iff] at this
    simp only [decide_eq_true_eq]; omega
  · split
    · rename_i hall
      -- all stale
      have hall' : td = s.failList.items := by
        rw [← htd]
        apply List.Sublist.eq_of_length List.filter_sublist
        rw [htd]; exact hall
      have hemp : s.failList.items.filter (fun kv => decide (T < kv.2.time)) = [] := by
        rw [List.filter_eq_nil_iff]
        intro kv hkv
        have := (hsplit kv hkv).1 (by rw [hall']; exact hkv)
        simp only [decide_eq_true_eq]; omega
      rw [hemp]
      split
      · rw [Dict.foldl_erase_items]; rfl
      · rfl
    · split
      · rw [Dict.foldl_erase_items]
        apply List.filter_congr
        intro kv hkv
        have h1 := hsplit kv hkv
        have h2 : kv.1 ∈ td.map Prod.fst ↔ kv ∈ td := by
          constructor
          · intro hm
            rw [List.mem_map] at hm
            obtain ⟨kv', hkv', e⟩ := hm
            have hmem' : kv' ∈ s.failList.items := by
              rw [← htd] at hkv'; exact (List.mem_filter.1 hkv').1
            have e1 := (Dict.get?_eq_some_iff s.failList kv.1 kv.2).2 hkv
            have e2 := (Dict.get?_eq_some_iff s.failList kv'.1 kv'.2).2 hmem'
            rw [e] at e2
            rw [e1] at e2
            have : kv = kv' := by
              rcases kv with ⟨a, b⟩; rcases kv' with ⟨a', b'⟩
              simp only [Option.some.injEq] at e2 e
              rw [e, e2]
            rw [this]; exact hkv'
          · exact fun hm => List.mem_map_of_mem (f := Prod.fst) hm
        by_cases hle : kv.2.time ≤ T
        · have : kv.1 ∈ td.map Prod.fst := h2.2 (h1.2 hle)
          simp [this]; omega
        · have : kv.1 ∉ td.map Prod.fst := fun hm => hle (h1.1 (h2.1 hm))
          simp [this]; omega
      · rfl

theorem cleanup_cfg (s : FailManager) (time : Int) :
    (s.cleanup time).maxRetry = s.maxRetry ∧ (s.cleanup time).maxTime = s.maxTime ∧
    (s.cleanup time).maxMatches = s.maxMatches ∧ (s.cleanup time).failTotal = s.failTotal := by
  unfold cleanup; simp only; split <;> simp

theorem get?_cleanup (s : FailManager) (time : Int) (x : Fid) :
    (s.cleanup time).failList.get? x =
      (s.failList.get? x).filter (fun d => decide (time - s.maxTime < d.time)) := by
  rw [← Dict.get?_filter s.failList (fun _ d => decide (time - s.maxTime < d.time))]
  congr 1
  apply Dict.ext'
  rw [cleanup_items]
  rfl

/-! ### `toBan` -/

theorem toBanLoop_eq_some (s : FailManager) (l : List Fid) (x : Fid) (d : Ticket)
    (h : s.toBanLoop l = some (x, d)) :
    x ∈ l ∧ s.failList.get? x = some d ∧ s.maxRetry ≤ d.retry := by
  induction l with
  | nil => simp [toBanLoop] at h
  | cons a l ih =>
    unfold toBanLoop at h
    cases hg : s.failList.get? a with
    | none =>
      rw [hg] at h
      obtain ⟨h1, h2⟩ := ih h
      exact ⟨List.mem_cons_of_mem _ h1, h2⟩
    | some e =>
      rw [hg] at h
      simp only at h
      split at h
      · rename_i hle
        simp only [Option.some.injEq, Prod.mk.injEq] at h
        obtain ⟨rfl, rfl⟩ := h
        exact ⟨List.mem_cons_self, hg, hle⟩
      · obtain ⟨h1, h2⟩ := ih h
        exact ⟨List.mem_cons_of_mem _ h1, h2⟩

theorem toBanLoop_eq_none (s : FailManager) (l : List Fid) :
    s.toBanLoop l = none ↔ ∀ x ∈ l, ∀ d, s.failList.get? x = some d → d.retry < s.maxRetry := by
  induction l with
  | nil => simp [toBanLoop]
  | cons a l ih =>
    unfold toBanLoop
    cases hg : s.failList.get? a with
    | none =>
      simp only [ih, List.mem_cons, forall_eq_or_imp, hg]
      simp
    | some e =>
      simp only [List.mem_cons, forall_eq_or_imp, hg]
      split
      · rename_i hle
        simp only [reduceCtorEq, Option.some.injEq, forall_eq', false_iff, not_and]
        intro h; omega
      · rename_i hle
        rw [ih]
        simp only [Option.some.injEq, forall_eq']
        constructor
        · intro h; exact ⟨by omega, h⟩
        · exact fun h => h.2

/-- keys are the ids of the stored tickets -/
def KeyId (s : FailManager) : Prop := ∀ x d, s.failList.get? x = some d → d.id = x

theorem keyId_addFailure (s : FailManager) (t : Ticket) (c : Nat) (o m : Bool) (h : KeyId s) :
    KeyId (s.addFailure t c o m).2 := by
  intro x d hd
  by_cases hx : x = t.id
  · subst hx
    cases hg : s.failList.get? t.id with
    | none =>
      rw [get?_addFailure_new s t c o m hg] at hd
      split at hd
      · cases hd
      · cases hd; exact newEntry_id t c
    | some f =>
      rw [get?_addFailure_tracked s t f c o m hg] at hd
      have hf := h _ _ hg
      split at hd
      · cases hd; rw [updateTracked_id]; exact hf
      · split at hd
        · cases hd; rw [updateTracked_id]; exact hf
        · cases hd; exact newEntry_id t c
  · rw [get?_addFailure_ne s t c o m hx] at hd
    exact h _ _ hd

theorem get?_toBan (s : FailManager) (fid : Option Fid) (x : Fid) :
    (s.toBan fid).2.failList.get? x = s.failList.get? x ∨
    ((s.toBan fid).2.failList.get? x = none) := by
  unfold toBan
  split
  · rename_i f d h
    simp only [Dict.get?_erase]
    by_cases hx : x = f
    · right; simp [hx]
    · left; simp [hx]
  · left; rfl

theorem toBan_cfg (s : FailManager) (fid : Option Fid) :
    (s.toBan fid).2.maxRetry = s.maxRetry ∧ (s.toBan fid).2.maxTime = s.maxTime ∧
    (s.toBan fid).2.maxMatches = s.maxMatches ∧ (s.toBan fid).2.failTotal = s.failTotal := by
  unfold toBan; split <;> simp

theorem keyId_step (s : FailManager) (op : Op) (h : KeyId s) : KeyId (s.step op) := by
  cases op with
  | add t c o => exact keyId_addFailure s t c o false h
  | addSame y c o =>
    simp only [step]
    split
    · exact keyId_addFailure s _ c o true h
    · exact h
  | cleanup time =>
    intro x d hd
    simp only [step, get?_cleanup, Option.filter_eq_some_iff] at hd
    exact h _ _ hd.1
  | del fid =>
    intro x d hd
    simp only [step, delFailure, Dict.get?_erase] at hd
    split at hd
    · cases hd
    · exact h _ _ hd
  | toBan fid =>
    intro x d hd
    simp only [step] at hd
    rcases get?_toBan s fid x with e | e
    · rw [e] at hd; exact h _ _ hd
    · rw [e] at hd; cases hd
  | setMaxRetry n => exact h
  | setMaxTime n => exact h
  | setMaxMatches n => exact h

theorem keyId_init : KeyId init := by intro x d hd; cases hd

theorem run_append (s : FailManager) (a b : List Op) : s.run (a ++ b) = (s.run a).run b := by
  simp [run, List.foldl_append]

theorem run_snoc (s : FailManager) (a : List Op) (op : Op) : s.run (a ++ [op]) = (s.run a).step op := by
  simp [run, List.foldl_append]

theorem keyId_run (s : FailManager) (ops : List Op) (h : KeyId s) : KeyId (s.run ops) := by
  induction ops generalizing s with
  | nil => exact h
  | cons op ops ih => exact ih _ (keyId_step s op h)

end Verif.FailManager
