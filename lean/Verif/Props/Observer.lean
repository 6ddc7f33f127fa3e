import Verif.Spec.Observer
import Verif.Props.Limit
import Verif.Props.Restart

/-! # Known offenders and recorded bans (C24, C26, C23) -/

namespace Verif

open Observer Spec.Observer FailManager

/-- C24: the number of failures a failure of a known offender counts as. -/
theorem C24_weight (n m : Nat) (hn : 0 < n) :
    weight n m = worth n m ∧ weight n m ≤ m ∧ (1 ≤ m → 1 ≤ weight n m) ∧ (2 ≤ m → 2 ≤ weight n m) ∧
    (20 ≤ n → weight n m = weight 20 m) ∧ ∀ k, n ≤ k → weight n m ≤ weight k m := by
  have e : ∀ k, 0 < k → 2 ^ (if k < 20 then k else 20) / 2 = 2 ^ (min k 20 - 1) := by
    intro k hk
    have : (if k < 20 then k else 20) = (min k 20 - 1) + 1 := by split <;> omega
    rw [this, Nat.pow_succ, Nat.mul_div_cancel _ (by omega)]
  have hp : ∀ k, 1 ≤ 2 ^ (min k 20 - 1) := fun k => Nat.one_le_two_pow
  have hw : ∀ k, 0 < k → weight k m = min (2 ^ (min k 20 - 1) + 1) m := by
    intro k hk; unfold weight; rw [e k hk]
  refine ⟨?_, ?_, ?_, ?_, ?_, ?_⟩
  · rw [hw n hn]; unfold worth; split <;> omega
  · rw [hw n hn]; omega
  · intro h; have := hp n; rw [hw n hn]; omega
  · intro h; have := hp n; rw [hw n hn]; omega
  · intro h; rw [hw n hn, hw 20 (by omega)]
    rw [show min n 20 = min 20 20 by omega]
  · intro k hk
    rw [hw n hn, hw k (by omega)]
    have : 2 ^ (min n 20 - 1) ≤ 2 ^ (min k 20 - 1) := Nat.pow_le_pow_right (by omega) (by omega)
    omega

/-- What the observer does, with the record looked up. -/
theorem failureFound_known (j : ObsJail) (db : Option Db) (now : Int) (s : Filter) (t : Ticket) (same : Bool) (n : Nat)
    (h : KnownOffender j db t n) :
    failureFound j db now s t same =
      if weight n s.fm.maxRetry ≤ 1 then s
      else
        if (setStoredCount (s.fm.addFailure t (weight n s.fm.maxRetry - 1) true same).2 t.id n same).maxRetry
            ≤ (s.fm.addFailure t (weight n s.fm.maxRetry - 1) true same).1
        then ({ s with fm := setStoredCount (s.fm.addFailure t (weight n s.fm.maxRetry - 1) true same).2 t.id n same } : Filter).performBan now t.id
        else { s with fm := setStoredCount (s.fm.addFailure t (weight n s.fm.maxRetry - 1) true same).2 t.id n same } := by
  obtain ⟨h1, h2, d, r, h3, h4, h5, h6⟩ := h
  subst h3
  have hn : max r.count t.banCount = n := by omega
  have h5' : ¬ t.time ≤ r.time := by omega
  unfold failureFound
  simp [h1, h2, Db.getBan, h4, hn, h5']

theorem setStoredCount_cfg (fm : FailManager) (x : Fid) (n : Nat) (same : Bool) :
    (setStoredCount fm x n same).maxRetry = fm.maxRetry ∧ (setStoredCount fm x n same).maxTime = fm.maxTime ∧
    (setStoredCount fm x n same).maxMatches = fm.maxMatches ∧ (setStoredCount fm x n same).failTotal = fm.failTotal := by
  unfold setStoredCount
  split
  · split <;> exact ⟨rfl, rfl, rfl, rfl⟩
  · exact ⟨rfl, rfl, rfl, rfl⟩

theorem setStoredCount_ne (fm : FailManager) (x y : Fid) (n : Nat) (same : Bool) (h : y ≠ x) :
    (setStoredCount fm x n same).failList.get? y = fm.failList.get? y := by
  unfold setStoredCount
  split
  · split
    · exact Dict.get?_insert_ne _ h _
    · rfl
  · rfl

theorem setStoredCount_self (fm : FailManager) (x : Fid) (n : Nat) (same : Bool) (d : Ticket) (h : fm.failList.get? x = some d) :
    (setStoredCount fm x n same).failList.get? x = some (if same then d.setBanCount n else d) := by
  unfold setStoredCount
  rw [h]
  cases same
  · simpa using h
  · simp

theorem setBanCount_fields (d : Ticket) (n : Nat) : (d.setBanCount n).retry = d.retry ∧ (d.setBanCount n).time = d.time ∧
    (d.setBanCount n).id = d.id ∧ (d.setBanCount n).banCount = max d.banCount n := by
  unfold Ticket.setBanCount
  split
  · rename_i h; simp at h; exact ⟨rfl, rfl, rfl, by simp only; omega⟩
  · rename_i h; simp at h; exact ⟨rfl, rfl, rfl, by omega⟩

theorem performSvc_get (s : Filter) (now : Int) (x : Fid) :
    (s.performSvc now).fm.failList.get? x = s.fm.failList.get? x ∨
    (s.performSvc now).fm.failList.get? x = none ∧ ∃ d, s.fm.failList.get? x = some d ∧ d.time ≤ now - s.fm.maxTime := by
  unfold Filter.performSvc
  split
  · dsimp only
    rw [get?_cleanup]
    cases hg : s.fm.failList.get? x with
    | none => left; rfl
    | some d =>
      by_cases hd : now - (s.fm.maxTime : Int) < d.time
      · left; simp [Option.filter, hd]
      · right; exact ⟨by simp [Option.filter, hd], d, rfl, by omega⟩
  · left; rfl

/-- C24: a reported failure of a known offender that is being tracked counts `worth n maxRetry - 1` more (it was counted once already). Below
the limit the address stays tracked with the new number, and nothing is handed over; otherwise the ticket with the new number is handed over
at once and the address is no longer tracked. -/
theorem C24_counts (j : ObsJail) (db : Option Db) (now : Int) (s : Filter) (t d : Ticket) (same : Bool) (n : Nat) (hn : 0 < n)
    (h : KnownOffender j db t n) (hd : s.fm.failList.get? t.id = some d) (htime : same = true ∨ t.time ≤ d.time)
    (hm : same = true ∨ d.matches' ≠ none) (h2 : 2 ≤ s.fm.maxRetry) :
    let s' := failureFound j db now s t same
    (d.retry + (worth n s.fm.maxRetry - 1) < s.fm.maxRetry → s'.out = s.out ∧
      ∃ d', s'.fm.failList.get? t.id = some d' ∧ d'.retry = d.retry + (worth n s.fm.maxRetry - 1) ∧ d'.time = d.time) ∧
    (s.fm.maxRetry ≤ d.retry + (worth n s.fm.maxRetry - 1) → s'.fm.failList.get? t.id = none ∧
      ∃ d', s'.out = s.out ++ [FEvent.put d'] ∧ d'.retry = d.retry + (worth n s.fm.maxRetry - 1) ∧ d'.id = d.id ∧
        (same = true → n ≤ d'.banCount)) := by
  obtain ⟨w1, w2, _, w4, _⟩ := C24_weight n s.fm.maxRetry hn
  have w4 := w4 h2
  intro s'
  have hs' : s' = failureFound j db now s t same := rfl
  rw [failureFound_known j db now s t same n h, if_neg (by omega)] at hs'
  generalize hw : weight n s.fm.maxRetry = w at *
  rw [← w1]
  -- the entry after the observer counted
  have hok : (s.fm.updateTracked d t (w - 1) same).2 = true := by
    rw [updateTracked_ok]
    cases hm with
    | inl hm => left; simp [hm]
    | inr hm => exact .inr hm
  have hrep : repTime d t same ≤ d.time := by
    show (if same then d.time else t.time) ≤ d.time
    cases htime with
    | inl e => simp [e]
    | inr e => split <;> omega
  have hret : (s.fm.updateTracked d t (w - 1) same).1.retry = d.retry + (w - 1) := by
    rw [updateTracked_retry, adjustTime_retry, if_neg]
    intro hc
    have := hc.1
    omega
  have htm : (s.fm.updateTracked d t (w - 1) same).1.time = d.time := by
    rw [updateTracked_time]
    omega
  have hid := @updateTracked_id s.fm d t (w - 1) same
  have hfst : (s.fm.addFailure t (w - 1) true same).1 = d.retry + (w - 1) := by
    unfold addFailure
    rw [hd]
    dsimp only
    rcases hu : s.fm.updateTracked d t (w - 1) same with ⟨u, b⟩
    rw [hu] at hok hret
    dsimp only at hok hret
    subst hok
    exact hret
  have hget := get?_addFailure_tracked s.fm t d (w - 1) true same hd
  rw [if_pos hok] at hget
  have hcfg := (addFailure_cfg s.fm t (w - 1) true same).1
  have hself := setStoredCount_self _ _ n same _ hget
  generalize hu : (s.fm.updateTracked d t (w - 1) same).1 = u at *
  generalize hA : s.fm.addFailure t (w - 1) true same = A at *
  have hf : ∀ d', d' = (if same then u.setBanCount n else u) → d'.retry = d.retry + (w - 1) ∧ d'.time = d.time ∧ d'.id = d.id ∧
      (same = true → n ≤ d'.banCount) := by
    intro d' e
    have sf := setBanCount_fields u n
    subst e
    cases same
    · exact ⟨hret, htm, hid, fun h => (by cases h)⟩
    · exact ⟨by simp [sf.1, hret], by simp [sf.2.1, htm], by simp [sf.2.2.1, hid], fun _ => by simp [sf.2.2.2]; omega⟩
  have hmr : (setStoredCount A.2 t.id n same).maxRetry = s.fm.maxRetry := by rw [(setStoredCount_cfg _ _ _ _).1, hcfg]
  constructor
  · intro hlt
    rw [if_neg (by rw [hmr, hfst]; omega)] at hs'
    rw [hs']
    refine ⟨rfl, _, hself, ?_⟩
    have := hf _ rfl
    exact ⟨this.1, this.2.1⟩
  · intro hge
    rw [if_pos (by rw [hmr, hfst]; omega)] at hs'
    rw [hs']
    unfold Filter.performBan
    dsimp only
    rw [Filter.toBan_tracked _ _ _ hself, if_pos (by rw [hmr, (hf _ rfl).1]; omega)]
    dsimp only
    have sv := Filter.performSvc_cfg { s with
        fm := { setStoredCount A.2 t.id n same with failList := (setStoredCount A.2 t.id n same).failList.erase t.id }
        out := s.out ++ [FEvent.put (if same then u.setBanCount n else u)] } now false
    refine ⟨?_, _, sv.2, (hf _ rfl).1, (hf _ rfl).2.2.1, (hf _ rfl).2.2.2⟩
    rcases performSvc_get { s with
        fm := { setStoredCount A.2 t.id n same with failList := (setStoredCount A.2 t.id n same).failList.erase t.id }
        out := s.out ++ [FEvent.put (if same then u.setBanCount n else u)] } now t.id with h | h
    · rw [h]; simp
    · exact h.1

/-- C24: nothing is counted twice for an address that was never banned in this jail, for a report not newer than the last ban (read again after
a restart), without a database, without increments and for a jail that is not running. -/
theorem C24_unknown (j : ObsJail) (db : Option Db) (now : Int) (s : Filter) (t : Ticket) (same : Bool)
    (h : j.alive = false ∨ j.increment = false ∨ db = none ∨ (∃ d, db = some d ∧ d.bips.get? (t.id, j.name) = none) ∨
      ∃ d r, db = some d ∧ d.bips.get? (t.id, j.name) = some r ∧ t.time ≤ r.time) :
    failureFound j db now s t same = s := by
  unfold failureFound
  rcases h with h | h | h | ⟨d, h, h'⟩ | ⟨d, r, h, h', h''⟩
  · simp [h]
  · simp [h]
  · simp [h]
  · simp [h, Db.getBan, h']
  · simp [h, Db.getBan, h', h'']

/-- C24: the limit, the configuration and the entries of other addresses stay as they are, except that entries older than the find time may
expire. Nothing but a ticket of this address is handed over. -/
theorem C24_others (j : ObsJail) (db : Option Db) (now : Int) (s : Filter) (t d : Ticket) (same : Bool)
    (hd : s.fm.failList.get? t.id = some d) :
    let s' := failureFound j db now s t same
    s'.fm.maxRetry = s.fm.maxRetry ∧ s'.fm.maxTime = s.fm.maxTime ∧
    (∀ e, e ∈ Spec.Filt.handedOver s'.out → e ∈ Spec.Filt.handedOver s.out ∨ s'.fm.failList.get? t.id = none ∧
      (d.id = t.id → e.id = t.id)) ∧
    ∀ y, y ≠ t.id → s'.fm.failList.get? y = s.fm.failList.get? y ∨
      s'.fm.failList.get? y = none ∧ ∃ e, s.fm.failList.get? y = some e ∧ e.time ≤ now - s.fm.maxTime := by
  intro s'
  have hs' : s' = failureFound j db now s t same := rfl
  have triv : s' = s → s'.fm.maxRetry = s.fm.maxRetry ∧ s'.fm.maxTime = s.fm.maxTime ∧
    (∀ e, e ∈ Spec.Filt.handedOver s'.out → e ∈ Spec.Filt.handedOver s.out ∨ s'.fm.failList.get? t.id = none ∧
      (d.id = t.id → e.id = t.id)) ∧
    ∀ y, y ≠ t.id → s'.fm.failList.get? y = s.fm.failList.get? y ∨
      s'.fm.failList.get? y = none ∧ ∃ e, s.fm.failList.get? y = some e ∧ e.time ≤ now - s.fm.maxTime := by
    intro e; rw [e]; exact ⟨rfl, rfl, fun _ h => .inl h, fun _ _ => .inl rfl⟩
  by_cases hk : ¬ ∃ n, KnownOffender j db t n
  · apply triv
    rw [hs']
    apply C24_unknown
    by_cases ha : j.alive = false; · exact .inl ha
    by_cases hi : j.increment = false; · exact .inr (.inl hi)
    cases hdb : db with
    | none => exact .inr (.inr (.inl rfl))
    | some b =>
      cases hr : b.bips.get? (t.id, j.name) with
      | none => exact .inr (.inr (.inr (.inl ⟨b, rfl, hr⟩)))
      | some r =>
        refine .inr (.inr (.inr (.inr ⟨b, r, rfl, hr, ?_⟩)))
        apply Classical.byContradiction
        intro hc
        refine hk ⟨max r.count t.banCount, by simpa using ha, by simpa using hi, b, r, hdb, hr, by omega, by omega⟩
  · obtain ⟨n, hk⟩ := Classical.not_not.1 hk
    rw [failureFound_known j db now s t same n hk] at hs'
    by_cases hw : weight n s.fm.maxRetry ≤ 1
    · rw [if_pos hw] at hs'; exact triv hs'
    rw [if_neg hw] at hs'
    generalize weight n s.fm.maxRetry = w at *
    obtain ⟨a1, a2, _⟩ := addFailure_cfg s.fm t (w - 1) true same
    have hne : ∀ y, y ≠ t.id → (s.fm.addFailure t (w - 1) true same).2.failList.get? y = s.fm.failList.get? y :=
      fun y hy => get?_addFailure_ne s.fm t _ _ _ hy
    have hself : ∃ u, (s.fm.addFailure t (w - 1) true same).2.failList.get? t.id = some u ∧ u.id = d.id := by
      rw [get?_addFailure_tracked s.fm t d (w - 1) true same hd]
      refine ⟨(s.fm.updateTracked d t (w - 1) same).1, ?_, updateTracked_id _ _ _ _ _⟩
      split
      · rfl
      · simp
    obtain ⟨u, hu, hui⟩ := hself
    generalize s.fm.addFailure t (w - 1) true same = A at *
    obtain ⟨b1, b2, _⟩ := setStoredCount_cfg A.2 t.id n same
    have hne' : ∀ y, y ≠ t.id → (setStoredCount A.2 t.id n same).failList.get? y = s.fm.failList.get? y :=
      fun y hy => by rw [setStoredCount_ne _ _ _ _ _ hy, hne y hy]
    have hself := setStoredCount_self A.2 t.id n same u hu
    generalize hB : setStoredCount A.2 t.id n same = B at *
    have hvid : (if same then u.setBanCount n else u).id = d.id := by
      cases same
      · simpa using hui
      · simp [(setBanCount_fields u n).2.2.1, hui]
    generalize hv : (if same then u.setBanCount n else u) = v at *
    by_cases hc : B.maxRetry ≤ A.1
    · rw [if_pos hc] at hs'
      unfold Filter.performBan at hs'
      dsimp only at hs'
      rw [Filter.toBan_tracked B t.id v hself] at hs'
      by_cases hm : B.maxRetry ≤ v.retry
      · rw [if_pos hm] at hs'
        dsimp only at hs'
        have sv := Filter.performSvc_cfg { s with fm := { B with failList := B.failList.erase t.id }, out := s.out ++ [FEvent.put v] } now false
        have sg := performSvc_get { s with fm := { B with failList := B.failList.erase t.id }, out := s.out ++ [FEvent.put v] } now
        rw [← hs'] at sv sg
        refine ⟨?_, ?_, ?_, ?_⟩
        · rw [hs']; unfold Filter.performSvc; split <;> simp [cleanup_cfg, b1, a1]
        · rw [hs']; unfold Filter.performSvc; split <;> simp [cleanup_cfg, b2, a2]
        · intro e he
          rw [sv.2] at he
          simp only [Spec.Filt.handedOver, List.filterMap_append, List.mem_append] at he
          rcases he with he | he
          · exact .inl he
          · right
            simp at he
            subst he
            refine ⟨?_, fun h => by rw [hvid, h]⟩
            rcases sg t.id with h | h
            · rw [h]; simp
            · exact h.1
        · intro y hy
          rcases sg y with h | h
          · left; rw [h]; simp [Dict.get?_erase, hy, hne' y hy]
          · right
            simpa [Dict.get?_erase, hy, hne' y hy, b2, a2] using h
      · rw [if_neg hm] at hs'
        dsimp only at hs'
        have sv := Filter.performSvc_cfg { s with fm := B } now false
        have sg := performSvc_get { s with fm := B } now
        rw [← hs'] at sv sg
        refine ⟨?_, ?_, ?_, ?_⟩
        · rw [hs']; unfold Filter.performSvc; split <;> simp [cleanup_cfg, b1, a1]
        · rw [hs']; unfold Filter.performSvc; split <;> simp [cleanup_cfg, b2, a2]
        · intro e he; rw [sv.2] at he; exact .inl he
        · intro y hy
          rcases sg y with h | h
          · left; rw [h]; exact hne' y hy
          · right
            simpa [hne' y hy, b2, a2] using h
    · rw [if_neg hc] at hs'
      rw [hs']
      exact ⟨by simp [b1, a1], by simp [b2, a2], fun _ h => .inl h, fun y hy => .inl (hne' y hy)⟩

/-- C24: if the reported address is no longer tracked (it was handed over in the meantime), and no other address is at the limit, nothing is
handed over and nothing is counted. -/
theorem C24_untracked (j : ObsJail) (db : Option Db) (now : Int) (s : Filter) (t : Ticket) (same : Bool)
    (hd : s.fm.failList.get? t.id = none) (hl : ∀ y e, s.fm.failList.get? y = some e → e.retry < s.fm.maxRetry) :
    let s' := failureFound j db now s t same
    s'.out = s.out ∧ s'.fm.failTotal = s.fm.failTotal ∧
    ∀ y, s'.fm.failList.get? y = s.fm.failList.get? y ∨
      s'.fm.failList.get? y = none ∧ ∃ e, s.fm.failList.get? y = some e ∧ e.time ≤ now - s.fm.maxTime := by
  have hadd : ∀ c, s.fm.addFailure t c true same = (t.retry, s.fm) := by
    intro c; unfold addFailure addNew; rw [hd]; simp
  have hset : ∀ n, setStoredCount s.fm t.id n same = s.fm := by
    intro n; unfold setStoredCount; rw [hd]
  have htb : s.fm.toBan (some t.id) = (none, s.fm) := by
    rcases hb : s.fm.toBan (some t.id) with ⟨_ | e, fm⟩
    · have := hb
      unfold FailManager.toBan at this
      split at this
      · exact absurd (congrArg Prod.fst this) (by simp)
      · exact this.symm
    · obtain ⟨x, h1, h2, _⟩ := C05_toBan_some _ _ _ _ hb
      have := hl x e h1
      omega
  intro s'
  have hs' : s' = failureFound j db now s t same := rfl
  unfold failureFound at hs'
  split at hs'
  · rw [hs']; exact ⟨rfl, rfl, fun _ => .inl rfl⟩
  · split at hs'
    · rw [hs']; exact ⟨rfl, rfl, fun _ => .inl rfl⟩
    · simp only [hadd, hset] at hs'
      split at hs'
      · rw [hs']; exact ⟨rfl, rfl, fun _ => .inl rfl⟩
      · split at hs'
        · rw [hs']; exact ⟨rfl, rfl, fun _ => .inl rfl⟩
        · split at hs'
          · rw [hs']
            unfold Filter.performBan
            dsimp only
            rw [htb]
            dsimp only
            refine ⟨(Filter.performSvc_cfg _ now false).2, ?_, performSvc_get _ now⟩
            unfold Filter.performSvc
            split
            · unfold FailManager.cleanup
              dsimp only
              split <;> rfl
            · rfl
          · rw [hs']; exact ⟨rfl, rfl, fun _ => .inl rfl⟩

/-- C24, a finding: for a known offender whose ticket is already stored, the lines of the report are appended once more by the observer, and
its failures are added to the number of failures once more. -/
theorem C24_lines_twice (j : ObsJail) (db : Option Db) (now : Int) (s : Filter) (t d : Ticket) (n : Nat) (hn : 0 < n)
    (h : KnownOffender j db t n) (hd : s.fm.failList.get? t.id = some d) (hm : d.matches' ≠ none) (h2 : 2 ≤ s.fm.maxRetry)
    (hM : s.fm.maxMatches ≠ 0) (d' : Ticket) (hd' : (failureFound j db now s t false).fm.failList.get? t.id = some d') :
    d'.getMatches = Spec.Database.lastN s.fm.maxMatches (d.getMatches ++ t.getMatches) ∧
    d'.failures = d.failures + (if t.failures = 0 then 1 else t.failures) := by
  obtain ⟨w1, _, _, w4, _⟩ := C24_weight n s.fm.maxRetry hn
  have w4 := w4 h2
  rw [failureFound_known j db now s t false n h, if_neg (by omega)] at hd'
  generalize weight n s.fm.maxRetry = w at *
  have hok : (s.fm.updateTracked d t (w - 1) false).2 = true := by
    rw [updateTracked_ok]; exact .inr hm
  have hget := get?_addFailure_tracked s.fm t d (w - 1) true false hd
  rw [if_pos hok] at hget
  have hself := setStoredCount_self _ _ n false _ hget
  have hcfg := (addFailure_cfg s.fm t (w - 1) true false).1
  have g1 := updateTracked_getMatches _ _ _ _ _ hok
  have g2 := updateTracked_failures s.fm d t (w - 1) false
  generalize (s.fm.updateTracked d t (w - 1) false).1 = u at *
  generalize s.fm.addFailure t (w - 1) true false = A at *
  have hcfg' := (setStoredCount_cfg A.2 t.id n false).1
  generalize setStoredCount A.2 t.id n false = B at *
  have e : d' = u := by
    split at hd'
    · unfold Filter.performBan at hd'
      dsimp only at hd'
      rw [Filter.toBan_tracked B t.id _ hself] at hd'
      by_cases hc : B.maxRetry ≤ (if false = true then u.setBanCount n else u).retry
      · rw [if_pos hc] at hd'
        dsimp only at hd'
        rcases performSvc_get { s with fm := { B with failList := B.failList.erase t.id }, out := s.out ++ [FEvent.put _] } now t.id with h | h
        · rw [h] at hd'; simp at hd'
        · rw [h.1] at hd'; cases hd'
      · rw [if_neg hc] at hd'
        dsimp only at hd'
        rcases performSvc_get { s with fm := B } now t.id with h | h
        · rw [h] at hd'
          rw [hself] at hd'
          simpa using hd'.symm
        · rw [h.1] at hd'; cases hd'
    · dsimp only at hd'
      rw [hself] at hd'
      simpa using hd'.symm
  rw [e]
  refine ⟨?_, by simpa using g2⟩
  rw [g1, Db.lastN_eq_drop]
  show FailManager.lastN s.fm.maxMatches (d.getMatches ++ (if s.fm.maxMatches ≠ 0 then t.getMatches else [])) = _
  rw [if_pos hM]
  rfl

namespace ObserverExample

/-- a jail with increments -/
def j : ObsJail := { name := "sshd", alive := true, increment := true, overall := false, evformula := fun t n => t * 2 ^ n, banTime := 600 }

/-- 192.0.2.1 was banned twice, the last time at 1000 -/
def db : Db :=
  ((Db.init.addJail "sshd").addBan "sshd" 600 { Ticket.new "192.0.2.1" 1000 ["l0"] with banCount := 2 }).2

/-- the failure manager tracks two addresses -/
def s : Filter :=
  { fm := (({ FailManager.init with maxRetry := 5 }.addFailure (Ticket.new "192.0.2.1" 2000 ["l1"])).2.addFailure
      (Ticket.new "198.51.100.7" 2000 ["x"])).2 }

/-- the offender failed again -/
def t : Ticket := Ticket.new "192.0.2.1" 2000 ["l1"]

example : KnownOffender j (some db) t 2 :=
  ⟨rfl, rfl, db, (db.row "sshd" 600 { Ticket.new "192.0.2.1" 1000 ["l0"] with banCount := 2 }), rfl, rfl, by decide, .inl ⟨rfl, by decide⟩⟩

-- counted three times instead of once
example : ((failureFound j (some db) 2000 s t false).fm.failList.get? "192.0.2.1").map Ticket.retry = some 3 := by decide +kernel
-- the other address is not affected
example : ((failureFound j (some db) 2000 s t false).fm.failList.get? "198.51.100.7").map Ticket.retry = some 1 := by decide +kernel
-- the second failure leads to the ban
example : (let s1 := failureFound j (some db) 2000 s t false
    let s2 := { s1 with fm := (s1.fm.addFailure { t with time := 2001 }).2 }
    (failureFound j (some db) 2001 s2 { t with time := 2001 } false).out.length) = 1 := by decide +kernel
-- the line is stored twice
example : ((failureFound j (some db) 2000 s t false).fm.failList.get? "192.0.2.1").map Ticket.getMatches = some ["l1", "l1"] := by
  decide +kernel
-- a line from before the last ban counts once
example : failureFound j (some db) 2000 s { t with time := 1000 } false = s :=
  C24_unknown _ _ _ _ _ _ (.inr (.inr (.inr (.inr ⟨db, _, rfl, rfl, by decide⟩))))

end ObserverExample

/-! ## Recording -/

/-- What `incrBanTime` finds about an address: number of earlier bans and time of the last one. -/
def Earlier (j : ObsJail) (db : Option Db) (ip : Fid) (n : Nat) (last : Int) : Prop :=
  ∃ d, db = some d ∧
    ((j.overall = false ∧ ∃ r, d.bips.get? (ip, j.name) = some r ∧ r.count = n ∧ r.time = last) ∨
     (j.overall = true ∧ n = ((d.bips.items.filter (fun kv => decide (kv.1.1 = ip))).map (fun kv => kv.2.count)).sum ∧
       (∃ k r, d.bips.get? (ip, k) = some r ∧ r.time = last) ∧ ∀ k r, d.bips.get? (ip, k) = some r → r.time ≤ last))

theorem getBan_earlier (j : ObsJail) (d : Db) (ip : Fid) (n : Nat) (last : Int) (h : Earlier j (some d) ip n last) :
    ∃ bt, d.getBan ip j.name j.overall = some (n, last, bt) := by
  obtain ⟨d', e, h⟩ := h
  cases e
  rcases h with ⟨ho, r, h1, h2, h3⟩ | ⟨ho, h1, ⟨k, r, h2, h2'⟩, h3⟩
  · exact ⟨r.banTime, by rw [ho, (C27_get_ban d ip j.name).1, h1]; simp [h2, h3]⟩
  · obtain ⟨_, g1, g2⟩ := C27_get_ban d ip j.name
    rw [ho]
    cases hg : d.getBan ip j.name true with
    | none => have := g1.1 hg k; rw [h2] at this; cases this
    | some x =>
      obtain ⟨m, tm, bt⟩ := x
      obtain ⟨g3, _, ⟨k', r', g5, g6⟩, g7⟩ := g2 m tm bt hg
      have e1 : m = n := by rw [g3, h1]
      have e2 : tm = last := by
        have a := g7 k r h2
        have b := h3 k' r' g5
        omega
      exact ⟨bt, by rw [e1, e2]⟩

theorem earlier_getBan (j : ObsJail) (d : Db) (ip : Fid) (n : Nat) (last bt : Int) (hg : d.getBan ip j.name j.overall = some (n, last, bt)) :
    Earlier j (some d) ip n last := by
  refine ⟨d, rfl, ?_⟩
  cases ho : j.overall with
  | false =>
    rw [ho] at hg
    rw [(C27_get_ban d ip j.name).1] at hg
    cases hb : d.bips.get? (ip, j.name) with
    | none => rw [hb] at hg; cases hg
    | some r =>
      rw [hb] at hg
      simp at hg
      exact .inl ⟨rfl, r, rfl, hg.1, hg.2.1⟩
  | true =>
    rw [ho] at hg
    obtain ⟨g1, _, g3, g4⟩ := (C27_get_ban d ip j.name).2.2 n last bt hg
    exact .inr ⟨rfl, g1, g3, g4⟩

/-- C23: an address that was banned `n` times before gets the ban time computed by the formula, and the ban count goes up. -/
theorem C23_applied (j : ObsJail) (db : Option Db) (now : Int) (t : Ticket) (btime : Int) (n : Nat) (last : Int)
    (ha : j.alive = true) (hi : j.increment = true) (he : Earlier j db t.id n last) (hn : 0 < n) (hb : 0 < btime) (ht : t.banTime = none)
    (hr : t.restored = false) :
    (banFound j db now t btime).ticket.banTime = some (j.evformula btime n) ∧
    n < (banFound j db now t btime).ticket.banCount ∧ t.banCount ≤ (banFound j db now t btime).ticket.banCount ∧
    (banFound j db now t btime).ticket.time = t.time ∧ (banFound j db now t btime).ticket.id = t.id := by
  obtain ⟨d, e, _⟩ := id he
  subst e
  obtain ⟨bt, hg⟩ := getBan_earlier j d t.id n last he
  have hb1 : btime ≠ -1 := by omega
  have hincr : incrBanTime j (some d) btime t = (j.evformula btime n,
      let t' := (if t.banCount ≤ n then t.setBanCount (n + 1) else t).setBanTime (j.evformula btime n)
      if last < t'.time then t' else { t' with restored := true }) := by
    unfold incrBanTime
    simp [ha, hi, hb, hg, hn]
  have hf : ∀ b : Bool, ∀ t', t' = (let t' := (if t.banCount ≤ n then t.setBanCount (n + 1) else t).setBanTime (j.evformula btime n)
      if last < t'.time then t' else { t' with restored := true }) →
      let t'' := if b then t'.setBanTime (j.evformula btime n) else t'
      t''.banTime = some (j.evformula btime n) ∧ n < t''.banCount ∧ t.banCount ≤ t''.banCount ∧ t''.time = t.time ∧ t''.id = t.id := by
    intro b t' e
    unfold Ticket.setBanCount Ticket.setBanTime at *
    dsimp only at e ⊢
    by_cases h1 : t.banCount ≤ n
    · have h1' : t.banCount < n + 1 := by omega
      rw [if_pos h1] at e
      simp only [Bool.false_or, decide_eq_true_eq, h1', if_true] at e
      split at e <;> subst e <;> cases b <;> refine ⟨rfl, ?_, ?_, rfl, rfl⟩ <;> simp <;> omega
    · rw [if_neg h1] at e
      split at e <;> subst e <;> cases b <;> refine ⟨rfl, ?_, ?_, rfl, rfl⟩ <;> simp <;> omega
  unfold banFound
  rw [if_neg (by simp [hr])]
  simp only [ne_eq, hb1, not_false_eq_true, ht, and_self, if_true, true_and, hincr]
  have hf' : ∀ t', t' = (if (j.evformula btime n = -1 ∨ btime < j.evformula btime n) then
      (let t' := (if t.banCount ≤ n then t.setBanCount (n + 1) else t).setBanTime (j.evformula btime n)
      if last < t'.time then t' else { t' with restored := true } : Ticket).setBanTime (j.evformula btime n) else
      (let t' := (if t.banCount ≤ n then t.setBanCount (n + 1) else t).setBanTime (j.evformula btime n)
      if last < t'.time then t' else { t' with restored := true } : Ticket)) →
      t'.banTime = some (j.evformula btime n) ∧ n < t'.banCount ∧ t.banCount ≤ t'.banCount ∧ t'.time = t.time ∧ t'.id = t.id := by
    intro t' e
    by_cases hc : (j.evformula btime n = -1 ∨ btime < j.evformula btime n)
    · rw [if_pos hc] at e; rw [e]; exact hf true _ rfl
    · rw [if_neg hc] at e; rw [e]; exact hf false _ rfl
  generalize (if (j.evformula btime n = -1 ∨ btime < j.evformula btime n) then _ else _ : Ticket) = v at hf' ⊢
  split <;> exact hf' _ rfl

/-- C23: without increments, for a jail that is not running, without database, for an address never banned before, for permanent bans and
for tickets with a ban time of their own, the ban time stays as it is, and no prolongation is scheduled. -/
theorem C23_not_applied (j : ObsJail) (db : Option Db) (now : Int) (t : Ticket) (btime : Int)
    (h : j.alive = false ∨ j.increment = false ∨ db = none ∨ (∀ n last, ¬ Earlier j db t.id n last) ∨ btime ≤ 0 ∨ t.banTime ≠ none) :
    (banFound j db now t btime).ticket.banTime = t.banTime ∧ (banFound j db now t btime).ticket.banCount = t.banCount ∧
    (banFound j db now t btime).prolongIn = none := by
  have hR : (if btime ≠ -1 ∧ t.banTime = none then incrBanTime j db btime t else (btime, t)) = (btime, t) := by
    split
    · rename_i hb
      unfold incrBanTime
      cases hdb : db with
      | none => rfl
      | some d =>
        dsimp only
        by_cases ha : j.alive = true
        · rw [if_neg (by simp [ha])]
          by_cases hc : 0 < btime ∧ j.increment = true
          · rw [if_pos hc]
            cases hg : d.getBan t.id j.name j.overall with
            | none => rfl
            | some x =>
              exfalso
              obtain ⟨n, last, bt⟩ := x
              rcases h with h | h | h | h | h | h
              · rw [ha] at h; cases h
              · rw [hc.2] at h; cases h
              · rw [hdb] at h; cases h
              · exact h n last (hdb ▸ earlier_getBan j d t.id n last bt hg)
              · omega
              · exact h hb.2
          · rw [if_neg hc]
        · rw [if_pos (by simpa using ha)]
    · rfl
  unfold banFound
  by_cases hr : t.restored = true
  · rw [if_pos hr]; exact ⟨rfl, rfl, rfl⟩
  rw [if_neg hr]
  simp only [hR, ne_eq, not_true_eq_false, if_false]
  have hu : ¬ (¬ btime = -1 ∧ t.banTime = none ∧ (btime = -1 ∨ btime < btime)) := by omega
  rw [if_neg hu]
  split <;> exact ⟨rfl, rfl, rfl⟩

/-- C23: a prolongation is scheduled if and only if the ban time changed and the ban did not end yet: at once for a change of up to 5 seconds,
else 5 seconds less than the change later, but not later than 10 seconds. -/
theorem C23_prolonged (j : ObsJail) (db : Option Db) (now : Int) (t : Ticket) (btime : Int) (hr : t.restored = false)
    (hbt : t.banTime = none ∨ t.banTime = some btime) :
    let r := banFound j db now t btime
    let new := r.ticket.getBanTime btime
    (r.prolongIn ≠ none ↔ new ≠ btime ∧ (new = -1 ∨ now ≤ t.time + new)) ∧
    ∀ x, r.prolongIn = some x → 0 ≤ x ∧ x ≤ 10 ∧ (0 < x → x ≤ new - btime - 5) ∧ (x < 10 → new - btime - 5 ≤ x) := by
  have hinc : ∀ b, (incrBanTime j db b t).2.time = t.time ∧ ((incrBanTime j db b t).2.banTime = some (incrBanTime j db b t).1 ∨
        (incrBanTime j db b t).2.banTime = t.banTime ∧ (incrBanTime j db b t).1 = b) := by
    intro b
    unfold incrBanTime
    cases db with
    | none => exact ⟨rfl, .inr ⟨rfl, rfl⟩⟩
    | some d =>
      dsimp only
      split
      · exact ⟨rfl, .inr ⟨rfl, rfl⟩⟩
      split
      · cases hg : d.getBan t.id j.name j.overall with
        | none => exact ⟨rfl, .inr ⟨rfl, rfl⟩⟩
        | some x =>
          obtain ⟨n, last, bt⟩ := x
          dsimp only
          have hu : (if t.banCount ≤ n then t.setBanCount (n + 1) else t).time = t.time := by
            unfold Ticket.setBanCount
            split
            · split <;> rfl
            · rfl
          generalize (if t.banCount ≤ n then t.setBanCount (n + 1) else t) = u at *
          generalize (if 0 < n then j.evformula b n else b) = x
          split
          · exact ⟨hu, .inl rfl⟩
          · exact ⟨hu, .inl rfl⟩
      · exact ⟨rfl, .inr ⟨rfl, rfl⟩⟩
  intro r new
  have er : r = banFound j db now t btime := rfl
  have en : new = r.ticket.getBanTime btime := rfl
  clear_value r new
  unfold banFound at er
  rw [if_neg (by simp [hr])] at er
  dsimp only at er
  generalize hR : (if btime ≠ -1 ∧ t.banTime = none then incrBanTime j db btime t else (btime, t)) = R at er
  have hRf : R.2.time = t.time ∧ (R.2.banTime = some R.1 ∨ R.2.banTime = t.banTime ∧ R.1 = btime) := by
    rw [← hR]
    split
    · exact hinc btime
    · exact ⟨rfl, .inr ⟨rfl, rfl⟩⟩
  generalize hU : (if btime ≠ -1 ∧ t.banTime = none ∧ (R.1 = -1 ∨ btime < R.1) then R.2.setBanTime R.1 else R.2) = u at er
  have hUf : u.time = t.time ∧ u.getBanTime btime = R.1 := by
    have hb : R.2.getBanTime btime = R.1 := by
      unfold Ticket.getBanTime
      rcases hRf.2 with e | ⟨e, e'⟩
      · rw [e]
      · rw [e, e']
        rcases hbt with h | h
        · rw [h]
        · rw [h]
    rw [← hU]
    split
    · exact ⟨hRf.1, rfl⟩
    · exact ⟨hRf.1, hb⟩
  have hnew : new = R.1 := by
    rw [en, er]
    split <;> exact hUf.2
  rw [hUf.1] at er
  rw [hnew]
  by_cases hold : R.1 ≠ -1 ∧ t.time + R.1 < now
  · rw [if_pos hold] at er
    rw [er]
    exact ⟨⟨fun h => absurd rfl h, fun h => by omega⟩, fun x h => (by cases h)⟩
  · rw [if_neg hold] at er
    rw [er]
    dsimp only
    by_cases hne : R.1 ≠ btime
    · rw [if_pos hne]
      refine ⟨⟨fun _ => ⟨hne, by omega⟩, fun _ h => (by cases h)⟩, ?_⟩
      intro x hx
      injection hx with hx
      omega
    · rw [if_neg hne]
      exact ⟨⟨fun h => absurd rfl h, fun h => absurd h.1 hne⟩, fun x h => (by cases h)⟩

/-- C26: a ban found again in log lines read after a restart (not newer than the recorded one) is not recorded again. -/
theorem C26_reread (j : ObsJail) (db : Option Db) (now : Int) (t : Ticket) (btime : Int) (n : Nat) (last : Int)
    (ha : j.alive = true) (hi : j.increment = true) (he : Earlier j db t.id n last) (hb : 0 < btime) (ht : t.banTime = none)
    (hl : t.time ≤ last) : (banFound j db now t btime).db = db := by
  by_cases hr : t.restored = true
  · exact (C26_restored j db now t btime hr).1
  obtain ⟨d, e, _⟩ := id he
  subst e
  obtain ⟨bt, hg⟩ := getBan_earlier j d t.id n last he
  have hb1 : btime ≠ -1 := by omega
  have hres : (incrBanTime j (some d) btime t).2.restored = true := by
    unfold incrBanTime
    simp only [ha, hi, hb, hg, Bool.not_true, Bool.false_eq_true, if_false, and_self, if_true]
    have : ∀ x : Int, ¬ last < ((if t.banCount ≤ n then t.setBanCount (n + 1) else t).setBanTime x).time := by
      intro x
      unfold Ticket.setBanTime Ticket.setBanCount
      dsimp only
      split
      · split <;> (try simp only) <;> omega
      · omega
    rw [if_neg (this _)]
  unfold banFound
  rw [if_neg hr]
  simp only [ne_eq, hb1, not_false_eq_true, ht, and_self, if_true, true_and]
  generalize incrBanTime j (some d) btime t = r at *
  have hres' : (if r.1 = -1 ∨ btime < r.1 then r.2.setBanTime r.1 else r.2).restored = true := by
    split
    · exact hres
    · exact hres
  generalize (if r.1 = -1 ∨ btime < r.1 then r.2.setBanTime r.1 else r.2) = v at *
  split
  · rfl
  · rfl

/-- C26: one report of a ban leads to at most one record, which is that of the ticket as it was left, and only in this jail. -/
theorem C26_once (j : ObsJail) (d : Db) (now : Int) (t : Ticket) (btime : Int) :
    (banFound j (some d) now t btime).db = some d ∨
    t.restored = false ∧ (banFound j (some d) now t btime).ticket.restored = false ∧
      (banFound j (some d) now t btime).db = some (d.step (.addBan j.name j.banTime (banFound j (some d) now t btime).ticket)) := by
  unfold banFound
  by_cases hr : t.restored = true
  · left; rw [if_pos hr]
  rw [if_neg hr]
  dsimp only
  generalize (if btime ≠ -1 ∧ t.banTime = none then incrBanTime j (some d) btime t else (btime, t)) = r
  generalize (if btime ≠ -1 ∧ t.banTime = none ∧ (r.1 = -1 ∨ btime < r.1) then r.2.setBanTime r.1 else r.2) = u
  split
  · left; rfl
  · dsimp only
    by_cases hu : u.restored = true
    · left; rw [if_pos hu]
    · right; rw [if_neg hu]; exact ⟨by simpa using hr, by simpa using hu, rfl⟩

/-- C26: all bans put back at a start are reported without leaving a trace in the database. -/
theorem C26_restart (jc : JailCfg) (j : ObsJail) (d : Db) (hok : d.Ok) (now : Int) (ignored : Ticket → Option Bool) (btime : Ticket → Int) :
    (jc.restoreCurrentBans d now ignored).foldl (fun db t => (banFound j db now t (btime t)).db) (some d) = some d := by
  have : ∀ l : List Ticket, (∀ t ∈ l, t.restored = true) → l.foldl (fun db t => (banFound j db now t (btime t)).db) (some d) = some d := by
    intro l
    induction l with
    | nil => intro _; rfl
    | cons t l ih =>
      intro h
      rw [List.foldl_cons, (C26_restored j (some d) now t (btime t) (h t (List.mem_cons_self ..))).1]
      exact ih (fun t' ht' => h t' (List.mem_cons_of_mem _ ht'))
  apply this
  intro t ht
  obtain ⟨r, _, h, _⟩ := C25_sound jc d hok now ignored t ht
  exact h.2.2.2.2.1

/-- C26: stopping and starting (jails removed and added, positions of logs) leaves the records as they are. -/
theorem C26_stop_start (s : Db) (ops : List Db.Op)
    (h : ∀ op ∈ ops, (∃ n, op = .addJail n) ∨ (∃ n, op = .delJail n)) : (s.run ops).bans = s.bans ∧ (s.run ops).bips = s.bips := by
  induction ops generalizing s with
  | nil => exact ⟨rfl, rfl⟩
  | cons op ops ih =>
    have h1 := ih (s.step op) (fun o ho => h o (List.mem_cons_of_mem _ ho))
    have h2 : (s.step op).bans = s.bans ∧ (s.step op).bips = s.bips := by
      rcases h op (List.mem_cons_self ..) with ⟨n, e⟩ | ⟨n, e⟩
      · subst e; exact ⟨rfl, rfl⟩
      · subst e
        show (s.delJail n).bans = _ ∧ (s.delJail n).bips = _
        unfold Db.delJail
        split <;> exact ⟨rfl, rfl⟩
    show ((s.step op).run ops).bans = _ ∧ ((s.step op).run ops).bips = _
    exact ⟨h1.1.trans h2.1, h1.2.trans h2.2⟩

/-- C26: a new ban that did not end yet is recorded, exactly once, in the history and as the current ban of the address in this jail; the
records of others stay as they are. -/
theorem C26_recorded (j : ObsJail) (d : Db) (now : Int) (t : Ticket) (btime : Int)
    (hj : d.jails.contains j.name = true) (hr : t.restored = false) (hnew : ∀ n last, Earlier j (some d) t.id n last → last < t.time)
    (hend : (banFound j (some d) now t btime).ticket.getBanTime btime = -1 ∨
      now ≤ t.time + (banFound j (some d) now t btime).ticket.getBanTime btime)
    (hbt : t.banTime = none ∨ t.banTime = some btime) :
    ∃ d' r, (banFound j (some d) now t btime).db = some d' ∧
      Spec.Database.IsRecordOf d.maxMatches j.name j.banTime (banFound j (some d) now t btime).ticket r ∧ r.ip = t.id ∧
      d'.bans = d.bans ++ [r] ∧ d'.bips.get? (t.id, j.name) = some r ∧
      ∀ k, k ≠ (t.id, j.name) → d'.bips.get? k = d.bips.get? k := by
  -- the ticket that is recorded
  have key : ∀ u : Ticket, u.id = t.id → ∃ d' r, some (d.addBan j.name j.banTime u).2 = some d' ∧
      Spec.Database.IsRecordOf d.maxMatches j.name j.banTime u r ∧ r.ip = t.id ∧
      d'.bans = d.bans ++ [r] ∧ d'.bips.get? (t.id, j.name) = some r ∧ ∀ k, k ≠ (t.id, j.name) → d'.bips.get? k = d.bips.get? k := by
    intro u hu
    refine ⟨_, d.row j.name j.banTime u, rfl, Db.isRecordOf_row d j.name j.banTime u, hu, ?_, ?_, ?_⟩
    · rw [Db.addBan_eq]; simp [hj]
    · rw [Db.addBan_eq]; simp [hj, hu]
    · intro k hk
      rw [Db.addBan_eq]
      simp only [hj, if_true]
      rw [hu]
      exact Dict.get?_insert_ne _ hk _
  -- what incrBanTime does
  have hinc : ∀ b, (incrBanTime j (some d) b t).2.id = t.id ∧ (incrBanTime j (some d) b t).2.time = t.time ∧
      (incrBanTime j (some d) b t).2.restored = false ∧
      ((incrBanTime j (some d) b t).2.banTime = some (incrBanTime j (some d) b t).1 ∨
        (incrBanTime j (some d) b t).2.banTime = t.banTime ∧ (incrBanTime j (some d) b t).1 = b) := by
    intro b
    unfold incrBanTime
    dsimp only
    split
    · exact ⟨rfl, rfl, hr, .inr ⟨rfl, rfl⟩⟩
    split
    · rename_i hc
      cases hg : d.getBan t.id j.name j.overall with
      | none => exact ⟨rfl, rfl, hr, .inr ⟨rfl, rfl⟩⟩
      | some x =>
        obtain ⟨n, last, bt⟩ := x
        dsimp only
        have hE : Earlier j (some d) t.id n last := earlier_getBan j d t.id n last bt hg
        have hlt := hnew n last hE
        generalize (if 0 < n then j.evformula b n else b) = x
        have hu : (if t.banCount ≤ n then t.setBanCount (n + 1) else t).id = t.id ∧
          (if t.banCount ≤ n then t.setBanCount (n + 1) else t).time = t.time ∧
          (if t.banCount ≤ n then t.setBanCount (n + 1) else t).restored = false := by
          unfold Ticket.setBanCount
          split
          · split <;> exact ⟨rfl, rfl, hr⟩
          · exact ⟨rfl, rfl, hr⟩
        generalize (if t.banCount ≤ n then t.setBanCount (n + 1) else t) = u at *
        rw [if_pos (by show last < u.time; rw [hu.2.1]; exact hlt)]
        exact ⟨hu.1, hu.2.1, hu.2.2, .inl rfl⟩
    · exact ⟨rfl, rfl, hr, .inr ⟨rfl, rfl⟩⟩
  revert hend
  unfold banFound
  rw [if_neg (by simp [hr])]
  dsimp only
  generalize hR : (if btime ≠ -1 ∧ t.banTime = none then incrBanTime j (some d) btime t else (btime, t)) = R
  have hRf : R.2.id = t.id ∧ R.2.time = t.time ∧ R.2.restored = false ∧ (R.2.banTime = some R.1 ∨ R.2.banTime = t.banTime ∧ R.1 = btime) := by
    rw [← hR]
    split
    · exact hinc btime
    · exact ⟨rfl, rfl, hr, .inr ⟨rfl, rfl⟩⟩
  generalize hU : (if btime ≠ -1 ∧ t.banTime = none ∧ (R.1 = -1 ∨ btime < R.1) then R.2.setBanTime R.1 else R.2) = u
  have hUf : u.id = t.id ∧ u.time = t.time ∧ u.restored = false ∧ u.getBanTime btime = R.1 := by
    have hb : R.2.getBanTime btime = R.1 := by
      unfold Ticket.getBanTime
      rcases hRf.2.2.2 with e | ⟨e, e'⟩
      · rw [e]
      · rw [e, e']
        rcases hbt with h | h
        · rw [h]
        · rw [h]
    rw [← hU]
    split
    · exact ⟨hRf.1, hRf.2.1, hRf.2.2.1, rfl⟩
    · exact ⟨hRf.1, hRf.2.1, hRf.2.2.1, hb⟩
  intro hend
  have hold : ¬ (R.1 ≠ -1 ∧ u.time + R.1 < now) := by
    intro hc
    rw [if_pos hc] at hend
    dsimp only at hend
    rw [hUf.2.2.2, ← hUf.2.1] at hend
    omega
  rw [if_neg hold]
  dsimp only
  rw [hUf.2.2.1]
  exact key u hUf.1

namespace RestartExample

/-- a jail without increments -/
def jc : JailCfg := { name := "sshd", increment := false, maxtime := none, banTime := 600, maxMatches := 5 }

/-- two addresses were banned, one at 1000 and one at 1500 -/
def db : Db :=
  ((((Db.init.addJail "sshd").addBan "sshd" 600 (Ticket.new "192.0.2.1" 1000 ["l0"])).2).addBan "sshd" 600
    { Ticket.new "192.0.2.9" 1500 ["l1", "l2"] with banCount := 3, failures := 7 }).2

-- after a restart at 1700 one of the bans still runs: same start, same number of bans and failures
example : ((jc.restoreCurrentBans db 1700 (fun _ => some false)).map (fun t => (t.id, t.time, t.banTime, t.banCount, t.failures, t.restored)))
    = [("192.0.2.9", 1500, some 600, 3, 7, true)] := by decide +kernel
-- at 1550 both do, in the order of the addresses
example : ((jc.restoreCurrentBans db 1550 (fun _ => some false)).map Ticket.id) = ["192.0.2.1", "192.0.2.9"] := by decide +kernel
-- an address ignored since is not banned again
example : ((jc.restoreCurrentBans db 1550 (fun t : Ticket => some (t.id == "192.0.2.1"))).map Ticket.id) = ["192.0.2.9"] := by decide +kernel
-- a shorter ban time of the jail ends the ban earlier
example : ((({ jc with banTime := 100 } : JailCfg).restoreCurrentBans db 1550 (fun _ => some false)).map (fun t => (t.id, t.banTime)))
    = [("192.0.2.9", some 100)] := by decide +kernel
-- the same failure read again from the log is not a new record
example : ((banFound ObserverExample.j (some ObserverExample.db) 1100 (Ticket.new "192.0.2.1" 1000 ["l0"]) 600).db.map (fun d => d.bans.length))
    = some 1 := by decide +kernel
-- a newer one is, with ban time 600 * 2^2 and count 3
example : ((banFound ObserverExample.j (some ObserverExample.db) 5100 (Ticket.new "192.0.2.1" 5000 ["l9"]) 600).db.map
    (fun d => (d.bans.map (fun r => (r.time, r.banTime, r.count))))) = some [(1000, 600, 2), (5000, 2400, 3)] := by decide +kernel

end RestartExample

end Verif
