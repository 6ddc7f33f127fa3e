import Verif.Props.Filter

/-! # Log lines to bans (C52) -/

namespace Verif

open IPAddr Spec.Filt Spec.Fail FailManager

namespace Filter

/-- A report is counted; the address is tracked afterwards with the number returned. -/
theorem add_new (fm : FailManager) (t : Ticket) (c : Nat) (hb : t.isBan = false) :
    ∃ d, (fm.addFailure t c).2.failList.get? t.id = some d ∧ d.retry = (fm.addFailure t c).1 := by
  unfold addFailure
  cases hg : fm.failList.get? t.id with
  | none =>
    unfold addNew
    simp only [hb, Bool.or_self, Bool.false_eq_true, if_false]
    exact ⟨_, Dict.get?_insert_self _ _ _, rfl⟩
  | some f =>
    dsimp only
    rcases fm.updateTracked f t c false with ⟨f', _ | _⟩
    · dsimp only
      unfold addNew
      simp only [hb, Bool.or_self, Bool.false_eq_true, if_false]
      exact ⟨_, Dict.get?_insert_self _ _ _, rfl⟩
    · exact ⟨_, Dict.get?_insert_self _ _ _, rfl⟩

theorem toBan_tracked (fm : FailManager) (x : Fid) (d : Ticket) (h : fm.failList.get? x = some d) :
    fm.toBan (some x) =
      if fm.maxRetry ≤ d.retry then (some d, { fm with failList := fm.failList.erase x }) else (none, fm) := by
  have hc : fm.failList.contains x = true := by simp [Dict.contains, h]
  unfold FailManager.toBan
  by_cases hm : fm.maxRetry ≤ d.retry
  · simp [FailManager.toBanCands, hc, FailManager.toBanLoop, h, hm]
  · simp [FailManager.toBanCands, hc, FailManager.toBanLoop, h, hm]

/-- Counting one report: the state of the failure manager and what is handed over. -/
theorem counted (fm : FailManager) (t : Ticket) (c : Nat) (hb : t.isBan = false) : ∃ d, (fm.addFailure t c).2.failList.get? t.id = some d ∧
    d.retry = (fm.addFailure t c).1 ∧
    (((fm.addFailure t c).2.maxRetry ≤ (fm.addFailure t c).1 ∧
      (fm.addFailure t c).2.toBan (some t.id) =
        (some d, { (fm.addFailure t c).2 with failList := (fm.addFailure t c).2.failList.erase t.id })) ∨
    ¬ (fm.addFailure t c).2.maxRetry ≤ (fm.addFailure t c).1) := by
  obtain ⟨d, h1, h2⟩ := add_new fm t c hb
  refine ⟨d, h1, h2, ?_⟩
  by_cases hm : (fm.addFailure t c).2.maxRetry ≤ (fm.addFailure t c).1
  · left
    refine ⟨hm, ?_⟩
    rw [toBan_tracked _ _ _ h1, if_pos (by rw [h2]; exact hm)]
  · exact .inr hm

/-- Induction over what histories of lines do to the failure manager and to the events: expiry, one report (`below`: the limit is not
reached, `reached`: it is, and the ticket is handed over), telling the observer. -/
theorem lines_induct (P : FailManager → List FEvent → List Report → Prop) (s : Filter) (h : List LineStep)
    (h0 : P s.fm s.out [])
    (hclean : ∀ fm out rs now, now ∈ h.map Prod.fst → P fm out rs → P (fm.cleanup now) out rs)
    (hbelow : ∀ fm out rs r suf d, reportsOf s h = rs ++ r :: suf → P fm out rs →
      (fm.addFailure (ticket r)).2.failList.get? r.id = some d → d.retry < (fm.addFailure (ticket r)).2.maxRetry →
      P (fm.addFailure (ticket r)).2 out (rs ++ [r]))
    (hreached : ∀ fm out rs r suf d, reportsOf s h = rs ++ r :: suf → P fm out rs →
      (fm.addFailure (ticket r)).2.failList.get? r.id = some d → (fm.addFailure (ticket r)).2.maxRetry ≤ d.retry →
      P { (fm.addFailure (ticket r)).2 with failList := (fm.addFailure (ticket r)).2.failList.erase r.id } (out ++ [FEvent.put d])
        (rs ++ [r]))
    (htell : ∀ fm out rs t, P fm out rs → P fm (out ++ [FEvent.failureFound t]) rs) :
    P (runLines s h).fm (runLines s h).out (reportsOf s h) := by
  have hsvc : ∀ (s' : Filter) (now : Int) rs b, now ∈ h.map Prod.fst → P s'.fm s'.out rs →
      P (s'.performSvc now b).fm (s'.performSvc now b).out rs := by
    intro s' now rs b hn hp
    unfold performSvc
    split
    · exact hclean _ _ _ _ hn hp
    · exact hp
  have hcount : ∀ (env : IgnoreEnv) (now : Int) (s' : Filter) (f : Found) (t : Int) rs suf, now ∈ h.map Prod.fst →
      reportsOf s h = rs ++ ⟨fid env f, t, f.lines⟩ :: suf → P s'.fm s'.out rs →
      P (count env now s' f t).fm (count env now s' f t).out (rs ++ [⟨fid env f, t, f.lines⟩]) := by
    intro env now s' f t rs suf hn hs hp
    obtain ⟨d, h1, h2, h3⟩ := counted s'.fm (Ticket.new (fid env f) t f.lines) 1 rfl
    have hfin : ∀ s1 : Filter, P s1.fm s1.out (rs ++ [⟨fid env f, t, f.lines⟩]) →
        P (if s1.observer then { s1 with out := s1.out ++ [FEvent.failureFound (Ticket.new (fid env f) t f.lines)] } else s1).fm
          (if s1.observer then { s1 with out := s1.out ++ [FEvent.failureFound (Ticket.new (fid env f) t f.lines)] } else s1).out
          (rs ++ [⟨fid env f, t, f.lines⟩]) := by
      intro s1 h
      split
      · exact htell _ _ _ _ h
      · exact h
    unfold count
    dsimp only
    apply hfin
    rcases h3 with ⟨h3, h4⟩ | h3
    · rw [if_pos h3]
      unfold performBan
      have h4' : (s'.fm.addFailure (Ticket.new (fid env f) t f.lines)).2.toBan (some (fid env f)) = _ := h4
      dsimp only
      rw [h4']
      dsimp only
      apply hsvc _ _ _ _ hn
      exact hreached s'.fm s'.out rs ⟨fid env f, t, f.lines⟩ suf d hs hp h1 (by rw [h2]; exact h3)
    · rw [if_neg h3]
      exact hbelow s'.fm s'.out rs ⟨fid env f, t, f.lines⟩ suf d hs hp h1 (by rw [h2]; exact Nat.lt_of_not_le h3)
  have hloop : ∀ (env : IgnoreEnv) (now : Int) (date : Option Int) (fs : List Found) (s' : Filter) rs suf, now ∈ h.map Prod.fst →
      reportsOf s h = rs ++ ((kept env now s'.ign fs).map (fun f => (⟨fid env f, clamp s' now date, f.lines⟩ : Report))) ++ suf →
      P s'.fm s'.out rs →
      P (addLoop env now s' (fs.map (fun f => (f, date)))).2.fm (addLoop env now s' (fs.map (fun f => (f, date)))).2.out
        (rs ++ ((kept env now s'.ign fs).map (fun f => (⟨fid env f, clamp s' now date, f.lines⟩ : Report)))) := by
    intro env now date fs
    induction fs with
    | nil => intro s' rs suf _ _ hp; simpa [kept, addLoop] using hp
    | cons f fs ih =>
      intro s' rs suf hn hs hp
      simp only [List.map_cons, addLoop, kept] at hs ⊢
      rw [addFound_eq]
      rcases hq : s'.ign.inIgnoreIPList env now f.ip with ⟨_ | _ | _, g⟩
      · simpa using hp
      · rw [hq] at hs
        dsimp only at hs ⊢
        have c1 := (count_spec env now { s' with ign := g } f (clamp s' now date)).1
        have hcl : clamp (count env now { s' with ign := g } f (clamp s' now date)) now date = clamp s' now date := by
          show (if (count env now { s' with ign := g } f (clamp s' now date)).checkFindTime && decide (now < date.getD now) then now
            else date.getD now) = _
          rw [c1.checkFindTime]; rfl
        have hcc := hcount env now { s' with ign := g } f (clamp s' now date) rs
          ((kept env now g fs).map (fun f => (⟨fid env f, clamp s' now date, f.lines⟩ : Report)) ++ suf) hn
          (by rw [hs]; simp) hp
        have := ih (count env now { s' with ign := g } f (clamp s' now date)) (rs ++ [⟨fid env f, clamp s' now date, f.lines⟩]) suf hn
          (by rw [hs, c1.ign, hcl]; simp) hcc
        rw [c1.ign, hcl] at this
        simpa using this
      · rw [hq] at hs
        exact ih { s' with ign := g } rs suf hn hs hp
  have hline : ∀ (x : LineStep) (s' : Filter) rs suf, x.1 ∈ h.map Prod.fst →
      reportsOf s h = rs ++ reports x.2.1 x.1 s' x.2.2 ++ suf → P s'.fm s'.out rs →
      P (s'.processLineAndAdd x.2.1 x.1 x.2.2).fm (s'.processLineAndAdd x.2.1 x.1 x.2.2).out
        (rs ++ reports x.2.1 x.1 s' x.2.2) := by
    rintro ⟨now, env, l⟩ s' rs suf hn hs hp
    dsimp only at hn hs ⊢
    have herr : ∀ s1 : Filter, P s1.fm s1.out (rs ++ reports env now s' l) →
        P s1.commonError.fm s1.commonError.out (rs ++ reports env now s' l) := by
      intro s1 h
      rw [(commonError_cfg s1).1, (commonError_cfg s1).2.1]; exact h
    have hdone : ∀ s1 : Filter, P s1.fm s1.out (rs ++ reports env now s' l) →
        P (s1.lineDone now).fm (s1.lineDone now).out (rs ++ reports env now s' l) := by
      intro s1 h
      rw [(lineDone_cfg s1 now).2.1]
      rcases (lineDone_cfg s1 now).2.2.2.2.2.2.2.2.2.2 with e | e
      · rw [e]; exact h
      · rw [e]; exact hclean _ _ _ _ hn h
    obtain ⟨⟨d, hd⟩, hc⟩ := processLine_spec s' now l
    rcases hpl : s'.processLine now l with ⟨r, s1⟩
    rw [hpl] at hd hc
    dsimp only at hd hc
    subst hd
    unfold processLineAndAdd
    rw [hpl]
    rcases hc with ⟨t, fs, date, h1, h2, h3, h4⟩ | ⟨h1, _, h4⟩ | ⟨h1, _, h4⟩
    · subst h4
      dsimp only
      have hrep : reports env now s' l = (kept env now s'.ign fs).map (fun f => ⟨fid env f, t, f.lines⟩) := by
        unfold reports; rw [h1, h2]; rfl
      have hcl : clamp { s' with lastDate := d } now date = t := h3
      have := hloop env now date fs { s' with lastDate := d } rs suf hn
        (by rw [hs, hrep, hcl]) hp
      rw [hcl] at this
      have this : P _ _ (rs ++ (kept env now s'.ign fs).map (fun f => (⟨fid env f, t, f.lines⟩ : Report))) := this
      rw [← hrep] at this
      rcases hl : addLoop env now { s' with lastDate := d } (fs.map (fun f => (f, date))) with ⟨_ | _, s2⟩
      · rw [hl] at this; exact herr s2 this
      · rw [hl] at this; exact hdone s2 this
    · have hrep : reports env now s' l = [] := by unfold reports; rw [h1]
      have hp' : P s'.fm s'.out (rs ++ reports env now s' l) := by rw [hrep, List.append_nil]; exact hp
      rcases h4 with h4 | h4
      · subst h4; exact hdone { s' with lastDate := d } hp'
      · subst h4; exact herr { s' with lastDate := d } hp'
    · have hrep : reports env now s' l = [] := by unfold reports; rw [h1]; cases lineTime s' now l <;> rfl
      subst h4
      exact herr { s' with lastDate := d } (by rw [hrep, List.append_nil]; exact hp)
  have hall : ∀ (h' : List LineStep) (s' : Filter) rs, (∀ x ∈ h', x ∈ h) → reportsOf s h = rs ++ reportsOf s' h' →
      P s'.fm s'.out rs → P (runLines s' h').fm (runLines s' h').out (rs ++ reportsOf s' h') := by
    intro h'
    induction h' with
    | nil => intro s' rs _ _ hp; simpa [reportsOf, runLines] using hp
    | cons x h' ih =>
      intro s' rs hm hs hp
      have := hline x s' rs (reportsOf (s'.processLineAndAdd x.2.1 x.1 x.2.2) h')
        (List.mem_map_of_mem (hm x (by simp))) (by rw [hs]; simp [reportsOf]) hp
      have := ih _ _ (fun y hy => hm y (List.mem_cons_of_mem _ hy)) (by rw [hs]; simp [reportsOf]) this
      rw [List.append_assoc] at this
      exact this
  simpa using hall h s [] (fun _ h => h) (by simp) h0

end Filter

open Filter

/-- reports of one address -/
def of (x : Fid) (rs : List Report) : List Report := rs.filter (fun r => r.id = x)

/-- tickets of one address -/
def ticketsOf (x : Fid) (ts : List Ticket) : List Ticket := ts.filter (fun t => t.id = x)

theorem of_snoc (x : Fid) (rs : List Report) (r : Report) : of x (rs ++ [r]) = of x rs ++ (if r.id = x then [r] else []) := by
  unfold of
  rw [List.filter_append, List.filter_cons]
  by_cases h : r.id = x <;> simp [h]

theorem handedOver_put (out : List FEvent) (t : Ticket) : handedOver (out ++ [FEvent.put t]) = handedOver out ++ [t] := by
  rw [handedOver_append]; rfl

theorem handedOver_tell (out : List FEvent) (t : Ticket) : handedOver (out ++ [FEvent.failureFound t]) = handedOver out := by
  rw [handedOver_append]; simp [handedOver]

/-- **C52 (each ban needs its own failures).** For every history of lines: a ticket handed over to be banned has reached `maxretry`, and the failures counted by all the
tickets of an address handed over so far are at most the number of (not ignored) failures of that address found in the log.
In particular `n` bans of an address take at least `n * maxretry` failures. -/
theorem C52_each_ban (s : Filter) (h : List LineStep) (hfm : s.fm.failList = Dict.empty) (hout : s.out = []) (x : Fid) :
    (∀ t ∈ handedOver (runLines s h).out, s.fm.maxRetry ≤ t.retry) ∧
    ((ticketsOf x (handedOver (runLines s h).out)).map Ticket.retry).sum ≤ (of x (reportsOf s h)).length ∧
    (ticketsOf x (handedOver (runLines s h).out)).length * s.fm.maxRetry ≤ (of x (reportsOf s h)).length := by
  have key := lines_induct (fun fm out rs => KeyId fm ∧ fm.maxRetry = s.fm.maxRetry ∧
      (∀ t ∈ handedOver out, s.fm.maxRetry ≤ t.retry) ∧
      ((ticketsOf x (handedOver out)).map Ticket.retry).sum + ((fm.failList.get? x).elim 0 Ticket.retry) ≤ (of x rs).length) s h
    ?_ ?_ ?_ ?_ ?_
  · obtain ⟨_, _, h3, h4⟩ := key
    refine ⟨h3, by omega, ?_⟩
    have hle : ∀ ts : List Ticket, (∀ t ∈ ts, s.fm.maxRetry ≤ t.retry) → ts.length * s.fm.maxRetry ≤ (ts.map Ticket.retry).sum := by
      intro ts
      induction ts with
      | nil => intro _; simp
      | cons t ts ih =>
        intro h
        have h1 := ih (fun u hu => h u (List.mem_cons_of_mem _ hu))
        have h2 := h t (by simp)
        simp only [List.length_cons, List.map_cons, List.sum_cons, Nat.add_mul, Nat.one_mul]
        omega
    have := hle (ticketsOf x (handedOver (runLines s h).out)) (fun t ht => h3 t (List.mem_filter.1 ht).1)
    omega
  · refine ⟨fun y d hd => ?_, rfl, ?_, ?_⟩
    · rw [hfm] at hd; cases hd
    · rw [hout]; intro t ht; cases ht
    · rw [hout, hfm]; exact Nat.le_refl _
  · rintro fm out rs now - ⟨h1, h2, h3, h4⟩
    refine ⟨keyId_step fm (.cleanup now) h1, (cleanup_cfg fm now).1.trans h2, h3, Nat.le_trans ?_ h4⟩
    rw [get?_cleanup]
    cases fm.failList.get? x with
    | none => exact Nat.le_refl _
    | some d =>
      rw [Option.filter_some]
      split <;> simp
  · rintro fm out rs r suf d - ⟨h1, h2, h3, h4⟩ hd hlt
    have hstep := step_retry_le fm r.op x
    refine ⟨keyId_step fm r.op h1, (addFailure_cfg fm _ _ _ _).1.trans h2, h3, ?_⟩
    rw [of_snoc, List.length_append]
    cases hg : (fm.addFailure (ticket r)).2.failList.get? x with
    | none => simp only [Option.elim]; omega
    | some e =>
      simp only [Option.elim]
      rcases hstep e h1 hg with ⟨f, hf, hle⟩ | ⟨hf, hle⟩
      · rw [weight_plain] at hle
        rw [hf] at h4
        simp only [Option.elim] at h4
        by_cases hx : r.id = x
        · rw [if_pos hx] at hle ⊢; simp only [List.length_cons, List.length_nil]; omega
        · rw [if_neg hx] at hle ⊢; simp only [List.length_nil]; omega
      · rw [weight_plain] at hle
        rw [hf] at h4
        simp only [Option.elim] at h4
        by_cases hx : r.id = x
        · rw [if_pos hx] at hle ⊢; simp only [List.length_cons, List.length_nil]; omega
        · rw [if_neg hx] at hle ⊢; simp only [List.length_nil]; omega
  · rintro fm out rs r suf d - ⟨h1, h2, h3, h4⟩ hd hle
    have hstep := step_retry_le fm r.op x
    have hk := keyId_step fm r.op h1
    have hm : (fm.addFailure (ticket r)).2.maxRetry = s.fm.maxRetry := (addFailure_cfg fm _ _ _ _).1.trans h2
    have hid : d.id = r.id := hk _ _ hd
    refine ⟨?_, hm, ?_, ?_⟩
    · intro y e he
      rw [Dict.get?_erase] at he
      split at he
      · cases he
      · exact hk y e he
    · intro t ht
      rw [handedOver_put, List.mem_append, List.mem_singleton] at ht
      rcases ht with ht | rfl
      · exact h3 t ht
      · rw [← hm]; exact hle
    · rw [handedOver_put, of_snoc, List.length_append]
      dsimp only
      rw [Dict.get?_erase]
      unfold ticketsOf at h4 ⊢
      rw [List.filter_append, List.map_append, List.sum_append, List.filter_cons]
      by_cases hx : r.id = x
      · subst hx
        simp only [hid, decide_true, if_true, List.filter_nil, List.map_cons, List.map_nil, List.sum_cons, List.sum_nil,
          List.length_cons, List.length_nil, Option.elim]
        rcases hstep d h1 hd with ⟨f, hf, hle'⟩ | ⟨hf, hle'⟩
        · rw [weight_plain, if_pos rfl] at hle'
          rw [hf] at h4; simp only [Option.elim] at h4; omega
        · rw [weight_plain, if_pos rfl] at hle'
          rw [hf] at h4; simp only [Option.elim] at h4; omega
      · have hx' : ¬ x = r.id := fun e => hx e.symm
        have hg : (fm.addFailure (ticket r)).2.failList.get? x = fm.failList.get? x := get?_addFailure_ne fm _ _ _ _ hx'
        rw [if_neg hx', if_neg hx, if_neg (by rw [hid]; simpa using hx), hg]
        simpa using h4
  · rintro fm out rs t ⟨h1, h2, h3, h4⟩
    rw [handedOver_tell]
    exact ⟨h1, h2, h3, h4⟩

/-- **C52 (no address lingers at the limit).** For every history of lines: after each line, every address still in the failure list is below `maxretry`; as soon
as an address reaches it, it is handed over while the very same line is processed. -/
theorem C52_below (s : Filter) (h : List LineStep) (hb : ∀ x d, s.fm.failList.get? x = some d → d.retry < s.fm.maxRetry) :
    (runLines s h).fm.maxRetry = s.fm.maxRetry ∧
    ∀ x d, (runLines s h).fm.failList.get? x = some d → d.retry < s.fm.maxRetry := by
  refine lines_induct (fun fm _ _ => fm.maxRetry = s.fm.maxRetry ∧ ∀ x d, fm.failList.get? x = some d → d.retry < s.fm.maxRetry) s h
    ⟨rfl, hb⟩ ?_ ?_ ?_ ?_
  · rintro fm out rs now - ⟨h1, h2⟩
    refine ⟨(cleanup_cfg fm now).1.trans h1, fun x d hd => ?_⟩
    rw [get?_cleanup, Option.filter_eq_some_iff] at hd
    exact h2 x d hd.1
  · rintro fm out rs r suf d - ⟨h1, h2⟩ hd hlt
    have hm : (fm.addFailure (ticket r)).2.maxRetry = s.fm.maxRetry := (addFailure_cfg fm _ _ _ _).1.trans h1
    refine ⟨hm, fun x e he => ?_⟩
    by_cases hx : x = r.id
    · subst hx
      rw [hd] at he; cases he; rw [← hm]; exact hlt
    · rw [get?_addFailure_ne fm _ _ _ _ (show x ≠ (ticket r).id from hx)] at he
      exact h2 x e he
  · rintro fm out rs r suf d - ⟨h1, h2⟩ hd hle
    have hm : (fm.addFailure (ticket r)).2.maxRetry = s.fm.maxRetry := (addFailure_cfg fm _ _ _ _).1.trans h1
    refine ⟨hm, fun x e he => ?_⟩
    dsimp only at he
    rw [Dict.get?_erase] at he
    split at he
    · cases he
    · rename_i hx
      rw [get?_addFailure_ne fm _ _ _ _ (show x ≠ (ticket r).id from hx)] at he
      exact h2 x e he
  · rintro fm out rs t h; exact h

/-- **C52 (prompt).** If address `x` is not in the failure list and then, in any history of lines about any addresses, at least `maxretry` failures of `x` are found, the first
counted at `t₀` and none counted later than `t₀ + findtime`, while the clock stays below `t₀ + findtime`: then `x` is handed over to
be banned; and below `maxretry` failures its counter is exact. -/
theorem C52_prompt (s : Filter) (h : List LineStep) (x : Fid) (t₀ : Int) (hk : KeyId s.fm) (hx : s.fm.failList.get? x = none)
    (_hout : s.out = []) (hclock : ∀ st ∈ h, st.1 < t₀ + s.fm.maxTime)
    (hfirst : ∀ r, (of x (reportsOf s h)).head? = some r → r.time = t₀)
    (hwin : ∀ r ∈ of x (reportsOf s h), r.time ≤ t₀ + s.fm.maxTime) :
    (s.fm.maxRetry ≤ (of x (reportsOf s h)).length → 0 < s.fm.maxRetry →
      ∃ t ∈ handedOver (runLines s h).out, t.id = x ∧ t.retry = s.fm.maxRetry) ∧
    ((of x (reportsOf s h)).length < s.fm.maxRetry → of x (reportsOf s h) ≠ [] →
      ∃ d, (runLines s h).fm.failList.get? x = some d ∧ d.retry = (of x (reportsOf s h)).length) := by
  have key := lines_induct (fun fm out rs => (KeyId fm ∧ fm.maxRetry = s.fm.maxRetry ∧ fm.maxTime = s.fm.maxTime) ∧
      ((s.fm.maxRetry ≤ (of x rs).length ∧ (0 < s.fm.maxRetry → ∃ t ∈ handedOver out, t.id = x ∧ t.retry = s.fm.maxRetry)) ∨
       ((of x rs).length < s.fm.maxRetry ∧ CountInv x t₀ (of x rs).length fm))) s h ?_ ?_ ?_ ?_ ?_
  · obtain ⟨_, h1⟩ := key
    constructor
    · intro hle hpos
      rcases h1 with ⟨_, h1⟩ | ⟨h1, _⟩
      · exact h1 hpos
      · omega
    · intro hlt hne
      rcases h1 with ⟨h1, _⟩ | ⟨_, h1⟩
      · omega
      · rcases h1 with ⟨h0, _⟩ | ⟨_, d, hd, _, hr, _⟩
        · exact absurd (List.eq_nil_of_length_eq_zero h0) hne
        · exact ⟨d, hd, hr⟩
  · refine ⟨⟨hk, rfl, rfl⟩, ?_⟩
    by_cases hm : 0 < s.fm.maxRetry
    · exact .inr ⟨hm, .inl ⟨rfl, hx⟩⟩
    · exact .inl ⟨by show s.fm.maxRetry ≤ 0; omega, fun h => absurd h hm⟩
  · rintro fm out rs now hn ⟨⟨h1, h2, h3⟩, h4⟩
    refine ⟨⟨keyId_step fm (.cleanup now) h1, (cleanup_cfg fm now).1.trans h2, (cleanup_cfg fm now).2.1.trans h3⟩, ?_⟩
    rcases h4 with h4 | ⟨h4, h5⟩
    · exact .inl h4
    · refine .inr ⟨h4, (countInv_foreign x t₀ _ fm (.cleanup now) h1 ?_ h5).1⟩
      obtain ⟨st, hst, rfl⟩ := List.mem_map.1 hn
      show st.1 < t₀ + fm.maxTime
      rw [h3]; exact hclock st hst
  · rintro fm out rs r suf d hs ⟨⟨h1, h2, h3⟩, h4⟩ hd hlt
    have hm : (fm.addFailure (ticket r)).2.maxRetry = s.fm.maxRetry := (addFailure_cfg fm _ _ _ _).1.trans h2
    refine ⟨⟨keyId_step fm r.op h1, hm, (addFailure_cfg fm _ _ _ _).2.1.trans h3⟩, ?_⟩
    rw [of_snoc]
    by_cases hx : r.id = x
    · rw [if_pos hx, List.length_append, List.length_singleton]
      rcases h4 with ⟨h4, h5⟩ | ⟨h4, h5⟩
      · exact .inl ⟨by omega, h5⟩
      · have hof : of x (reportsOf s h) = of x rs ++ r :: of x suf := by
          rw [hs]; unfold of; rw [List.filter_append, List.filter_cons]; simp [hx]
        have := (countInv_report x t₀ _ fm r hx
          (fun h0 => hfirst r (by rw [hof, List.eq_nil_of_length_eq_zero h0]; rfl))
          (by rw [h3]; exact hwin r (by rw [hof]; simp)) h5).1
        right
        refine ⟨?_, this⟩
        rcases this with ⟨h0, _⟩ | ⟨_, e, he, _, hr, _⟩
        · omega
        · have he : (fm.addFailure (ticket r)).2.failList.get? x = some e := he
          rw [← hx, hd] at he
          cases he
          omega
    · rw [if_neg hx, List.append_nil]
      rcases h4 with h4 | ⟨h4, h5⟩
      · exact .inl h4
      · exact .inr ⟨h4, (countInv_foreign x t₀ _ fm r.op h1 (show (ticket r).id ≠ x from hx) h5).1⟩
  · rintro fm out rs r suf d hs ⟨⟨h1, h2, h3⟩, h4⟩ hd hle
    have hm : (fm.addFailure (ticket r)).2.maxRetry = s.fm.maxRetry := (addFailure_cfg fm _ _ _ _).1.trans h2
    have hk' := keyId_step fm r.op h1
    refine ⟨⟨?_, hm, (addFailure_cfg fm _ _ _ _).2.1.trans h3⟩, ?_⟩
    · intro y e he
      dsimp only at he
      rw [Dict.get?_erase] at he
      split at he
      · cases he
      · exact hk' y e he
    · rw [of_snoc, handedOver_put]
      by_cases hx : r.id = x
      · rw [if_pos hx, List.length_append, List.length_singleton]
        rcases h4 with ⟨h4, h5⟩ | ⟨h4, h5⟩
        · refine .inl ⟨by omega, fun hp => ?_⟩
          obtain ⟨t, ht, h6⟩ := h5 hp
          exact ⟨t, List.mem_append_left _ ht, h6⟩
        · have hof : of x (reportsOf s h) = of x rs ++ r :: of x suf := by
            rw [hs]; unfold of; rw [List.filter_append, List.filter_cons]; simp [hx]
          have := (countInv_report x t₀ _ fm r hx
            (fun h0 => hfirst r (by rw [hof, List.eq_nil_of_length_eq_zero h0]; rfl))
            (by rw [h3]; exact hwin r (by rw [hof]; simp)) h5).1
          rcases this with ⟨h0, _⟩ | ⟨_, e, he, hei, hr, _⟩
          · omega
          · have he : (fm.addFailure (ticket r)).2.failList.get? x = some e := he
            rw [← hx, hd] at he
            cases he
            refine .inl ⟨by omega, fun _ => ⟨d, by simp, hei, by omega⟩⟩
      · rw [if_neg hx, List.append_nil]
        rcases h4 with ⟨h4, h5⟩ | ⟨h4, h5⟩
        · refine .inl ⟨h4, fun hp => ?_⟩
          obtain ⟨t, ht, h6⟩ := h5 hp
          exact ⟨t, List.mem_append_left _ ht, h6⟩
        · refine .inr ⟨h4, ?_⟩
          have := (countInv_foreign x t₀ _ fm r.op h1 (show (ticket r).id ≠ x from hx) h5).1
          have hx' : ¬ x = r.id := fun e => hx e.symm
          unfold CountInv at this ⊢
          dsimp only
          rw [Dict.get?_erase, if_neg hx']
          exact this
  · rintro fm out rs t h
    rw [handedOver_tell]; exact h


/-! ## performBan() and addAttempt -/

theorem size_erase_lt (d : Dict Fid Ticket) {x : Fid} {t : Ticket} (h : d.get? x = some t) : (d.erase x).size < d.size := by
  rw [Dict.size_eq_keys_length, Dict.size_eq_keys_length, Dict.keys_erase]
  have hm := (Dict.mem_keys_iff d x).2 ⟨t, h⟩
  apply List.length_filter_lt_length_iff_exists.2
  exact ⟨x, hm, by simp⟩

/-- **C52 (all at the limit).** `performBan()` without address hands over exactly the addresses at the limit, each once, with their tickets, and keeps the others. -/
theorem C52_perform_ban_all (s : Filter) (now : Int) (hk : KeyId s.fm) :
    (∃ ts, handedOver (s.performBanAll now).out = handedOver s.out ++ ts ∧ (ts.map Ticket.id).Nodup ∧
      ∀ t, t ∈ ts ↔ (s.fm.failList.get? t.id = some t ∧ s.fm.maxRetry ≤ t.retry)) ∧
    ∀ x d, (s.performBanAll now).fm.failList.get? x = some d → s.fm.failList.get? x = some d ∧ d.retry < s.fm.maxRetry := by
  have hloop : ∀ (n : Nat) (s : Filter), KeyId s.fm → s.fm.failList.size ≤ n →
      (∃ ts, handedOver (s.performBanLoop n).out = handedOver s.out ++ ts ∧ (ts.map Ticket.id).Nodup ∧
        ∀ t, t ∈ ts ↔ (s.fm.failList.get? t.id = some t ∧ s.fm.maxRetry ≤ t.retry)) ∧
      ∀ x d, (s.performBanLoop n).fm.failList.get? x = some d ↔ s.fm.failList.get? x = some d ∧ d.retry < s.fm.maxRetry := by
    intro n
    induction n with
    | zero =>
      intro s hk hn
      have hemp : ∀ x, s.fm.failList.get? x = none := by
        intro x
        cases hg : s.fm.failList.get? x with
        | none => rfl
        | some d =>
          have := (Dict.mem_keys_iff _ _).2 ⟨d, hg⟩
          have hl : s.fm.failList.keys.length ≤ 0 := by
            show (s.fm.failList.items.map Prod.fst).length ≤ 0
            rw [List.length_map]; exact hn
          have := List.length_pos_of_mem this
          omega
      refine ⟨⟨[], by simp [performBanLoop], by simp, fun t => ?_⟩, fun x d => ?_⟩
      · rw [hemp]; simp
      · simp [performBanLoop, hemp]
    | succ n ih =>
      intro s hk hn
      unfold performBanLoop
      cases hl : s.fm.toBanLoop (s.fm.toBanCands none) with
      | none =>
        have ht : s.fm.toBan none = (none, s.fm) := by unfold FailManager.toBan; rw [hl]
        rw [ht]
        have hall := (toBanLoop_eq_none _ _).1 hl
        have hlt : ∀ x d, s.fm.failList.get? x = some d → d.retry < s.fm.maxRetry := fun x d hd =>
          hall x ((Dict.mem_keys_iff _ _).2 ⟨d, hd⟩) d hd
        refine ⟨⟨[], by simp, by simp, fun t => ?_⟩, fun x d => ?_⟩
        · constructor
          · intro h; cases h
          · rintro ⟨h1, h2⟩
            have := hlt _ _ h1
            omega
        · exact ⟨fun h => ⟨h, hlt x d h⟩, fun h => h.1⟩
      | some p =>
        obtain ⟨f, data⟩ := p
        have ht : s.fm.toBan none = (some data, { s.fm with failList := s.fm.failList.erase f }) := by
          unfold FailManager.toBan; rw [hl]
        obtain ⟨_, hget, hle⟩ := toBanLoop_eq_some _ _ _ _ hl
        have hid := hk _ _ hget
        rw [ht]
        dsimp only
        have hk' : KeyId { s.fm with failList := s.fm.failList.erase f } := by
          intro y e he
          dsimp only at he
          rw [Dict.get?_erase] at he
          split at he
          · cases he
          · exact hk y e he
        have hsz : (s.fm.failList.erase f).size ≤ n := by
          have := size_erase_lt _ hget
          omega
        obtain ⟨⟨ts, h1, h2, h3⟩, h4⟩ := ih
          { s with fm := { s.fm with failList := s.fm.failList.erase f }, out := s.out ++ [FEvent.put data] } hk' hsz
        dsimp only at h1 h2 h3 h4
        refine ⟨⟨data :: ts, ?_, ?_, ?_⟩, ?_⟩
        · rw [h1, handedOver_put]; simp
        · rw [List.map_cons, List.nodup_cons]
          refine ⟨fun hm => ?_, h2⟩
          obtain ⟨t, ht, hti⟩ := List.mem_map.1 hm
          have := ((h3 t).1 ht).1
          rw [Dict.get?_erase, hti, hid, if_pos rfl] at this
          cases this
        · intro t
          rw [List.mem_cons, h3]
          constructor
          · rintro (rfl | ⟨h5, h6⟩)
            · rw [hid]; exact ⟨hget, hle⟩
            · rw [Dict.get?_erase] at h5
              split at h5
              · cases h5
              · exact ⟨h5, h6⟩
          · rintro ⟨h5, h6⟩
            by_cases hx : t.id = f
            · left
              rw [hx, hget] at h5
              exact (Option.some.inj h5).symm
            · right
              rw [Dict.get?_erase, if_neg hx]; exact ⟨h5, h6⟩
        · intro x d
          rw [h4, Dict.get?_erase]
          constructor
          · rintro ⟨h5, h6⟩
            split at h5
            · cases h5
            · exact ⟨h5, h6⟩
          · rintro ⟨h5, h6⟩
            refine ⟨?_, h6⟩
            rw [if_neg]
            · exact h5
            · intro hx; rw [hx, hget] at h5; cases h5; omega
  obtain ⟨h1, h2⟩ := hloop _ s hk (Nat.le_refl _)
  unfold performBanAll
  have hs := performSvc_cfg (s.performBanLoop s.fm.failList.size) now false
  rw [hs.2]
  refine ⟨h1, fun x d hd => (h2 x d).1 ?_⟩
  unfold performSvc at hd
  split at hd
  · dsimp only at hd
    rw [get?_cleanup, Option.filter_eq_some_iff] at hd
    exact hd.1
  · exact hd

/-- **C52 (explicit attempts).** An explicitly reported attempt with `n` matches counts `n` failures (one if there are none); if the address reaches `maxretry` thereby, it
is handed over immediately. -/
theorem C52_attempt (s : Filter) (now : Int) (ip : Fid) (lines : List String) (hnew : s.fm.failList.get? ip = none) :
    (s.fm.maxRetry ≤ max 1 lines.length →
      (∃ t, handedOver (s.addAttempt now ip lines).out = handedOver s.out ++ [t] ∧ t.id = ip ∧ t.retry = max 1 lines.length) ∧
      (s.addAttempt now ip lines).fm.failList.get? ip = none) ∧
    (max 1 lines.length < s.fm.maxRetry → handedOver (s.addAttempt now ip lines).out = handedOver s.out ∧
      ∃ d, (s.addAttempt now ip lines).fm.failList.get? ip = some d ∧ d.retry = max 1 lines.length) ∧
    told (s.addAttempt now ip lines).out = told s.out ++ (if s.observer then [Ticket.new ip now lines] else []) := by
  have hcnt : (if lines = [] then 1 else lines.length) = max 1 lines.length := by
    cases lines with
    | nil => simp
    | cons a l => simp only [List.length_cons, reduceCtorEq, if_false]; omega
  have hadd : s.fm.addFailure (Ticket.new ip now lines) (max 1 lines.length) =
      (max 1 lines.length,
        { s.fm with
          failList := s.fm.failList.insert ip ((Ticket.new ip now lines).setRetry (max 1 lines.length))
          failTotal := s.fm.failTotal + 1 }) := by
    unfold addFailure
    rw [show (Ticket.new ip now lines).id = ip from rfl, hnew]
    dsimp only
    unfold addNew
    have e1 : (Ticket.new ip now lines).isBan = false := rfl
    have e2 : (Ticket.new ip now lines).failures < max 1 lines.length := by
      show 0 < _; omega
    simp only [e1, e2, Bool.or_self, Bool.false_eq_true, if_false, if_true, setRetry_retry]
    rfl
  have hidr : ((Ticket.new ip now lines).setRetry (max 1 lines.length)).id = ip := setRetry_id _ _
  have hret : ((Ticket.new ip now lines).setRetry (max 1 lines.length)).retry = max 1 lines.length := setRetry_retry _ _
  generalize (Ticket.new ip now lines).setRetry (max 1 lines.length) = e at hadd hidr hret
  unfold addAttempt
  dsimp only
  rw [hcnt, hadd]
  dsimp only
  by_cases hm : s.fm.maxRetry ≤ max 1 lines.length
  · have hb : FailManager.toBan { s.fm with failList := s.fm.failList.insert ip e, failTotal := s.fm.failTotal + 1 } (some ip) = _ :=
      toBan_tracked _ ip e (Dict.get?_insert_self _ _ _)
    dsimp only at hb
    rw [if_pos (by rw [hret]; exact hm)] at hb
    rw [if_pos hm]
    unfold performBan
    dsimp only
    rw [hb]
    dsimp only
    have hsvc := performSvc_cfg 
      { s with fm := { s.fm with failList := (s.fm.failList.insert ip e).erase ip, failTotal := s.fm.failTotal + 1 }, out := s.out ++ [FEvent.put e] } now false
    have hfm : ∀ (s' : Filter), s'.fm.failList.get? ip = none → (s'.performSvc now false).fm.failList.get? ip = none := by
      intro s' h
      unfold performSvc
      split
      · dsimp only; rw [get?_cleanup, h]; rfl
      · exact h
    have hg := hfm 
      { s with fm := { s.fm with failList := (s.fm.failList.insert ip e).erase ip, failTotal := s.fm.failTotal + 1 }, out := s.out ++ [FEvent.put e] } (by dsimp only; rw [Dict.get?_erase, if_pos rfl])
    refine ⟨fun _ => ⟨⟨e, ?_, hidr, hret⟩, ?_⟩, fun h => by omega, ?_⟩
    · split
      · dsimp only; rw [handedOver_tell, hsvc.2]; dsimp only; rw [handedOver_put]
      · rw [hsvc.2]; dsimp only; rw [handedOver_put]
    · split
      · exact hg
      · exact hg
    · rw [hsvc.1.observer]
      dsimp only
      by_cases ho : s.observer = true
      · rw [if_pos ho, if_pos ho]
        dsimp only
        rw [hsvc.2, told_append, told_append]; simp [told]
      · rw [if_neg ho, if_neg ho, hsvc.2, told_append]; simp [told]
  · rw [if_neg hm]
    refine ⟨fun h => absurd h hm, fun _ => ?_, ?_⟩
    · dsimp only
      cases s.observer with
      | true => exact ⟨handedOver_tell _ _, e, Dict.get?_insert_self _ _ _, hret⟩
      | false => exact ⟨rfl, e, Dict.get?_insert_self _ _ _, hret⟩
    · dsimp only
      cases s.observer with
      | true => rw [if_pos rfl, if_pos rfl]; dsimp only; rw [told_append]; rfl
      | false => rw [if_neg (by decide), if_neg (by decide), List.append_nil]

/-! ### examples -/

namespace Filter.Ex

open Ignore.Ex

/-- a filter that ignores 5.5.5.5 and 192.168.0.0/16 -/
def flt : Filter := { fm := FailManager.init, ign := { ipSet := cfg.ipSet, ipList := cfg.ipList } }

/-- a line with failures of the given addresses -/
def line (d : Int) (as : List Nat) : Line := { detect := .found d, find := some (as.map (fun a => ⟨ip4 a, ["l"]⟩)) }

/-- 6.6.6.6 fails three times, 7.7.7.7 twice, the ignored ones often -/
def hist : List LineStep :=
  [(1000, env, line 1000 [0x06060606, 0x05050505]), (1001, env, line 1001 [0x07070707, 0xC0A80102, 0x06060606]),
   (1002, env, { detect := .found 1002, find := none }), (1003, env, line 2000 [0x05050505, 0x05050505, 0x06060606, 0x07070707])]

end Filter.Ex

open Filter.Ex Ignore.Ex

example : (reportsOf flt hist).map (fun r => (r.id, r.time)) =
      [("6.6.6.6", 1000), ("7.7.7.7", 1001), ("6.6.6.6", 1001), ("6.6.6.6", 1003), ("7.7.7.7", 1003)] ∧
    (handedOver (runLines flt hist).out).map (fun t => (t.id, t.retry, t.time)) = [("6.6.6.6", 3, 1003)] ∧
    (told (runLines flt hist).out).length = 5 ∧
    (runLines flt hist).fm.failList.items.map (fun kv => (kv.1, kv.2.retry)) = [("7.7.7.7", 2)] ∧
    (runLines flt hist).procLines = 3 ∧ (runLines flt hist).errors = 0 := by
  decide +kernel

/-- hypotheses of C52_prompt are met -/
example : (∀ st ∈ hist, st.1 < 1000 + (flt.fm.maxTime : Int)) ∧
    (∀ r, (of "6.6.6.6" (reportsOf flt hist)).head? = some r → r.time = 1000) ∧
    (∀ r ∈ of "6.6.6.6" (reportsOf flt hist), r.time ≤ 1000 + (flt.fm.maxTime : Int)) ∧
    flt.fm.maxRetry ≤ (of "6.6.6.6" (reportsOf flt hist)).length := by
  refine ⟨by decide +kernel, fun r hr => ?_, by decide +kernel, by decide +kernel⟩
  have : (of "6.6.6.6" (reportsOf flt hist)).head?.map Report.time = some 1000 := by decide +kernel
  rw [hr] at this
  exact Option.some.inj this

/-- an old line and a line without date, when old logs are read -/
example : (let s := { flt with inOperation := false }
    (reportsOf s [(1000, env, line 399 [0x06060606])]).length = 0 ∧
    (reportsOf s [(1000, env, line 400 [0x06060606])]).map Report.time = [400] ∧
    (reportsOf s [(1000, env, { detect := .none, find := some [⟨ip4 0x06060606, []⟩] })]).length = 0 ∧
    (reportsOf s [(1000, env, line 950 []), (1001, env, { detect := .none, find := some [⟨ip4 0x06060606, []⟩] })]).map Report.time
      = [950]) := by
  decide +kernel

/-- hundred failing lines -/
example : (runLines flt (List.replicate 99 (1, env, { detect := .found 1, find := none }))).idle = false ∧
    (runLines flt (List.replicate 100 (1, env, { detect := .found 1, find := none }))).idle = true := by
  decide +kernel

/-- an attempt with three matches reaches the limit at once; two addresses at the limit after it was lowered -/
example : (handedOver (addAttempt 5 flt "1.2.3.4" ["a", "b", "c"]).out).map (fun t => (t.id, t.retry)) = [("1.2.3.4", 3)] ∧
    (let s := addAttempt 5 (addAttempt 5 flt "1.2.3.4" ["a", "b"]) "1.2.3.5" []
     (handedOver s.out).length = 0 ∧
     (handedOver (({ s with fm := s.fm.step (.setMaxRetry 2) } : Filter).performBanAll 6).out).map (fun t => (t.id, t.retry))
       = [("1.2.3.4", 2)]) := by
  decide +kernel

end Verif
