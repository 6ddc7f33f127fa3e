import Verif.Spec.FailManager
import Verif.Lemmas.FailManager

/-! # Properties of the failure manager (C01–C09) -/

namespace Verif

open FailManager Spec.Fail

/-! ## C01 -/

/-- Induction principle: a relation between the stored ticket of `x` and the history since `x` was last untracked. -/
theorem since_induction (x : Fid) (P : Ticket → List Op → Prop)
    (hstep : ∀ (s : FailManager) (op : Op) (d : Ticket), KeyId s → (s.step op).failList.get? x = some d →
      (∃ f, s.failList.get? x = some f ∧ ∀ post, P f post → P d (post ++ [op])) ∨
      (s.failList.get? x = none ∧ P d [op]))
    (ops : List Op) : ∀ d, (init.run ops).failList.get? x = some d → ∃ post, SinceUntracked init ops x post ∧ P d post := by
  induction ops using list_snoc_induction with
  | nil => intro d h; cases h
  | snoc ops op ih =>
    intro d h
    rw [run_snoc] at h
    rcases hstep _ op d (keyId_run init ops keyId_init) h with ⟨f, hf, hP⟩ | ⟨hn, hP⟩
    · obtain ⟨post, ⟨pre, hops, hun, htr⟩, hpost⟩ := ih f hf
      refine ⟨post ++ [op], ⟨pre, by rw [hops, List.append_assoc], hun, ?_⟩, hP post hpost⟩
      intro p q hpq hp
      rcases append_eq_snoc_cases hpq with ⟨_, rfl⟩ | ⟨q', _, hq⟩
      · rw [← List.append_assoc, ← hops, run_snoc]
        exact ⟨d, h⟩
      · exact htr p q' hq hp
    · refine ⟨[op], ⟨ops, rfl, ?_, ?_⟩, hP⟩
      · rintro ⟨f, hf⟩; rw [hn] at hf; cases hf
      · intro p q hpq hp
        rw [(append_eq_singleton_of_ne_nil hpq hp).1, run_snoc]
        exact ⟨d, h⟩

theorem step_retry_le (s : FailManager) (op : Op) (x : Fid) (d : Ticket) (hk : KeyId s)
    (h : (s.step op).failList.get? x = some d) :
    (∃ f, s.failList.get? x = some f ∧ d.retry ≤ f.retry + weight x op) ∨
    (s.failList.get? x = none ∧ d.retry ≤ weight x op) := by
  cases op with
  | add t c o =>
    simp only [step] at h
    by_cases hx : x = t.id
    · subst hx
      simp only [weight, if_true]
      cases hg : s.failList.get? t.id with
      | none =>
        right
        rw [get?_addFailure_new s t c o false hg] at h
        refine ⟨rfl, ?_⟩
        split at h
        · cases h
        · cases h; exact newEntry_retry_le t c
      | some f =>
        left
        refine ⟨f, rfl, ?_⟩
        rw [get?_addFailure_tracked s t f c o false hg] at h
        have h1 : (s.updateTracked f t c false).1.retry ≤ f.retry + max c t.retry := by
          rw [updateTracked_retry]
          have := adjustTime_retry_le f (repTime f t false) s.maxTime
          omega
        have h2 := newEntry_retry_le t c
        split at h
        · cases h; exact h1
        · split at h
          · cases h; exact h1
          · cases h; omega
    · rw [get?_addFailure_ne s t c o false hx] at h
      left; exact ⟨d, h, by simp⟩
  | addSame y c o =>
    left
    simp only [step] at h
    split at h
    · rename_i t hy
      have hid := hk _ _ hy
      by_cases hx : x = t.id
      · subst hx
        rw [← hid] at hy
        rw [get?_addFailure_tracked s t t c o true hy] at h
        have hok : (s.updateTracked t t c true).2 = true := by
          rw [updateTracked_ok]; left; rfl
        rw [hok] at h
        cases h
        refine ⟨t, hy, ?_⟩
        rw [updateTracked_retry]
        have := adjustTime_retry_le t (repTime t t true) s.maxTime
        simp only [weight, hid, if_true]
        omega
      · rw [get?_addFailure_ne s t c o true hx] at h
        exact ⟨d, h, by simp⟩
    · exact ⟨d, h, by simp⟩
  | cleanup time =>
    left
    simp only [step, get?_cleanup, Option.filter_eq_some_iff] at h
    exact ⟨d, h.1, by simp⟩
  | del fid =>
    left
    simp only [step, delFailure, Dict.get?_erase] at h
    split at h
    · cases h
    · exact ⟨d, h, by simp⟩
  | toBan fid =>
    left
    simp only [step] at h
    rcases get?_toBan s fid x with e | e
    · rw [e] at h; exact ⟨d, h, by simp⟩
    · rw [e] at h; cases h
  | setMaxRetry n => left; exact ⟨d, h, by simp⟩
  | setMaxTime n => left; exact ⟨d, h, by simp⟩
  | setMaxMatches n => left; exact ⟨d, h, by simp⟩

/-- Counters never exceed what was reported since the address was last untracked. -/
theorem retry_le_reported (ops : List Op) (x : Fid) (d : Ticket)
    (h : (init.run ops).failList.get? x = some d) :
    ∃ post, SinceUntracked init ops x post ∧ d.retry ≤ (post.map (weight x)).sum := by
  refine since_induction x (fun d post => d.retry ≤ (post.map (weight x)).sum) ?_ ops d h
  intro s op d hk h
  rcases step_retry_le s op x d hk h with ⟨f, hf, hle⟩ | ⟨hn, hle⟩
  · left
    refine ⟨f, hf, ?_⟩
    intro post hp
    simp only [List.map_append, List.sum_append, List.map_cons, List.map_nil, List.sum_cons, List.sum_nil]
    omega
  · right; exact ⟨hn, by simpa using hle⟩

/-- **C01.** For every history of operations from start: a ticket handed over for banning has reached the current
`maxretry`, and at least `maxretry` failures of its address were reported since the address was last untracked. -/
theorem C01_no_ban_below_maxretry (ops : List Op) (fid : Option Fid) (t : Ticket) (s' : FailManager)
    (h : (init.run ops).toBan fid = (some t, s')) :
    (init.run ops).maxRetry ≤ t.retry ∧
    ∃ post, SinceUntracked init ops t.id post ∧ (init.run ops).maxRetry ≤ (post.map (weight t.id)).sum := by
  have hk := keyId_run init ops keyId_init
  unfold FailManager.toBan at h
  split at h
  · rename_i f data heq
    obtain ⟨_, hget, hle⟩ := toBanLoop_eq_some _ _ _ _ heq
    simp only [Prod.mk.injEq, Option.some.injEq] at h
    obtain ⟨rfl, _⟩ := h
    have hid := hk _ _ hget
    obtain ⟨post, hs, hsum⟩ := retry_le_reported ops f data hget
    rw [hid]
    exact ⟨hle, post, hs, Nat.le_trans hle hsum⟩
  · simp at h

/-- plain reports count one each -/
theorem weight_plain (x : Fid) (r : Report) : weight x r.op = if r.id = x then 1 else 0 := by
  simp only [Report.op, weight, Ticket.new]; split <;> simp

/-- **C01**, for plain log-file failures only: at least `maxretry` reports of the banned address occurred since it was
last untracked. -/
theorem C01_plain_reports (hist : List Report) (fid : Option Fid) (t : Ticket) (s' : FailManager)
    (h : (init.run (hist.map Report.op)).toBan fid = (some t, s')) :
    3 ≤ (hist.filter (fun r => r.id = t.id)).length := by
  obtain ⟨h1, post, ⟨pre, hops, _, _⟩, hsum⟩ := C01_no_ban_below_maxretry _ _ _ _ h
  have hmr : ∀ (l : List Report) (s : FailManager), (s.run (l.map Report.op)).maxRetry = s.maxRetry := by
    intro l
    induction l with
    | nil => intro s; rfl
    | cons r l ih => intro s; exact (ih _).trans (addFailure_cfg s _ _ _ _).1
  rw [hmr] at hsum
  have htot : ((hist.map Report.op).map (weight t.id)).sum = (hist.filter (fun r => r.id = t.id)).length := by
    clear hops hsum hmr h1 h
    generalize t.id = x
    induction hist with
    | nil => rfl
    | cons r l ih =>
      rw [List.map_cons, List.map_cons, List.sum_cons, ih, weight_plain, List.filter_cons]
      by_cases hr : r.id = x <;> simp [hr]; omega
  rw [← htot, hops, List.map_append, List.sum_append]
  have : init.maxRetry = 3 := rfl
  omega

/-- a history with a hand-over: three failures of one address, one of another in between -/
def exHist : List Report :=
  [⟨"192.0.2.1", 1000, ["a"]⟩, ⟨"192.0.2.1", 1010, ["b"]⟩, ⟨"192.0.2.2", 1015, ["x"]⟩, ⟨"192.0.2.1", 1020, ["c"]⟩]

example : ((init.run (exHist.map Report.op)).toBan none).1.map (fun t => (t.id, t.retry)) = some ("192.0.2.1", 3) := by
  decide

/-! ## C02 -/

/-- state of address `x` after `n` reports inside the window -/
def CountInv (x : Fid) (t₀ : Int) (n : Nat) (s : FailManager) : Prop :=
  (n = 0 ∧ s.failList.get? x = none) ∨
  (0 < n ∧ ∃ d, s.failList.get? x = some d ∧ d.id = x ∧ d.retry = n ∧ d.firstTime = t₀ ∧ t₀ ≤ d.time ∧
    (s.maxMatches ≠ 0 → d.matches' ≠ none))

theorem countInv_foreign (x : Fid) (t₀ : Int) (n : Nat) (s : FailManager) (op : Op)
    (hk : KeyId s) (hf : Foreign x t₀ s.maxTime op) (h : CountInv x t₀ n s) :
    CountInv x t₀ n (s.step op) ∧ (s.step op).maxTime = s.maxTime := by
  cases op with
  | add t c o =>
    simp only [Foreign] at hf
    have e := get?_addFailure_ne s t c o false (x := x) (fun e => hf e.symm)
    obtain ⟨_, h2, h3⟩ := addFailure_cfg s t c o false
    refine ⟨?_, h2⟩
    simp only [CountInv, step, e, h3]; exact h
  | addSame y c o =>
    simp only [Foreign] at hf
    simp only [step]
    split
    · rename_i t hy
      have e := get?_addFailure_ne s t c o true (x := x) (fun e => hf (by rw [← hk _ _ hy]; exact e.symm))
      obtain ⟨_, h2, h3⟩ := addFailure_cfg s t c o true
      refine ⟨?_, h2⟩
      simp only [CountInv, e, h3]; exact h
    · exact ⟨h, rfl⟩
  | cleanup time =>
    simp only [Foreign] at hf
    obtain ⟨_, h2, h3, _⟩ := cleanup_cfg s time
    refine ⟨?_, h2⟩
    simp only [CountInv, step, get?_cleanup, h3]
    rcases h with ⟨h0, hn⟩ | ⟨h0, d, hd, hid, hr, hft, ht, hm⟩
    · left; rw [hn]; exact ⟨h0, rfl⟩
    · right
      refine ⟨h0, d, ?_, hid, hr, hft, ht, hm⟩
      rw [hd, Option.filter_some, if_pos]
      simp only [decide_eq_true_eq]; omega
  | del y =>
    simp only [Foreign] at hf
    refine ⟨?_, rfl⟩
    have e : (s.delFailure y).failList.get? x = s.failList.get? x := Dict.get?_erase_ne _ (fun e => hf e.symm)
    simp only [CountInv, step, e]; exact h
  | setMaxRetry n => exact ⟨h, rfl⟩
  | toBan fid => exact hf.elim
  | setMaxTime n => exact hf.elim
  | setMaxMatches n => exact hf.elim

theorem countInv_report (x : Fid) (t₀ : Int) (n : Nat) (s : FailManager) (r : Report) (hx : r.id = x)
    (h0 : n = 0 → r.time = t₀) (hw : r.time ≤ t₀ + s.maxTime) (h : CountInv x t₀ n s) :
    CountInv x t₀ (n + 1) (s.step r.op) ∧ (s.step r.op).maxTime = s.maxTime ∧
    (s.addFailure (Ticket.new r.id r.time r.lines) 1 false false).1 = n + 1 := by
  have hid : (Ticket.new r.id r.time r.lines).id = x := hx
  obtain ⟨_, h2, h3⟩ := addFailure_cfg s (Ticket.new r.id r.time r.lines) 1 false false
  generalize ht : Ticket.new r.id r.time r.lines = t at *
  have htb : t.isBan = false := by rw [← ht]; rfl
  have htf : t.failures = 0 := by rw [← ht]; rfl
  have htt : t.time = r.time := by rw [← ht]; rfl
  have htft : t.firstTime = r.time := by rw [← ht]; rfl
  have htm : t.matches' ≠ none := by rw [← ht]; simp [Ticket.new]
  have hstep : s.step r.op = (s.addFailure t 1 false false).2 := by rw [← ht]; rfl
  rw [hstep]
  rcases h with ⟨hn0, hn⟩ | ⟨hn0, d, hd, hdid, hr, hft, htm', hm⟩
  · have hg : s.failList.get? t.id = none := by rw [hid]; exact hn
    have e := get?_addFailure_new s t 1 false false hg
    simp only [htb, Bool.or_false, Bool.false_eq_true, if_false] at e
    rw [hid] at e
    refine ⟨?_, h2, ?_⟩
    · right
      refine ⟨by omega, _, e, ?_, ?_, ?_, ?_, ?_⟩
      · rw [newEntry_id, hid]
      · rw [newEntry_retry, htf]; simp; omega
      · rw [newEntry_firstTime, htft]; exact h0 hn0
      · rw [newEntry_time, htt, h0 hn0]; omega
      · intro _; rw [newEntry_matches]; exact htm
    · unfold FailManager.addFailure
      rw [hg]
      simp [FailManager.addNew, htb, htf, setRetry_retry, hn0]
  · have hg : s.failList.get? t.id = some d := by rw [hid]; exact hd
    have hok : (s.updateTracked d t 1 false).2 = true := by
      rw [updateTracked_ok]
      by_cases hM : s.maxMatches = 0
      · left; simp [hM]
      · right; exact hm hM
    have e := get?_addFailure_tracked s t d 1 false false hg
    rw [hok] at e
    simp only [if_true] at e
    rw [hid] at e
    have hcond : ¬ (d.time < t.time ∧ d.firstTime < t.time - s.maxTime) := by rw [htt, hft]; omega
    have hretry : (s.updateTracked d t 1 false).1.retry = n + 1 := by
      rw [updateTracked_retry]
      rw [adjustTime_retry, if_neg (by simpa [repTime] using hcond), hr]
    refine ⟨?_, h2, ?_⟩
    · right
      refine ⟨by omega, _, e, ?_, hretry, ?_, ?_, ?_⟩
      · rw [updateTracked_id, hdid]
      · rw [updateTracked_firstTime]
        rw [adjustTime_firstTime, if_neg (by simpa [repTime] using hcond), hft]
      · rw [updateTracked_time]; omega
      · intro hM
        rw [h3] at hM
        exact updateTracked_matches_ne_none s d t 1 false hM (hm hM)
    · unfold FailManager.addFailure
      rw [hg]
      simp only
      generalize hu : s.updateTracked d t 1 false = u at *
      rcases u with ⟨u1, u2⟩
      simp only at hok hretry
      subst hok
      simpa using hretry

/-- A history seen from address `x`: each operation is a plain report of `x` no later than `t₀ + findtime`, or foreign. -/
inductive WindowHist (x : Fid) (t₀ : Int) (findtime : Nat) : List Op → Nat → Prop
  /-- empty history: no report of `x` -/
  | nil : WindowHist x t₀ findtime [] 0
  /-- a foreign operation -/
  | foreign {ops n op} : WindowHist x t₀ findtime ops n → Foreign x t₀ findtime op →
      WindowHist x t₀ findtime (ops ++ [op]) n
  /-- a plain report of `x` (the first one is at `t₀`) -/
  | report {ops n} {r : Report} : WindowHist x t₀ findtime ops n → r.id = x → (n = 0 → r.time = t₀) →
      r.time ≤ t₀ + findtime → WindowHist x t₀ findtime (ops ++ [r.op]) (n + 1)

theorem countInv_hist (x : Fid) (t₀ : Int) (s : FailManager) (hk : KeyId s) (hs : ¬ Tracked s x) (ops : List Op) (n : Nat)
    (h : WindowHist x t₀ s.maxTime ops n) : CountInv x t₀ n (s.run ops) ∧ (s.run ops).maxTime = s.maxTime := by
  induction h with
  | nil =>
    refine ⟨Or.inl ⟨rfl, ?_⟩, rfl⟩
    cases hg : s.failList.get? x with
    | none => exact hg
    | some d => exact absurd ⟨d, hg⟩ hs
  | foreign _ hf ih =>
    rw [run_snoc]
    have := countInv_foreign x t₀ _ _ _ (keyId_run s _ hk) (by rw [ih.2]; exact hf) ih.1
    exact ⟨this.1, this.2.trans ih.2⟩
  | report _ hx h0 hw ih =>
    rw [run_snoc]
    have := countInv_report x t₀ _ _ _ hx h0 (by rw [ih.2]; exact hw) ih.1
    exact ⟨this.1, this.2.1.trans ih.2⟩

/-- **C02.** Start in any reachable state (`init.run ops₀`) where `x` is not tracked. After `n > 0` plain reports of `x`, the first at `t₀` and none
later than `t₀ + findtime` (in any order of time), interleaved with arbitrary foreign operations: the counter of `x` is
exactly `n`, a ban request for `x` succeeds if and only if `n` has reached `maxretry`, and the next report of `x` inside
the window returns exactly `n + 1`. -/
theorem C02_prompt_ban (x : Fid) (t₀ : Int) (ops₀ : List Op) (s : FailManager) (hreach : s = init.run ops₀)
    (hs : ¬ Tracked s x) (ops : List Op) (n : Nat)
    (hn : 0 < n) (h : WindowHist x t₀ s.maxTime ops n) :
    (∃ d, (s.run ops).failList.get? x = some d ∧ d.id = x ∧ d.retry = n ∧
      ((s.run ops).toBan (some x)).1 = if (s.run ops).maxRetry ≤ n then some d else none) ∧
    ∀ time lines, time ≤ t₀ + s.maxTime →
      ((s.run ops).addFailure (Ticket.new x time lines)).1 = n + 1 := by
  obtain ⟨hc, hmt⟩ := countInv_hist x t₀ s (by rw [hreach]; exact keyId_run _ _ keyId_init) hs ops n h
  constructor
  · rcases hc with ⟨h0, _⟩ | ⟨_, d, hd, hid, hr, _⟩
    · omega
    · refine ⟨d, hd, hid, hr, ?_⟩
      have hcon : (s.run ops).failList.contains x = true := by simp [Dict.contains, hd]
      unfold FailManager.toBan
      simp only [FailManager.toBanCands, hcon, if_true, FailManager.toBanLoop, hd, hr]
      split
      · rename_i f data heq
        split at heq
        · rename_i hle; rw [if_pos hle]; simp only [Option.some.injEq, Prod.mk.injEq] at heq ⊢; exact heq.2.symm
        · simp at heq
      · rename_i heq
        split at heq
        · simp at heq
        · rename_i hle; rw [if_neg hle]
  · intro time lines hle
    exact (countInv_report x t₀ n (s.run ops) ⟨x, time, lines⟩ rfl (by omega) (by simpa [hmt] using hle) hc).2.2

/-- hypotheses of C02 are met: `x` reported at 1000 and 990, in between a report of another address and an expiry -/
example : WindowHist "192.0.2.1" 1000 600
    [Report.op ⟨"192.0.2.1", 1000, ["a"]⟩, .add (Ticket.new "192.0.2.9" 5000 []) 7 true, .cleanup 1599,
     Report.op ⟨"192.0.2.1", 990, ["b"]⟩] 2 := by
  have h1 : WindowHist "192.0.2.1" 1000 600 _ 1 :=
    .report (r := ⟨"192.0.2.1", 1000, ["a"]⟩) .nil rfl (fun _ => rfl) (by decide)
  have h2 := WindowHist.foreign (op := .add (Ticket.new "192.0.2.9" 5000 []) 7 true) h1 (by simp [Foreign, Ticket.new])
  have h3 := WindowHist.foreign (op := .cleanup 1599) h2 (by simp [Foreign])
  exact WindowHist.report (r := ⟨"192.0.2.1", 990, ["b"]⟩) h3 rfl (by simp) (by decide)

/-! ## C03 -/

/-- number of reports of `x` with time stamps in `(newest - findtime, newest]` -/
def recentReports (x : Fid) (newest : Int) (findtime : Nat) (hist : List Report) : Nat :=
  (hist.filter (fun r => r.id = x ∧ newest - findtime < r.time ∧ r.time ≤ newest)).length

/-- counterexample history: maxretry 5, findtime 600, four old failures and two recent ones -/
def slideHist : List Report :=
  [⟨"192.0.2.1", 0, []⟩, ⟨"192.0.2.1", 0, []⟩, ⟨"192.0.2.1", 0, []⟩, ⟨"192.0.2.1", 599, []⟩, ⟨"192.0.2.1", 601, []⟩]

/-- **C03 is false of the code**: with `maxretry = 5` and `findtime = 600` the reports at 0, 0, 0, 599, 601 lead to a
ban although only two of them lie in the last 600 seconds (the count is estimated by the rate). -/
theorem C03_refuted : ∃ (hist : List Report) (t : Ticket),
    ((init.run (.setMaxRetry 5 :: hist.map Report.op)).toBan none).1 = some t ∧
    recentReports t.id t.time 600 hist < 5 ∧ recentReports t.id t.time 600 hist = 2 := by
  refine ⟨slideHist, { (Ticket.new "192.0.2.1" 601 []) with firstTime := 1, retry := 5, failures := 5 }, ?_, ?_, ?_⟩
  all_goals decide

/-- **C03 (partial).** What remains true: a repeated plain report of a tracked address changes the counter to `n + 1`,
where `n` is the old counter if the window did not slide (the report is not newer than the newest one, or it is within
`findtime` of the start of the window), and otherwise the rounded share of the old counter that the average rate
predicts for the last `findtime` seconds, which never exceeds the old counter; the window then starts `findtime` before
the report. Missing: the count of actual time stamps in the window, which the code does not keep. -/
theorem C03_rate_estimate_partial (s : FailManager) (f : Ticket) (x : Fid) (time : Int) (lines : List String)
    (hf : s.failList.get? x = some f) (hm : f.matches' ≠ none) :
    ∃ d n, (s.addFailure (Ticket.new x time lines)).2.failList.get? x = some d ∧ d.retry = n + 1 ∧
      (s.addFailure (Ticket.new x time lines)).1 = n + 1 ∧
      if f.time < time ∧ f.firstTime + s.maxTime < time then
        IsRounded (f.retry * s.maxTime) (time - f.firstTime).toNat n ∧ n ≤ f.retry ∧ d.firstTime = time - s.maxTime
      else n = f.retry ∧ d.firstTime = f.firstTime := by
  have hid : (Ticket.new x time lines).id = x := rfl
  have htt : (Ticket.new x time lines).time = time := rfl
  generalize ht : Ticket.new x time lines = t at *
  have hg : s.failList.get? t.id = some f := by rw [hid]; exact hf
  have hok : (s.updateTracked f t 1 false).2 = true := by
    rw [updateTracked_ok]; exact Or.inr hm
  have e := get?_addFailure_tracked s t f 1 false false hg
  rw [hok] at e
  simp only [if_true] at e
  rw [hid] at e
  have hret : (s.addFailure t 1 false false).1 = (s.updateTracked f t 1 false).1.retry := by
    unfold FailManager.addFailure
    rw [hg]
    simp only
    generalize s.updateTracked f t 1 false = u at *
    rcases u with ⟨u1, u2⟩
    simp only at hok
    subst hok
    rfl
  have hr := updateTracked_retry s f t 1 false
  have hft := updateTracked_firstTime s f t 1 false
  simp only [repTime, Bool.false_eq_true, if_false, htt] at hr hft
  refine ⟨_, (f.adjustTime time s.maxTime).retry, e, hr, by rw [hret]; exact hr, ?_⟩
  have hle := adjustTime_retry_le f time s.maxTime
  rw [adjustTime_retry] at hle ⊢
  rw [hft, adjustTime_firstTime]
  by_cases hc : f.time < time ∧ f.firstTime + s.maxTime < time
  · have hc' : f.time < time ∧ f.firstTime < time - s.maxTime := ⟨hc.1, by omega⟩
    rw [if_pos hc]
    rw [if_pos hc'] at hle ⊢
    rw [if_pos hc']
    exact ⟨isRounded_roundHalfEven _ _ (by omega), hle, rfl⟩
  · have hc' : ¬ (f.time < time ∧ f.firstTime < time - s.maxTime) := fun h => hc ⟨h.1, by omega⟩
    rw [if_neg hc, if_neg hc', if_neg hc']
    exact ⟨rfl, rfl⟩

/-- hypotheses are met by a state with one tracked address, and the window slides -/
example : ∃ f, (init.run [Report.op ⟨"a", 0, ["l"]⟩]).failList.get? "a" = some f ∧ f.matches' ≠ none ∧
    f.time < 700 ∧ f.firstTime + 600 < 700 :=
  ⟨{ (Ticket.new "a" 0 ["l"]) with retry := 1, failures := 1 }, by decide, by decide, by decide, by decide⟩

/-! ## C04 -/

/-- **C04.** Expiry at `time` keeps exactly the items whose newest failure is later than `time - findtime`, in order and
unchanged, and changes nothing else. -/
theorem C04_cleanup_exact (s : FailManager) (time : Int) :
    (s.cleanup time).failList.items = s.failList.items.filter (fun kv => decide (time - s.maxTime < kv.2.time)) ∧
    (s.cleanup time).maxRetry = s.maxRetry ∧ (s.cleanup time).maxTime = s.maxTime ∧
    (s.cleanup time).maxMatches = s.maxMatches ∧ (s.cleanup time).failTotal = s.failTotal :=
  ⟨cleanup_items s time, cleanup_cfg s time⟩

/-- **C04**, per address. -/
theorem C04_cleanup_address (s : FailManager) (time : Int) (x : Fid) (d : Ticket) :
    (s.cleanup time).failList.get? x = some d ↔ (s.failList.get? x = some d ∧ time < d.time + s.maxTime) := by
  rw [get?_cleanup, Option.filter_eq_some_iff]
  simp only [decide_eq_true_eq]
  constructor <;> rintro ⟨h1, h2⟩ <;> exact ⟨h1, by omega⟩

example : ((init.run (exHist.map Report.op)).cleanup 1615).failList.keys = ["192.0.2.1"] ∧
    ((init.run (exHist.map Report.op)).cleanup 1614).failList.keys = ["192.0.2.1", "192.0.2.2"] ∧
    ((init.run (exHist.map Report.op)).cleanup 1620).failList.keys = [] := by decide

/-! ## C05 -/

theorem toBanLoop_first (s : FailManager) (l : List (Fid × Ticket)) (hl : ∀ kv ∈ l, s.failList.get? kv.1 = some kv.2)
    (x : Fid) (d : Ticket) (h : s.toBanLoop (l.map Prod.fst) = some (x, d)) :
    ∃ pre post, l = pre ++ (x, d) :: post ∧ ∀ kv ∈ pre, kv.2.retry < s.maxRetry := by
  induction l with
  | nil => simp [FailManager.toBanLoop] at h
  | cons a l ih =>
    have ha := hl a List.mem_cons_self
    simp only [List.map_cons, FailManager.toBanLoop, ha] at h
    split at h
    · simp only [Option.some.injEq] at h
      refine ⟨[], l, ?_, by simp⟩
      rw [List.nil_append]; congr 1
    · rename_i hlt
      obtain ⟨pre, post, e, hp⟩ := ih (fun kv hkv => hl kv (List.mem_cons_of_mem _ hkv)) h
      refine ⟨a :: pre, post, by rw [e]; rfl, ?_⟩
      intro kv hkv
      rcases List.mem_cons.1 hkv with rfl | hkv
      · omega
      · exact hp kv hkv

theorem mem_get? (s : FailManager) : ∀ kv ∈ s.failList.items, s.failList.get? kv.1 = some kv.2 :=
  fun _ hkv => (Dict.get?_eq_some_iff _ _ _).2 hkv

/-- **C05 (success).** If a ban request returns a ticket, this ticket was stored under some address `x`, has reached
`maxretry`, and exactly this item is removed; nothing else changes. If the requested address is tracked then `x` is that
address; otherwise `x` is the first tracked address (in order of tracking) that has reached `maxretry`. -/
theorem C05_toBan_some (s s' : FailManager) (fid : Option Fid) (t : Ticket) (h : s.toBan fid = (some t, s')) :
    ∃ x, s.failList.get? x = some t ∧ s.maxRetry ≤ t.retry ∧
      s'.failList.items = s.failList.items.filter (fun kv => decide (kv.1 ≠ x)) ∧
      s'.maxRetry = s.maxRetry ∧ s'.maxTime = s.maxTime ∧ s'.maxMatches = s.maxMatches ∧ s'.failTotal = s.failTotal ∧
      (∀ f, fid = some f → Tracked s f → x = f) ∧
      ((∀ f, fid = some f → ¬ Tracked s f) →
        ∃ pre post, s.failList.items = pre ++ (x, t) :: post ∧ ∀ kv ∈ pre, kv.2.retry < s.maxRetry) := by
  unfold FailManager.toBan at h
  split at h
  · rename_i x data heq
    simp only [Prod.mk.injEq, Option.some.injEq] at h
    obtain ⟨rfl, rfl⟩ := h
    obtain ⟨hmem, hget, hle⟩ := toBanLoop_eq_some _ _ _ _ heq
    refine ⟨x, hget, hle, rfl, rfl, rfl, rfl, rfl, ?_, ?_⟩
    · rintro f rfl ⟨d, hd⟩
      have hc : s.failList.contains f = true := by simp [Dict.contains, hd]
      simp only [FailManager.toBanCands, hc, if_true, List.mem_singleton] at hmem
      exact hmem
    · intro hun
      apply toBanLoop_first s s.failList.items (mem_get? s)
      cases fid with
      | none => exact heq
      | some f =>
        have hc : s.failList.contains f = false := by
          cases hb : s.failList.contains f with
          | false => rfl
          | true =>
            exfalso
            rw [Dict.contains_iff, Dict.mem_keys_iff] at hb
            exact hun f rfl hb
        simp only [FailManager.toBanCands, hc, Bool.false_eq_true, if_false] at heq; exact heq
  · simp at h

/-- **C05 (failure).** 'Nothing to ban' is reported exactly if the requested address is tracked and below `maxretry`, or
no address is requested (or an untracked one) and every tracked address is below `maxretry`; the state is unchanged. -/
theorem C05_toBan_none (s : FailManager) (fid : Option Fid) :
    ((s.toBan fid).1 = none ↔
      ((∃ f d, fid = some f ∧ s.failList.get? f = some d ∧ d.retry < s.maxRetry) ∨
       ((∀ f, fid = some f → ¬ Tracked s f) ∧ ∀ x d, s.failList.get? x = some d → d.retry < s.maxRetry))) ∧
    ((s.toBan fid).1 = none → (s.toBan fid).2 = s) := by
  have key : (s.toBan fid).1 = none ↔ s.toBanLoop (s.toBanCands fid) = none := by
    unfold FailManager.toBan
    cases hc : s.toBanLoop (s.toBanCands fid) with
    | none => simp
    | some p => simp
  have hall : s.toBanLoop s.failList.keys = none ↔ ∀ x d, s.failList.get? x = some d → d.retry < s.maxRetry := by
    rw [toBanLoop_eq_none]
    constructor
    · intro h x d hd; exact h x ((Dict.mem_keys_iff _ _).2 ⟨d, hd⟩) d hd
    · intro h x _ d hd; exact h x d hd
  constructor
  · rw [key]
    cases fid with
    | none => simp [FailManager.toBanCands, hall]
    | some f =>
      cases hg : s.failList.get? f with
      | none =>
        have hc : s.failList.contains f = false := by simp [Dict.contains, hg]
        simp only [FailManager.toBanCands, hc, Bool.false_eq_true, if_false, hall]
        constructor
        · intro h
          right
          refine ⟨?_, h⟩
          rintro f' e ⟨d, hd⟩
          cases e; rw [hg] at hd; cases hd
        · rintro (⟨f', d, e, hd, _⟩ | ⟨_, h⟩)
          · cases e; rw [hg] at hd; cases hd
          · exact h
      | some d =>
        have hc : s.failList.contains f = true := by simp [Dict.contains, hg]
        simp only [FailManager.toBanCands, hc, if_true, toBanLoop_eq_none, List.mem_singleton, forall_eq, hg]
        constructor
        · intro h; left; exact ⟨f, d, rfl, hg, h d rfl⟩
        · rintro (⟨f', d', e, hd, hlt⟩ | ⟨h, _⟩)
          · cases e; rw [hg] at hd; cases hd
            rintro _ ⟨⟩; exact hlt
          · exact absurd ⟨d, hg⟩ (h f rfl)
  · unfold FailManager.toBan
    split <;> simp

/-- **C05 (never twice).** After a hand-over the address is untracked, so that a further hand-over of it needs new
reports (see C01). -/
theorem C05_not_twice (s s' : FailManager) (fid : Option Fid) (t : Ticket) (hk : ∀ x d, s.failList.get? x = some d → d.id = x)
    (h : s.toBan fid = (some t, s')) : ¬ Tracked s' t.id := by
  obtain ⟨x, hx, _, hitems, _⟩ := C05_toBan_some s s' fid t h
  rintro ⟨d, hd⟩
  rw [hk _ _ hx] at hd
  rw [Dict.get?_eq_some_iff, hitems] at hd
  simp at hd

example : (((init.run (exHist.map Report.op)).toBan (some "192.0.2.1")).1.map Ticket.retry = some 3) ∧
    ((init.run (exHist.map Report.op)).toBan (some "192.0.2.2")).1 = none ∧
    (((init.run (exHist.map Report.op)).toBan (some "203.0.113.7")).1.map Ticket.id = some "192.0.2.1") := by decide

/-- `delFailure` removes exactly the given address. -/
theorem C05_delFailure (s : FailManager) (x y : Fid) :
    (s.delFailure x).failList.get? y = if y = x then none else s.failList.get? y :=
  Dict.get?_erase _ _ _

/-! ## C06 -/

theorem newest_eq_lastN (n : Nat) (l : List String) : newest n l = lastN n l := by
  simp [newest, lastN, List.reverse_take]

theorem length_newest_le (n : Nat) (l : List String) : (newest n l).length ≤ n := by
  rw [newest, List.length_reverse, List.length_take]; omega

theorem newest_suffix (n : Nat) (l : List String) : newest n l <:+ l := by
  rw [newest_eq_lastN]; exact List.drop_suffix _ _

/-- **C06 (one report).** After a repeated report of a tracked address (that has its lines kept) with `maxmatches > 0`,
the lines kept are the newest `maxmatches` of the lines kept before followed by the reported lines; hence at most
`maxmatches`. With `maxmatches = 0` no line is kept. -/
theorem C06_matches_step (s : FailManager) (f t : Ticket) (c : Nat) (o : Bool)
    (hf : s.failList.get? t.id = some f) (hm : f.matches' ≠ none ∨ s.maxMatches = 0) :
    ∃ d, (s.addFailure t c o).2.failList.get? t.id = some d ∧
      d.getMatches = newest s.maxMatches (f.getMatches ++ t.getMatches) ∧ d.getMatches.length ≤ s.maxMatches := by
  have hok : (s.updateTracked f t c false).2 = true := by
    rw [updateTracked_ok]
    rcases hm with h | h
    · exact Or.inr h
    · left; simp [h]
  have e := get?_addFailure_tracked s t f c o false hf
  rw [hok] at e
  simp only [if_true] at e
  have hg := updateTracked_getMatches s f t c false hok
  have hg' : (s.updateTracked f t c false).1.getMatches = newest s.maxMatches (f.getMatches ++ t.getMatches) := by
    rw [hg, newest_eq_lastN]
    by_cases h : s.maxMatches = 0
    · simp [lastN, h]
    · simp [repLines, h]
  exact ⟨_, e, hg', by rw [hg']; exact length_newest_le _ _⟩

theorem newest_of_suffix {n : Nat} {a l m : List String} (h : a <:+ l) : newest n (a ++ m) <:+ l ++ m :=
  List.IsSuffix.trans (newest_suffix _ _) (by
    obtain ⟨p, rfl⟩ := h
    exact ⟨p, by rw [List.append_assoc]⟩)

/-- **C06 (history).** In every history from start, with any changes of `maxmatches`, the lines kept for a tracked
address are the newest of all lines reported for it since it was last untracked (a suffix, in order). -/
theorem C06_matches_suffix (ops : List Op) (x : Fid) (d : Ticket)
    (h : (init.run ops).failList.get? x = some d) :
    ∃ post, SinceUntracked init ops x post ∧ d.getMatches <:+ (post.map (linesOf x)).flatten := by
  refine since_induction x (fun d post => d.getMatches <:+ (post.map (linesOf x)).flatten) ?_ ops d h
  clear h d ops
  intro s op d hk h
  have same : s.failList.get? x = some d → linesOf x op = [] →
      (∃ f, s.failList.get? x = some f ∧ ∀ post, f.getMatches <:+ (post.map (linesOf x)).flatten →
        d.getMatches <:+ ((post ++ [op]).map (linesOf x)).flatten) := by
    intro hd hl
    refine ⟨d, hd, ?_⟩
    intro post hp
    simpa [hl] using hp
  cases op with
  | add t c o =>
    simp only [step] at h
    by_cases hx : x = t.id
    · subst hx
      have hnew : ∀ l, (newEntry t c).getMatches <:+ l ++ t.getMatches := by
        intro l
        simp only [Ticket.getMatches, newEntry_matches]
        exact ⟨l, rfl⟩
      cases hg : s.failList.get? t.id with
      | none =>
        rw [get?_addFailure_new s t c o false hg] at h
        split at h
        · cases h
        · cases h
          right
          refine ⟨rfl, ?_⟩
          simpa [linesOf] using hnew []
      | some f =>
        left
        refine ⟨f, rfl, ?_⟩
        intro post hp
        simp only [List.map_append, List.map_cons, List.map_nil, List.flatten_append, List.flatten_cons,
          List.flatten_nil, List.append_nil, linesOf, if_true]
        rw [get?_addFailure_tracked s t f c o false hg] at h
        split at h
        · rename_i hok
          cases h
          rw [updateTracked_getMatches s f t c false hok]
          rw [← newest_eq_lastN]
          by_cases hM : s.maxMatches = 0
          · rw [hM]; exact List.nil_suffix
          · have e : repLines s t false = t.getMatches := by simp [repLines, hM]
            rw [e]
            exact newest_of_suffix hp
        · rename_i hok
          split at h
          · cases h
            have := updateTracked_fail_matches s f t c false (by simpa using hok)
            simp only [Ticket.getMatches, this]
            exact List.nil_suffix
          · cases h
            exact hnew _
    · left
      rw [get?_addFailure_ne s t c o false hx] at h
      apply same h
      simp [linesOf]
      intro e; exact absurd e.symm hx
  | addSame y c o =>
    left
    simp only [step] at h
    split at h
    · rename_i t hy
      have hid := hk _ _ hy
      by_cases hx : x = t.id
      · subst hx
        rw [← hid] at hy
        rw [get?_addFailure_tracked s t t c o true hy] at h
        have hok : (s.updateTracked t t c true).2 = true := by
          rw [updateTracked_ok]; left; rfl
        rw [hok] at h
        cases h
        refine ⟨t, hy, ?_⟩
        intro post hp
        rw [updateTracked_getMatches s t t c true hok]
        have e : repLines s t true = [] := rfl
        rw [e, List.append_nil, ← newest_eq_lastN]
        simp only [List.map_append, List.map_cons, List.map_nil, List.flatten_append, List.flatten_cons,
          List.flatten_nil, List.append_nil, linesOf]
        exact List.IsSuffix.trans (newest_suffix _ _) hp
      · rw [get?_addFailure_ne s t c o true hx] at h
        exact same h rfl
    · exact same h rfl
  | cleanup time =>
    left
    simp only [step, get?_cleanup, Option.filter_eq_some_iff] at h
    exact same h.1 rfl
  | del fid =>
    left
    simp only [step, delFailure, Dict.get?_erase] at h
    split at h
    · cases h
    · exact same h rfl
  | toBan fid =>
    left
    simp only [step] at h
    rcases get?_toBan s fid x with e | e
    · rw [e] at h; exact same h rfl
    · rw [e] at h; cases h
  | setMaxRetry n => left; exact same h rfl
  | setMaxTime n => left; exact same h rfl
  | setMaxMatches n => left; exact same h rfl

/-- maxmatches 2, three lines: the newest two are kept -/
example : ((init.run (.setMaxMatches 2 :: exHist.map Report.op)).failList.get? "192.0.2.1").map Ticket.getMatches
    = some ["b", "c"] := by decide

/-- A defect found on the way: raising `maxmatches` from 0 at runtime makes the next report of a tracked address reset
its counter (a `KeyError` inside the update is taken for "address unknown"): after two counted failures the third report
leaves the counter at 1. -/
theorem C06_maxmatches_reset_defect :
    ((init.run ((.setMaxMatches 0 :: [(⟨"a", 1, ["l1"]⟩ : Report), ⟨"a", 2, ["l2"]⟩].map Report.op) ++
      [.setMaxMatches 5, Report.op ⟨"a", 3, ["l3"]⟩])).failList.get? "a").map Ticket.retry = some 1 := by decide

/-! ## C07 -/

/-- a report that is rejected: it comes from the observer or carries a ban, and the address is not tracked -/
def Rejected (s : FailManager) : Op → Prop
  | .add t _ o => (o = true ∨ t.isBan = true) ∧ ¬ Tracked s t.id
  | .addSame y _ _ => ¬ Tracked s y
  | _ => False

/-- the operation is a failure report -/
def IsReport : Op → Prop
  | .add .. => True
  | .addSame .. => True
  | _ => False

/-- **C07 (one step).** The total grows by one with every report that is not rejected and is untouched by everything
else. (Side condition: lines are kept, i.e. `maxmatches` was not raised from zero, see the defect above.) -/
theorem C07_total_step (s : FailManager) (op : Op) (hk : ∀ x d, s.failList.get? x = some d → d.id = x)
    (hm : ∀ x d, s.failList.get? x = some d → d.matches' ≠ none ∨ s.maxMatches = 0) :
    ((IsReport op ∧ ¬ Rejected s op) → (s.step op).failTotal = s.failTotal + 1) ∧
    ((¬ IsReport op ∨ Rejected s op) → (s.step op).failTotal = s.failTotal) := by
  have hadd : ∀ (t f : Ticket) (c : Nat) (o m : Bool), s.failList.get? t.id = some f →
      (s.addFailure t c o m).2.failTotal = s.failTotal + 1 := by
    intro t f c o m hg
    have hok : (s.updateTracked f t c m).2 = true := by
      rw [updateTracked_ok]
      rcases hm _ _ hg with h | h
      · exact Or.inr h
      · left; cases m <;> simp [h]
    unfold FailManager.addFailure
    rw [hg]
    simp only
    generalize s.updateTracked f t c m = u at *
    rcases u with ⟨u1, u2⟩
    simp only at hok
    subst hok
    rfl
  have hnew : ∀ (t : Ticket) (c : Nat) (o m : Bool), s.failList.get? t.id = none →
      (s.addFailure t c o m).2.failTotal = if o || t.isBan then s.failTotal else s.failTotal + 1 := by
    intro t c o m hg
    unfold FailManager.addFailure
    rw [hg]
    simp only [FailManager.addNew]
    split <;> rfl
  cases op with
  | add t c o =>
    simp only [IsReport, Rejected, true_and, not_true, false_or, step]
    cases hg : s.failList.get? t.id with
    | none =>
      rw [hnew t c o false hg]
      have hu : ¬ Tracked s t.id := by rintro ⟨d, hd⟩; rw [hg] at hd; cases hd
      cases o <;> cases hb : t.isBan <;> simp [hu]
    | some f =>
      rw [hadd t f c o false hg]
      have ht : Tracked s t.id := ⟨f, hg⟩
      simp [ht]
  | addSame y c o =>
    simp only [IsReport, Rejected, true_and, not_true, false_or, step]
    cases hg : s.failList.get? y with
    | none =>
      have hu : ¬ Tracked s y := by rintro ⟨d, hd⟩; rw [hg] at hd; cases hd
      simp [hu]
    | some t =>
      have ht : Tracked s y := ⟨t, hg⟩
      have hid := hk _ _ hg
      have := hadd t t c o true (by rw [hid]; exact hg)
      simp [ht, this]
  | cleanup time => simp only [IsReport, Rejected, step]; simp [cleanup_cfg]
  | del fid => simp [IsReport, Rejected, step, delFailure]
  | toBan fid => simp only [IsReport, Rejected, step]; simp [toBan_cfg]
  | setMaxRetry n => simp [IsReport, Rejected, step]
  | setMaxTime n => simp [IsReport, Rejected, step]
  | setMaxMatches n => simp [IsReport, Rejected, step]

/-- **C07 (history).** From start, if only filters report (new tickets, any address, any time and lines, any count), the
total equals the number of reports, whatever else happens in between (here including changes of `maxmatches`). -/
theorem C07_total (ops : List Op) (h : ∀ op ∈ ops, ∀ t c o, op = .add t c o → o = false ∧ t.isBan = false)
    (h' : ∀ op ∈ ops, ∀ y c o, op ≠ .addSame y c o) :
    (init.run ops).failTotal = (ops.filter (fun op => match op with | .add .. => true | _ => false)).length := by
  induction ops using list_snoc_induction with
  | nil => rfl
  | snoc ops op ih =>
    have ih' := ih (fun o ho => h o (List.mem_append_left _ ho)) (fun o ho => h' o (List.mem_append_left _ ho))
    have hop := h op (List.mem_append_right _ List.mem_cons_self)
    have hop' := h' op (List.mem_append_right _ List.mem_cons_self)
    rw [run_snoc, List.filter_append, List.length_append, ← ih']
    generalize init.run ops = s
    cases op with
    | add t c o =>
      obtain ⟨rfl, hb⟩ := hop t c o rfl
      simp only [step, List.filter_cons_of_pos, List.filter_nil, List.length_cons, List.length_nil]
      unfold FailManager.addFailure FailManager.addNew
      simp only [hb, Bool.or_self, Bool.false_eq_true, if_false]
      split
      · generalize s.updateTracked _ t c false = u
        rcases u with ⟨u1, u2⟩
        cases u2 <;> rfl
      · rfl
    | addSame y c o => exact absurd rfl (hop' y c o)
    | cleanup time => simp [step, cleanup_cfg]
    | del fid => simp [step, delFailure]
    | toBan fid => simp [step, toBan_cfg]
    | setMaxRetry n => simp [step]
    | setMaxTime n => simp [step]
    | setMaxMatches n => simp [step]

example : (init.run (exHist.map Report.op)).failTotal = 4 := by decide

/-! ## C08 -/

/-- **C08.** A report for one address leaves every other address (tracked or not) exactly as it was, and keeps the order
of tracked addresses (a new address comes last). -/
theorem C08_isolation (s : FailManager) (t : Ticket) (c : Nat) (o m : Bool) :
    (∀ x, x ≠ t.id → (s.addFailure t c o m).2.failList.get? x = s.failList.get? x) ∧
    (Tracked s t.id → (s.addFailure t c o m).2.failList.keys = s.failList.keys) ∧
    (¬ Tracked s t.id → (s.addFailure t c o m).2.failList.keys = s.failList.keys ∨
      (s.addFailure t c o m).2.failList.keys = s.failList.keys ++ [t.id]) := by
  refine ⟨fun x hx => get?_addFailure_ne s t c o m hx, ?_, ?_⟩
  · rintro ⟨f, hf⟩
    have hmem : t.id ∈ s.failList.keys := (Dict.mem_keys_iff _ _).2 ⟨f, hf⟩
    unfold FailManager.addFailure
    rw [hf]
    simp only
    generalize s.updateTracked f t c m = u
    rcases u with ⟨u1, u2⟩
    cases u2
    · simp only [FailManager.addNew]
      split
      · exact Dict.keys_insert_of_mem _ hmem _
      · rw [Dict.keys_insert_of_mem]
        · exact Dict.keys_insert_of_mem _ hmem _
        · rw [Dict.keys_insert_of_mem _ hmem]; exact hmem
    · exact Dict.keys_insert_of_mem _ hmem _
  · intro hu
    have hn : s.failList.get? t.id = none := by
      cases hg : s.failList.get? t.id with
      | none => rfl
      | some d => exact absurd ⟨d, hg⟩ hu
    unfold FailManager.addFailure
    rw [hn]
    simp only [FailManager.addNew]
    split
    · exact Or.inl rfl
    · right
      simp only [Dict.keys]
      rw [Dict.items_insert_of_not_mem _ ((Dict.get?_eq_none_iff _ _).1 hn)]
      simp

example : ((init.run (exHist.map Report.op)).addFailure (Ticket.new "192.0.2.2" 1030 ["z"]) 1 false true).2.failList.keys = ["192.0.2.1", "192.0.2.2"] ∧
    ((init.run (exHist.map Report.op)).addFailure (Ticket.new "192.0.2.0" 1030 ["z"]) 1 false true).2.failList.keys = ["192.0.2.1", "192.0.2.2", "192.0.2.0"] ∧
    (((init.run (exHist.map Report.op)).addFailure (Ticket.new "192.0.2.2" 1030 ["z"]) 1 false true).2.failList.get? "192.0.2.1").map Ticket.retry = some 3 := by decide

/-! ## C09 -/

/-- **C09.** A report of a tracked address (lines kept) sets the recorded newest time to the maximum of old and reported
time – hence it never decreases –, keeps the start of the window not after it, moves the start never backwards, and a
report not newer than the recorded time counts fully. -/
theorem C09_late_report (s : FailManager) (f t : Ticket) (c : Nat) (o : Bool)
    (hf : s.failList.get? t.id = some f) (hm : f.matches' ≠ none ∨ s.maxMatches = 0) (hft : f.firstTime ≤ f.time) :
    ∃ d, (s.addFailure t c o).2.failList.get? t.id = some d ∧
      d.time = max f.time t.time ∧ d.firstTime ≤ d.time ∧ f.firstTime ≤ d.firstTime ∧
      (t.time ≤ f.time → d.retry = f.retry + c ∧ d.firstTime = f.firstTime) ∧
      d.failures = f.failures + max 1 t.failures := by
  have hok : (s.updateTracked f t c false).2 = true := by
    rw [updateTracked_ok]
    rcases hm with h | h
    · exact Or.inr h
    · left; simp [h]
  have e := get?_addFailure_tracked s t f c o false hf
  rw [hok] at e
  simp only [if_true] at e
  have e1 := updateTracked_time s f t c false
  have e2 := updateTracked_firstTime s f t c false
  have e3 := updateTracked_retry s f t c false
  have e4 := updateTracked_failures s f t c false
  simp only [repTime, Bool.false_eq_true, if_false] at e1 e2 e3 e4
  rw [adjustTime_firstTime] at e2
  rw [adjustTime_retry] at e3
  refine ⟨_, e, e1, ?_, ?_, ?_, ?_⟩
  · rw [e1, e2]; split <;> omega
  · rw [e2]; split <;> omega
  · intro hle
    have hn : ¬ (f.time < t.time ∧ f.firstTime < t.time - s.maxTime) := by omega
    rw [if_neg hn] at e2 e3
    exact ⟨e3, e2⟩
  · rw [e4]; split <;> omega

/-- the hypotheses are met, with a report older than the recorded time -/
example : ∃ f, (init.run (exHist.map Report.op)).failList.get? "192.0.2.1" = some f ∧ f.matches' ≠ none ∧
    f.firstTime ≤ f.time ∧ (500 : Int) < f.time :=
  ⟨{ (Ticket.new "192.0.2.1" 1020 ["a", "b", "c"]) with firstTime := 1000, retry := 3, failures := 3 },
    by decide, by decide, by decide, by decide⟩

end Verif
