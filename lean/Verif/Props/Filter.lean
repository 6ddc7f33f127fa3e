import Verif.Lemmas.Filter
import Verif.Props.FailManager
import Verif.Props.Ignore

/-! # Properties of the processing of log lines (C33, C35, C36, C52) -/

namespace Verif

open IPAddr Spec.Filt Spec.Fail FailManager

namespace Filter

theorem lineDone_cfg (s : Filter) (now : Int) :
    (s.lineDone now).ign = s.ign ∧ (s.lineDone now).out = s.out ∧ (s.lineDone now).findTime = s.findTime ∧
    (s.lineDone now).checkFindTime = s.checkFindTime ∧ (s.lineDone now).inOperation = s.inOperation ∧
    (s.lineDone now).lastDate = s.lastDate ∧ (s.lineDone now).idle = s.idle ∧ (s.lineDone now).observer = s.observer ∧
    (s.lineDone now).procLines = s.procLines + 1 ∧ (s.lineDone now).errors = s.errors / 2 ∧
    ((s.lineDone now).fm = s.fm ∨ (s.lineDone now).fm = s.fm.cleanup now) := by
  unfold lineDone
  dsimp only
  by_cases h : (s.procLines + 1) % 100 = 0
  · rw [if_pos h]
    unfold performSvc
    split
    · exact ⟨rfl, rfl, rfl, rfl, rfl, rfl, rfl, rfl, rfl, rfl, .inr rfl⟩
    · exact ⟨rfl, rfl, rfl, rfl, rfl, rfl, rfl, rfl, rfl, rfl, .inl rfl⟩
  · rw [if_neg h]
    exact ⟨rfl, rfl, rfl, rfl, rfl, rfl, rfl, rfl, rfl, rfl, .inl rfl⟩

theorem lineDone_ref (s : Filter) (now : Int) : ∃ ops, Ref s (s.lineDone now) ops ∧ addsOf ops = [] := by
  have h := lineDone_cfg s now
  obtain ⟨_, ho, _, _, _, _, _, _, _, _, hf⟩ := h
  rcases hf with hf | hf
  · exact ⟨[], Ref.same hf (by rw [ho]), rfl⟩
  · refine ⟨[.cleanup now], ⟨hf, ?_, fun t ht => .inl (by rw [ho] at ht; exact ht)⟩, rfl⟩
    intro op h; rw [List.mem_singleton] at h; rw [h]; trivial

theorem commonError_cfg (s : Filter) : s.commonError.fm = s.fm ∧ s.commonError.out = s.out ∧ s.commonError.ign = s.ign ∧
    s.commonError.observer = s.observer ∧ s.commonError.procLines = s.procLines := by
  unfold commonError
  dsimp only
  split <;> exact ⟨rfl, rfl, rfl, rfl, rfl⟩

end Filter

open Filter

/-- **C33 (line).** Processing a line changes the failure list exactly by the failures it reports (`Spec.Filt.reports`: those in it that are not
ignored, at the time of the line), in order, apart from expiry and handover; the observer is told of exactly these. Whatever is handed over was
picked by the failure manager (see C01, C05). -/
theorem C33_line (env : IgnoreEnv) (now : Int) (s : Filter) (l : Line) :
    (∃ ops, (s.processLineAndAdd env now l).fm = s.fm.run ops ∧ (∀ op ∈ ops, Plain op) ∧
      addsOf ops = (reports env now s l).map Report.op ∧
      ∀ t ∈ handedOver (s.processLineAndAdd env now l).out, t ∈ handedOver s.out ∨
        ∃ pre fid suf, ops = pre ++ Op.toBan fid :: suf ∧ ((s.fm.run pre).toBan fid).1 = some t) ∧
    told (s.processLineAndAdd env now l).out =
      told s.out ++ (if s.observer then (reports env now s l).map ticket else []) := by
  have main : (∃ ops, Ref s (s.processLineAndAdd env now l) ops ∧ addsOf ops = (reports env now s l).map Report.op) ∧
      told (s.processLineAndAdd env now l).out =
        told s.out ++ (if s.observer then (reports env now s l).map ticket else []) := by
    obtain ⟨⟨d, hd⟩, hc⟩ := processLine_spec s now l
    rcases hp : s.processLine now l with ⟨r, s1⟩
    rw [hp] at hd hc
    dsimp only at hd hc
    subst hd
    have hnil : ∀ (b : Bool), told s.out = told s.out ++ (if b then [] else []) := by intro b; cases b <;> simp
    unfold processLineAndAdd
    rw [hp]
    rcases hc with ⟨t, fs, date, h1, h2, h3, h4⟩ | ⟨h1, _, h4⟩ | ⟨h1, _, h4⟩
    · subst h4
      dsimp only
      have hrep : reports env now s l = (kept env now s.ign fs).map (fun f => ⟨fid env f, t, f.lines⟩) := by
        unfold reports; rw [h1, h2]; rfl
      obtain ⟨_, ⟨ops, r1, a1⟩, t1⟩ := addLoop_spec env now { s with lastDate := d } fs date
      have hcl : clamp { s with lastDate := d } now date = t := h3
      rw [hcl] at a1 t1
      rcases hl : addLoop env now { s with lastDate := d } (fs.map (fun f => (f, date))) with ⟨ok, s2⟩
      rw [hl] at r1 t1
      have hfin : addsOf ops = (reports env now s l).map Report.op ∧
          told s2.out = told s.out ++ (if s.observer then (reports env now s l).map ticket else []) := by
        rw [hrep]
        constructor
        · rw [a1, List.map_map]; rfl
        · rw [t1, List.map_map]; rfl
      have hr : Ref s s2 ops := (Ref.same (s := s) (s' := { s with lastDate := d }) rfl rfl).trans r1
      cases ok with
      | true =>
        dsimp only
        obtain ⟨o2, r2, a2⟩ := lineDone_ref s2 now
        refine ⟨⟨ops ++ o2, hr.trans r2, ?_⟩, ?_⟩
        · rw [addsOf_append, a2, List.append_nil]; exact hfin.1
        · rw [(lineDone_cfg s2 now).2.1]; exact hfin.2
      | false =>
        dsimp only
        refine ⟨⟨ops, hr.congr (commonError_cfg s2).1 (by rw [(commonError_cfg s2).2.1]), hfin.1⟩, ?_⟩
        rw [(commonError_cfg s2).2.1]; exact hfin.2
    · have hrep : reports env now s l = [] := by unfold reports; rw [h1]
      rw [hrep]
      rcases h4 with h4 | h4
      · subst h4
        dsimp only [addLoop]
        obtain ⟨o2, r2, a2⟩ := lineDone_ref { s with lastDate := d } now
        refine ⟨⟨o2, (Ref.same (s := s) (s' := { s with lastDate := d }) rfl rfl).trans r2, a2⟩, ?_⟩
        rw [(lineDone_cfg _ now).2.1]; exact hnil _
      · subst h4
        dsimp only
        refine ⟨⟨[], Ref.same (commonError_cfg _).1 (by rw [(commonError_cfg _).2.1]), rfl⟩, ?_⟩
        rw [(commonError_cfg _).2.1]; exact hnil _
    · have hrep : reports env now s l = [] := by unfold reports; rw [h1]; cases lineTime s now l <;> rfl
      rw [hrep]
      subst h4
      dsimp only
      refine ⟨⟨[], Ref.same (commonError_cfg _).1 (by rw [(commonError_cfg _).2.1]), rfl⟩, ?_⟩
      rw [(commonError_cfg _).2.1]; exact hnil _
  obtain ⟨⟨ops, h1, h2⟩, h3⟩ := main
  exact ⟨⟨ops, h1.fm, h1.plain, h2, h1.puts⟩, h3⟩

open Classical in
/-- **C33 (what is reported).** Without a cache: a line reports exactly the failures in it whose address is not to be ignored, provided the ignore command,
if there is one, can be executed for the addresses that are not listed. -/
theorem C33_reports (env : IgnoreEnv) (now : Int) (s : Filter) (l : Line) (fs : List Found) (t : Int) (hc : s.ign.cache = none)
    (hf : l.find = some fs) (ht : lineTime s now l = some t)
    (hcmd : ∀ f ∈ fs, Listed env s.ign f.ip ∨ s.ign.command = false ∨ ∃ code, env.command f.ip = some code) :
    reports env now s l =
      (fs.filter (fun f => ¬ Ignored env s.ign f.ip)).map (fun f => ⟨String.ofList (f.ip.ntoa env.lib), t, f.lines⟩) := by
  unfold reports
  rw [hf, ht]
  dsimp only
  congr 1
  have hq := fun x => C33_decision env now s.ign x hc
  clear hf
  induction fs with
  | nil => rfl
  | cons f fs ih =>
    have ih := ih (fun g hg => hcmd g (List.mem_cons_of_mem _ hg))
    obtain ⟨q1, q2, q3, q4⟩ := hq f.ip
    simp only [kept]
    rw [q4]
    rcases hr : (s.ign.inIgnoreIPList env now f.ip).1 with _ | _ | _
    · exfalso
      obtain ⟨h1, h2, h3⟩ := q3.1 hr
      rcases hcmd f (by simp) with h | h | ⟨c, h⟩
      · exact h1 h
      · rw [h2] at h; cases h
      · rw [h3] at h; cases h
    · have hn : ¬ Ignored env s.ign f.ip := fun h => by
        have := q1.2 h
        rw [hr] at this; cases this
      dsimp only
      rw [List.filter_cons_of_pos (by simpa using hn), ih]
    · have hi : Ignored env s.ign f.ip := q1.1 hr
      dsimp only
      rw [List.filter_cons_of_neg (by simpa using hi), ih]

/-- the failures kept are not ignored -/
theorem Filter.kept_not_ignored (env : IgnoreEnv) (now : Int) (g : Ignore) (fs : List Found) (hc : g.cache = none) :
    ∀ f ∈ kept env now g fs, f ∈ fs ∧ ¬ Ignored env g f.ip := by
  induction fs with
  | nil => intro f h; cases h
  | cons a fs ih =>
    intro f hf
    obtain ⟨q1, _, _, q4⟩ := C33_decision env now g a.ip hc
    simp only [kept] at hf
    rw [q4] at hf
    rcases hr : (g.inIgnoreIPList env now a.ip).1 with _ | _ | _
    · rw [hr] at hf; cases hf
    · rw [hr] at hf
      rcases List.mem_cons.1 hf with rfl | hf
      · refine ⟨List.mem_cons_self, fun h => ?_⟩
        have := q1.2 h
        rw [hr] at this; cases this
      · exact ⟨List.mem_cons_of_mem _ (ih f hf).1, (ih f hf).2⟩
    · rw [hr] at hf
      exact ⟨List.mem_cons_of_mem _ (ih f hf).1, (ih f hf).2⟩

theorem Filter.process_cfg (env : IgnoreEnv) (now : Int) (s : Filter) (l : Line) :
    { (s.processLineAndAdd env now l).ign with cache := none } = { s.ign with cache := none } ∧
    ((s.processLineAndAdd env now l).ign.cache = none ↔ s.ign.cache = none) ∧
    (s.processLineAndAdd env now l).observer = s.observer := by
  obtain ⟨⟨d, hd⟩, _⟩ := processLine_spec s now l
  rcases hp : s.processLine now l with ⟨r, s1⟩
  rw [hp] at hd
  dsimp only at hd
  subst hd
  have hloop : ∀ (fs : List (Found × Option Int)) (s : Filter),
      { (addLoop env now s fs).2.ign with cache := none } = { s.ign with cache := none } ∧
      ((addLoop env now s fs).2.ign.cache = none ↔ s.ign.cache = none) ∧ (addLoop env now s fs).2.observer = s.observer := by
    intro fs
    induction fs with
    | nil => intro s; exact ⟨rfl, Iff.rfl, rfl⟩
    | cons p fs ih =>
      intro s
      obtain ⟨f, date⟩ := p
      have hin := Ignore.in_cfg env now s.ign f.ip
      simp only [addLoop]
      rw [addFound_eq]
      rcases hq : s.ign.inIgnoreIPList env now f.ip with ⟨_ | _ | _, g⟩
      · rw [hq] at hin
        refine ⟨?_, hin.2, rfl⟩
        have := congrArg (fun g : Ignore => { g with cache := none }) hin.1
        exact this
      · rw [hq] at hin
        dsimp only
        have hc := (count_spec env now { s with ign := g } f (clamp s now date)).1
        obtain ⟨h1, h2, h3⟩ := ih (count env now { s with ign := g } f (clamp s now date))
        rw [hc.ign] at h1 h2
        rw [hc.observer] at h3
        refine ⟨h1.trans ?_, h2.trans hin.2, h3⟩
        have := congrArg (fun g : Ignore => { g with cache := none }) hin.1
        exact this
      · rw [hq] at hin
        dsimp only
        obtain ⟨h1, h2, h3⟩ := ih { s with ign := g }
        refine ⟨h1.trans ?_, h2.trans hin.2, h3⟩
        have := congrArg (fun g : Ignore => { g with cache := none }) hin.1
        exact this
  unfold processLineAndAdd
  rw [hp]
  cases r with
  | none =>
    dsimp only
    rw [(commonError_cfg _).2.2.1, (commonError_cfg _).2.2.2.1]
    exact ⟨rfl, Iff.rfl, rfl⟩
  | some fs =>
    dsimp only
    have := hloop fs { s with lastDate := d }
    rcases hl : addLoop env now { s with lastDate := d } fs with ⟨ok, s2⟩
    rw [hl] at this
    cases ok with
    | true =>
      dsimp only
      rw [(lineDone_cfg s2 now).1, (lineDone_cfg s2 now).2.2.2.2.2.2.2.1]
      exact this
    | false =>
      dsimp only
      rw [(commonError_cfg s2).2.2.1, (commonError_cfg s2).2.2.2.1]
      exact this

namespace Filter

/-- a whole history refines a history of the failure manager -/
theorem runLines_ref (h : List LineStep) (s : Filter) :
    (∃ ops, Ref s (runLines s h) ops ∧ addsOf ops = (reportsOf s h).map Report.op) ∧
    told (runLines s h).out = told s.out ++ (if s.observer then (reportsOf s h).map ticket else []) := by
  induction h generalizing s with
  | nil => exact ⟨⟨[], Ref.refl s, rfl⟩, by show told s.out = told s.out ++ (if s.observer then [] else []); split <;> simp⟩
  | cons x h ih =>
    obtain ⟨⟨o1, h1, h2, h3, h4⟩, t1⟩ := C33_line x.2.1 x.1 s x.2.2
    obtain ⟨⟨o2, r2, a2⟩, t2⟩ := ih (s.processLineAndAdd x.2.1 x.1 x.2.2)
    have r1 : Ref s (s.processLineAndAdd x.2.1 x.1 x.2.2) o1 := ⟨h1, h2, h4⟩
    refine ⟨⟨o1 ++ o2, r1.trans r2, ?_⟩, ?_⟩
    · rw [addsOf_append, h3, a2, ← List.map_append]; rfl
    · show told (runLines (s.processLineAndAdd x.2.1 x.1 x.2.2) h).out = _
      rw [t2, t1, (process_cfg x.2.1 x.1 s x.2.2).2.2]
      cases s.observer <;> simp [reportsOf]

/-- addresses in the failure list were there before or were reported -/
theorem tracked_of_adds (ops : List Op) (s : FailManager) (x : Fid) (d : Ticket) (hp : ∀ op ∈ ops, Plain op)
    (h : (s.run ops).failList.get? x = some d) : (∃ d', s.failList.get? x = some d') ∨ ∃ t c o, Op.add t c o ∈ addsOf ops ∧ t.id = x := by
  induction ops using list_snoc_induction generalizing d with
  | nil => exact .inl ⟨d, h⟩
  | snoc ops op ih =>
    have hp' : ∀ op ∈ ops, Plain op := fun o ho => hp o (List.mem_append_left _ ho)
    have lift : ((∃ d', s.failList.get? x = some d') ∨ ∃ t c o, Op.add t c o ∈ addsOf ops ∧ t.id = x) →
        ((∃ d', s.failList.get? x = some d') ∨ ∃ t c o, Op.add t c o ∈ addsOf (ops ++ [op]) ∧ t.id = x) := by
      rintro (h | ⟨t, c, o, h1, h2⟩)
      · exact .inl h
      · exact .inr ⟨t, c, o, by rw [addsOf_append]; exact List.mem_append_left _ h1, h2⟩
    rw [run_snoc] at h
    have hop := hp op (by simp)
    cases op with
    | add t c o =>
      by_cases hx : x = t.id
      · exact .inr ⟨t, c, o, by rw [addsOf_append]; exact List.mem_append_right _ (by simp [addsOf]), hx.symm⟩
      · simp only [FailManager.step] at h
        rw [get?_addFailure_ne _ _ _ _ _ hx] at h
        exact lift (ih d hp' h)
    | cleanup time =>
      simp only [FailManager.step] at h
      rw [get?_cleanup] at h
      cases hg : (s.run ops).failList.get? x with
      | none => rw [hg] at h; cases h
      | some e => exact lift (ih e hp' hg)
    | toBan fid =>
      simp only [FailManager.step] at h
      rcases get?_toBan (s.run ops) fid x with h' | h'
      · rw [h'] at h; exact lift (ih d hp' h)
      · rw [h'] at h; cases h
    | addSame => exact hop.elim
    | del => exact hop.elim
    | setMaxRetry => exact hop.elim
    | setMaxTime => exact hop.elim
    | setMaxMatches => exact hop.elim

theorem run_plain_cfg (ops : List Op) (s : FailManager) (hp : ∀ op ∈ ops, Plain op) :
    (s.run ops).maxRetry = s.maxRetry ∧ (s.run ops).maxTime = s.maxTime := by
  induction ops generalizing s with
  | nil => exact ⟨rfl, rfl⟩
  | cons op ops ih =>
    obtain ⟨h1, h2⟩ := ih (s.step op) (fun o ho => hp o (List.mem_cons_of_mem _ ho))
    have hop := hp op (by simp)
    have hs : (s.step op).maxRetry = s.maxRetry ∧ (s.step op).maxTime = s.maxTime := by
      cases op with
      | add t c o => exact ⟨(addFailure_cfg s t c o false).1, (addFailure_cfg s t c o false).2.1⟩
      | cleanup time => exact ⟨(cleanup_cfg s time).1, (cleanup_cfg s time).2.1⟩
      | toBan fid => exact ⟨(toBan_cfg s fid).1, (toBan_cfg s fid).2.1⟩
      | addSame => exact hop.elim
      | del => exact hop.elim
      | setMaxRetry => exact hop.elim
      | setMaxTime => exact hop.elim
      | setMaxMatches => exact hop.elim
    exact ⟨h1.trans hs.1, h2.trans hs.2⟩

theorem toBan_some (s : FailManager) (fid : Option Fid) (t : Ticket) (h : (s.toBan fid).1 = some t) (hk : KeyId s) :
    s.failList.get? t.id = some t ∧ s.maxRetry ≤ t.retry := by
  unfold FailManager.toBan at h
  split at h
  · rename_i f data heq
    obtain ⟨_, hget, hle⟩ := toBanLoop_eq_some _ _ _ _ heq
    have : data = t := by simpa using h
    subst this
    have := hk _ _ hget
    rw [this]; exact ⟨hget, hle⟩
  · cases h

/-- ignore configuration along a history -/
theorem runLines_ign (h : List LineStep) (s : Filter) : { (runLines s h).ign with cache := none } = { s.ign with cache := none } ∧
    ((runLines s h).ign.cache = none ↔ s.ign.cache = none) := by
  induction h generalizing s with
  | nil => exact ⟨rfl, Iff.rfl⟩
  | cons x h ih =>
    obtain ⟨h1, h2⟩ := ih (s.processLineAndAdd x.2.1 x.1 x.2.2)
    obtain ⟨h3, h4, _⟩ := process_cfg x.2.1 x.1 s x.2.2
    exact ⟨h1.trans h3, h2.trans h4⟩

theorem reportsOf_not_ignored (h : List LineStep) (s : Filter) (hc : s.ign.cache = none) :
    ∀ r ∈ reportsOf s h, ∃ x ∈ h, ∃ fs f, x.2.2.find = some fs ∧ f ∈ fs ∧ r.id = fid x.2.1 f ∧ ¬ Ignored x.2.1 s.ign f.ip := by
  induction h generalizing s with
  | nil => intro r hr; cases hr
  | cons x h ih =>
    intro r hr
    rcases List.mem_append.1 hr with hr | hr
    · unfold reports at hr
      split at hr
      · rename_i t fs h1 h2
        obtain ⟨f, hf, rfl⟩ := List.mem_map.1 hr
        obtain ⟨h3, h4⟩ := kept_not_ignored x.2.1 x.1 s.ign fs hc f hf
        exact ⟨x, List.mem_cons_self, fs, f, h2, h3, rfl, h4⟩
      · cases hr
    · obtain ⟨h3, h4, _⟩ := process_cfg x.2.1 x.1 s x.2.2
      have hc' := h4.2 hc
      obtain ⟨y, hy, fs, f, h5, h6, h7, h8⟩ := ih _ hc' r hr
      refine ⟨y, List.mem_cons_of_mem _ hy, fs, f, h5, h6, h7, ?_⟩
      have heq : (s.processLineAndAdd x.2.1 x.1 x.2.2).ign = s.ign := by
        have e1 : (s.processLineAndAdd x.2.1 x.1 x.2.2).ign = { (s.processLineAndAdd x.2.1 x.1 x.2.2).ign with cache := none } := by
          rw [← hc']
        have e2 : s.ign = { s.ign with cache := none } := by rw [← hc]
        rw [e1, e2]; exact h3
      rw [heq] at h8; exact h8

end Filter

/-- **C33 (never counted, never banned).** In a filter that starts with an empty failure list, after any history of lines: every address in the failure list,
handed over to be banned, or reported to the observer was found in some line at a moment when it was not to be ignored. -/
theorem C33_history (s : Filter) (h : List LineStep) (x : Fid) (hc : s.ign.cache = none) (hfm : s.fm.failList = Dict.empty)
    (hout : s.out = [])
    (hx : (∃ d, (runLines s h).fm.failList.get? x = some d) ∨ (∃ t ∈ handedOver (runLines s h).out, t.id = x) ∨
      ∃ t ∈ told (runLines s h).out, t.id = x) :
    ∃ st ∈ h, ∃ fs f, st.2.2.find = some fs ∧ f ∈ fs ∧ x = String.ofList (f.ip.ntoa st.2.1.lib) ∧ ¬ Ignored st.2.1 s.ign f.ip := by
  obtain ⟨⟨ops, hr, ha⟩, htold⟩ := runLines_ref h s
  have hempty : ∀ y d, s.fm.failList.get? y ≠ some d := by
    intro y d h; rw [hfm] at h; cases h
  have hk : KeyId s.fm := fun y d h => absurd h (hempty y d)
  have fin : ∀ y, (∃ t c o, Op.add t c o ∈ addsOf ops ∧ t.id = y) → ∃ r ∈ reportsOf s h, r.id = y := by
    rintro y ⟨t, c, o, h1, h2⟩
    rw [ha] at h1
    obtain ⟨r, hr, he⟩ := List.mem_map.1 h1
    refine ⟨r, hr, ?_⟩
    cases he
    exact h2
  have key : ∃ r ∈ reportsOf s h, r.id = x := by
    rcases hx with ⟨d, hd⟩ | ⟨t, ht, hid⟩ | ⟨t, ht, hid⟩
    · rw [hr.fm] at hd
      rcases tracked_of_adds ops s.fm x d hr.plain hd with ⟨d', h'⟩ | h'
      · exact absurd h' (hempty x d')
      · exact fin x h'
    · rcases hr.puts t ht with h' | ⟨pre, f, suf, h1, h2⟩
      · rw [hout] at h'; cases h'
      · have hget := (toBan_some _ _ _ h2 (keyId_run s.fm pre hk)).1
        have hpp : ∀ op ∈ pre, Plain op := fun op ho => hr.plain op (by rw [h1]; exact List.mem_append_left _ ho)
        rcases tracked_of_adds pre s.fm t.id t hpp hget with ⟨d', h'⟩ | ⟨t', c, o, h3, h4⟩
        · exact absurd h' (hempty _ d')
        · apply fin x
          refine ⟨t', c, o, ?_, by rw [h4, hid]⟩
          rw [h1, addsOf_append]; exact List.mem_append_left _ h3
    · rw [htold, hout] at ht
      have : t ∈ (if s.observer then (reportsOf s h).map ticket else []) := by simpa [told] using ht
      cases ho : s.observer with
      | false => rw [ho] at this; cases this
      | true =>
        rw [ho] at this
        obtain ⟨r, hr, rfl⟩ := List.mem_map.1 this
        exact ⟨r, hr, hid⟩
  obtain ⟨r, hr, hrid⟩ := key
  obtain ⟨y, hy, fs, f, h1, h2, h3, h4⟩ := reportsOf_not_ignored h s hc r hr
  exact ⟨y, hy, fs, f, h1, h2, by rw [← hrid, h3]; rfl, h4⟩

/-! ## C35 -/

/-- **C35 (exact).** While dates are checked: in operation a dated line counts at its date if that is within a minute before now, at now if it is later than now
or deviates by more than a minute; when old logs are read, a line older than `findtime` does not count at all, any other at its date, but not
later than now. -/
theorem C35_exact (s : Filter) (now : Int) (l : Line) (d : Int) (hck : s.checkFindTime = true)
    (hd : l.given = some d ∧ d ≠ 0 ∨ l.given = none ∧ l.detect = .found d) :
    (s.inOperation = true → now - 60 ≤ d → d ≤ now → lineTime s now l = some d) ∧
    (s.inOperation = true → d < now - 60 ∨ now < d → lineTime s now l = some now) ∧
    (s.inOperation = false → d < now - s.findTime → lineTime s now l = none) ∧
    (s.inOperation = false → now - s.findTime ≤ d → d ≤ now → lineTime s now l = some d) ∧
    (s.inOperation = false → now - s.findTime ≤ d → now < d → lineTime s now l = some now) := by
  have hraw : rawDate s now l = some d := by
    unfold rawDate
    rcases hd with ⟨h1, h2⟩ | ⟨h1, h2⟩
    · rw [h1]; simp [h2]
    · rw [h1, h2]; simp
  unfold lineTime
  rw [hraw, hck]
  refine ⟨?_, ?_, ?_, ?_, ?_⟩
  · intro h1 h2 h3
    have : ¬ (d < now - 60 ∨ now + 60 < d) := by omega
    simp [h1, this]; omega
  · intro h1 h2
    by_cases h3 : d < now - 60 ∨ now + 60 < d
    · simp [h1, h3]
    · simp [h1, h3]; omega
  · intro h1 h2; simp [h1, h2]
  · intro h1 h2 h3
    have : ¬ d < now - s.findTime := by omega
    simp [h1, this]; omega
  · intro h1 h2 h3
    have : ¬ d < now - s.findTime := by omega
    simp [h1, this]; omega

/-- **C35 (undated lines).** A line without usable date counts at the last date seen if that is within the last minute, else at now in operation (or if the date is
optional and empty); when old logs are read it does not count otherwise. -/
theorem C35_undated (s : Filter) (now : Int) (l : Line) (hck : s.checkFindTime = true) (hg : l.given = none)
    (hd : ∀ d, l.detect ≠ .found d) (hft : 60 ≤ s.findTime) :
    (∀ d, s.lastDate = some d → d ≠ 0 → now - 60 < d → d ≤ now → lineTime s now l = some d) ∧
    ((∀ d, s.lastDate = some d → d = 0 ∨ d ≤ now - 60) → s.inOperation = true ∨ l.detect = .empty → lineTime s now l = some now) ∧
    ((∀ d, s.lastDate = some d → d = 0 ∨ d ≤ now - 60) → s.inOperation = false → l.detect ≠ .empty → lineTime s now l = none) := by
  have hraw : rawDate s now l = (s.lastDate.filter (fun d => decide (d ≠ 0 ∧ now - 60 < d))).or
        (if l.detect = .empty ∨ (s.checkFindTime = true ∧ s.inOperation = true) then some now else none) := by
    unfold rawDate
    rw [hg]
    rw [if_neg (by simp)]
    cases hdd : l.detect with
    | found d => exact absurd hdd (hd d)
    | none => rfl
    | empty => rfl
    | failed => rfl
  have hold : (∀ d, s.lastDate = some d → d = 0 ∨ d ≤ now - 60) →
      s.lastDate.filter (fun d => decide (d ≠ 0 ∧ now - 60 < d)) = none := by
    intro h
    cases hl : s.lastDate with
    | none => rfl
    | some d =>
      have := h d hl
      simp only [Option.filter, decide_eq_true_eq]
      rw [if_neg]; omega
  refine ⟨?_, ?_, ?_⟩
  · intro d h1 h2 h3 h4
    have hr : rawDate s now l = some d := by
      rw [hraw, h1]
      simp [Option.filter, h2, h3]
    unfold lineTime
    rw [hr, hck]
    have e1 : ¬ (d < now - 60 ∨ now + 60 < d) := by omega
    have e2 : ¬ d < now - s.findTime := by omega
    have e3 : min d now = d := by omega
    cases s.inOperation <;> simp [e1, e2, e3]
  · intro h1 h2
    have hr : rawDate s now l = some now := by
      rw [hraw, hold h1]
      rw [if_pos]
      · rfl
      · rcases h2 with h2 | h2
        · exact .inr ⟨hck, h2⟩
        · exact .inl h2
    unfold lineTime
    rw [hr, hck]
    have e1 : ¬ (now < now - 60 ∨ now + 60 < now) := by omega
    have e2 : ¬ now < now - s.findTime := by omega
    cases s.inOperation <;> simp [e1, e2]
  · intro h1 h2 h3
    have hr : rawDate s now l = none := by
      rw [hraw, hold h1]
      simp [h2, h3]
    unfold lineTime
    rw [hr, hck]
    simp

/-- **C35 (window).** While dates are checked, every failure of every line counts at a time not in the future, and at most a minute (in operation) or
`findtime` (when old logs are read) before now. -/
theorem C35_window (env : IgnoreEnv) (s : Filter) (now : Int) (l : Line) (hck : s.checkFindTime = true) (hft : 0 ≤ s.findTime) :
    ∀ r ∈ reports env now s l, r.time ≤ now ∧ (s.inOperation = true → now - 60 ≤ r.time) ∧
      (s.inOperation = false → now - s.findTime ≤ r.time) := by
  intro r hr
  unfold reports at hr
  split at hr
  · rename_i t fs h1 h2
    obtain ⟨f, _, rfl⟩ := List.mem_map.1 hr
    dsimp only
    unfold lineTime at h1
    rw [hck] at h1
    cases hraw : rawDate s now l with
    | none => rw [hraw] at h1; simp at h1
    | some d =>
      rw [hraw] at h1
      simp only [Bool.true_eq_false, if_false] at h1
      cases hop : s.inOperation with
      | true =>
        rw [hop] at h1
        simp only [if_true] at h1
        split at h1
        · cases h1; simp; omega
        · cases h1; simp; omega
      | false =>
        rw [hop] at h1
        simp only [Bool.false_eq_true, if_false] at h1
        split at h1
        · cases h1
        · cases h1; simp; omega
  · cases hr

/-- **C35 (old lines have no effect).** When old logs are read, a line older than `findtime` changes neither the failure list (apart from expiry) nor is
anything handed over or told; it counts as processed. -/
theorem C35_old (env : IgnoreEnv) (s : Filter) (now : Int) (l : Line) (d : Int) (hck : s.checkFindTime = true)
    (hop : s.inOperation = false) (hd : l.given = some d ∧ d ≠ 0 ∨ l.given = none ∧ l.detect = .found d)
    (hold : d < now - s.findTime) :
    ((s.processLineAndAdd env now l).fm = s.fm ∨ (s.processLineAndAdd env now l).fm = s.fm.cleanup now) ∧
    (s.processLineAndAdd env now l).out = s.out ∧ (s.processLineAndAdd env now l).procLines = s.procLines + 1 ∧
    (s.processLineAndAdd env now l).lastDate = some d := by
  have hld : ∃ nd, s.lineDate now l = (some d, nd, { s with lastDate := some d }) := by
    unfold lineDate
    rcases hd with ⟨h1, h2⟩ | ⟨h1, h2⟩
    · rw [h1]; dsimp only; rw [if_pos h2]; exact ⟨_, rfl⟩
    · rw [h1, h2]; exact ⟨_, rfl⟩
  obtain ⟨nd, hld⟩ := hld
  have hp : s.processLine now l = (some [], { s with lastDate := some d }) := by
    unfold processLine
    rw [hld]
    dsimp only [checkDate]
    rw [hck, hop]
    simp [hold]
  unfold processLineAndAdd
  rw [hp]
  dsimp only [addLoop]
  obtain ⟨_, h2, _, _, _, h3, _, _, h4, _, h5⟩ := lineDone_cfg { s with lastDate := some d } now
  exact ⟨h5, h2, h4, h3⟩

/-! ## C36 -/

/-- **C36 (one line).** A line that could be processed halves the error counter and is counted; a line that failed increases it, and makes the jail idle
(halving it) once it reaches 100. A failing search always counts as failure, unless the line was too old to be searched. -/
theorem C36_line (env : IgnoreEnv) (s : Filter) (now : Int) (l : Line) :
    ((s.processLineAndAdd env now l).procLines = s.procLines + 1 ∧ (s.processLineAndAdd env now l).errors = s.errors / 2 ∧
      (s.processLineAndAdd env now l).idle = s.idle) ∨
    ((s.processLineAndAdd env now l).procLines = s.procLines ∧
      ((s.errors + 1 < 100 ∧ (s.processLineAndAdd env now l).errors = s.errors + 1 ∧ (s.processLineAndAdd env now l).idle = s.idle) ∨
       (100 ≤ s.errors + 1 ∧ (s.processLineAndAdd env now l).errors = (s.errors + 1) / 2 ∧
        (s.processLineAndAdd env now l).idle = true))) := by
  have hce : ∀ s' : Filter, s'.errors = s.errors → s'.idle = s.idle → s'.procLines = s.procLines →
      (s'.commonError.procLines = s.procLines ∧
      ((s.errors + 1 < 100 ∧ s'.commonError.errors = s.errors + 1 ∧ s'.commonError.idle = s.idle) ∨
       (100 ≤ s.errors + 1 ∧ s'.commonError.errors = (s.errors + 1) / 2 ∧ s'.commonError.idle = true))) := by
    intro s' h1 h2 h3
    unfold commonError
    dsimp only
    rw [h1]
    by_cases h : 100 ≤ s.errors + 1
    · rw [if_pos h]; exact ⟨h3, .inr ⟨h, rfl, rfl⟩⟩
    · rw [if_neg h]; exact ⟨h3, .inl ⟨by omega, rfl, h2⟩⟩
  obtain ⟨⟨d, hd⟩, _⟩ := processLine_spec s now l
  rcases hp : s.processLine now l with ⟨r, s1⟩
  rw [hp] at hd
  dsimp only at hd
  subst hd
  unfold processLineAndAdd
  rw [hp]
  cases r with
  | none => exact .inr (hce { s with lastDate := d } rfl rfl rfl)
  | some fs =>
    have hloop : ∀ (fs : List (Found × Option Int)) (s : Filter), (addLoop env now s fs).2.errors = s.errors ∧
        (addLoop env now s fs).2.idle = s.idle ∧ (addLoop env now s fs).2.procLines = s.procLines := by
      intro fs
      induction fs with
      | nil => intro s; exact ⟨rfl, rfl, rfl⟩
      | cons p fs ih =>
        intro s
        obtain ⟨f, date⟩ := p
        simp only [addLoop]
        rw [addFound_eq]
        rcases s.ign.inIgnoreIPList env now f.ip with ⟨_ | _ | _, g⟩
        · exact ⟨rfl, rfl, rfl⟩
        · dsimp only
          have hc := (count_spec env now { s with ign := g } f (clamp s now date)).1
          obtain ⟨h1, h2, h3⟩ := ih (count env now { s with ign := g } f (clamp s now date))
          exact ⟨h1.trans hc.errors, h2.trans hc.idle, h3.trans hc.procLines⟩
        · exact ih { s with ign := g }
    dsimp only
    have := hloop fs { s with lastDate := d }
    rcases hl : addLoop env now { s with lastDate := d } fs with ⟨ok, s2⟩
    rw [hl] at this
    dsimp only at this
    cases ok with
    | true =>
      left
      dsimp only
      obtain ⟨_, _, _, _, _, _, h7, _, h9, h10, _⟩ := lineDone_cfg s2 now
      rw [h9, h10, h7, this.1, this.2.1, this.2.2]
      exact ⟨rfl, rfl, rfl⟩
    | false =>
      right
      exact hce s2 this.1 this.2.1 this.2.2

/-- **C36 (failing search).** A line that is not too old and whose search raises an exception counts as failed and changes nothing else but the last date. -/
theorem C36_search_fails (env : IgnoreEnv) (s : Filter) (now : Int) (l : Line) (hf : l.find = none)
    (ht : ∃ t, lineTime s now l = some t) :
    (s.processLineAndAdd env now l).procLines = s.procLines ∧ (s.processLineAndAdd env now l).fm = s.fm ∧
    (s.processLineAndAdd env now l).out = s.out := by
  obtain ⟨⟨d, hd⟩, hc⟩ := processLine_spec s now l
  rcases hp : s.processLine now l with ⟨r, s1⟩
  rw [hp] at hd hc
  dsimp only at hd hc
  subst hd
  obtain ⟨t, ht⟩ := ht
  rcases hc with ⟨_, fs, _, _, h2, _⟩ | ⟨h1, _⟩ | ⟨_, _, h4⟩
  · rw [hf] at h2; cases h2
  · rw [ht] at h1; cases h1
  · subst h4
    unfold processLineAndAdd
    rw [hp]
    dsimp only
    obtain ⟨h1, h2, _, _, h5⟩ := commonError_cfg { s with lastDate := d }
    exact ⟨h5, h1, h2⟩

/-- **C36 (idle only after 100 failures).** A filter that starts without errors and not idle does not become idle before 100 lines failed. -/
theorem C36_not_early (s : Filter) (h : List LineStep) (he : s.errors = 0) (hi : s.idle = false)
    (hidle : (runLines s h).idle = true) : 100 + ((runLines s h).procLines - s.procLines) ≤ h.length := by
  have inv : ∀ h : List LineStep, s.procLines ≤ (runLines s h).procLines ∧
      (runLines s h).errors + ((runLines s h).procLines - s.procLines) ≤ h.length ∧
      ((runLines s h).idle = true → 100 + ((runLines s h).procLines - s.procLines) ≤ h.length) := by
    intro h
    induction h using list_snoc_induction with
    | nil =>
      refine ⟨Nat.le_refl _, ?_, fun h => ?_⟩
      · show s.errors + (s.procLines - s.procLines) ≤ 0
        omega
      · rw [show (runLines s []).idle = s.idle from rfl, hi] at h; cases h
    | snoc h x ih =>
      obtain ⟨h1, h2, h3⟩ := ih
      have hst : runLines s (h ++ [x]) = (runLines s h).processLineAndAdd x.2.1 x.1 x.2.2 := by simp [runLines]
      rw [hst, List.length_append]
      simp only [List.length_cons, List.length_nil]
      rcases C36_line x.2.1 (runLines s h) x.1 x.2.2 with ⟨e1, e2, e3⟩ | ⟨e1, (⟨e4, e2, e3⟩ | ⟨e4, e2, e3⟩)⟩
      · rw [e1, e2, e3]
        exact ⟨by omega, by omega, fun h => by have := h3 h; omega⟩
      · rw [e1, e2, e3]
        exact ⟨by omega, by omega, fun h => by have := h3 h; omega⟩
      · rw [e1, e2]
        exact ⟨by omega, by omega, fun h => by omega⟩
  exact (inv h).2.2 hidle

/-- **C36 (idle after 100 consecutive failures).** If 100 lines in a row fail, the jail is idle. -/
theorem C36_idle (s : Filter) (h : List LineStep) (hlen : 100 ≤ h.length)
    (hfail : (runLines s h).procLines = s.procLines) : (runLines s h).idle = true := by
  have mono : ∀ h : List LineStep, s.procLines ≤ (runLines s h).procLines := by
    intro h
    induction h using list_snoc_induction with
    | nil => exact Nat.le_refl _
    | snoc h x ih =>
      have hst : runLines s (h ++ [x]) = (runLines s h).processLineAndAdd x.2.1 x.1 x.2.2 := by simp [runLines]
      rw [hst]
      rcases C36_line x.2.1 (runLines s h) x.1 x.2.2 with ⟨e1, _⟩ | ⟨e1, _⟩ <;> omega
  have inv : ∀ h : List LineStep, (runLines s h).procLines = s.procLines →
      (runLines s h).idle = true ∨ (h.length ≤ (runLines s h).errors ∧ (h ≠ [] → (runLines s h).errors < 100)) := by
    intro h
    induction h using list_snoc_induction with
    | nil => intro _; exact .inr ⟨Nat.zero_le _, fun h => absurd rfl h⟩
    | snoc h x ih =>
      intro hp
      have hst : runLines s (h ++ [x]) = (runLines s h).processLineAndAdd x.2.1 x.1 x.2.2 := by simp [runLines]
      rw [hst] at hp ⊢
      rw [List.length_append]
      simp only [List.length_cons, List.length_nil]
      have hm := mono h
      rcases C36_line x.2.1 (runLines s h) x.1 x.2.2 with ⟨e1, e2, e3⟩ | ⟨e1, (⟨e4, e2, e3⟩ | ⟨e4, e2, e3⟩)⟩
      · omega
      · rw [e2, e3]
        rcases ih (by omega) with h' | h'
        · exact .inl h'
        · exact .inr ⟨by omega, fun _ => by omega⟩
      · exact .inl e3
  rcases inv h hfail with h' | ⟨h1, h2⟩
  · exact h'
  · have : h ≠ [] := by intro e; rw [e] at hlen; simp at hlen
    have := h2 this
    omega

/-! ## further exact statements -/

/-- attributes kept by the loop over the failures of a line -/
theorem Filter.addLoop_lastDate (env : IgnoreEnv) (now : Int) (fs : List (Found × Option Int)) (s : Filter) :
    (addLoop env now s fs).2.lastDate = s.lastDate ∧ (addLoop env now s fs).2.procLines = s.procLines := by
  induction fs generalizing s with
  | nil => exact ⟨rfl, rfl⟩
  | cons p fs ih =>
    obtain ⟨f, date⟩ := p
    simp only [addLoop]
    rw [addFound_eq]
    rcases s.ign.inIgnoreIPList env now f.ip with ⟨_ | _ | _, g⟩
    · exact ⟨rfl, rfl⟩
    · dsimp only
      have hc := (count_spec env now { s with ign := g } f (clamp s now date)).1
      have := ih (count env now { s with ign := g } f (clamp s now date))
      exact ⟨this.1.trans hc.lastDate, this.2.trans hc.procLines⟩
    · exact ih { s with ign := g }

/-- **C35 (last date).** The date remembered after a line: now, if the date was corrected in operation; else the date supplied or written in the line; else
unchanged. -/
theorem C35_last_date (env : IgnoreEnv) (s : Filter) (now : Int) (l : Line) :
    (s.processLineAndAdd env now l).lastDate =
      if s.checkFindTime = true ∧ s.inOperation = true ∧ (∃ d, rawDate s now l = some d ∧ (d < now - 60 ∨ now + 60 < d)) then some now
      else if l.given ≠ none ∧ l.given ≠ some 0 then l.given
      else match l.detect with
        | .found d => some d
        | _ => s.lastDate := by
  have hraw := lineDate_fst s now l
  have hld : (s.lineDate now l).2.2.lastDate = (if l.given ≠ none ∧ l.given ≠ some 0 then l.given
      else match l.detect with
        | .found d => some d
        | _ => s.lastDate) ∧ (s.lineDate now l).2.2.checkFindTime = s.checkFindTime ∧
        (s.lineDate now l).2.2.inOperation = s.inOperation := by
    have hdd : ∀ o : Detect, (s.detectDate now o).2.2.lastDate = (match o with
        | .found d => some d
        | _ => s.lastDate) ∧ (s.detectDate now o).2.2.checkFindTime = s.checkFindTime ∧
        (s.detectDate now o).2.2.inOperation = s.inOperation := by
      intro o
      unfold detectDate
      cases o with
      | found d => exact ⟨rfl, rfl, rfl⟩
      | empty => dsimp only; cases s.freshLast now <;> exact ⟨rfl, rfl, rfl⟩
      | none => dsimp only; cases s.freshLast now <;> dsimp only <;> (try split) <;> exact ⟨rfl, rfl, rfl⟩
      | failed => dsimp only; cases s.freshLast now <;> dsimp only <;> (try split) <;> exact ⟨rfl, rfl, rfl⟩
    unfold lineDate
    cases hg : l.given with
    | none => rw [if_neg (by simp)]; exact hdd l.detect
    | some d =>
      dsimp only
      by_cases h0 : d = 0
      · subst h0
        rw [if_neg (by simp), if_neg (by simp)]; exact hdd l.detect
      · rw [if_pos h0, if_pos ⟨by simp, by simpa using h0⟩]; exact ⟨rfl, rfl, rfl⟩
  have hpl : (s.processLine now l).2.lastDate =
      if s.checkFindTime = true ∧ s.inOperation = true ∧ (∃ d, rawDate s now l = some d ∧ (d < now - 60 ∨ now + 60 < d)) then some now
      else (s.lineDate now l).2.2.lastDate := by
    unfold processLine
    rcases h1 : s.lineDate now l with ⟨date, nd, s1⟩
    rw [h1] at hraw hld
    dsimp only at hraw hld ⊢
    rw [← hraw]
    obtain ⟨_, h2, h3⟩ := hld
    have hcd : (s1.checkDate now date).2.lastDate =
        if s.checkFindTime = true ∧ s.inOperation = true ∧ (∃ d, date = some d ∧ (d < now - 60 ∨ now + 60 < d)) then some now
        else s1.lastDate := by
      unfold checkDate
      cases date with
      | none => rw [if_neg (by rintro ⟨_, _, d, h, _⟩; cases h)]
      | some d =>
        dsimp only
        rw [h2, h3]
        by_cases hck : s.checkFindTime = true
        · rw [if_pos hck]
          by_cases hop : s.inOperation = true
          · rw [if_pos hop]
            by_cases hd : d < now - 60 ∨ now + 60 < d
            · rw [if_pos (by omega), if_pos ⟨hck, hop, d, rfl, hd⟩]
            · rw [if_neg (by omega), if_neg]
              rintro ⟨_, _, e, he, h⟩
              cases he; exact hd h
          · have e1 : ¬ (s.checkFindTime = true ∧ s.inOperation = true ∧ (∃ e, some d = some e ∧ (e < now - 60 ∨ now + 60 < e))) :=
              fun h => hop h.2.1
            rw [if_neg hop, if_neg e1]
            by_cases ho : d < now - s1.findTime
            · rw [if_pos ho]
            · rw [if_neg ho]
        · rw [if_neg hck, if_neg (fun h => hck h.1)]
    rw [← hcd]
    rcases s1.checkDate now date with ⟨_ | e, s2⟩
    · rfl
    · dsimp only
      cases l.find with
      | none => rfl
      | some fs => dsimp only; split <;> rfl
  rw [← hld.1, ← hpl]
  unfold processLineAndAdd
  rcases s.processLine now l with ⟨_ | fs, s1⟩
  · dsimp only
    unfold commonError
    dsimp only
    split <;> rfl
  · dsimp only
    have := (addLoop_lastDate env now fs s1).1
    rcases hl : addLoop env now s1 fs with ⟨_ | _, s2⟩
    · rw [hl] at this
      rw [← this]
      dsimp only
      unfold commonError
      dsimp only
      split <;> rfl
    · rw [hl] at this
      rw [← this]
      exact (lineDone_cfg s2 now).2.2.2.2.2.1

/-- **C36 (ignore command that cannot be executed).** Without a cache: a line that is searched successfully counts as processed exactly if the ignore decision can be
made for each of its failures. -/
theorem C36_undecided (env : IgnoreEnv) (s : Filter) (now : Int) (l : Line) (fs : List Found) (hc : s.ign.cache = none)
    (hf : l.find = some fs) (ht : ∃ t, lineTime s now l = some t) :
    (s.processLineAndAdd env now l).procLines = s.procLines + 1 ↔
      ∀ f ∈ fs, ¬ (¬ Listed env s.ign f.ip ∧ s.ign.command = true ∧ env.command f.ip = none) := by
  have hloop : ∀ (date : Option Int) (fs : List Found) (s' : Filter), s'.ign = s.ign →
      ((addLoop env now s' (fs.map (fun f => (f, date)))).1 = true ↔
        ∀ f ∈ fs, ¬ (¬ Listed env s.ign f.ip ∧ s.ign.command = true ∧ env.command f.ip = none)) := by
    intro date fs
    induction fs with
    | nil => intro s' _; simp [addLoop]
    | cons f fs ih =>
      intro s' hs'
      obtain ⟨_, _, q3, q4⟩ := C33_decision env now s.ign f.ip hc
      simp only [List.map_cons, addLoop]
      rw [addFound_eq, hs']
      rcases hq : s.ign.inIgnoreIPList env now f.ip with ⟨_ | _ | _, g⟩
      · rw [hq] at q3
        dsimp only
        constructor
        · intro h; cases h
        · intro h; exact absurd (q3.1 rfl) (h f (by simp))
      · rw [hq] at q3 q4
        dsimp only at q4 ⊢
        have hcs := (count_spec env now { s' with ign := g } f (clamp s' now date)).1
        rw [ih _ (by rw [hcs.ign]; exact q4)]
        constructor
        · intro h f' hf'
          rcases List.mem_cons.1 hf' with rfl | hf'
          · intro hh
            have := q3.2 hh
            cases this
          · exact h f' hf'
        · intro h f' hf'; exact h f' (List.mem_cons_of_mem _ hf')
      · rw [hq] at q3 q4
        dsimp only at q4 ⊢
        rw [ih { s' with ign := g } q4]
        constructor
        · intro h f' hf'
          rcases List.mem_cons.1 hf' with rfl | hf'
          · intro hh
            have := q3.2 hh
            cases this
          · exact h f' hf'
        · intro h f' hf'; exact h f' (List.mem_cons_of_mem _ hf')
  obtain ⟨t0, ht⟩ := ht
  obtain ⟨⟨d, hd⟩, hcs⟩ := processLine_spec s now l
  rcases hp : s.processLine now l with ⟨r, s1⟩
  rw [hp] at hd hcs
  dsimp only at hd hcs
  subst hd
  rcases hcs with ⟨t, fs', date, h1, h2, h3, h4⟩ | ⟨h1, _, _⟩ | ⟨h1, _, _⟩
  · rw [hf] at h2
    cases h2
    subst h4
    have hl := hloop date fs { s with lastDate := d } rfl
    rw [← hl]
    have hpr := (addLoop_lastDate env now (fs.map (fun f => (f, date))) { s with lastDate := d }).2
    unfold processLineAndAdd
    rw [hp]
    dsimp only at hpr ⊢
    rcases hal : addLoop env now { s with lastDate := d } (fs.map (fun f => (f, date))) with ⟨_ | _, s2⟩
    · rw [hal] at hpr
      dsimp only at hpr ⊢
      rw [(commonError_cfg s2).2.2.2.2, hpr]
      constructor
      · intro h; omega
      · intro h; cases h
    · rw [hal] at hpr
      dsimp only at hpr ⊢
      rw [(lineDone_cfg s2 now).2.2.2.2.2.2.2.2.1, hpr]
      simp
  · rw [ht] at h1; cases h1
  · rw [hf] at h1; cases h1

/-- **C04/C52 (service).** The periodic service, due once its time is reached or when forced, drops exactly the failures that are at least `findtime` old and is due again
five seconds later; otherwise nothing changes. -/
theorem C52_service (s : Filter) (now : Int) (force : Bool) :
    (force = true ∨ s.nextSvcTime ≤ now → (s.performSvc now force).nextSvcTime = now + 5 ∧
      ∀ x d, (s.performSvc now force).fm.failList.get? x = some d ↔ s.fm.failList.get? x = some d ∧ now - s.fm.maxTime < d.time) ∧
    (force = false → now < s.nextSvcTime → s.performSvc now force = s) := by
  constructor
  · intro h
    unfold performSvc
    rw [if_pos (by simpa using h)]
    refine ⟨rfl, fun x d => ?_⟩
    dsimp only
    rw [get?_cleanup, Option.filter_eq_some_iff]
    simp
  · intro h1 h2
    unfold performSvc
    rw [if_neg]
    simp [h1, h2]

/-- **C52 (service is done).** Whenever a further hundred lines were processed and the service is due, no expired failure is left. -/
theorem C52_expired (s : Filter) (now : Int) (hdue : s.nextSvcTime ≤ now) (h100 : (s.procLines + 1) % 100 = 0) :
    ∀ x d, (s.lineDone now).fm.failList.get? x = some d ↔ s.fm.failList.get? x = some d ∧ now - s.fm.maxTime < d.time := by
  intro x d
  have := ((C52_service { s with procLines := s.procLines + 1 } now false).1 (.inr hdue)).2 x d
  unfold lineDone
  dsimp only
  rw [if_pos h100]
  exact this

end Verif
