import Verif.Spec.Filter
import Verif.Lemmas.FailManager
import Verif.Py.List

/-! # Lemmas about filters -/

namespace Verif

open IPAddr Spec.Filt Spec.Fail FailManager

namespace Filter

/-- `s'` arises from `s` by the operations `ops` on the failure manager; what was handed over in between was picked by one of them. -/
structure Ref (s s' : Filter) (ops : List Op) : Prop where
  fm : s'.fm = s.fm.run ops
  plain : ∀ op ∈ ops, Plain op
  puts : ∀ t ∈ handedOver s'.out, t ∈ handedOver s.out ∨
    ∃ pre fid suf, ops = pre ++ Op.toBan fid :: suf ∧ ((s.fm.run pre).toBan fid).1 = some t

theorem Ref.refl (s : Filter) : Ref s s [] := ⟨rfl, fun _ h => (by cases h), fun t h => .inl h⟩

theorem Ref.trans {a b c : Filter} {o1 o2 : List Op} (h1 : Ref a b o1) (h2 : Ref b c o2) : Ref a c (o1 ++ o2) := by
  refine ⟨?_, ?_, ?_⟩
  · rw [h2.fm, h1.fm, run_append]
  · intro op h
    rcases List.mem_append.1 h with h | h
    · exact h1.plain op h
    · exact h2.plain op h
  · intro t ht
    rcases h2.puts t ht with h | ⟨pre, fid, suf, h, h'⟩
    · rcases h1.puts t h with h | ⟨pre, fid, suf, h, h'⟩
      · exact .inl h
      · exact .inr ⟨pre, fid, suf ++ o2, by rw [h]; simp, h'⟩
    · refine .inr ⟨o1 ++ pre, fid, suf, by rw [h]; simp, ?_⟩
      rw [run_append, ← h1.fm]; exact h'

/-- a change of nothing but other attributes -/
theorem Ref.same {s s' : Filter} (h1 : s'.fm = s.fm) (h2 : handedOver s'.out = handedOver s.out) : Ref s s' [] :=
  ⟨h1, fun _ h => (by cases h), fun t h => .inl (by rw [← h2]; exact h)⟩

theorem Ref.congr {s s' s'' : Filter} {ops : List Op} (h : Ref s s' ops) (h1 : s''.fm = s'.fm)
    (h2 : handedOver s''.out = handedOver s'.out) : Ref s s'' ops :=
  ⟨h1.trans h.fm, h.plain, fun t ht => h.puts t (by rw [← h2]; exact ht)⟩

theorem handedOver_append (a b : List FEvent) : handedOver (a ++ b) = handedOver a ++ handedOver b := by
  simp [handedOver]

theorem told_append (a b : List FEvent) : told (a ++ b) = told a ++ told b := by simp [told]

theorem addsOf_append (a b : List Op) : addsOf (a ++ b) = addsOf a ++ addsOf b := by simp [addsOf]

/-! ### attributes that do not take part -/

/-- the attributes other than failure manager, service time and events are the same -/
structure SameCfg (s s' : Filter) : Prop where
  ign : s'.ign = s.ign
  findTime : s'.findTime = s.findTime
  checkFindTime : s'.checkFindTime = s.checkFindTime
  inOperation : s'.inOperation = s.inOperation
  lastDate : s'.lastDate = s.lastDate
  errors : s'.errors = s.errors
  idle : s'.idle = s.idle
  procLines : s'.procLines = s.procLines
  observer : s'.observer = s.observer

theorem SameCfg.refl (s : Filter) : SameCfg s s := ⟨rfl, rfl, rfl, rfl, rfl, rfl, rfl, rfl, rfl⟩

theorem SameCfg.trans {a b c : Filter} (h : SameCfg a b) (g : SameCfg b c) : SameCfg a c :=
  ⟨g.ign.trans h.ign, g.findTime.trans h.findTime, g.checkFindTime.trans h.checkFindTime, g.inOperation.trans h.inOperation,
   g.lastDate.trans h.lastDate, g.errors.trans h.errors, g.idle.trans h.idle, g.procLines.trans h.procLines,
   g.observer.trans h.observer⟩

theorem performSvc_cfg (s : Filter) (now : Int) (f : Bool) : SameCfg s (s.performSvc now f) ∧ (s.performSvc now f).out = s.out := by
  unfold performSvc
  split
  · exact ⟨⟨rfl, rfl, rfl, rfl, rfl, rfl, rfl, rfl, rfl⟩, rfl⟩
  · exact ⟨SameCfg.refl s, rfl⟩

theorem performSvc_ref (s : Filter) (now : Int) (f : Bool) :
    ∃ ops, Ref s (s.performSvc now f) ops ∧ addsOf ops = [] ∧ ∀ op ∈ ops, op = .cleanup now := by
  unfold performSvc
  split
  · refine ⟨[.cleanup now], ⟨rfl, ?_, fun t h => .inl h⟩, rfl, by simp⟩
    intro op h; rw [List.mem_singleton] at h; rw [h]; trivial
  · exact ⟨[], Ref.refl s, rfl, fun _ h => (by cases h)⟩

theorem performBan_cfg (s : Filter) (now : Int) (ip : Fid) :
    SameCfg s (s.performBan now ip) ∧ told (s.performBan now ip).out = told s.out := by
  unfold performBan
  rcases s.fm.toBan (some ip) with ⟨_ | t, fm⟩
  · dsimp only
    have := performSvc_cfg s now false
    exact ⟨this.1, by rw [this.2]⟩
  · dsimp only
    have := performSvc_cfg { s with fm, out := s.out ++ [FEvent.put t] } now false
    refine ⟨⟨this.1.ign, this.1.findTime, this.1.checkFindTime, this.1.inOperation, this.1.lastDate, this.1.errors, this.1.idle,
      this.1.procLines, this.1.observer⟩, ?_⟩
    rw [this.2, told_append]
    simp [told]

theorem performBan_ref (s : Filter) (now : Int) (ip : Fid) : ∃ ops, Ref s (s.performBan now ip) ops ∧ addsOf ops = [] := by
  unfold performBan
  rcases h : s.fm.toBan (some ip) with ⟨_ | t, fm⟩
  · dsimp only
    obtain ⟨ops, h1, h2, _⟩ := performSvc_ref s now false
    exact ⟨ops, h1, h2⟩
  · dsimp only
    obtain ⟨ops, h1, h2, _⟩ := performSvc_ref { s with fm, out := s.out ++ [FEvent.put t] } now false
    refine ⟨[.toBan (some ip)] ++ ops, Ref.trans ⟨?_, ?_, ?_⟩ h1, by rw [addsOf_append, h2]; rfl⟩
    · show fm = (s.fm.toBan (some ip)).2
      rw [h]
    · intro op h; rw [List.mem_singleton] at h; rw [h]; trivial
    · intro u hu
      dsimp only at hu
      rw [handedOver_append, List.mem_append] at hu
      rcases hu with hu | hu
      · exact .inl hu
      · right
        have : u = t := by simpa [handedOver] using hu
        exact ⟨[], some ip, [], rfl, by rw [this]; show (s.fm.toBan (some ip)).1 = _; rw [h]⟩

/-! ### one failure -/

/-- the clamped time stamp -/
def clamp (s : Filter) (now : Int) (date : Option Int) : Int :=
  if s.checkFindTime && decide (now < date.getD now) then now else date.getD now

/-- counting one failure that is not ignored -/
def count (env : IgnoreEnv) (now : Int) (s : Filter) (f : Found) (t : Int) : Filter :=
  let tick := Ticket.new (fid env f) t f.lines
  let (attempts, fm) := s.fm.addFailure tick
  let s := { s with fm }
  let s := if s.fm.maxRetry ≤ attempts then s.performBan now (fid env f) else s
  if s.observer then { s with out := s.out ++ [FEvent.failureFound tick] } else s

theorem addFound_eq (env : IgnoreEnv) (now : Int) (s : Filter) (f : Found) (date : Option Int) :
    addFound env now s f date =
      match s.ign.inIgnoreIPList env now f.ip with
      | (none, g) => (false, { s with ign := g })
      | (some true, g) => (true, { s with ign := g })
      | (some false, g) => (true, count env now { s with ign := g } f (clamp s now date)) := by
  rfl

/-- counting with the test against the limit made explicit -/
theorem count_eq (env : IgnoreEnv) (now : Int) (s : Filter) (f : Found) (t : Int) :
    ∃ s1 : Filter, SameCfg s s1 ∧ told s1.out = told s.out ∧
      (∃ ops, Ref s s1 ops ∧ addsOf ops = [.add (Ticket.new (fid env f) t f.lines) 1 false]) ∧
      count env now s f t =
        if s1.observer then { s1 with out := s1.out ++ [FEvent.failureFound (Ticket.new (fid env f) t f.lines)] } else s1 := by
  have hadd : Ref s { s with fm := (s.fm.addFailure (Ticket.new (fid env f) t f.lines)).2 }
      [.add (Ticket.new (fid env f) t f.lines) 1 false] := by
    refine ⟨rfl, ?_, fun t h => .inl h⟩
    intro op h; rw [List.mem_singleton] at h; rw [h]; trivial
  unfold count
  dsimp only
  by_cases hm : (s.fm.addFailure (Ticket.new (fid env f) t f.lines)).2.maxRetry ≤
      (s.fm.addFailure (Ticket.new (fid env f) t f.lines)).1
  · refine ⟨({ s with fm := (s.fm.addFailure (Ticket.new (fid env f) t f.lines)).2 } : Filter).performBan now (fid env f), ?_, ?_, ?_, ?_⟩
    · have := (performBan_cfg { s with fm := (s.fm.addFailure (Ticket.new (fid env f) t f.lines)).2 } now (fid env f)).1
      exact ⟨this.ign, this.findTime, this.checkFindTime, this.inOperation, this.lastDate, this.errors, this.idle, this.procLines,
        this.observer⟩
    · exact (performBan_cfg _ now (fid env f)).2
    · obtain ⟨ops, h1, h2⟩ := performBan_ref { s with fm := (s.fm.addFailure (Ticket.new (fid env f) t f.lines)).2 } now (fid env f)
      exact ⟨_, hadd.trans h1, by rw [addsOf_append, h2]; rfl⟩
    · rw [if_pos hm]
  · refine ⟨{ s with fm := (s.fm.addFailure (Ticket.new (fid env f) t f.lines)).2 }, ⟨rfl, rfl, rfl, rfl, rfl, rfl, rfl, rfl, rfl⟩, rfl,
      ⟨_, hadd, rfl⟩, ?_⟩
    rw [if_neg hm]

theorem count_spec (env : IgnoreEnv) (now : Int) (s : Filter) (f : Found) (t : Int) :
    SameCfg s (count env now s f t) ∧
    (∃ ops, Ref s (count env now s f t) ops ∧ addsOf ops = [.add (Ticket.new (fid env f) t f.lines) 1 false]) ∧
    told (count env now s f t).out = told s.out ++ (if s.observer then [Ticket.new (fid env f) t f.lines] else []) := by
  obtain ⟨s1, h1, h2, ⟨ops, h3, h4⟩, h5⟩ := count_eq env now s f t
  rw [h5, h1.observer]
  cases ho : s.observer with
  | true =>
    rw [if_pos rfl, if_pos rfl]
    refine ⟨⟨h1.ign, h1.findTime, h1.checkFindTime, h1.inOperation, h1.lastDate, h1.errors, h1.idle, h1.procLines, ho.symm ▸ rfl⟩,
      ⟨ops, h3.congr rfl ?_, h4⟩, ?_⟩
    · rw [handedOver_append]; simp [handedOver]
    · dsimp only
      rw [told_append, h2]; rfl
  | false =>
    rw [if_neg (by decide), if_neg (by decide)]
    exact ⟨h1, ⟨ops, h3, h4⟩, by rw [h2, List.append_nil]⟩

/-! ### the loop -/

theorem addLoop_spec (env : IgnoreEnv) (now : Int) (s : Filter) (fs : List Found) (date : Option Int) :
    let s' := (addLoop env now s (fs.map (fun f => (f, date)))).2
    let k := kept env now s.ign fs
    (∃ g, SameCfg { s with ign := g } s') ∧
    (∃ ops, Ref s s' ops ∧ addsOf ops = k.map (fun f => Op.add (Ticket.new (fid env f) (clamp s now date) f.lines) 1 false)) ∧
    told s'.out = told s.out ++
      (if s.observer then k.map (fun f => Ticket.new (fid env f) (clamp s now date) f.lines) else []) := by
  induction fs generalizing s with
  | nil =>
    refine ⟨⟨s.ign, SameCfg.refl s⟩, ⟨[], Ref.refl s, rfl⟩, ?_⟩
    show told s.out = told s.out ++ (if s.observer then [] else [])
    split <;> simp
  | cons f fs ih =>
    simp only [List.map_cons, addLoop, kept]
    rw [addFound_eq]
    rcases hq : s.ign.inIgnoreIPList env now f.ip with ⟨_ | _ | _, g⟩
    · refine ⟨⟨g, SameCfg.refl _⟩, ⟨[], Ref.same rfl rfl, rfl⟩, ?_⟩
      show told s.out = told s.out ++ (if s.observer then [] else [])
      split <;> simp
    · dsimp only
      obtain ⟨c1, ⟨o1, r1, a1⟩, t1⟩ := count_spec env now { s with ign := g } f (clamp s now date)
      obtain ⟨⟨g', c2⟩, ⟨o2, r2, a2⟩, t2⟩ := ih (count env now { s with ign := g } f (clamp s now date))
      have hcl : clamp (count env now { s with ign := g } f (clamp s now date)) now date = clamp s now date := by
        show (if (count env now { s with ign := g } f (clamp s now date)).checkFindTime && decide (now < date.getD now) then now
          else date.getD now) = _
        rw [c1.checkFindTime]; rfl
      rw [hcl, c1.ign] at a2 t2
      rw [c1.observer] at t2
      refine ⟨⟨g', ?_⟩, ⟨o1 ++ o2, ?_, ?_⟩, ?_⟩
      · exact SameCfg.trans (b := { count env now { s with ign := g } f (clamp s now date) with ign := g' })
          ⟨rfl, c1.findTime, c1.checkFindTime, c1.inOperation, c1.lastDate, c1.errors, c1.idle, c1.procLines, c1.observer⟩ c2
      · exact (Ref.same (s := s) (s' := { s with ign := g }) rfl rfl).trans r1 |>.trans r2
      · rw [addsOf_append, a1, a2]; rfl
      · rw [t2, t1, List.append_assoc]
        dsimp only
        cases s.observer <;> simp
    · dsimp only
      obtain ⟨⟨g', c2⟩, ⟨o2, r2, a2⟩, t2⟩ := ih { s with ign := g }
      exact ⟨⟨g', c2⟩, ⟨o2, (Ref.same (s := s) (s' := { s with ign := g }) rfl rfl).trans r2, a2⟩, t2⟩

/-! ### dates -/

theorem freshLast_eq (s : Filter) (now : Int) :
    s.freshLast now = s.lastDate.filter (fun d => decide (d ≠ 0 ∧ now - 60 < d)) := by
  unfold freshLast
  cases h : s.lastDate with
  | none => rfl
  | some d =>
    simp only [Option.filter, decide_eq_true_eq]

theorem detectDate_fst (s : Filter) (now : Int) (o : Detect) :
    (s.detectDate now o).1 = match o with
      | .found d => some d
      | other => (s.lastDate.filter (fun d => decide (d ≠ 0 ∧ now - 60 < d))).or
        (if other = .empty ∨ (s.checkFindTime = true ∧ s.inOperation = true) then some now else none) := by
  unfold detectDate
  cases o with
  | found d => rfl
  | empty => dsimp only; rw [← freshLast_eq]; cases s.freshLast now <;> simp
  | none =>
    dsimp only
    rw [← freshLast_eq]
    cases s.freshLast now with
    | some d => simp
    | none => cases h1 : s.checkFindTime <;> cases h2 : s.inOperation <;> simp
  | failed =>
    dsimp only
    rw [← freshLast_eq]
    cases s.freshLast now with
    | some d => simp
    | none => cases h1 : s.checkFindTime <;> cases h2 : s.inOperation <;> simp

theorem lineDate_fst (s : Filter) (now : Int) (l : Line) : (s.lineDate now l).1 = rawDate s now l := by
  unfold lineDate rawDate
  have h := detectDate_fst s now l.detect
  cases hg : l.given with
  | none => exact h
  | some d =>
    by_cases hd0 : d = 0
    · subst hd0; exact h
    · dsimp only
      have : (some d ≠ none ∧ some d ≠ some 0) := ⟨by simp, by simp [hd0]⟩
      rw [if_pos hd0, if_pos this]

theorem detectDate_state (s : Filter) (now : Int) (o : Detect) : ∃ d, (s.detectDate now o).2.2 = { s with lastDate := d } := by
  unfold detectDate
  split
  · exact ⟨_, rfl⟩
  · split
    · exact ⟨s.lastDate, rfl⟩
    · exact ⟨s.lastDate, rfl⟩
  · split
    · exact ⟨s.lastDate, rfl⟩
    · split
      · exact ⟨s.lastDate, rfl⟩
      · exact ⟨s.lastDate, rfl⟩

/-- only the last date changes -/
theorem lineDate_state (s : Filter) (now : Int) (l : Line) : ∃ d, (s.lineDate now l).2.2 = { s with lastDate := d } := by
  unfold lineDate
  split
  · split
    · exact ⟨_, rfl⟩
    · exact detectDate_state s now _
  · exact detectDate_state s now _

theorem checkDate_state (s : Filter) (now : Int) (d : Option Int) : ∃ e, (s.checkDate now d).2 = { s with lastDate := e } := by
  unfold checkDate
  split
  · exact ⟨s.lastDate, rfl⟩
  · split
    · split
      · split
        · exact ⟨_, rfl⟩
        · exact ⟨s.lastDate, rfl⟩
      · split
        · exact ⟨s.lastDate, rfl⟩
        · exact ⟨s.lastDate, rfl⟩
    · exact ⟨s.lastDate, rfl⟩

/-- the failures of a line and the time they get -/
theorem processLine_spec (s : Filter) (now : Int) (l : Line) :
    (∃ d, (s.processLine now l).2 = { s with lastDate := d }) ∧
    ((∃ t fs date, lineTime s now l = some t ∧ l.find = some fs ∧ clamp s now date = t ∧
        (s.processLine now l).1 = some (fs.map (fun f => (f, date)))) ∨
     (lineTime s now l = none ∧ (l.find = none ∨ l.find ≠ none) ∧ ((s.processLine now l).1 = some [] ∨ (s.processLine now l).1 = none)) ∨
     (l.find = none ∧ (∃ t, lineTime s now l = some t) ∧ (s.processLine now l).1 = none)) := by
  obtain ⟨d1, hs1⟩ := lineDate_state s now l
  have hraw := lineDate_fst s now l
  rcases hld : s.lineDate now l with ⟨date, nd, s1⟩
  rw [hld] at hs1 hraw
  dsimp only at hs1 hraw
  subst hs1
  obtain ⟨d2, hs2⟩ := checkDate_state { s with lastDate := d1 } now date
  unfold processLine
  rw [hld]
  dsimp only
  rcases hcd : ({ s with lastDate := d1 } : Filter).checkDate now date with ⟨r, s2⟩
  rw [hcd] at hs2
  dsimp only at hs2
  subst hs2
  -- the date
  have hT : (r = none ∧ lineTime s now l = none) ∨
      (∃ e, r = some e ∧ e = none ∧ s.checkFindTime = true ∧ lineTime s now l = none) ∨
      (∃ e, r = some e ∧ ¬ (e = none ∧ s.checkFindTime = true) ∧ lineTime s now l = some (clamp s now e)) := by
    unfold lineTime
    rw [← hraw]
    unfold checkDate at hcd
    dsimp only at hcd
    unfold clamp
    cases date with
    | none =>
      dsimp only at hcd
      have hr : r = some none := by cases hcd; rfl
      cases hck : s.checkFindTime with
      | false =>
        right; right
        refine ⟨none, hr, by simp, ?_⟩
        simp
      | true =>
        right; left
        exact ⟨none, hr, rfl, rfl, by simp⟩
    | some d =>
      dsimp only at hcd
      cases hck : s.checkFindTime with
      | false =>
        rw [hck] at hcd
        right; right
        refine ⟨some d, ?_, by simp, ?_⟩
        · simp at hcd; exact hcd.1.symm
        · simp
      | true =>
        rw [hck] at hcd
        simp only [if_true] at hcd
        cases hop : s.inOperation with
        | true =>
          rw [hop] at hcd
          simp only [if_true] at hcd
          by_cases hfar : 60 < (d - now).natAbs
          · rw [if_pos hfar] at hcd
            right; right
            refine ⟨some now, by cases hcd; rfl, by simp, ?_⟩
            have : d < now - 60 ∨ now + 60 < d := by omega
            simp [this]
          · rw [if_neg hfar] at hcd
            right; right
            refine ⟨some d, by cases hcd; rfl, by simp, ?_⟩
            have h' : ¬ (d < now - 60 ∨ now + 60 < d) := by omega
            simp only [Bool.true_eq_false, if_false, h', if_true, Option.getD_some, Bool.true_and, decide_eq_true_eq, Option.some.injEq]
            split <;> omega
        | false =>
          rw [hop] at hcd
          simp only [Bool.false_eq_true, if_false] at hcd
          by_cases hold : d < now - s.findTime
          · rw [if_pos hold] at hcd
            left
            exact ⟨by cases hcd; rfl, by simp [hold]⟩
          · rw [if_neg hold] at hcd
            right; right
            refine ⟨some d, by cases hcd; rfl, by simp, ?_⟩
            simp only [Bool.true_eq_false, if_false, hold, Bool.false_eq_true, Option.getD_some, Bool.true_and, decide_eq_true_eq,
              Option.some.injEq]
            split <;> omega
  rcases hT with ⟨hr, ht⟩ | ⟨e, hr, he, hck, ht⟩ | ⟨e, hr, he, ht⟩
  · subst hr
    exact ⟨⟨d2, rfl⟩, .inr (.inl ⟨ht, by cases l.find <;> simp, .inl rfl⟩)⟩
  · subst hr
    dsimp only
    cases hf : l.find with
    | none => exact ⟨⟨d2, rfl⟩, .inr (.inl ⟨ht, .inl rfl, .inr rfl⟩)⟩
    | some fs =>
      dsimp only
      rw [if_pos ⟨he, hck⟩]
      exact ⟨⟨d2, rfl⟩, .inr (.inl ⟨ht, .inr (by simp), .inl rfl⟩)⟩
  · subst hr
    dsimp only
    cases hf : l.find with
    | none => exact ⟨⟨d2, rfl⟩, .inr (.inr ⟨rfl, ⟨_, ht⟩, rfl⟩)⟩
    | some fs =>
      dsimp only
      rw [if_neg he]
      exact ⟨⟨d2, rfl⟩, .inl ⟨_, fs, e, ht, rfl, rfl, rfl⟩⟩

end Filter

end Verif
