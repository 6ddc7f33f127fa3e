import Verif.Spec.CommandAction

namespace Verif.CmdAction

open Spec.CmdAction

/-! ## Fields -/

@[simp] theorem forget_trace (s : State) (t : Tag) (f : Fam) : (forget s t f).trace = s.trace := by unfold forget setTag; split <;> rfl
@[simp] theorem forget_cfg (s : State) (t : Tag) (f : Fam) : (forget s t f).cfg = s.cfg := by unfold forget setTag; split <;> rfl
@[simp] theorem forget_started (s : State) (t : Tag) (f : Fam) : (forget s t f).started = s.started := by unfold forget setTag; split <;> rfl
@[simp] theorem forget_epoch (s : State) (t : Tag) (f : Fam) : (forget s t f).epoch = s.epoch := by unfold forget setTag; split <;> rfl
@[simp] theorem record_trace (s : State) (t : Tag) (f : Fam) (c : Cmd) (r : Bool) : (record s t f c r).trace = s.trace := by
  unfold record; split
  · rfl
  · simp
@[simp] theorem record_cfg (s : State) (t : Tag) (f : Fam) (c : Cmd) (r : Bool) : (record s t f c r).cfg = s.cfg := by
  unfold record; split
  · rfl
  · simp
@[simp] theorem record_started (s : State) (t : Tag) (f : Fam) (c : Cmd) (r : Bool) : (record s t f c r).started = s.started := by
  unfold record; split
  · rfl
  · simp
@[simp] theorem record_epoch (s : State) (t : Tag) (f : Fam) (c : Cmd) (r : Bool) : (record s t f c r).epoch = s.epoch := by
  unfold record; split
  · rfl
  · simp
@[simp] theorem setStarted_trace (s : State) (f : Fam) (v : Flags) : (setStarted s f v).trace = s.trace := rfl
@[simp] theorem setStarted_cfg (s : State) (f : Fam) (v : Flags) : (setStarted s f v).cfg = s.cfg := rfl
@[simp] theorem setStarted_executed (s : State) (f : Fam) (v : Flags) : (setStarted s f v).executed = s.executed := rfl
@[simp] theorem setStarted_epoch (s : State) (f : Fam) (v : Flags) : (setStarted s f v).epoch = s.epoch := rfl
@[simp] theorem exec_cfg (env : Env) (s : State) (t : Tag) (f : Fam) (c : Cmd) : (exec env s t f c).2.cfg = s.cfg := by
  unfold exec; split <;> rfl
@[simp] theorem exec_started (env : Env) (s : State) (t : Tag) (f : Fam) (c : Cmd) : (exec env s t f c).2.started = s.started := by
  unfold exec; split <;> rfl
@[simp] theorem exec_executed (env : Env) (s : State) (t : Tag) (f : Fam) (c : Cmd) : (exec env s t f c).2.executed = s.executed := by
  unfold exec; split <;> rfl
@[simp] theorem exec_epoch (env : Env) (s : State) (t : Tag) (f : Fam) (c : Cmd) : (exec env s t f c).2.epoch = s.epoch := by
  unfold exec; split <;> rfl

theorem exec_of_ne (env : Env) (s : State) (t : Tag) (f : Fam) {c : Cmd} (hc : c ≠ []) :
    (exec env s t f c).2.trace = s.trace ++ [.cmd t f c (exec env s t f c).1] := by
  unfold exec; rw [if_neg hc]

theorem exec_nil (env : Env) (s : State) (t : Tag) (f : Fam) : exec env s t f [] = (true, s) := by
  unfold exec; rw [if_pos rfl]

theorem exec_false (env : Env) (s : State) (t : Tag) (f : Fam) (c : Cmd) (h : (exec env s t f c).1 = false) : c ≠ [] := by
  rintro rfl; rw [exec_nil] at h; cases h

theorem isStarted_congr {s s' : State} (h : s'.started = s.started) (f : Fam) : isStarted s' f = isStarted s f := by
  unfold isStarted; rw [h]

@[simp] theorem isStarted_setStarted_self (s : State) (f : Fam) (v : Flags) : isStarted (setStarted s f v) f = (v.on || v.items) := by
  unfold isStarted setStarted; simp

theorem isStarted_setStarted_ne (s : State) {f g : Fam} (h : g ≠ f) (v : Flags) : isStarted (setStarted s f v) g = isStarted s g := by
  unfold isStarted setStarted
  dsimp only
  rw [Dict.get?_insert_ne _ h]

theorem mem_startedFams (s : State) (f : Fam) : f ∈ startedFams s ↔ isStarted s f = true := by
  unfold startedFams isStarted
  rw [List.mem_map]
  constructor
  · rintro ⟨⟨g, v⟩, hm, rfl⟩
    rw [List.mem_filter] at hm
    have := (Dict.get?_eq_some_iff s.started g v).2 hm.1
    simp only [this]
    exact hm.2
  · intro h
    cases hg : s.started.get? f with
    | none => simp [hg] at h
    | some v =>
      simp only [hg] at h
      exact ⟨(f, v), List.mem_filter.2 ⟨(Dict.get?_eq_some_iff s.started f v).1 hg, h⟩, rfl⟩

theorem startedFams_nodup (s : State) : (startedFams s).Nodup :=
  List.Sublist.nodup (List.Sublist.map _ List.filter_sublist) s.started.nodup

/-! ## Records of executed commands -/

/-- Records are commands of the present parameters. -/
def Rec (s : State) : Prop := ∀ t g c, (s.executed t).get? g = some c → s.cfg.op t g = some c

theorem Rec.forget {s : State} (h : Rec s) (t : Tag) (f : Fam) : Rec (forget s t f) := by
  intro t' g c hg
  rw [forget_cfg]
  unfold CmdAction.forget at hg
  split at hg
  · exact h t' g c hg
  · unfold setTag at hg
    dsimp only at hg
    split at hg
    · rename_i e
      subst e
      apply h
      rw [Dict.get?_filter] at hg
      rw [Dict.get?_erase] at hg
      by_cases e : g = f
      · simp [e] at hg
      · rw [if_neg e] at hg
        cases hx : (s.executed t').get? g with
        | none => rw [hx] at hg; cases hg
        | some v =>
          rw [hx] at hg
          rw [Option.filter_eq_some_iff] at hg
          rw [hg.1]
    · exact h t' g c hg

theorem Rec.record {s : State} (h : Rec s) {t : Tag} {f : Fam} {c : Cmd} (hc : s.cfg.op t f = some c) (r : Bool) : Rec (record s t f c r) := by
  unfold CmdAction.record
  split
  · intro t' g c' hg
    unfold setTag at hg
    dsimp only at hg
    show s.cfg.op t' g = some c'
    split at hg
    · rename_i e
      subst e
      by_cases e : g = f
      · subst e
        rw [Dict.get?_insert_self] at hg
        cases hg
        exact hc
      · rw [Dict.get?_insert_ne _ e] at hg
        exact h _ g c' hg
    · exact h t' g c' hg
  · exact h.forget t f

theorem Rec.congr {s s' : State} (h : Rec s) (h1 : s'.cfg = s.cfg) (h2 : s'.executed = s.executed) : Rec s' := by
  intro t g c hg; rw [h1]; rw [h2] at hg; exact h t g c hg

theorem not_executed {s : State} (h : Rec s) {t : Tag} {f : Fam} {c : Cmd} (hc : s.cfg.op t f = some c)
    (hd : ∀ f g c, s.cfg.op t f = some c → s.cfg.op t g = some c → f = g) : c ∉ executedOthers s t f := by
  unfold executedOthers
  intro hm
  obtain ⟨⟨g, v⟩, hp, rfl⟩ := List.mem_map.1 hm
  rw [List.mem_filter] at hp
  have h1 := h t g v ((Dict.get?_eq_some_iff _ _ _).2 hp.1)
  have h2 := hp.2
  simp only [decide_eq_true_eq] at h2
  exact h2 (hd g f v h1 hc)

/-! ## Watching -/

@[simp] theorem watch_append (f : Fam) (A : List Event) (e : Event) : watch f (A ++ [e]) = look f (watch f A) e := by
  unfold watch; rw [List.foldl_append]; rfl

/-- Everything that happened was right. -/
def AllRight (tr : List Event) : Prop := ∀ A e B, tr = A ++ e :: B → Right A e

theorem AllRight.snoc {tr : List Event} (h : AllRight tr) {e : Event} (he : Right tr e) : AllRight (tr ++ [e]) := by
  intro A x B heq
  rcases List.eq_nil_or_concat B with rfl | ⟨B', b, rfl⟩
  · have := List.append_inj' heq (by simp)
    obtain ⟨h1, h2⟩ := this
    cases h2
    rw [← h1]; exact he
  · have : tr ++ [e] = (A ++ x :: B') ++ [b] := by rw [heq]; simp
    obtain ⟨h1, h2⟩ := List.append_inj' this (by simp)
    exact h A x B' h1

/-- A family with bans is started. -/
def Bits (s : State) : Prop := ∀ g v, s.started.get? g = some v → v.items = true → v.on = true

theorem Bits.congr {s s' : State} (h : Bits s) (hs : s'.started = s.started) : Bits s' := by unfold Bits; rw [hs]; exact h

theorem Bits.set {s : State} (h : Bits s) (f : Fam) (v : Flags) (hv : v.items = true → v.on = true) : Bits (setStarted s f v) := by
  intro g w hg
  unfold setStarted at hg
  dsimp only at hg
  rw [Dict.get?_insert] at hg
  by_cases e : g = f
  · rw [if_pos e] at hg; cases hg; exact hv
  · rw [if_neg e] at hg; exact h g w hg

/-- The invariant of actions started on demand. -/
structure Inv (s : State) : Prop where
  od : OnDemand s.cfg
  recs : Rec s
  up : ∀ f, isStarted s f = true → (watch f s.trace).up = true
  free : ∀ f, isStarted s f = false → (watch f s.trace).free = true
  right : AllRight s.trace
  bits : Bits s

theorem Inv.congr {s s' : State} (h : Inv s) (hc : s'.cfg = s.cfg) (ht : s'.trace = s.trace) (hs : s'.started = s.started) (hr : Rec s') : Inv s' where
  od := by rw [hc]; exact h.od
  recs := hr
  up f hf := by rw [ht]; exact h.up f (by rwa [isStarted_congr hs] at hf)
  free f hf := by rw [ht]; exact h.free f (by rwa [isStarted_congr hs] at hf)
  right := by rw [ht]; exact h.right
  bits := h.bits.congr hs

/-- A further event with a change of flags. -/
theorem Inv.event {s s' : State} (h : Inv s) (e : Event) (hc : s'.cfg = s.cfg) (ht : s'.trace = s.trace ++ [e]) (hr : Rec s') (hb : Bits s')
    (he : Right s.trace e)
    (hup : ∀ f, isStarted s' f = true → (look f (watch f s.trace) e).up = true)
    (hfree : ∀ f, isStarted s' f = false → (look f (watch f s.trace) e).free = true) : Inv s' where
  od := by rw [hc]; exact h.od
  recs := hr
  up f hf := by rw [ht, watch_append]; exact hup f hf
  free f hf := by rw [ht, watch_append]; exact hfree f hf
  right := by rw [ht]; exact h.right.snoc he
  bits := hb

/-- an execution that does not matter for starts -/
theorem Inv.exec {env : Env} {s : State} (h : Inv s) (t : Tag) (f : Fam) (c : Cmd) (ht : t ≠ .start ∧ t ≠ .stop ∧ t ≠ .repair)
    (hb : t = .ban ∨ t = .reban → isStarted s f = true) : Inv (CmdAction.exec env s t f c).2 := by
  by_cases hc : c = []
  · subst hc; rw [exec_nil]; exact h
  · have hst : ∀ g, isStarted (CmdAction.exec env s t f c).2 g = isStarted s g := fun g => isStarted_congr (by simp) g
    refine h.event _ (by simp) (exec_of_ne env s t f hc) (h.recs.congr (by simp) (by simp)) (h.bits.congr (by simp)) ?_ ?_ ?_
    · cases t <;> simp_all [Right, h.up]
    · intro g hg
      rw [hst] at hg
      have := h.up g hg
      cases t <;> simp_all [look] <;> split <;> simp_all
    · intro g hg
      rw [hst] at hg
      have := h.free g hg
      cases t <;> simp_all [look] <;> split <;> simp_all

/-- one family of an operation other than start and stop -/
theorem Inv.operate {env : Env} {s : State} (h : Inv s) {t : Tag} {after : Fam → Bool → State → State} {f : Fam} {c : Cmd}
    (hop : s.cfg.op t f = some c) (ht : t ≠ .start ∧ t ≠ .stop ∧ t ≠ .repair ∧ t ≠ .ban ∧ t ≠ .reban)
    (ha : ∀ f r s, Inv s → Inv (after f r s) ∧ (after f r s).cfg = s.cfg) : Inv (CmdAction.operate env t after s f c).2 := by
  have hx : Inv (if c ≠ [] ∧ c ∉ executedOthers s t f then CmdAction.exec env s t f (env.dyn s.trace f c) else (true, s)).2 := by
    split
    · exact h.exec t f _ ⟨ht.1, ht.2.1, ht.2.2.1⟩ (by rintro (e | e) <;> simp_all)
    · exact h
  have hxc : (if c ≠ [] ∧ c ∉ executedOthers s t f then CmdAction.exec env s t f (env.dyn s.trace f c) else (true, s)).2.cfg = s.cfg := by
    split
    · simp
    · rfl
  unfold CmdAction.operate
  dsimp only
  generalize (if c ≠ [] ∧ c ∉ executedOthers s t f then CmdAction.exec env s t f (env.dyn s.trace f c) else (true, s)) = x at *
  obtain ⟨h1, h2⟩ := ha f x.1 x.2 hx
  exact h1.congr (by simp) (by simp) (by simp) (h1.recs.record (by rw [h2, hxc]; exact hop) _)

theorem operate_cfg {env : Env} {s : State} {t : Tag} {after : Fam → Bool → State → State} (f : Fam) (c : Cmd)
    (ha : ∀ f r s, (after f r s).cfg = s.cfg) : (operate env t after s f c).2.cfg = s.cfg := by
  unfold operate
  dsimp only
  rw [record_cfg, ha]
  split
  · simp
  · rfl

theorem Inv.operation {env : Env} {t : Tag} {after : Fam → Bool → State → State} (ht : t ≠ .start ∧ t ≠ .stop ∧ t ≠ .repair ∧ t ≠ .ban ∧ t ≠ .reban)
    (ha : ∀ f r s, Inv s → Inv (after f r s) ∧ (after f r s).cfg = s.cfg) (fs : List Fam) (res : Bool) {s : State} (h : Inv s) :
    Inv (CmdAction.operation env t after fs res s).2 := by
  induction fs generalizing res s with
  | nil => exact h
  | cons f fs ih =>
    unfold CmdAction.operation
    cases hop : s.cfg.op t f with
    | none => exact ih false h
    | some c => exact ih _ (h.operate hop ht ha)

/-! ### Start and stop -/

@[simp] theorem afterStart_trace (f : Fam) (r : Bool) (s : State) : (afterStart f r s).trace = s.trace := by unfold afterStart; split <;> simp
@[simp] theorem afterStart_cfg (f : Fam) (r : Bool) (s : State) : (afterStart f r s).cfg = s.cfg := by unfold afterStart; split <;> simp
@[simp] theorem afterStop_trace (f : Fam) (r : Bool) (s : State) : (afterStop f r s).trace = s.trace := by unfold afterStop; split <;> simp
@[simp] theorem afterStop_cfg (f : Fam) (r : Bool) (s : State) : (afterStop f r s).cfg = s.cfg := by unfold afterStop; split <;> simp
@[simp] theorem afterStop_started (f : Fam) (r : Bool) (s : State) : (afterStop f r s).started = s.started := by unfold afterStop; split <;> simp

theorem Rec.afterStart {s : State} (h : Rec s) (f : Fam) (r : Bool) : Rec (afterStart f r s) := by
  unfold CmdAction.afterStart
  split
  · exact (h.forget .stop f).congr rfl rfl
  · exact h

theorem Rec.afterStop {s : State} (h : Rec s) (f : Fam) (r : Bool) : Rec (afterStop f r s) := by
  unfold CmdAction.afterStop
  split
  · exact h.forget .start f
  · exact h

/-- a start, when due -/
theorem Inv.start1 {env : Env} (hk : KeepsCommands env) {s : State} (h : Inv s) {f : Fam} (hf : (watch f s.trace).free = true)
    (hs : isStarted s f = false) : Inv (CmdAction.operation env .start CmdAction.afterStart [f] true s).2 ∧
      ((CmdAction.operation env .start CmdAction.afterStart [f] true s).1 = true →
        isStarted (CmdAction.operation env .start CmdAction.afterStart [f] true s).2 f = true) := by
  unfold CmdAction.operation
  cases hop : s.cfg.op .start f with
  | none =>
    simp only [CmdAction.operation]
    exact ⟨h, by simp⟩
  | some c =>
    have hc := h.od.nonempty f c hop
    have hn := not_executed h.recs hop h.od.distinct
    have hd := hk s.trace f c hc
    simp only [CmdAction.operation, Bool.true_and]
    unfold CmdAction.operate
    dsimp only
    rw [if_pos ⟨hc, hn⟩]
    generalize hd' : env.dyn s.trace f c = d at *
    have htr := exec_of_ne env s .start f hd
    generalize hx : CmdAction.exec env s .start f d = x at *
    have hxc : x.2.cfg = s.cfg := by rw [← hx]; simp
    have hxs : x.2.started = s.started := by rw [← hx]; simp
    have hxe : x.2.executed = s.executed := by rw [← hx]; simp
    have hrec : Rec x.2 := h.recs.congr hxc hxe
    cases hr : x.1 with
    | true =>
      rw [hr] at htr
      have hst : ∀ g, isStarted (record (CmdAction.afterStart f true x.2) .start f c true) g = if g = f then true else isStarted s g := by
        intro g
        rw [isStarted_congr (record_started ..)]
        unfold CmdAction.afterStart
        rw [if_pos rfl]
        by_cases e : g = f
        · subst e; simp
        · rw [isStarted_setStarted_ne _ e, if_neg e]
          exact isStarted_congr (by simp [hxs]) g
      have hbits : Bits (record (CmdAction.afterStart f true x.2) .start f c true) :=
        Bits.congr (s := setStarted x.2 f ⟨true, false⟩) ((h.bits.congr hxs).set f _ (by simp)) (by simp [CmdAction.afterStart, setStarted])
      refine ⟨h.event _ (by simp [hxc]) (by rw [record_trace, afterStart_trace, htr]) ((hrec.afterStart f true).record (by simp [hxc, hop]) true) hbits ?_ ?_ ?_, ?_⟩
      · exact hf
      · intro g hg
        rw [hst] at hg
        by_cases e : g = f
        · subst e; simp [look]
        · have e' : ¬ f = g := fun x => e x.symm
          rw [if_neg e] at hg
          simp [look, e', h.up g hg]
      · intro g hg
        rw [hst] at hg
        by_cases e : g = f
        · simp [e] at hg
        · have e' : ¬ f = g := fun x => e x.symm
          rw [if_neg e] at hg
          simp [look, e', h.free g hg]
      · intro _; rw [hst]; simp
    | false =>
      rw [hr] at htr
      have hst : ∀ g, isStarted (record (CmdAction.afterStart f false x.2) .start f c false) g = isStarted s g := by
        intro g
        rw [isStarted_congr (record_started ..)]
        exact isStarted_congr (by simp [CmdAction.afterStart, hxs]) g
      refine ⟨h.event _ (by simp [hxc]) (by rw [record_trace, afterStart_trace, htr]) ((hrec.afterStart f false).record (by simp [hxc, hop]) false) (h.bits.congr (by simp [CmdAction.afterStart, hxs])) ?_ ?_ ?_, by simp⟩
      · exact hf
      · intro g hg
        rw [hst] at hg
        simp [look, h.up g hg]
      · intro g hg
        rw [hst] at hg
        simp [look, h.free g hg]

/-- one family of a stop -/
theorem Inv.stop1 {env : Env} {s : State} (h : Inv s) {f : Fam} (hs : isStarted s f = false) {c : Cmd} (hop : s.cfg.op .stop f = some c)
    (hr : (watch f s.trace).up = true ∨ ∃ A' c, s.trace = A' ++ [.cmd .check f c false]) :
    Inv (CmdAction.operate env .stop CmdAction.afterStop s f c).2 ∧
      (CmdAction.operate env .stop CmdAction.afterStop s f c).2.started = s.started ∧
      ∀ g, g ≠ f → watch g (CmdAction.operate env .stop CmdAction.afterStop s f c).2.trace = watch g s.trace := by
  unfold CmdAction.operate
  dsimp only
  by_cases hx : c ≠ [] ∧ c ∉ executedOthers s .stop f
  · rw [if_pos hx]
    by_cases hd : env.dyn s.trace f c = []
    · rw [hd, exec_nil]
      exact ⟨h.congr (by simp) (by simp) (by simp) ((h.recs.afterStop f true).record (by simp [hop]) true), by simp, by simp⟩
    · generalize env.dyn s.trace f c = d at *
      have htr := exec_of_ne env s .stop f hd
      generalize hx : CmdAction.exec env s .stop f d = x at *
      have hxc : x.2.cfg = s.cfg := by rw [← hx]; simp
      have hxs : x.2.started = s.started := by rw [← hx]; simp
      have hxe : x.2.executed = s.executed := by rw [← hx]; simp
      have hst : ∀ g, isStarted (record (CmdAction.afterStop f x.1 x.2) .stop f c x.1) g = isStarted s g := by
        intro g; exact isStarted_congr (by simp [hxs]) g
      refine ⟨h.event _ (by simp [hxc]) (by rw [record_trace, afterStop_trace, htr]) (((h.recs.congr hxc hxe).afterStop f x.1).record (by simp [hxc, hop]) x.1) (h.bits.congr (by simp [hxs])) ?_ ?_ ?_, by simp [hxs], ?_⟩
      · exact hr
      · intro g hg
        rw [hst] at hg
        have e' : ¬ f = g := by rintro rfl; rw [hs] at hg; cases hg
        simp [look, e', h.up g hg]
      · intro g hg
        rw [hst] at hg
        by_cases e' : f = g
        · simp [look, e']
        · simp [look, e', h.free g hg]
      · intro g hg
        have e' : ¬ f = g := fun x => hg x.symm
        simp [htr, look, e']
  · rw [if_neg hx]
    exact ⟨h.congr (by simp) (by simp) (by simp) ((h.recs.afterStop f true).record (by simp [hop]) true), by simp, by simp⟩

/-- a stop of several families -/
theorem Inv.stops {env : Env} (fs : List Fam) (res : Bool) {s : State} (h : Inv s) (hn : fs.Nodup) (hs : ∀ f ∈ fs, isStarted s f = false)
    (hr : ∀ f ∈ fs, (watch f s.trace).up = true) : Inv (CmdAction.operation env .stop CmdAction.afterStop fs res s).2 := by
  induction fs generalizing res s with
  | nil => exact h
  | cons f fs ih =>
    rw [List.nodup_cons] at hn
    unfold CmdAction.operation
    cases hop : s.cfg.op .stop f with
    | none => exact ih false h hn.2 (fun g hg => hs g (List.mem_cons_of_mem _ hg)) (fun g hg => hr g (List.mem_cons_of_mem _ hg))
    | some c =>
      dsimp only
      obtain ⟨h1, h2, h3⟩ := h.stop1 (env := env) (hs f (List.mem_cons_self ..)) hop (Or.inl (hr f (List.mem_cons_self ..)))
      refine ih _ h1 hn.2 ?_ ?_
      · intro g hg
        rw [isStarted_congr h2]
        exact hs g (List.mem_cons_of_mem _ hg)
      · intro g hg
        rw [h3 g (by rintro rfl; exact hn.1 hg)]
        exact hr g (List.mem_cons_of_mem _ hg)

/-- a family found broken -/
def Found (f : Fam) (s : State) : Prop := ∃ A c, s.trace = A ++ [.cmd .check f c false]

theorem Found.free {f : Fam} {s : State} (h : Found f s) : (watch f s.trace).free = true := by
  obtain ⟨A, c, h⟩ := h
  rw [h, watch_append]; simp [look]

theorem Inv.clear {s : State} (h : Inv s) {f : Fam} (hf : (watch f s.trace).free = true) : Inv (setStarted s f ⟨false, false⟩) where
  od := h.od
  recs := h.recs.congr rfl rfl
  up g hg := by
    by_cases e : g = f
    · subst e; simp at hg
    · rw [isStarted_setStarted_ne _ e] at hg; exact h.up g hg
  free g hg := by
    by_cases e : g = f
    · subst e; exact hf
    · rw [isStarted_setStarted_ne _ e] at hg; exact h.free g hg
  right := h.right
  bits := h.bits.set f _ (by simp)

theorem Inv.stopFam {env : Env} {s : State} (h : Inv s) {f : Fam} (hf : Found f s) :
    Inv (stopFam env f s).2 ∧ isStarted (stopFam env f s).2 f = false := by
  unfold CmdAction.stopFam
  cases hg : s.started.get? f with
  | none => exact ⟨h, by simp [isStarted, hg]⟩
  | some v =>
    dsimp only
    have h1 := h.clear hf.free
    have hs : isStarted (setStarted s f ⟨false, false⟩) f = false := by simp
    unfold CmdAction.operation
    cases hop : (setStarted s f ⟨false, false⟩).cfg.op .stop f with
    | none => exact ⟨h1, hs⟩
    | some c =>
      obtain ⟨h2, h3, _⟩ := h1.stop1 (env := env) hs hop (Or.inr hf)
      exact ⟨h2, by simp only [CmdAction.operation]; rw [isStarted_congr h3]; exact hs⟩

theorem Inv.start {env : Env} (hk : KeepsCommands env) {s : State} (h : Inv s) {f : Fam} (hs : isStarted s f = false) (force : Bool) :
    Inv (CmdAction.start env (some f) force s).2 ∧
      (force = true → (CmdAction.start env (some f) force s).1 = true → isStarted (CmdAction.start env (some f) force s).2 f = true) := by
  unfold CmdAction.start
  rw [h.od.onDemand]
  cases force with
  | false => exact ⟨h, by simp⟩
  | true =>
    obtain ⟨h1, h2⟩ := h.start1 hk (h.free f hs) hs
    exact ⟨h1, fun _ => h2⟩

theorem Inv.recheck {env : Env} {s : State} (h : Inv s) (f : Fam) (c : Cmd) : Inv (recheck env f c s).2 ∧
    isStarted (CmdAction.recheck env f c s).2 f = isStarted s f := by
  unfold CmdAction.recheck
  split
  · have h1 := h.exec (env := env) .check f c (by simp) (by simp)
    have h2 : isStarted (CmdAction.exec env s .check f c).2 f = isStarted s f := isStarted_congr (by simp) f
    split
    · exact ⟨h1, h2⟩
    · exact ⟨h1, h2⟩
  · exact ⟨h, rfl⟩

theorem Inv.repair {env : Env} (hk : KeepsCommands env) {s : State} (h : Inv s) {f : Fam} (hf : Found f s) (force : Bool) (c : Cmd) :
    Inv (repair env f force c s).2 ∧ (force = true → (CmdAction.repair env f force c s).1 = .sane →
      isStarted (CmdAction.repair env f force c s).2 f = true) := by
  have h0 : Inv { s with epoch := s.epoch + 1 } := h.congr rfl rfl rfl (h.recs.congr rfl rfl)
  have hf0 : Found f { s with epoch := s.epoch + 1 } := hf
  unfold CmdAction.repair
  cases hop : s.cfg.op .repair f with
  | none => exact ⟨h0, by simp⟩
  | some r =>
    dsimp only
    generalize ({ s with epoch := s.epoch + 1 } : State) = s0 at *
    by_cases hr : r = []
    · rw [if_neg (by simp [hr])]
      obtain ⟨h1, h2⟩ := h0.stopFam (env := env) hf0
      obtain ⟨h3, h4⟩ := h1.start hk h2 (force || !s0.cfg.onDemand)
      unfold CmdAction.restart
      generalize CmdAction.start env (some f) (force || !s0.cfg.onDemand) (CmdAction.stopFam env f s0).2 = x at *
      split
      · rename_i e
        obtain ⟨h5, h6⟩ := h3.recheck (env := env) f c
        refine ⟨h5, fun hforce _ => ?_⟩
        rw [h6]
        exact h4 (by simp [hforce]) e
      · exact ⟨h3, by simp⟩
    · rw [if_pos hr]
      have htr := exec_of_ne env s0 .repair f hr
      generalize hx : CmdAction.exec env s0 .repair f r = x at *
      have hxc : x.2.cfg = s0.cfg := by rw [← hx]; simp
      have hxs : x.2.started = s0.started := by rw [← hx]; simp
      have hxe : x.2.executed = s0.executed := by rw [← hx]; simp
      have key : ∀ v : Flags, v.items = false → (v.on || v.items) = x.1 → Inv (setStarted x.2 f v) := by
        intro v hvi hv
        have hst : ∀ g, isStarted (setStarted x.2 f v) g = if g = f then x.1 else isStarted s0 g := by
          intro g
          by_cases e : g = f
          · subst e; simp [hv]
          · rw [isStarted_setStarted_ne _ e, if_neg e]; exact isStarted_congr hxs g
        refine h0.event _ (by simp [hxc]) htr ((h0.recs.congr hxc hxe).congr rfl rfl) ((h0.bits.congr hxs).set f v (by simp [hvi])) trivial ?_ ?_
        · intro g hg
          rw [hst] at hg
          by_cases e : g = f
          · subst e; rw [if_pos rfl] at hg; simp [look, hg]
          · have e' : ¬ f = g := fun x => e x.symm
            rw [if_neg e] at hg
            simp [look, e', h0.up g hg]
        · intro g hg
          rw [hst] at hg
          by_cases e : g = f
          · subst e; rw [if_pos rfl] at hg; simp [look, hg]
          · have e' : ¬ f = g := fun x => e x.symm
            rw [if_neg e] at hg
            simp [look, e', h0.free g hg]
      cases hx1 : x.1 with
      | true =>
        rw [if_pos rfl]
        obtain ⟨h5, h6⟩ := (key ⟨true, false⟩ rfl (by simp [hx1])).recheck (env := env) f c
        exact ⟨h5, fun _ _ => by rw [h6]; simp⟩
      | false =>
        rw [if_neg (by simp)]
        exact ⟨key ⟨false, false⟩ rfl (by simp [hx1]), by simp⟩

theorem Inv.invariantCheck {env : Env} (hk : KeepsCommands env) {s : State} (h : Inv s) (f : Fam) (before : Option Bool) (force : Bool) :
    Inv (invariantCheck env f before force s).2 ∧ (force = true → isStarted s f = true → (CmdAction.invariantCheck env f before force s).1 = .sane →
      isStarted (CmdAction.invariantCheck env f before force s).2 f = true) := by
  unfold CmdAction.invariantCheck
  split
  · exact ⟨h, fun _ h _ => h⟩
  · cases hop : s.cfg.op .check f with
    | none => exact ⟨h, by simp⟩
    | some c =>
      dsimp only
      by_cases hc : c = []
      · rw [if_pos hc]; exact ⟨h, fun _ h _ => h⟩
      · rw [if_neg hc]
        have h1 := h.exec (env := env) .check f c (by simp) (by simp)
        have h2 : isStarted (CmdAction.exec env s .check f c).2 f = isStarted s f := isStarted_congr (by simp) f
        have htr := exec_of_ne env s .check f hc
        generalize CmdAction.exec env s .check f c = x at *
        cases hx : x.1 with
        | true => rw [if_pos rfl]; exact ⟨h1, fun _ hs _ => by rw [h2]; exact hs⟩
        | false =>
          rw [if_neg (by simp)]
          split
          · exact ⟨h1, by simp⟩
          · have hfd : Found f x.2 := ⟨s.trace, c, by rw [htr, hx]⟩
            obtain ⟨h3, h4⟩ := h1.repair hk hfd force c
            exact ⟨h3, fun hforce _ hs => h4 hforce hs⟩

theorem Inv.process {env : Env} (hk : KeepsCommands env) {s : State} (h : Inv s) (t : Tag) (f : Fam) (k : Nat) (ht : t ≠ .start ∧ t ≠ .stop ∧ t ≠ .repair)
    (hb : t = .ban ∨ t = .reban → isStarted s f = true) : Inv (process env t f k s).2 ∧
      (t = .ban ∨ t = .reban → (CmdAction.process env t f k s).1 = true → isStarted (CmdAction.process env t f k s).2 f = true) := by
  unfold CmdAction.process
  cases hop : s.cfg.proc t f k with
  | none => exact ⟨h, by simp⟩
  | some c =>
    dsimp only
    have h1 := h.exec (env := env) t f c ht hb
    have h2 : isStarted (CmdAction.exec env s t f c).2 f = isStarted s f := isStarted_congr (by simp) f
    generalize CmdAction.exec env s t f c = x at *
    have hagain : ∀ s' : State, Inv s' → (t = .ban ∨ t = .reban → isStarted s' f = true) → Inv (again env t f c s').2 ∧
        (t = .ban ∨ t = .reban → (again env t f c s').1 = true → isStarted (again env t f c s').2 f = true) := by
      intro s' h' hs'
      refine ⟨h'.exec t f c ht hs', fun hh _ => ?_⟩
      rw [← hs' hh]
      exact isStarted_congr (by simp [again]) f
    split
    · exact ⟨h1, fun hh _ => by rw [h2]; exact hb hh⟩
    · split
      · obtain ⟨h3, h4⟩ := h1.invariantCheck hk f (some (!(decide (t = .unban) && !s.cfg.repairOnUnban))) (decide (t ≠ .unban))
        generalize CmdAction.invariantCheck env f (some (!(decide (t = .unban) && !s.cfg.repairOnUnban))) (decide (t ≠ .unban)) x.2 = y at *
        split
        · rename_i e
          refine hagain _ h3 (fun hh => h4 ?_ (by rw [h2]; exact hb hh) e)
          rcases hh with rfl | rfl <;> simp
        · exact ⟨h3, by simp⟩
      · exact hagain _ h1 (fun hh => by rw [h2]; exact hb hh)

theorem Inv.mark {s s' : State} (h : Inv s') (hst : ∀ f, isStarted s f = isStarted s' f) (hc : s.cfg = s'.cfg) (ht : s.trace = s'.trace) (hr : Rec s) (hb : Bits s) : Inv s where
  od := by rw [hc]; exact h.od
  recs := hr
  up f hf := by rw [ht]; exact h.up f (by rw [← hst]; exact hf)
  free f hf := by rw [ht]; exact h.free f (by rw [← hst]; exact hf)
  right := by rw [ht]; exact h.right
  bits := hb

theorem Inv.ban {env : Env} (hk : KeepsCommands env) {s : State} (h : Inv s) (t : Tag) (ht : t = .ban ∨ t = .reban) (f : Fam) (k : Nat) :
    Inv (ban env t f k s).2 := by
  unfold CmdAction.ban
  dsimp only
  have hx : Inv (if (s.cfg.onDemand && !isStarted s f) = true then CmdAction.start env (some f) true s else (true, s)).2 ∧
      ((if (s.cfg.onDemand && !isStarted s f) = true then CmdAction.start env (some f) true s else (true, s)).1 = true →
        isStarted (if (s.cfg.onDemand && !isStarted s f) = true then CmdAction.start env (some f) true s else (true, s)).2 f = true) := by
    rw [h.od.onDemand]
    cases hs : isStarted s f with
    | true => exact ⟨h, fun _ => hs⟩
    | false =>
      obtain ⟨h1, h2⟩ := h.start hk hs true
      exact ⟨h1, h2 rfl⟩
  generalize (if (s.cfg.onDemand && !isStarted s f) = true then CmdAction.start env (some f) true s else (true, s)) = x at *
  obtain ⟨h1, h2⟩ := hx
  split
  · rename_i e
    have hp := h1.process hk t f k (by rcases ht with rfl | rfl <;> simp) (fun _ => h2 e)
    generalize CmdAction.process env t f k x.2 = y at *
    split
    · rename_i e2
      refine hp.1.mark ?_ rfl rfl (hp.1.recs.congr rfl rfl) (hp.1.bits.set f _ (by simp))
      intro g
      by_cases e3 : g = f
      · subst e3; rw [isStarted_setStarted_self, hp.2 ht e2]; rfl
      · exact isStarted_setStarted_ne _ e3 _
    · exact hp.1
  · exact h1

theorem afterFlush_isStarted (f : Fam) (r : Bool) (s : State) (hv : Bits s) (g : Fam) :
    isStarted (afterFlush f r s) g = isStarted s g := by
  unfold afterFlush
  cases r with
  | false => rfl
  | true =>
    rw [if_pos rfl]
    cases hg : s.started.get? f with
    | none => rfl
    | some v =>
      dsimp only
      split
      · by_cases e : g = f
        · subst e
          rw [isStarted_setStarted_self]
          have := hv g v hg
          simp only [isStarted, hg]
          cases h1 : v.on <;> cases h2 : v.items <;> simp_all
        · exact isStarted_setStarted_ne _ e _
      · rfl

@[simp] theorem afterFlush_trace (f : Fam) (r : Bool) (s : State) : (afterFlush f r s).trace = s.trace := by
  unfold afterFlush; repeat (first | rfl | split)
@[simp] theorem afterFlush_cfg (f : Fam) (r : Bool) (s : State) : (afterFlush f r s).cfg = s.cfg := by
  unfold afterFlush; repeat (first | rfl | split)
@[simp] theorem afterFlush_executed (f : Fam) (r : Bool) (s : State) : (afterFlush f r s).executed = s.executed := by
  unfold afterFlush; repeat (first | rfl | split)

theorem Bits.afterFlush {s : State} (h : Bits s) (f : Fam) (r : Bool) : Bits (afterFlush f r s) := by
  unfold CmdAction.afterFlush
  split
  · split
    · split
      · exact h.set f _ (by simp)
      · exact h
    · exact h
  · exact h

theorem Inv.afterFlush {s : State} (h : Inv s) (f : Fam) (r : Bool) : Inv (afterFlush f r s) ∧ (CmdAction.afterFlush f r s).cfg = s.cfg :=
  ⟨h.mark (fun g => afterFlush_isStarted f r s h.bits g) (by simp) (by simp) (h.recs.congr (by simp) (by simp)) (h.bits.afterFlush f r), by simp⟩

theorem recheck_broken {env : Env} {f : Fam} {c : Cmd} {s : State} (h : (recheck env f c s).1 = .broken) :
    (watch f (recheck env f c s).2.trace).free = true := by
  unfold recheck at *
  split
  · rename_i e
    rw [if_pos e] at h
    by_cases hx : (exec env s .check f c).1 = true
    · rw [if_pos hx] at h; cases h
    · rw [if_neg hx]
      have hx' : (exec env s .check f c).1 = false := by simpa using hx
      rw [exec_of_ne _ _ _ _ (exec_false _ _ _ _ _ hx'), hx']
      simp [look]
  · rename_i e
    rw [if_neg e] at h; cases h

theorem invariantCheck_broken {env : Env} {f : Fam} {before : Option Bool} {force : Bool} {s : State}
    (h : (invariantCheck env f before force s).1 = .broken) : (watch f (invariantCheck env f before force s).2.trace).free = true := by
  unfold invariantCheck at *
  split
  · rename_i e; rw [if_pos e] at h; cases h
  · rename_i e
    rw [if_neg e] at h
    cases hop : s.cfg.op .check f with
    | none => rw [hop] at h; cases h
    | some c =>
      rw [hop] at h
      dsimp only at h ⊢
      by_cases hc : c = []
      · rw [if_pos hc] at h; cases h
      · rw [if_neg hc] at h ⊢
        generalize exec env s .check f c = x at *
        by_cases hx : x.1 = true
        · rw [if_pos hx] at h; cases h
        · rw [if_neg hx] at h ⊢
          by_cases hb : before = some false
          · rw [if_pos hb] at h; cases h
          · rw [if_neg hb] at h ⊢
            unfold repair at *
            cases hr : x.2.cfg.op .repair f with
            | none => rw [hr] at h; cases h
            | some r =>
              rw [hr] at h
              dsimp only at h ⊢
              by_cases hr0 : r ≠ []
              · rw [if_pos hr0] at h ⊢
                have htr := exec_of_ne env { x.2 with epoch := x.2.epoch + 1 } .repair f hr0
                generalize exec env { x.2 with epoch := x.2.epoch + 1 } .repair f r = y at *
                by_cases hy : y.1 = true
                · rw [if_pos hy] at h ⊢; exact recheck_broken h
                · rw [if_neg hy]
                  have hy' : y.1 = false := by simpa using hy
                  rw [hy'] at htr
                  simp [htr, look]
              · rw [if_neg hr0] at h ⊢
                split
                · rename_i e2; rw [if_pos e2] at h; exact recheck_broken h
                · rename_i e2; rw [if_neg e2] at h; cases h

theorem Inv.checkLoop {env : Env} (hk : KeepsCommands env) (before : Option Bool) (l : List (Fam × Flags)) (ret : Bool) {s : State} (h : Inv s) :
    Inv (checkLoop env before l ret s).2 := by
  induction l generalizing ret s with
  | nil => exact h
  | cons p l ih =>
    obtain ⟨f, v⟩ := p
    unfold CmdAction.checkLoop
    split
    · dsimp only
      have h1 := (h.invariantCheck hk f before true).1
      have h2 := invariantCheck_broken (env := env) (f := f) (before := before) (force := true) (s := s)
      generalize CmdAction.invariantCheck env f before true s = x at *
      split
      · exact h1
      · rename_i e
        have h3 := h1.clear (h2 e)
        exact ih false (h3.congr (by simp) (by simp) (by simp) (h3.recs.forget .start f))
      · exact ih ret h1
    · exact ih ret h

theorem Inv.stopAll {env : Env} {s : State} (h : Inv s) (hf : ∀ f, (watch f s.trace).free = true) : Inv (stopAll env s).2 := by
  unfold CmdAction.stopAll
  split
  · exact h
  · apply Inv.stops
    · exact
      { od := h.od
        recs := h.recs.congr rfl rfl
        up := fun f hf => by simp [isStarted] at hf
        free := fun f _ => hf f
        right := h.right
        bits := fun g v hg => by simp at hg }
    · exact startedFams_nodup s
    · intro f _; simp [isStarted]
    · intro f hf; exact h.up f ((mem_startedFams s f).1 hf)

theorem Inv.step {env : Env} (hk : KeepsCommands env) {s : State} (h : Inv s) (c : Call) (cfg : Config) (hcfg : OnDemand cfg) : Inv (step env s c cfg) := by
  have h0 : Inv { s with trace := s.trace ++ [.call c] } := by
    refine h.event (.call c) rfl rfl (h.recs.congr rfl rfl) (h.bits.congr rfl) trivial ?_ ?_
    · intro f hf
      have := h.up f hf
      cases c <;> simp [look, this]
    · intro f hf
      have := h.free f hf
      cases c <;> simp [look, this]
  have hstop : c = .stop → ∀ f, (watch f ({ s with trace := s.trace ++ [.call c] } : State).trace).free = true := by
    rintro rfl f
    simp [look]
  unfold CmdAction.step
  dsimp only
  have h1 : Inv (method env cfg { s with trace := s.trace ++ [.call c] } c).2 := by
    generalize ({ s with trace := s.trace ++ [.call c] } : State) = s0 at *
    cases c with
    | start =>
      show Inv (CmdAction.start env none false s0).2
      unfold CmdAction.start
      rw [h0.od.onDemand]
      exact h0
    | ban f t => exact h0.ban hk .ban (Or.inl rfl) f t
    | reban f t =>
      show Inv (CmdAction.ban env (if s0.cfg.reban = true then .reban else .ban) f t s0).2
      split
      · exact h0.ban hk .reban (Or.inr rfl) f t
      · exact h0.ban hk .ban (Or.inl rfl) f t
    | unban f t =>
      show Inv (CmdAction.unban env f t s0).2
      unfold CmdAction.unban
      split
      · split
        · exact (h0.process hk .unban f t (by simp) (by simp)).1
        · exact h0
      · exact h0
    | prolong f t => exact (h0.process hk .prolong f t (by simp) (by simp)).1
    | flush => exact h0.operation (by simp) (fun f r s h => h.afterFlush f r) _ _
    | stop => exact h0.stopAll (hstop rfl)
    | reload => exact h0.operation (by simp) (fun f r s h => ⟨h, rfl⟩) _ _
    | check before =>
      show Inv (CmdAction.consistencyCheck env before s0).2
      unfold CmdAction.consistencyCheck
      split
      · exact h0.checkLoop hk before _ _
      · exact h0
    | set =>
      exact
      { od := hcfg
        recs := fun t g c hg => by simp [method] at hg
        up := h0.up
        free := h0.free
        right := h0.right
        bits := h0.bits }
  generalize method env cfg { s with trace := s.trace ++ [.call c] } c = x at *
  refine h1.event (.done c x.1) rfl rfl (h1.recs.congr rfl rfl) (h1.bits.congr rfl) trivial ?_ ?_
  · intro f hf; exact h1.up f hf
  · intro f hf; exact h1.free f hf

theorem Inv.run {env : Env} (hk : KeepsCommands env) (cs : List (Call × Config)) {s : State} (h : Inv s) (hcfg : ∀ p ∈ cs, OnDemand p.2) :
    Inv (run env s cs) := by
  induction cs generalizing s with
  | nil => exact h
  | cons p cs ih =>
    obtain ⟨c, cfg⟩ := p
    exact ih (h.step hk c cfg (hcfg _ (List.mem_cons_self ..))) (fun q hq => hcfg q (List.mem_cons_of_mem _ hq))

theorem Inv.init {cfg : Config} (h : OnDemand cfg) : Inv (init cfg) where
  od := h
  recs := fun t g c hg => by simp [CmdAction.init] at hg
  up := fun f hf => by simp [CmdAction.init, isStarted] at hf
  free := fun f _ => rfl
  right := fun A e B h => by simp [CmdAction.init] at h
  bits := fun g v hg => by simp [CmdAction.init] at hg

end Verif.CmdAction
