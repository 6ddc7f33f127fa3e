import Verif.Lemmas.ServerConf

/-!
# What a reload does for one name
-/

namespace Verif

open Spec.Server

theorem reload_parts {w : World} {s s' : Server} {nm : Option String} {o : Server.ReloadOpts} {stream : List SCmd}
    (h : s.reload w nm o stream = (false, s')) :
    ∃ s1 s2, s.reloadBegin w nm o = (false, s1) ∧ Server.run w stream s1 = (false, s2) ∧ s2.reloadEnd w = (false, s') := by
  unfold Server.reload at h
  dsimp only at h
  cases hb : s.reloadBegin w nm o with
  | mk b s1 =>
    rw [hb] at h
    cases b with
    | true => simp at h
    | false =>
      simp only [Bool.false_eq_true, if_false] at h
      cases hr : Server.run w stream s1 with
      | mk b2 s2 =>
        rw [hr] at h
        dsimp only at h
        cases b2 with
        | true => simp at h
        | false =>
          simp only [Bool.false_or] at h
          exact ⟨s1, s2, rfl, hr, by rw [← h]⟩

theorem end_flags {w : World} {s s' : Server} (h : s.reloadEnd w = (false, s')) (n : String) (j : SJail) (hj : (s.view n).jail = some j)
    (hm : (s.view n).mark = none) : (j.reloadEnd w n).1 = false := by
  unfold Server.reloadEnd at h
  dsimp only at h
  split at h
  · simp at h
  · rename_i hx
    have hc : s.reloadState.contains n = false := by
      rw [Server.contains_get?]
      show ((s.view n).mark).isSome = false
      rw [hm]; rfl
    exact commitLoop_flags w _ _ _ (Bool.eq_false_iff.2 hx) (n, j) ((Dict.get?_eq_some_iff _ _ _).1 hj) hc

/-- The jails of a name are set up by the start of a reload. -/
theorem begin_view {w : World} {s s1 : Server} (hs : s.reloadState = Dict.empty) (nm : Option String) (h : s.reloadBegin w nm {} = (false, s1)) (n : String) :
    s1.view n = match s.jails.get? n with
      | some j => if nm = none ∨ nm = some n then { s.view n with jail := some j.reloadBegin, mark := some true } else s.view n
      | none => s.view n := by
  unfold Server.reloadBegin at h
  rw [if_neg (by rw [hs]; simp [Dict.empty])] at h
  dsimp only at h
  have fin : Server.markLoop nm s.jails.items s = s1 → s1.view n = match s.jails.get? n with
      | some j => if nm = none ∨ nm = some n then { s.view n with jail := some j.reloadBegin, mark := some true } else s.view n
      | none => s.view n := by
    intro h
    rw [← h, Server.view_markLoop nm _ s.jails.keys_nodup]
    rfl
  cases nm with
  | none =>
    rw [if_neg (by simp)] at h
    simp only [Bool.false_eq_true, if_false, Prod.mk.injEq, true_and] at h
    exact fin h
  | some m =>
    dsimp only at h
    by_cases e : (some m : Option String) ≠ none ∧ (if s.jails.contains m = true then [m] else []) = [] ∧ ¬ false = true
    · rw [if_pos e] at h; simp at h
    · rw [if_neg e] at h
      simp only [Bool.false_eq_true, if_false, Prod.mk.injEq, true_and] at h
      exact fin h

theorem running_view {s : Server} (hs : Running s) (n : String) : (s.view n).mark = none := by
  show s.reloadState.get? n = none
  rw [hs.reloadState]; rfl

/-- A jail that is not in the new configuration. -/
theorem removed_view {w : World} {n : String} {v : View} {j : SJail} (hj : v.jail = some j.reloadBegin) (hm : v.mark = some true) (hal : j.alive = true) :
    ∃ g, v.finish w n = ⟨none, v.mark, v.gone ++ [g], v.flag.map (fun f => f.map (fun _ => false))⟩ ∧ Stopped w n j g := by
  unfold View.finish
  rw [hj]
  dsimp only
  rw [hm]
  simp only [Option.isSome_some, if_true]
  unfold View.del
  rw [hj]
  dsimp only
  rw [hm]
  refine ⟨_, rfl, ?_⟩
  have : j.reloadBegin.alive = true := hal
  unfold SJail.stop
  rw [if_pos this]
  exact ⟨rfl, rfl, some [], rfl⟩

/-- what a reload does for one name -/
structure NameOutcome (w : World) (nm : String) (c : Option JailConf) (s s' : Server) : Prop where
  flag : s'.db.isSome = s.db.isSome ∧ ∀ d d', s.db = some d → s'.db = some d' →
    (c.isSome = true → d'.jails.get? nm = some true) ∧ (c = none → d'.jails.get? nm = some true → d.jails.get? nm = some true ∧ s.jails.get? nm = none)
  none_ : c = none → s'.jails.get? nm = none ∧
    match s.jails.get? nm with
    | none => goneOf s' nm = goneOf s nm
    | some j => ∃ g, goneOf s' nm = goneOf s nm ++ [g] ∧ Stopped w nm j g
  some_ : ∀ x, c = some x → ∃ j', s'.jails.get? nm = some j' ∧ Configured x j' ∧
    match s.jails.get? nm with
    | none => Fresh x j' ∧ goneOf s' nm = goneOf s nm
    | some j =>
      if j.backend = x.backend then Kept x j j' ∧ goneOf s' nm = goneOf s nm
      else Fresh x j' ∧ ∃ g, goneOf s' nm = goneOf s nm ++ [g] ∧ Stopped w nm j g

theorem flag_isSome (s : Server) (n : String) : (s.view n).flag.isSome = s.db.isSome := by
  show (s.db.map _).isSome = _
  rw [Option.isSome_map]

/-- end of the reload of the jail in a view -/
def j1_end (w : World) (n : String) (v : View) : Bool × SJail :=
  match v.jail with
  | some j => j.reloadEnd w n
  | none => (false, SJail.new w 0 "" false)

theorem name_outcome {w : World} {s s' : Server} (hs : Running s) (n : String) (v1 v2 : View)
    (hv1 : v1 = match s.jails.get? n with
      | some j => { s.view n with jail := some j.reloadBegin, mark := some true }
      | none => s.view n)
    (c : Option JailConf) (hc : ∀ x, c = some x → x.name = n ∧ (actionNames x.settings).Nodup)
    (hrun : View.run w n (match c with | some x => confCmds x | none => []) v1 = (false, v2))
    (hv' : s'.view n = { v2.finish w n with mark := none })
    (hflag : ∀ j, v2.jail = some j → v2.mark = none → (j.reloadEnd w n).1 = false) : NameOutcome w n c s s' := by
  have hm0 : (s.view n).mark = none := running_view hs n
  have pj : s'.jails.get? n = (s'.view n).jail := rfl
  have pg : goneOf s' n = (s'.view n).gone := rfl
  have pg0 : goneOf s n = (s.view n).gone := rfl
  have pf : ∀ d, s.db = some d → (s.view n).flag = some (d.jails.get? n) := by
    intro d hd; show s.db.map _ = _; rw [hd]; rfl
  have pf' : ∀ d, s'.db = some d → (s'.view n).flag = some (d.jails.get? n) := by
    intro d hd; show s'.db.map _ = _; rw [hd]; rfl
  have isf : ∀ v : View, s'.view n = v → v.flag.isSome = (s.view n).flag.isSome → s'.db.isSome = s.db.isSome := by
    intro v hv hf
    rw [← flag_isSome s' n, ← flag_isSome s n, hv, hf]
  cases c with
  | none =>
    simp only [View.run, Prod.mk.injEq, true_and] at hrun
    subst hrun
    cases hj : s.jails.get? n with
    | none =>
      rw [hj] at hv1
      dsimp only at hv1
      subst hv1
      have hfin : (s.view n).finish w n = s.view n := by
        unfold View.finish
        have : (s.view n).jail = none := hj
        rw [this]
      rw [hfin] at hv'
      refine ⟨⟨isf _ hv' rfl, ?_⟩, ?_, fun x hx => (by cases hx)⟩
      · intro d d' hd hd'
        refine ⟨fun h => (by cases h), fun _ h => ?_⟩
        have e1 := pf d hd
        have e2 := pf' d' hd'
        rw [hv'] at e2
        dsimp only at e2
        rw [e1] at e2
        simp only [Option.some.injEq] at e2
        exact ⟨by rw [e2]; exact h, hj⟩
      · intro _
        rw [hj, pj, pg, hv']
        exact ⟨hj, rfl⟩
    | some j =>
      rw [hj] at hv1
      dsimp only at hv1
      obtain ⟨g, hg, hst⟩ := removed_view (w := w) (n := n) (v := v1) (j := j) (by rw [hv1]) (by rw [hv1]) (hs.alive n j hj).1
      rw [hg, hv1] at hv'
      dsimp only at hv'
      refine ⟨⟨isf _ hv' (by simp), ?_⟩, ?_, fun x hx => (by cases hx)⟩
      · intro d d' hd hd'
        refine ⟨fun h => (by cases h), fun _ h => ?_⟩
        have e2 := pf' d' hd'
        rw [hv'] at e2
        dsimp only at e2
        rw [pf d hd] at e2
        simp only [Option.map_some, Option.some.injEq] at e2
        rw [← e2] at h
        cases hh : d.jails.get? n <;> rw [hh] at h <;> simp at h
      · intro _
        rw [pj, pg, hv']
        refine ⟨rfl, ?_⟩
        rw [hj]
        exact ⟨g, rfl, hst⟩
  | some x =>
    obtain ⟨hxn, hnd⟩ := hc x rfl
    subst hxn
    dsimp only at hrun
    have flagok : ∀ v : View, s'.view x.name = v → v.flag = (s.view x.name).flag.map (fun _ => some true) →
        s'.db.isSome = s.db.isSome ∧ ∀ d d', s.db = some d → s'.db = some d' →
        ((some x).isSome = true → d'.jails.get? x.name = some true) ∧
        (some x = none → d'.jails.get? x.name = some true → d.jails.get? x.name = some true ∧ s.jails.get? x.name = none) := by
      intro v hv hf
      refine ⟨isf v hv (by rw [hf, Option.isSome_map]), fun d d' hd hd' => ⟨fun _ => ?_, fun h => (by cases h)⟩⟩
      have e2 := pf' d' hd'
      rw [hv, hf, pf d hd] at e2
      simpa using e2.symm
    cases hj : s.jails.get? x.name with
    | none =>
      rw [hj] at hv1
      dsimp only at hv1
      rw [hv1] at hrun
      obtain ⟨j', e1, e2, e3, _⟩ := conf_fresh (show (s.view x.name).jail = none from hj) hm0 hrun
      rw [finish_plain (w := w) (n := x.name) (v := v2) (j := j') (by rw [e1]) (by rw [e1]) e2.reloadLogs e2.reloading, e1] at hv'
      dsimp only at hv'
      refine ⟨flagok _ hv' rfl, fun h => (by cases h), ?_⟩
      intro y hy
      cases hy
      refine ⟨j', by rw [pj, hv'], e2, ?_⟩
      rw [hj]
      exact ⟨e3, by rw [pg, hv']; rfl⟩
    | some j =>
      rw [hj] at hv1
      dsimp only at hv1
      by_cases hb : j.backend = x.backend
      · obtain ⟨j1, e1, e2⟩ := conf_kept (w := w) (c := x) (v := v1) (j := j) (j' := (j1_end w x.name v2).2) (by rw [hv1]) (by rw [hv1]) hb (hs.alive _ j hj).1 hnd hrun
        have hje : j1_end w x.name v2 = j1.reloadEnd w x.name := by rw [e1]; rfl
        have hfl := hflag j1 (by rw [e1]) (by rw [e1])
        rw [hje] at e2
        obtain ⟨k1, k2⟩ := e2 (by rw [← hfl])
        have hfin : v2.finish w x.name = { v2 with jail := some (j1.reloadEnd w x.name).2 } := by
          unfold View.finish
          rw [e1]
          rfl
        rw [hfin, e1, hv1] at hv'
        dsimp only at hv'
        refine ⟨flagok _ hv' rfl, fun h => (by cases h), ?_⟩
        intro y hy
        cases hy
        refine ⟨_, by rw [pj, hv'], k1, ?_⟩
        rw [hj]
        dsimp only
        rw [if_pos hb]
        exact ⟨k2, by rw [pg, hv']; rfl⟩
      · obtain ⟨j1, e1, e2, e3, _⟩ := conf_replaced (w := w) (c := x) (v := v1) (j := j.reloadBegin) (by rw [hv1]) (by rw [hv1]) hb hrun
        rw [finish_plain (w := w) (n := x.name) (v := v2) (j := j1) (by rw [e1]) (by rw [e1]) e2.reloadLogs e2.reloading, e1, hv1] at hv'
        dsimp only at hv'
        refine ⟨flagok _ hv' rfl, fun h => (by cases h), ?_⟩
        intro y hy
        cases hy
        refine ⟨j1, by rw [pj, hv'], e2, ?_⟩
        rw [hj]
        dsimp only
        rw [if_neg hb]
        refine ⟨e3, _, by rw [pg, hv']; rfl, ?_⟩
        have : j.reloadBegin.alive = true := (hs.alive _ j hj).1
        unfold SJail.stop
        rw [if_pos this]
        exact ⟨rfl, rfl, some [], rfl⟩

end Verif
