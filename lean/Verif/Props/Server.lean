import Verif.Lemmas.ServerOutcome

/-!
# C44 — reload
-/

namespace Verif

open Spec.Server Actions

theorem dict_items_empty {V : Type} {d : Dict String V} (h : ∀ n, d.get? n = none) : d.items = [] := by
  cases hi : d.items with
  | nil => rfl
  | cons p l =>
    have h1 := (Dict.get?_eq_some_iff d p.1 p.2).2 (by rw [hi]; exact List.mem_cons_self)
    rw [h p.1] at h1
    cases h1

theorem dict_empty {V : Type} {d : Dict String V} (h : ∀ n, d.get? n = none) : d = Dict.empty := by
  have hi := dict_items_empty h
  cases d with
  | mk items nd =>
    dsimp only at hi
    subst hi
    rfl

theorem running_of {s : Server} {conf : List JailConf} (h0 : s.reloadState = Dict.empty)
    (h1 : ∀ c ∈ conf, ∃ j, s.jails.get? c.name = some j ∧ Configured c j) (h2 : ∀ n, n ∉ conf.map (·.name) → s.jails.get? n = none)
    (h3 : ∀ d, s.db = some d → ∀ n, d.jails.get? n = some true ↔ n ∈ conf.map (·.name)) :
    Running s ∧ ∀ n, n ∈ s.jails.keys ↔ n ∈ conf.map (·.name) := by
  have hk : ∀ n, n ∈ s.jails.keys ↔ n ∈ conf.map (·.name) := by
    intro n
    rw [Dict.mem_keys_iff]
    constructor
    · rintro ⟨j, hj⟩
      refine Classical.byContradiction fun hn => ?_
      rw [h2 n hn] at hj; cases hj
    · intro hn
      obtain ⟨c, hc, rfl⟩ := List.mem_map.1 hn
      obtain ⟨j, hj, _⟩ := h1 c hc
      exact ⟨j, hj⟩
  refine ⟨⟨h0, ?_, fun d hd n => (h3 d hd n).trans (hk n).symm⟩, hk⟩
  intro n j hj
  have hn := (hk n).1 ((Dict.mem_keys_iff _ _).2 ⟨j, hj⟩)
  obtain ⟨c, hc, rfl⟩ := List.mem_map.1 hn
  obtain ⟨j', hj', hcf⟩ := h1 c hc
  rw [hj] at hj'
  cases hj'
  exact ⟨hcf.alive, hcf.idle, hcf.reloadLogs, hcf.reloading⟩

/-- **C44.** A reload of all jails without an exception, of a server on which all jails run: afterwards exactly the jails of the configuration run, with
its parameters. Jails whose backend is the same stay (the bans, and the actions that stay, are not touched); those with another backend are stopped
and set up as new; jails that are not in the configuration are stopped and deleted; the others are new. -/
theorem C44_reload (w : World) (s s' : Server) (conf : List JailConf) (hs : Running s) (hn : (conf.map (·.name)).Nodup)
    (ha : ∀ c ∈ conf, (actionNames c.settings).Nodup) (h : s.reload w none {} (confStream conf) = (false, s')) :
    Running s' ∧ (∀ n, n ∈ s'.jails.keys ↔ n ∈ conf.map (·.name)) ∧
    (∀ c ∈ conf, ∃ j', s'.jails.get? c.name = some j' ∧ Configured c j' ∧
      match s.jails.get? c.name with
      | none => Fresh c j' ∧ goneOf s' c.name = goneOf s c.name
      | some j =>
        if j.backend = c.backend then Kept c j j' ∧ goneOf s' c.name = goneOf s c.name
        else Fresh c j' ∧ ∃ g, goneOf s' c.name = goneOf s c.name ++ [g] ∧ Stopped w c.name j g) ∧
    (∀ n, n ∉ conf.map (·.name) →
      match s.jails.get? n with
      | none => goneOf s' n = goneOf s n
      | some j => ∃ g, goneOf s' n = goneOf s n ++ [g] ∧ Stopped w n j g) := by
  obtain ⟨s1, s2, hb, hr, he⟩ := reload_parts h
  obtain ⟨he0, hev⟩ := Server.view_reloadEnd w s2 s' he
  have hin : ∀ c ∈ conf, NameOutcome w c.name (some c) s s' := by
    intro c hc
    refine name_outcome hs c.name (s1.view c.name) (s2.view c.name) ?_ (some c) ?_ ?_ (hev c.name) (fun j hj hm => end_flags he c.name j hj hm)
    · rw [begin_view hs.reloadState none hb]
      cases s.jails.get? c.name <;> simp
    · intro x hx; cases hx; exact ⟨rfl, ha c hc⟩
    · have := Server.view_run w _ _ _ hr c.name
      rw [filter_conf conf hn c hc] at this
      exact this
  have hout : ∀ n, n ∉ conf.map (·.name) → NameOutcome w n none s s' := by
    intro n hnn
    refine name_outcome hs n (s1.view n) (s2.view n) ?_ none (fun x hx => (by cases hx)) ?_ (hev n) (fun j hj hm => end_flags he n j hj hm)
    · rw [begin_view hs.reloadState none hb]
      cases s.jails.get? n <;> simp
    · have := Server.view_run w _ _ _ hr n
      rw [filter_conf_none conf n (fun c hc e => hnn (e ▸ List.mem_map.2 ⟨c, hc, rfl⟩))] at this
      exact this
  have hrun := running_of (s := s') (conf := conf) he0
    (fun c hc => by obtain ⟨j, h1, h2, _⟩ := (hin c hc).some_ c rfl; exact ⟨j, h1, h2⟩)
    (fun n hnn => ((hout n hnn).none_ rfl).1)
    (by
      intro d' hd' n
      constructor
      · intro hf
        refine Classical.byContradiction fun hnn => ?_
        obtain ⟨f1, f2⟩ := (hout n hnn).flag
        rw [hd'] at f1
        obtain ⟨d, hd⟩ := Option.isSome_iff_exists.1 f1.symm
        obtain ⟨k1, k2⟩ := (f2 d d' hd hd').2 rfl hf
        have := (hs.db d hd n).1 k1
        rw [Dict.mem_keys_iff] at this
        obtain ⟨j, hj⟩ := this
        rw [hj] at k2; cases k2
      · intro hm
        obtain ⟨c, hc, rfl⟩ := List.mem_map.1 hm
        obtain ⟨f1, f2⟩ := (hin c hc).flag
        rw [hd'] at f1
        obtain ⟨d, hd⟩ := Option.isSome_iff_exists.1 f1.symm
        exact (f2 d d' hd hd').1 rfl)
  exact ⟨hrun.1, hrun.2, fun c hc => (hin c hc).some_ c rfl, fun n hnn => ((hout n hnn).none_ rfl).2⟩

/-- **C44 (one jail).** A reload of one jail: all others stay as they are, with their bans, actions and parameters. -/
theorem C44_single (w : World) (s s' : Server) (c : JailConf) (hs : Running s) (ha : (actionNames c.settings).Nodup) (o : Server.ReloadOpts)
    (ho : o = {} ∨ o = { ifExists := true }) (h : s.reload w (some c.name) o (confStream [c]) = (false, s')) :
    Running s' ∧ (∀ n, n ≠ c.name → s'.jails.get? n = s.jails.get? n ∧ goneOf s' n = goneOf s n ∧
      s'.db.map (·.jails.get? n) = s.db.map (·.jails.get? n)) ∧
    ∃ j', s'.jails.get? c.name = some j' ∧ Configured c j' ∧
      match s.jails.get? c.name with
      | none => Fresh c j'
      | some j => if j.backend = c.backend then Kept c j j' else Fresh c j' ∧ ∃ g, goneOf s' c.name = goneOf s c.name ++ [g] ∧ Stopped w c.name j g := by
  obtain ⟨s1, s2, hb, hr, he⟩ := reload_parts h
  obtain ⟨he0, hev⟩ := Server.view_reloadEnd w s2 s' he
  have hbv : ∀ n, s1.view n = match s.jails.get? n with
      | some j => if some c.name = none ∨ some c.name = some n then { s.view n with jail := some j.reloadBegin, mark := some true } else s.view n
      | none => s.view n := by
    intro n
    rcases ho with rfl | rfl
    · exact begin_view hs.reloadState (some c.name) hb n
    · unfold Server.reloadBegin at hb
      rw [if_neg (by rw [hs.reloadState]; simp [Dict.empty])] at hb
      simp only [not_true, and_false, Bool.false_eq_true, if_false, Prod.mk.injEq, true_and] at hb
      rw [← hb, Server.view_markLoop _ _ s.jails.keys_nodup]
      rfl
  have hother : ∀ n, n ≠ c.name → s'.view n = s.view n := by
    intro n hne
    have e1 : s1.view n = s.view n := by
      rw [hbv n]
      have : ¬ c.name = n := fun e => hne e.symm
      cases s.jails.get? n <;> simp [this]
    have e2 := Server.view_run w _ _ _ hr n
    rw [filter_conf_none [c] n (by simpa using fun e => hne e.symm), e1] at e2
    simp only [View.run, Prod.mk.injEq, true_and] at e2
    rw [hev n, ← e2]
    have hm := running_view hs n
    cases hj : s.jails.get? n with
    | none =>
      have : (s.view n).finish w n = s.view n := by
        unfold View.finish
        rw [show (s.view n).jail = none from hj]
      rw [this]
      show View.mk _ none _ _ = View.mk _ (s.view n).mark _ _
      rw [hm]
      rfl
    | some j =>
      obtain ⟨_, _, k1, k2⟩ := hs.alive n j hj
      rw [finish_plain (show (s.view n).jail = some j from hj) hm k1 k2]
      show View.mk _ none _ _ = View.mk _ (s.view n).mark _ _
      rw [hm]
      rfl
  have hin : NameOutcome w c.name (some c) s s' := by
    refine name_outcome hs c.name (s1.view c.name) (s2.view c.name) ?_ (some c) ?_ ?_ (hev c.name) (fun j hj hm => end_flags he c.name j hj hm)
    · rw [hbv]
      cases s.jails.get? c.name <;> simp
    · intro x hx; cases hx; exact ⟨rfl, ha⟩
    · have := Server.view_run w _ _ _ hr c.name
      rw [filter_conf [c] (by simp) c (by simp)] at this
      exact this
  obtain ⟨j', h1, h2, h3⟩ := hin.some_ c rfl
  refine ⟨⟨he0, ?_, ?_⟩, ?_, j', h1, h2, ?_⟩
  · intro n j hj
    by_cases e : n = c.name
    · subst e
      rw [h1] at hj; cases hj
      exact ⟨h2.alive, h2.idle, h2.reloadLogs, h2.reloading⟩
    · rw [show s'.jails.get? n = (s'.view n).jail from rfl, hother n e] at hj
      exact hs.alive n j hj
  · intro d' hd' n
    obtain ⟨f1, f2⟩ := hin.flag
    rw [hd'] at f1
    obtain ⟨d, hd⟩ := Option.isSome_iff_exists.1 f1.symm
    by_cases e : n = c.name
    · subst e
      refine ⟨fun _ => (Dict.mem_keys_iff _ _).2 ⟨j', h1⟩, fun _ => (f2 d d' hd hd').1 rfl⟩
    · have hv := hother n e
      have e1 : (s'.view n).flag = some (d'.jails.get? n) := by show s'.db.map _ = _; rw [hd']; rfl
      have e2 : (s.view n).flag = some (d.jails.get? n) := by show s.db.map _ = _; rw [hd]; rfl
      rw [hv, e2] at e1
      have e3 : d.jails.get? n = d'.jails.get? n := by simpa using e1
      rw [← e3, hs.db d hd n, Dict.mem_keys_iff, Dict.mem_keys_iff]
      rw [show s'.jails.get? n = (s'.view n).jail from rfl, hv]
      exact Iff.rfl
  · intro n e
    have hv := hother n e
    refine ⟨?_, ?_, ?_⟩
    · exact congrArg View.jail hv
    · exact congrArg View.gone hv
    · exact congrArg View.flag hv
  · cases hj : s.jails.get? c.name with
    | none => rw [hj] at h3; exact h3.1
    | some j =>
      rw [hj] at h3
      dsimp only at h3 ⊢
      split
      · rename_i e; rw [if_pos e] at h3; exact h3.1
      · rename_i e; rw [if_neg e] at h3; exact h3

/-- **C44 (start).** All jails of a configuration are set up and started on a server without jails. -/
theorem C44_start (w : World) (s s' : Server) (conf : List JailConf) (hj : s.jails = Dict.empty) (hr : s.reloadState = Dict.empty)
    (hd : ∀ d, s.db = some d → ∀ n, d.jails.get? n ≠ some true) (hn : (conf.map (·.name)).Nodup) (h : Server.run w (confStream conf) s = (false, s')) :
    Running s' ∧ (∀ n, n ∈ s'.jails.keys ↔ n ∈ conf.map (·.name)) ∧ (∀ n, goneOf s' n = goneOf s n) ∧
    ∀ c ∈ conf, ∃ j', s'.jails.get? c.name = some j' ∧ Configured c j' ∧ Fresh c j' := by
  have hjn : ∀ n, (s.view n).jail = none := fun n => by show s.jails.get? n = none; rw [hj]; rfl
  have hmn : ∀ n, (s.view n).mark = none := fun n => by show s.reloadState.get? n = none; rw [hr]; rfl
  have hin : ∀ c ∈ conf, ∃ j, s'.view c.name = ⟨some j, none, (s.view c.name).gone, (s.view c.name).flag.map (fun _ => some true)⟩ ∧
      Configured c j ∧ Fresh c j := by
    intro c hc
    have := Server.view_run w _ _ _ h c.name
    rw [filter_conf conf hn c hc] at this
    obtain ⟨j, e1, e2, e3, _⟩ := conf_fresh (hjn _) (hmn _) this
    exact ⟨j, e1, e2, e3⟩
  have hout : ∀ n, n ∉ conf.map (·.name) → s'.view n = s.view n := by
    intro n hnn
    have := Server.view_run w _ _ _ h n
    rw [filter_conf_none conf n (fun c hc e => hnn (e ▸ List.mem_map.2 ⟨c, hc, rfl⟩))] at this
    simp only [View.run, Prod.mk.injEq, true_and] at this
    exact this.symm
  have hrs : s'.reloadState = Dict.empty := by
    have : ∀ n, s'.reloadState.get? n = none := by
      intro n
      by_cases hnn : n ∈ conf.map (·.name)
      · obtain ⟨c, hc, rfl⟩ := List.mem_map.1 hnn
        obtain ⟨j, e1, _⟩ := hin c hc
        exact congrArg View.mark e1
      · exact (congrArg View.mark (hout n hnn)).trans (hmn n)
    exact dict_empty this
  have hrun := running_of (s := s') (conf := conf) hrs
    (fun c hc => by obtain ⟨j, e1, e2, _⟩ := hin c hc; exact ⟨j, congrArg View.jail e1, e2⟩)
    (fun n hnn => (congrArg View.jail (hout n hnn)).trans (hjn n))
    (by
      intro d' hd' n
      have e1 : (s'.view n).flag = some (d'.jails.get? n) := by show s'.db.map _ = _; rw [hd']; rfl
      by_cases hnn : n ∈ conf.map (·.name)
      · refine ⟨fun _ => hnn, fun _ => ?_⟩
        obtain ⟨c, hc, rfl⟩ := List.mem_map.1 hnn
        obtain ⟨j, e2, _⟩ := hin c hc
        rw [e2] at e1
        dsimp only at e1
        cases hf : (s.view c.name).flag with
        | none => rw [hf] at e1; cases e1
        | some f => rw [hf] at e1; simpa using e1.symm
      · refine ⟨fun hf => ?_, fun hf => absurd hf hnn⟩
        exfalso
        rw [hout n hnn] at e1
        have e1' : s.db.map (·.jails.get? n) = some (d'.jails.get? n) := e1
        rw [Option.map_eq_some_iff] at e1'
        obtain ⟨d, hd1, hd2⟩ := e1'
        exact hd d hd1 n (by rw [hd2]; exact hf))
  refine ⟨hrun.1, hrun.2, ?_, fun c hc => by obtain ⟨j, e1, e2, e3⟩ := hin c hc; exact ⟨j, congrArg View.jail e1, e2, e3⟩⟩
  intro n
  by_cases hnn : n ∈ conf.map (·.name)
  · obtain ⟨c, hc, rfl⟩ := List.mem_map.1 hnn
    obtain ⟨j, e1, _⟩ := hin c hc
    exact congrArg View.gone e1
  · exact congrArg View.gone (hout n hnn)

/-- **C44 (restart).** A reload with `--restart`: all jails that ran are stopped, and those of the configuration are new. -/
theorem C44_restart (w : World) (s s' : Server) (conf : List JailConf) (hs : Running s) (hn : (conf.map (·.name)).Nodup)
    (h : s.reload w none { restart := true } (confStream conf) = (false, s')) :
    Running s' ∧ (∀ n, n ∈ s'.jails.keys ↔ n ∈ conf.map (·.name)) ∧
    (∀ c ∈ conf, ∃ j', s'.jails.get? c.name = some j' ∧ Configured c j' ∧ Fresh c j') ∧
    ∀ n, match s.jails.get? n with
      | none => goneOf s' n = goneOf s n
      | some j => ∃ g, goneOf s' n = goneOf s n ++ [g] ∧ Stopped w n j g := by
  obtain ⟨s1, s2, hb, hr, he⟩ := reload_parts h
  have hdel : ∀ n, (Server.delJails w s.jails.keys s).view n = (s.view n).del w n := by
    intro n
    rw [Server.view_delJails w _ s.jails.keys_nodup]
    split
    · rfl
    · rename_i hnm
      have : (s.view n).jail = none := (Dict.get?_eq_none_iff _ _).2 hnm
      unfold View.del; rw [this]
  have hdj : ∀ n, ((s.view n).del w n).jail = none := by
    intro n
    unfold View.del
    cases hj : (s.view n).jail with
    | none => exact hj
    | some j => rfl
  have hjails : (Server.delJails w s.jails.keys s).jails = Dict.empty :=
    dict_empty (fun n => (congrArg View.jail (hdel n)).trans (hdj n))
  have e1 : s1 = Server.delJails w s.jails.keys s := by
    unfold Server.reloadBegin at hb
    rw [if_neg (by rw [hs.reloadState]; simp [Dict.empty])] at hb
    simp only [ne_eq, not_true, false_and, Bool.false_eq_true, if_false, if_true, Prod.mk.injEq, true_and] at hb
    rw [← hb, hjails]
    rfl
  subst e1
  have hmark : ∀ n, ((s.view n).del w n).mark = none := by
    intro n
    unfold View.del
    split
    · exact running_view hs n
    · exact running_view hs n
  have hst : (Server.delJails w s.jails.keys s).reloadState = Dict.empty :=
    dict_empty (fun n => (congrArg View.mark (hdel n)).trans (hmark n))
  have hfl : ∀ n, ((s.view n).del w n).flag ≠ some (some true) := by
    intro n hf
    unfold View.del at hf
    split at hf
    · rename_i hj
      have hf' : s.db.map (·.jails.get? n) = some (some true) := hf
      rw [Option.map_eq_some_iff] at hf'
      obtain ⟨d, hd1, hd2⟩ := hf'
      have := (hs.db d hd1 n).1 hd2
      rw [Dict.mem_keys_iff] at this
      obtain ⟨j, hj'⟩ := this
      rw [show (s.view n).jail = s.jails.get? n from rfl, hj'] at hj
      cases hj
    · dsimp only at hf
      cases hh : (s.view n).flag with
      | none => rw [hh] at hf; cases hf
      | some f => rw [hh] at hf; cases f <;> simp at hf
  obtain ⟨k1, k2, k3, k4⟩ := C44_start w _ s2 conf hjails hst (by
    intro d hd n hf
    refine hfl n ?_
    rw [← hdel n]
    show Option.map _ _ = _
    rw [hd]; simpa using hf) hn hr
  obtain ⟨he0, hev⟩ := Server.view_reloadEnd w s2 s' he
  have hsame : ∀ n, s'.view n = s2.view n := by
    intro n
    rw [hev n]
    have hm := running_view k1 n
    cases hj : s2.jails.get? n with
    | none =>
      have : (s2.view n).finish w n = s2.view n := by
        unfold View.finish
        rw [show (s2.view n).jail = none from hj]
      rw [this]
      show View.mk _ none _ _ = View.mk _ (s2.view n).mark _ _
      rw [hm]; rfl
    | some j =>
      obtain ⟨_, _, q1, q2⟩ := k1.alive n j hj
      rw [finish_plain (show (s2.view n).jail = some j from hj) hm q1 q2]
      show View.mk _ none _ _ = View.mk _ (s2.view n).mark _ _
      rw [hm]; rfl
  have hg : ∀ n, s'.jails.get? n = s2.jails.get? n := fun n => congrArg View.jail (hsame n)
  refine ⟨⟨he0, fun n j hj => k1.alive n j (by rw [← hg]; exact hj), ?_⟩, ?_, ?_, ?_⟩
  · intro d' hd' n
    have hf := congrArg View.flag (hsame n)
    have hf' : s'.db.map (·.jails.get? n) = s2.db.map (·.jails.get? n) := hf
    rw [hd'] at hf'
    obtain ⟨d, hd1, hd2⟩ := Option.map_eq_some_iff.1 hf'.symm
    have : d'.jails.get? n = some true ↔ n ∈ s2.jails.keys := by
      rw [show d'.jails.get? n = d.jails.get? n from hd2.symm]; exact k1.db d hd1 n
    rw [this, Dict.mem_keys_iff, Dict.mem_keys_iff, hg]
  · intro n
    rw [← k2 n, Dict.mem_keys_iff, Dict.mem_keys_iff, hg]
  · intro c hc
    rw [hg]; exact k4 c hc
  · intro n
    have e2 : goneOf s' n = ((s.view n).del w n).gone := by
      rw [← hdel n]
      exact (congrArg View.gone (hsame n)).trans (k3 n)
    rw [e2]
    cases hj : s.jails.get? n with
    | none => unfold View.del; rw [show (s.view n).jail = none from hj]; rfl
    | some j =>
      unfold View.del
      rw [show (s.view n).jail = some j from hj]
      refine ⟨_, rfl, ?_⟩
      unfold SJail.stop
      rw [if_pos (hs.alive n j hj).1]
      exact ⟨rfl, rfl, j.actions.reloading, rfl⟩

/-! ## When a reload succeeds -/

/-- no call raises an exception -/
def Quiet (env : Env) : Prop := ∀ tr, (env tr).raised = false

theorem quiet_reloadLoop {env : Env} (h : Quiet env) (l : List String) (s : Actions) : (Actions.reloadLoop env l s).1 = false := by
  induction l generalizing s with
  | nil => rfl
  | cons n l ih =>
    rw [Actions.reloadLoop]
    split
    · have : (s.call env n (.reload n)).1.raised = false := by
        rw [show (s.call env n (.reload n)).1 = env (s.trace ++ [.reload n]) from by unfold Actions.call; dsimp only; split <;> rfl]
        exact h _
      dsimp only
      rw [this, if_neg Bool.false_ne_true]
      exact ih _
    · exact ih _

theorem quiet_flushLoop {env : Env} (h : Quiet env) (l : List (String × Action)) (left : List String) (s : Actions) :
    (Actions.flushLoop env l left s).2.1 = false := by
  induction l generalizing s left with
  | nil => rfl
  | cons p l ih =>
    obtain ⟨n, a⟩ := p
    rw [Actions.flushLoop]
    split
    · have : (s.call env n (.flush n)).1.raised = false := by
        rw [show (s.call env n (.flush n)).1 = env (s.trace ++ [.flush n]) from by unfold Actions.call; dsimp only; split <;> rfl]
        exact h _
      dsimp only
      rw [this, if_neg Bool.false_ne_true]
      split <;> exact ih _ _
    · exact ih _ _

theorem quiet_reloadEnd {env : Env} (h : Quiet env) (s : Actions) : (s.reloadEnd env).1 = false := by
  unfold Actions.reloadEnd
  cases s.reloading with
  | none => rfl
  | some names =>
    dsimp only
    have h1 := quiet_reloadLoop h names s
    cases hr : Actions.reloadLoop env names s with
    | mk b s1 =>
      rw [hr] at h1
      dsimp only at h1
      subst h1
      dsimp only
      split
      · unfold Actions.flushBan
        dsimp only
        have h2 := quiet_flushLoop h (s1.actions.items.filter (fun kv => !(names.contains kv.1))) [] s1
        simp only [Option.getD_some]
        cases hf : Actions.flushLoop env (s1.actions.items.filter (fun kv => !(names.contains kv.1))) [] s1 with
        | mk left y =>
          obtain ⟨b, s2⟩ := y
          rw [hf] at h2
          dsimp only at h2
          subst h2
          rfl
      · rfl

theorem sets_ok {w : World} {n : String} (rl : Bool) (xs : List Setting) (hx : ∀ x ∈ xs, w.settingOk n x = true) (j : SJail)
    (h : rl = true ∨ ((actionNames xs).Nodup ∧ ∀ m ∈ actionNames xs, m ∉ j.actions.actions.keys)) : (SJail.sets w n rl xs j).isSome = true := by
  induction xs generalizing j with
  | nil => rfl
  | cons x xs ih =>
    have hok := hx x List.mem_cons_self
    have hxs : ∀ x ∈ xs, w.settingOk n x = true := fun y hy => hx y (List.mem_cons_of_mem _ hy)
    have plain : ∀ j1, j.set w n rl x = some j1 → j1.actions.actions.keys = j.actions.actions.keys → actionNames (x :: xs) = actionNames xs →
        (SJail.sets w n rl (x :: xs) j).isSome = true := by
      intro j1 h1 h2 h3
      rw [SJail.sets, h1]
      refine ih hxs j1 ?_
      rw [h2]
      rw [h3] at h
      exact h
    cases x with
    | failRegex r =>
      have e : j.set w n rl _ = some _ := if_pos hok
      exact plain _ e rfl (by simp [actionNames])
    | ignoreRegex r =>
      have e : j.set w n rl _ = some _ := if_pos hok
      exact plain _ e rfl (by simp [actionNames])
    | ignoreIP r => exact plain _ (by unfold SJail.set; rw [if_pos hok]) (by split <;> rfl) (by simp [actionNames])
    | logPath r => exact plain _ (by unfold SJail.set; rw [if_pos hok]) (by split <;> rfl) (by simp [actionNames])
    | option k v =>
      have e : j.set w n rl _ = some _ := if_pos hok
      exact plain _ e rfl (by simp [actionNames])
    | action m a =>
      have en : actionNames (.action m a :: xs) = m :: actionNames xs := by simp [actionNames]
      rw [SJail.sets]
      unfold SJail.set
      rw [if_pos hok]
      dsimp only
      unfold Actions.add
      rcases h with rfl | ⟨h1, h2⟩
      · split
        · rw [if_neg (by simp)]
          split
          · split
            · exact ih hxs _ (Or.inl rfl)
            · exact ih hxs _ (Or.inl rfl)
          · exact ih hxs _ (Or.inl rfl)
        · exact ih hxs _ (Or.inl rfl)
      · rw [en] at h1 h2
        rw [List.nodup_cons] at h1
        have hm := h2 m List.mem_cons_self
        rw [(Dict.get?_eq_none_iff _ _).2 hm]
        refine ih hxs _ (Or.inr ⟨h1.2, ?_⟩)
        intro q hq
        dsimp only
        rw [Dict.mem_keys_iff]
        rintro ⟨b, hb⟩
        have hne : q ≠ m := by rintro rfl; exact h1.1 hq
        rw [Dict.get?_insert_ne _ hne] at hb
        exact h2 q (List.mem_cons_of_mem _ hq) ((Dict.mem_keys_iff _ _).2 ⟨b, hb⟩)

theorem conf_ok {w : World} {c : JailConf} (hb : w.backendOk c.backend = true) (hx : ∀ x ∈ c.settings, w.settingOk c.name x = true)
    (hnd : (actionNames c.settings).Nodup) (v : View) (hv : (v.jail = none ∧ v.mark = none) ∨ v.mark = some true ∧ ∃ j, v.jail = some j) :
    (View.run w c.name (confCmds c) v).1 = false := by
  have fin : ∀ (v1 : View) (j1 : SJail), v.exec w c.name (.add c.name c.backend) = (false, v1) → v1.jail = some j1 →
      (v1.mark.isSome = true ∨ ((actionNames c.settings).Nodup ∧ ∀ m ∈ actionNames c.settings, m ∉ j1.actions.actions.keys)) →
      (View.run w c.name (confCmds c) v).1 = false := by
    intro v1 j1 h1 h2 h3
    have hs := sets_ok v1.mark.isSome c.settings hx j1 h3
    obtain ⟨j2, hj2⟩ := Option.isSome_iff_exists.1 hs
    have e : View.run w c.name (.add c.name c.backend :: c.settings.map (.set c.name)) v = (false, { v1 with jail := some j2 }) := by
      rw [View.run, h1]
      simp only [Bool.false_eq_true, if_false]
      rw [View.run_sets w c.name c.settings v1 j1 h2, hj2]
    unfold confCmds
    rw [View.run_append w c.name _ _ _ _ e, View.run]
    simp only [View.exec, View.start]
    split <;> simp [View.run]
  have hnew : ∀ v1 : View, v1.jail = none → v1.new w c.backend = (false, ⟨some (SJail.new w v1.gone.length c.backend v1.flag.isSome), v1.mark, v1.gone, v1.flag.map (fun _ => some true)⟩) := by
    intro v1 h
    unfold View.new
    rw [h, hb]
    rfl
  rcases hv with ⟨hj, hm⟩ | ⟨hm, j, hj⟩
  · refine fin ⟨some (SJail.new w v.gone.length c.backend v.flag.isSome), v.mark, v.gone, v.flag.map (fun _ => some true)⟩ _ ?_ rfl
      (Or.inr ⟨hnd, by simp [SJail.new, Actions.init, Dict.keys, Dict.empty]⟩)
    simp only [View.exec, View.add, hm]
    rw [hnew v hj, hm]
  · by_cases e : j.backend = c.backend
    · refine fin ⟨v.jail, some false, v.gone, v.flag.map (fun _ => some true)⟩ j ?_ hj (Or.inl rfl)
      simp only [View.exec, View.add, hm, hj, e, if_true]
    · refine fin ⟨some (SJail.new w ((v.del w c.name).gone).length c.backend (v.del w c.name).flag.isSome), none, (v.del w c.name).gone,
        (v.del w c.name).flag.map (fun _ => some true)⟩ _ ?_ rfl (Or.inr ⟨hnd, by simp [SJail.new, Actions.init, Dict.keys, Dict.empty]⟩)
      · simp only [View.exec, View.add, hm, hj, e, if_false]
        exact hnew { v.del w c.name with mark := none } (by simp only [View.del, hj])

/-- **C44 (success).** If all parameters of a configuration are valid and no call of an action raises an exception, the reload raises none. -/
theorem C44_succeeds (w : World) (s : Server) (conf : List JailConf) (hs : Running s) (hn : (conf.map (·.name)).Nodup)
    (hb : ∀ c ∈ conf, w.backendOk c.backend = true) (hx : ∀ c ∈ conf, ∀ x ∈ c.settings, w.settingOk c.name x = true)
    (ha : ∀ c ∈ conf, (actionNames c.settings).Nodup) (hq : ∀ n g tr, (w.env n g tr).raised = false) :
    (s.reload w none {} (confStream conf)).1 = false := by
  have hbeg : (s.reloadBegin w none {}).1 = false := by
    unfold Server.reloadBegin
    rw [if_neg (by rw [hs.reloadState]; simp [Dict.empty])]
    simp
  have hbv := fun n => begin_view (w := w) (s1 := (s.reloadBegin w none {}).2) hs.reloadState none (Prod.ext hbeg rfl) n
  have hrun : (Server.run w (confStream conf) (s.reloadBegin w none {}).2).1 = false := by
    refine Server.run_succeeds w _ _ ?_ ?_
    · intro hm
      unfold confStream at hm
      rcases List.mem_append.1 hm with hm | hm
      · obtain ⟨c, _, hm⟩ := List.mem_flatMap.1 hm
        rcases List.mem_cons.1 hm with hm | hm
        · cases hm
        · obtain ⟨_, _, hm⟩ := List.mem_map.1 hm; cases hm
      · obtain ⟨_, _, hm⟩ := List.mem_map.1 hm; cases hm
    · intro n
      by_cases hnn : n ∈ conf.map (·.name)
      · obtain ⟨c, hc, rfl⟩ := List.mem_map.1 hnn
        rw [filter_conf conf hn c hc]
        refine conf_ok (hb c hc) (hx c hc) (ha c hc) _ ?_
        rw [hbv]
        cases hj : s.jails.get? c.name with
        | none => exact Or.inl ⟨hj, running_view hs _⟩
        | some j => simp
      · rw [filter_conf_none conf n (fun c hc e => hnn (e ▸ List.mem_map.2 ⟨c, hc, rfl⟩))]
        rfl
  unfold Server.reload
  dsimp only
  rw [hbeg, if_neg Bool.false_ne_true, hrun, Bool.false_or]
  generalize (Server.run w (confStream conf) (s.reloadBegin w none {}).2).2 = s2
  unfold Server.reloadEnd
  dsimp only
  rw [Server.commitLoop_ok w _ s2.jails.keys_nodup _ _ (by
    intro p _ _
    unfold SJail.reloadEnd
    exact quiet_reloadEnd (fun tr => hq _ _ tr) _)]
  rfl

/-! ## Errors -/

/-- while no jail was started -/
def Down (v : View) : Prop := ∀ j, v.jail = some j → v.mark.isSome = true ∨ (j.alive = false ∧ j.reloadLogs = none ∧ j.actions.reloading = none)

/-- a jail is still there or was stopped -/
def Was (g : Nat) (v : View) : Prop := (∃ j, v.jail = some j ∧ j.gen = g ∧ v.mark.isSome = true) ∨ ∃ j ∈ v.gone, j.gen = g ∧ j.alive = false

theorem stop_alive (w : World) (n : String) (j : SJail) : (j.stop w n).alive = false ∧ (j.stop w n).gen = j.gen := by
  unfold SJail.stop
  split
  · exact ⟨rfl, rfl⟩
  · rename_i h; exact ⟨Bool.eq_false_iff.2 h, rfl⟩

theorem add_reloading {s s' : Actions} {n : String} {a : Action} {rl : Bool} (h : s.add n a rl = some s') (hr : s.reloading = none) : s'.reloading = none := by
  unfold Actions.add at h
  split at h
  · split at h
    · cases h
    · split at h
      · split at h <;> cases h
        · simp [hr]
        · exact hr
      · cases h; exact hr
  · cases h; exact hr

theorem exec_down {w : World} {n : String} {v : View} {c : SCmd} (hc : ∀ m, c ≠ .start m) (h : Down v) :
    Down (v.exec w n c).2 ∧ ∀ g, Was g v → Was g (v.exec w n c).2 := by
  have new_down : ∀ (b : String) (v : View), Down v → Down (v.new w b).2 ∧ ∀ g, Was g v → Was g (v.new w b).2 := by
    intro b v h
    unfold View.new
    split
    · exact ⟨h, fun _ hg => hg⟩
    · rename_i hj
      split
      · refine ⟨?_, fun g hg => ?_⟩
        · intro j hj
          cases hj
          exact Or.inr ⟨rfl, rfl, rfl⟩
        · rcases hg with ⟨j, hj', _⟩ | hg
          · rw [hj'] at hj; simp at hj
          · exact Or.inr hg
      · exact ⟨h, fun _ hg => hg⟩
  cases c with
  | add m b =>
    simp only [View.exec]
    unfold View.add
    cases hm : v.mark with
    | none => exact new_down b v h
    | some t =>
      cases t with
      | false => exact new_down b v h
      | true =>
        cases hj : v.jail with
        | none => exact new_down b v h
        | some j =>
          dsimp only
          split
          · refine ⟨fun j' _ => Or.inl rfl, fun g hg => ?_⟩
            rcases hg with ⟨j', h1, h2, _⟩ | hg
            · rw [hj] at h1
              exact Or.inl ⟨j', h1, h2, rfl⟩
            · exact Or.inr hg
          · obtain ⟨k1, k2⟩ := new_down b { v.del w n with mark := none } (by
              intro j' hj'
              simp [View.del, hj] at hj')
            refine ⟨k1, fun g hg => k2 g ?_⟩
            right
            rcases hg with ⟨j', h1, h2, _⟩ | ⟨j', h1, h2⟩
            · rw [hj] at h1; cases h1
              refine ⟨j.stop w n, ?_, ?_⟩
              · simp [View.del, hj]
              · obtain ⟨q1, q2⟩ := stop_alive w n j
                exact ⟨q2.trans h2, q1⟩
            · exact ⟨j', by simp [View.del, hj, h1], h2⟩
  | set m x =>
    simp only [View.exec]
    unfold View.set
    cases hj : v.jail with
    | none => exact ⟨h, fun _ hg => hg⟩
    | some j =>
      dsimp only
      cases hs : j.set w n v.mark.isSome x with
      | none => exact ⟨h, fun _ hg => hg⟩
      | some j1 =>
        dsimp only
        have hr := SetsRel.one hs
        refine ⟨?_, fun g hg => ?_⟩
        · intro j' hj'
          cases hj'
          rcases h j hj with h | ⟨a, b, d⟩
          · exact Or.inl h
          · refine Or.inr ⟨hr.alive.trans a, hr.reloadNone b, ?_⟩
            unfold SJail.set at hs
            split at hs
            · cases x with
              | action k y =>
                dsimp only at hs
                rw [Option.map_eq_some_iff] at hs
                obtain ⟨acts, ha, rfl⟩ := hs
                exact add_reloading ha d
              | ignoreIP ip => dsimp only at hs; cases hs; split <;> exact d
              | logPath p => dsimp only at hs; cases hs; split <;> exact d
              | failRegex r => cases hs; exact d
              | ignoreRegex r => cases hs; exact d
              | option k y => cases hs; exact d
            · cases hs
        · rcases hg with ⟨j', h1, h2, h3⟩ | hg
          · rw [hj] at h1; cases h1
            exact Or.inl ⟨j1, rfl, hr.gen.trans h2, h3⟩
          · exact Or.inr hg
  | start m => exact absurd rfl (hc m)
  | configError => exact ⟨h, fun _ hg => hg⟩
  | invalid => exact ⟨h, fun _ hg => hg⟩

theorem run_down {w : World} {n : String} (cs : List SCmd) (s : Server) (hc : ∀ m, .start m ∉ cs) (h : Down (s.view n)) :
    Down ((Server.run w cs s).2.view n) ∧ ∀ g, Was g (s.view n) → Was g ((Server.run w cs s).2.view n) := by
  induction cs generalizing s with
  | nil => exact ⟨h, fun _ hg => hg⟩
  | cons c cs ih =>
    have h1 : Down ((s.exec w c).2.view n) ∧ ∀ g, Was g (s.view n) → Was g ((s.exec w c).2.view n) := by
      rw [(Server.view_exec w s c n).1]
      split
      · exact exec_down (fun m e => hc m (by rw [← e]; exact List.mem_cons_self)) h
      · exact ⟨h, fun _ hg => hg⟩
    rw [Server.run]
    split
    · exact h1
    · obtain ⟨k1, k2⟩ := ih _ (fun m hm => hc m (List.mem_cons_of_mem _ hm)) h1.1
      exact ⟨k1, fun g hg => k2 g (h1.2 g hg)⟩

theorem run_append_error {w : World} (a b : List SCmd) (s : Server) (h : (Server.run w a s).1 = true) : Server.run w (a ++ b) s = Server.run w a s := by
  induction a generalizing s with
  | nil => cases h
  | cons c a ih =>
    rw [List.cons_append, Server.run, Server.run]
    rw [Server.run] at h
    split
    · rfl
    · rename_i e
      rw [if_neg e] at h
      exact ih _ h

/-- **C44 (errors).** If a command of a reload raises an exception before the first jail is started again, no jail runs afterwards: all that ran before
are stopped and deleted, and the reload is over. -/
theorem C44_error (w : World) (s : Server) (pre post : List SCmd) (hs : Running s) (hp : ∀ n, .start n ∉ pre)
    (hf : (s.reload w none {} pre).1 = true) :
    let r := s.reload w none {} (pre ++ post)
    r.1 = true ∧ r.2.reloadState = Dict.empty ∧ (∀ n j, r.2.jails.get? n = some j → j.alive = false) ∧
    ∀ n j, s.jails.get? n = some j → ∃ g ∈ goneOf r.2 n, g.gen = j.gen ∧ g.alive = false := by
  intro r
  have hbeg : (s.reloadBegin w none {}).1 = false := by
    unfold Server.reloadBegin
    rw [if_neg (by rw [hs.reloadState]; simp [Dict.empty])]
    simp
  have hbv := fun n => begin_view (w := w) (s1 := (s.reloadBegin w none {}).2) hs.reloadState none (Prod.ext hbeg rfl) n
  have hd : ∀ n, Down ((s.reloadBegin w none {}).2.view n) := by
    intro n
    rw [hbv n]
    cases hj : s.jails.get? n with
    | none => intro j hj'; rw [show (s.view n).jail = none from hj] at hj'; cases hj'
    | some j => intro j' _; left; simp
  have hrd := fun n => run_down (w := w) (n := n) pre _ hp (hd n)
  have hend : ((Server.run w pre (s.reloadBegin w none {}).2).2.reloadEnd w).1 = false := by
    generalize (Server.run w pre (s.reloadBegin w none {}).2).2 = s2 at hrd
    unfold Server.reloadEnd
    dsimp only
    rw [Server.commitLoop_ok w _ s2.jails.keys_nodup _ _ (by
      intro p hp hc
      have hj : (s2.view p.1).jail = some p.2 := (Dict.get?_eq_some_iff _ _ _).2 hp
      rcases (hrd p.1).1 p.2 hj with h | ⟨_, h1, h2⟩
      · rw [Server.contains_get?] at hc
        rw [show (s2.view p.1).mark = s2.reloadState.get? p.1 from rfl, hc] at h
        cases h
      · unfold SJail.reloadEnd SJail.filterEnd
        rw [h1]
        dsimp only
        unfold Actions.reloadEnd
        rw [h2])]
    rfl
  have hrun : (Server.run w pre (s.reloadBegin w none {}).2).1 = true := by
    unfold Server.reload at hf
    dsimp only at hf
    rw [hbeg, if_neg Bool.false_ne_true, hend, Bool.or_false] at hf
    exact hf
  have hr : r = (true, ((Server.run w pre (s.reloadBegin w none {}).2).2.reloadEnd w).2) := by
    show s.reload w none {} (pre ++ post) = _
    unfold Server.reload
    dsimp only
    rw [hbeg, if_neg Bool.false_ne_true, run_append_error _ _ _ hrun, hrun]
    rfl
  rw [hr]
  generalize hs2 : (Server.run w pre (s.reloadBegin w none {}).2).2 = s2 at *
  obtain ⟨k0, kv⟩ := Server.view_reloadEnd w s2 (s2.reloadEnd w).2 (Prod.ext hend rfl)
  refine ⟨rfl, k0, ?_, ?_⟩
  · intro n j hj
    have e : ((s2.reloadEnd w).2.view n).jail = some j := hj
    rw [kv n] at e
    unfold View.finish at e
    cases hj2 : (s2.view n).jail with
    | none => rw [hj2] at e; dsimp only at e; rw [hj2] at e; cases e
    | some j2 =>
      rw [hj2] at e
      dsimp only at e
      rcases (hrd n).1 j2 hj2 with h | ⟨h0, h1, h2⟩
      · rw [if_pos h] at e
        simp [View.del, hj2] at e
      · split at e
        · simp [View.del, hj2] at e
        · dsimp only at e
          cases e
          unfold SJail.reloadEnd SJail.filterEnd
          rw [h1]
          exact h0
  · intro n j hj
    have hw : Was j.gen ((s.reloadBegin w none {}).2.view n) := by
      left
      rw [hbv n, hj]
      exact ⟨j.reloadBegin, by simp, rfl, by simp⟩
    have e : goneOf (s2.reloadEnd w).2 n = ((s2.reloadEnd w).2.view n).gone := rfl
    rw [e, kv n]
    rcases (hrd n).2 j.gen hw with ⟨j2, h1, h2, h3⟩ | ⟨g, h1, h2⟩
    · unfold View.finish
      rw [h1]
      dsimp only
      rw [if_pos h3]
      obtain ⟨q1, q2⟩ := stop_alive w n j2
      exact ⟨j2.stop w n, by simp [View.del, h1], q2.trans h2, q1⟩
    · refine ⟨g, ?_, h2⟩
      unfold View.finish View.del
      cases hj2 : (s2.view n).jail with
      | none => exact h1
      | some j2 =>
        dsimp only
        split
        · exact List.mem_append_left _ h1
        · exact h1

/-! ## Unban and invalid commands -/

theorem flush_all (env : Env) (a : Actions) : (a.flushBan env true none).2.2.bm = { a.bm with banList := Dict.empty } ∧
    (a.flushBan env true none).2.2.actions.keys = a.actions.keys ∧ (a.flushBan env true none).2.2.reloading = a.reloading := by
  unfold Actions.flushBan
  dsimp only
  simp only [Option.getD_none]
  generalize hs0 : ({ a with bm := a.bm.flushBanList.2 } : Actions) = s0
  have hb : s0.bm = { a.bm with banList := Dict.empty } := by rw [← hs0]; rfl
  have hk : s0.actions = a.actions := by rw [← hs0]
  have hr : s0.reloading = a.reloading := by rw [← hs0]
  obtain ⟨hs, _⟩ := flushLoop_spec env a.actions.items a.actions.keys_nodup [] s0
  cases hf : Actions.flushLoop env a.actions.items [] s0 with
  | mk left y =>
    obtain ⟨b, s1⟩ := y
    rw [hf] at hs
    dsimp only at hs
    cases b with
    | true => exact ⟨hs.bm.trans hb, hs.keys.trans (by rw [hk]), hs.reloading.trans hr⟩
    | false =>
      dsimp only
      obtain ⟨_, k⟩ := unbanTickets_spec env (some left) a.bm.flushBanList.1
        (if (true && s1.hasDb) = true then { s1 with trace := s1.trace ++ [.dbDel none] } else s1)
      have e : ∀ (b : Bool), ((if b = true then { s1 with trace := s1.trace ++ [.dbDel none] } else s1 : Actions)).bm = s1.bm ∧
          ((if b = true then { s1 with trace := s1.trace ++ [.dbDel none] } else s1 : Actions)).actions = s1.actions ∧
          ((if b = true then { s1 with trace := s1.trace ++ [.dbDel none] } else s1 : Actions)).reloading = s1.reloading := by
        intro b; cases b <;> exact ⟨rfl, rfl, rfl⟩
      obtain ⟨e1, e2, e3⟩ := e (true && s1.hasDb)
      exact ⟨(k.bm.trans e1).trans (hs.bm.trans hb), (k.keys.trans (by rw [e2])).trans (hs.keys.trans (by rw [hk])),
        (k.reloading.trans e3).trans (hs.reloading.trans hr)⟩

/-- the jail without bans -/
def unbanned (w : World) (n : String) (j : SJail) : SJail := { j with actions := (j.actions.flushBan (w.env n j.gen) true none).2.2 }

theorem unbanAll_spec (w : World) (ns : List String) (hn : ns.Nodup) (s s' : Server) (h : Server.unbanAll w ns s = (false, s')) :
    s'.reloadState = s.reloadState ∧ s'.db = s.db ∧ s'.gone = s.gone ∧
    ∀ n, s'.jails.get? n = if n ∈ ns then (s.jails.get? n).map (unbanned w n) else s.jails.get? n := by
  induction ns generalizing s with
  | nil => simp only [Server.unbanAll, Prod.mk.injEq, true_and] at h; subst h; exact ⟨rfl, rfl, rfl, fun n => by simp⟩
  | cons m ns ih =>
    rw [List.nodup_cons] at hn
    rw [Server.unbanAll] at h
    cases hj : s.jails.get? m with
    | none =>
      rw [hj] at h
      obtain ⟨i1, i2, i3, i4⟩ := ih hn.2 s h
      refine ⟨i1, i2, i3, fun n => ?_⟩
      rw [i4 n]
      by_cases e : n = m
      · subst e; simp [hn.1, hj]
      · simp [e]
    | some j =>
      rw [hj] at h
      dsimp only at h
      split at h
      · simp at h
      · obtain ⟨i1, i2, i3, i4⟩ := ih hn.2 _ h
        refine ⟨i1, i2, i3, fun n => ?_⟩
        rw [i4 n]
        dsimp only
        by_cases e : n = m
        · subst e; simp [hn.1, hj, Dict.get?_insert_self, unbanned]
        · simp [e, Dict.get?_insert_ne _ e]

/-- **C44 (unban).** A reload with `--unban`: no bans are left, neither in jails that stay. In these the bans were removed (flush, delete from the database,
unban of all addresses) before the reload. -/
theorem C44_unban (w : World) (s s' : Server) (conf : List JailConf) (hs : Running s) (hn : (conf.map (·.name)).Nodup)
    (ha : ∀ c ∈ conf, (actionNames c.settings).Nodup) (h : s.reload w none { unban := true } (confStream conf) = (false, s')) :
    Running s' ∧ (∀ n, n ∈ s'.jails.keys ↔ n ∈ conf.map (·.name)) ∧
    ∀ c ∈ conf, ∃ j', s'.jails.get? c.name = some j' ∧ Configured c j' ∧ j'.actions.bm.banList = Dict.empty ∧
      ∀ j, s.jails.get? c.name = some j → j.backend = c.backend →
        j'.gen = j.gen ∧ ∃ ext, j'.actions.trace = (j.actions.flushBan (w.env c.name j.gen) true none).2.2.trace ++ ext := by
  obtain ⟨s1, s2, hb, hr, he⟩ := reload_parts h
  unfold Server.reloadBegin at hb
  rw [if_neg (by rw [hs.reloadState]; simp [Dict.empty])] at hb
  simp only [ne_eq, not_true, false_and, if_false, if_true, Bool.false_eq_true] at hb
  cases hu : Server.unbanAll w s.jails.keys s with
  | mk b s0 =>
    rw [hu] at hb
    dsimp only at hb
    cases b with
    | true => rw [if_pos rfl] at hb; simp at hb
    | false =>
      rw [if_neg Bool.false_ne_true] at hb
      simp only [Prod.mk.injEq, true_and] at hb
      obtain ⟨u1, u2, u3, u4⟩ := unbanAll_spec w _ s.jails.keys_nodup s s0 hu
      have u4' : ∀ n, s0.jails.get? n = (s.jails.get? n).map (unbanned w n) := by
        intro n
        rw [u4 n]
        split
        · rfl
        · rename_i hm
          rw [(Dict.get?_eq_none_iff _ _).2 hm]; rfl
      have hs0 : Running s0 := by
        refine ⟨u1.trans hs.reloadState, ?_, ?_⟩
        · intro n j hj
          rw [u4' n, Option.map_eq_some_iff] at hj
          obtain ⟨j0, hj0, rfl⟩ := hj
          obtain ⟨a1, a2, a3, a4⟩ := hs.alive n j0 hj0
          exact ⟨a1, a2, a3, (flush_all _ _).2.2.trans a4⟩
        · intro d hd n
          rw [u2] at hd
          rw [hs.db d hd n, Dict.mem_keys_iff, Dict.mem_keys_iff, u4' n]
          cases s.jails.get? n <;> simp
      have hr0 : s0.reload w none {} (confStream conf) = (false, s') := by
        unfold Server.reload Server.reloadBegin
        rw [if_neg (by rw [hs0.reloadState]; simp [Dict.empty])]
        simp only [ne_eq, not_true, false_and, if_false, Bool.false_eq_true]
        rw [hb, hr]
        dsimp only
        rw [he]
        rfl
      obtain ⟨k1, k2, k3, _⟩ := C44_reload w s0 s' conf hs0 hn ha hr0
      refine ⟨k1, k2, fun c hc => ?_⟩
      obtain ⟨j', q1, q2, q3⟩ := k3 c hc
      refine ⟨j', q1, q2, ?_⟩
      rw [u4' c.name] at q3
      cases hj : s.jails.get? c.name with
      | none =>
        rw [hj] at q3
        exact ⟨by rw [q3.1.bans]; rfl, fun j hj' => (by cases hj')⟩
      | some j =>
        rw [hj] at q3
        dsimp only [Option.map_some] at q3
        split at q3
        · rename_i hbk
          refine ⟨by rw [q3.1.bans]; exact congrArg BanManager.banList (flush_all _ _).1, ?_⟩
          intro j2 hj2 _
          cases hj2
          obtain ⟨ext, t1, _⟩ := q3.1.trace
          exact ⟨q3.1.gen, ext, t1⟩
        · rename_i hbk
          refine ⟨by rw [q3.1.bans]; rfl, fun j2 hj2 hb2 => ?_⟩
          cases hj2
          exact absurd hb2 hbk

/-- **C44 (invalid commands).** A reload with an invalid command is reported as failed. -/
theorem C44_invalid (w : World) (s : Server) (nm : Option String) (o : Server.ReloadOpts) (pre post : List SCmd) :
    (s.reload w nm o (pre ++ .invalid :: post)).1 = true := by
  have hr : ∀ s, (Server.run w (pre ++ .invalid :: post) s).1 = true := by
    intro s
    induction pre generalizing s with
    | nil => rfl
    | cons c pre ih =>
      rw [List.cons_append, Server.run]
      split
      · assumption
      · exact ih _
  unfold Server.reload
  dsimp only
  split
  · rename_i e; rw [e]; rfl
  · rw [hr]; rfl

/-! ## Examples and counterexamples -/

/-- all is well, except for the regular expression "(" and the backend "none" -/
def goodWorld : World := ⟨fun _ _ _ => {}, fun b => b ≠ "none", fun _ x => x ≠ .failRegex "(", true⟩

/-- a jail -/
def sshdConf : JailConf := ⟨"sshd", "polling", [.failRegex "a", .logPath "/l1", .option "maxretry" "5", .action "ipt" {}, .action "mail" {}]⟩

/-- two jails -/
def confOne : List JailConf :=
  [sshdConf,
   ⟨"web", "polling", [.failRegex "b", .logPath "/l2", .action "ipt" {}]⟩]

/-- the second is gone, there is a third; the first has other parameters -/
def confTwo : List JailConf :=
  [⟨"sshd", "polling", [.failRegex "c", .failRegex "d", .ignoreIP "::1", .logPath "/l3", .option "bantime" "10", .action "mail" {}]⟩,
   ⟨"ftp", "polling", [.failRegex "e", .action "ipt" {}]⟩]

def startedServer : Server := (Server.run goodWorld (confStream confOne) (Server.init none)).2

/-- start of two jails -/
example : (Server.run goodWorld (confStream confOne) (Server.init none)).1 = false ∧ startedServer.jails.keys = ["sshd", "web"] ∧
    (startedServer.jails.get? "sshd").map (fun j => (j.alive, j.failRegex, j.logs, j.actions.actions.keys, j.actions.trace)) =
      some (true, ["a"], ["/l1"], ["ipt", "mail"], [.start "ipt", .start "mail"]) := by decide +kernel

/-- a reload -/
example :
    let r := startedServer.reload goodWorld none {} (confStream confTwo)
    r.1 = false ∧ r.2.jails.keys = ["sshd", "ftp"] ∧
    (r.2.jails.get? "sshd").map (fun j => (j.alive, j.failRegex, j.ignoreIPs, j.logs, j.actions.actions.keys)) =
      some (true, ["c", "d"], ["::1"], ["/l3"], ["mail"]) ∧
    (r.2.jails.get? "sshd").map (fun j => (j.options.items, j.actions.trace)) =
      some ([("maxretry", "5"), ("bantime", "10")], [.start "ipt", .start "mail", .reload "mail", .stop "ipt"]) ∧
    r.2.gone.map (fun g => (g.1, g.2.alive, g.2.actions.trace)) = [("web", false, [.start "ipt", .stop "ipt"])] := by decide +kernel

/-- other backend, and one jail only -/
example :
    let r := startedServer.reload goodWorld (some "web") {} (confStream [⟨"web", "systemd", [.failRegex "x"]⟩])
    r.1 = false ∧ (r.2.jails.get? "web").map (fun j => (j.gen, j.backend, j.alive, j.failRegex)) = some (1, "systemd", true, ["x"]) ∧
    (r.2.jails.get? "sshd").map (fun j => (j.alive, j.failRegex, j.logs)) = some (true, ["a"], ["/l1"]) := by decide +kernel

/-- one ban, removed by `--unban` -/
example :
    let j := startedServer.jails.get? "web"
    let banned : Server := { startedServer with jails := startedServer.jails.insert "web" ((j.map (fun j => { j with actions := { j.actions with
      bm := { j.actions.bm with banList := Dict.empty.insert "x" (Ticket.new "x" 5 []) } } })).getD (SJail.new goodWorld 0 "" false)) }
    let r := banned.reload goodWorld none { unban := true } (confStream confOne)
    r.1 = false ∧ (r.2.jails.get? "web").map (fun j => (j.gen, j.actions.bm.banList.keys, j.actions.trace)) =
      some (0, [], [.start "ipt", .unban "ipt" "x", .reload "ipt"]) := by decide +kernel

/-- **C44, finding.** A reload stops all jails if one regular expression is invalid. -/
example :
    let r := startedServer.reload goodWorld none {} (confStream (confOne ++ [⟨"ftp", "polling", [.failRegex "("]⟩]))
    r.1 = true ∧ r.2.jails.items.map (fun p => (p.1, p.2.alive)) = [("ftp", false)] ∧ r.2.gone.map (fun g => (g.1, g.2.alive)) = [("sshd", false), ("web", false)] := by
  decide +kernel

/-- **C44, finding.** After a reload that failed, a reload of a valid configuration raises no exception but does not start all of its jails: a jail that was
set up but not started by the first one is started and then deleted by the second one. -/
theorem C44_refuted_after_error :
    ∃ (w : World) (s : Server) (bad good : List JailConf), Running s ∧ (s.reload w none {} (confStream bad)).1 = true ∧
      ((s.reload w none {} (confStream bad)).2.reload w none {} (confStream good)).1 = false ∧
      (∀ c ∈ good, w.backendOk c.backend = true ∧ (∀ x ∈ c.settings, w.settingOk c.name x = true) ∧ (actionNames c.settings).Nodup) ∧
      "ftp" ∈ good.map (·.name) ∧ ((s.reload w none {} (confStream bad)).2.reload w none {} (confStream good)).2.jails.get? "ftp" = none := by
  refine ⟨goodWorld, Server.init none, [⟨"ftp", "polling", []⟩, ⟨"web", "polling", [.failRegex "("]⟩], [⟨"ftp", "polling", []⟩, ⟨"web", "polling", []⟩],
    ⟨rfl, fun n j h => (by cases h), fun d h => (by cases h)⟩, by decide +kernel, by decide +kernel, by decide +kernel, by decide +kernel, ?_⟩
  have : (((((Server.init none).reload goodWorld none {} (confStream [⟨"ftp", "polling", []⟩, ⟨"web", "polling", [.failRegex "("]⟩])).2.reload goodWorld none {}
      (confStream [⟨"ftp", "polling", []⟩, ⟨"web", "polling", []⟩])).2.jails.get? "ftp").isNone) = true := by decide +kernel
  exact Option.isNone_iff_eq_none.1 this

/-- the first reload of an action raises an exception, no other call does -/
def flakyWorld : World :=
  { goodWorld with env := fun _ _ tr => { raised := decide (tr.getLast? = some (.reload "ipt") ∧ (tr.filter (· = .reload "ipt")).length = 1) } }

/-- **C44, finding.** If an action raises an exception at the end of a reload, the next reload is refused ("already in progress") although none is going on,
unless all jails were in the configuration of the first one. -/
theorem C44_refuted_in_progress :
    let s1 := (startedServer.reload flakyWorld none {} (confStream [sshdConf])).2
    (startedServer.reload flakyWorld none {} (confStream [sshdConf])).1 = true ∧ s1.reloadState.keys = ["web"] ∧
    (s1.reloadBegin flakyWorld none {}).1 = true ∧ (s1.reload flakyWorld none {} (confStream confOne)).1 = true ∧
    ((s1.reload flakyWorld none {} (confStream confOne)).2.reload flakyWorld none {} (confStream confOne)).1 = false := by
  decide +kernel

end Verif
