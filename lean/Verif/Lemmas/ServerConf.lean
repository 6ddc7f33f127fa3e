import Verif.Lemmas.ServerView
import Verif.Spec.Server
import Verif.Props.ActionReload
import Verif.Props.ActionsMore

namespace Verif

open Spec.Server Actions

/-! ## Setting parameters of a jail -/

/-- settings in order -/
def SJail.sets (w : World) (n : String) (rl : Bool) : List Setting → SJail → Option SJail
  | [], j => some j
  | x :: xs, j => (j.set w n rl x).bind (SJail.sets w n rl xs)

theorem View.run_append (w : World) (n : String) (a b : List SCmd) (v v1 : View) (h : View.run w n a v = (false, v1)) :
    View.run w n (a ++ b) v = View.run w n b v1 := by
  induction a generalizing v with
  | nil => simp only [View.run, Prod.mk.injEq, true_and] at h; subst h; rfl
  | cons c a ih =>
    rw [List.cons_append, View.run]
    rw [View.run] at h
    split at h
    · rename_i e; rw [h] at e; cases e
    · rename_i e
      rw [if_neg e]
      exact ih _ h

theorem View.run_append_inv (w : World) (n : String) (a b : List SCmd) (v v2 : View) (h : View.run w n (a ++ b) v = (false, v2)) :
    ∃ v1, View.run w n a v = (false, v1) ∧ View.run w n b v1 = (false, v2) := by
  induction a generalizing v with
  | nil => exact ⟨v, rfl, h⟩
  | cons c a ih =>
    rw [List.cons_append, View.run] at h
    split at h
    · rename_i e; rw [h] at e; cases e
    · rename_i e
      obtain ⟨v1, h1, h2⟩ := ih _ h
      exact ⟨v1, by rw [View.run, if_neg e]; exact h1, h2⟩

theorem View.run_sets (w : World) (n : String) (xs : List Setting) (v : View) (j : SJail) (hj : v.jail = some j) :
    View.run w n (xs.map (.set n)) v =
      match SJail.sets w n v.mark.isSome xs j with
      | some j' => (false, { v with jail := some j' })
      | none => (true, (View.run w n (xs.map (.set n)) v).2) := by
  induction xs generalizing v j with
  | nil => simp only [List.map_nil, View.run, SJail.sets]; rw [← hj]
  | cons x xs ih =>
    have hx : v.exec w n (.set n x) = match j.set w n v.mark.isSome x with
        | none => (true, v)
        | some j => (false, ⟨some j, v.mark, v.gone, v.flag⟩) := by
      show v.set w n x = _
      unfold View.set
      rw [hj]
      rfl
    rw [List.map_cons, View.run, hx]
    cases hs : j.set w n v.mark.isSome x with
    | none => simp [SJail.sets, hs]
    | some j1 =>
      simp only [SJail.sets, hs, Option.bind_some, Bool.false_eq_true, if_false]
      have := ih ⟨some j1, v.mark, v.gone, v.flag⟩ j1 rfl
      rw [this]
      cases hh : SJail.sets w n v.mark.isSome xs j1 with
      | none => simp
      | some j2 => simp

/-- What `sets` does, except for the actions. -/
structure SetsRel (xs : List Setting) (j j' : SJail) : Prop where
  gen : j'.gen = j.gen
  backend : j'.backend = j.backend
  alive : j'.alive = j.alive
  idle : j'.idle = j.idle
  failRegex : j'.failRegex = j.failRegex ++ failRegexes xs
  ignoreRegex : j'.ignoreRegex = j.ignoreRegex ++ ignoreRegexes xs
  ignoreIPs : ∀ ip, ip ∈ j'.ignoreIPs ↔ ip ∈ j.ignoreIPs ∨ ip ∈ ignoredIPs xs
  logs : ∀ p, p ∈ j'.logs ↔ p ∈ j.logs ∨ p ∈ logPaths xs
  reloadNone : j.reloadLogs = none → j'.reloadLogs = none
  reloadSome : ∀ l, j.reloadLogs = some l → (∀ p ∈ l, p ∈ j.logs) → ∃ l', j'.reloadLogs = some l' ∧ ∀ p, p ∈ l' ↔ p ∈ l ∧ p ∉ logPaths xs
  options : ∀ k, j'.options.get? k = ((optionValues k xs).getLast?).or (j.options.get? k)
  bm : j'.actions.bm = j.actions.bm
  trace : j'.actions.trace = j.actions.trace

theorem Actions.add_keeps {s s' : Actions} {n : String} {a : Action} {rl : Bool} (h : s.add n a rl = some s') : s'.bm = s.bm ∧ s'.trace = s.trace := by
  unfold Actions.add at h
  split at h
  · split at h
    · cases h
    · split at h
      · split at h <;> cases h <;> exact ⟨rfl, rfl⟩
      · cases h; exact ⟨rfl, rfl⟩
  · cases h; exact ⟨rfl, rfl⟩

theorem SetsRel.nil (j : SJail) : SetsRel [] j j where
  gen := rfl
  backend := rfl
  alive := rfl
  idle := rfl
  failRegex := by simp [failRegexes]
  ignoreRegex := by simp [ignoreRegexes]
  ignoreIPs := by simp [ignoredIPs]
  logs := by simp [logPaths]
  reloadNone := id
  reloadSome := fun l h _ => ⟨l, h, by simp [logPaths]⟩
  options := by simp [optionValues]
  bm := rfl
  trace := rfl

theorem SetsRel.one {w : World} {n : String} {rl : Bool} {j j' : SJail} {x : Setting} (h : j.set w n rl x = some j') : SetsRel [x] j j' := by
  unfold SJail.set at h
  split at h
  · cases x with
    | failRegex r =>
      cases h
      constructor <;> simp [failRegexes, ignoreRegexes, ignoredIPs, logPaths, optionValues]
      exact fun l h _ => ⟨l, h, fun _ => Iff.rfl⟩
    | ignoreRegex r =>
      cases h
      constructor <;> simp [failRegexes, ignoreRegexes, ignoredIPs, logPaths, optionValues]
      exact fun l h _ => ⟨l, h, fun _ => Iff.rfl⟩
    | ignoreIP ip =>
      dsimp only at h
      cases h
      split
      · rename_i hc
        constructor <;> simp [failRegexes, ignoreRegexes, ignoredIPs, logPaths, optionValues]
        · simpa using hc
        · exact fun l h _ => ⟨l, h, fun _ => Iff.rfl⟩
      · constructor <;> simp [failRegexes, ignoreRegexes, ignoredIPs, logPaths, optionValues]
        exact fun l h _ => ⟨l, h, fun _ => Iff.rfl⟩
    | logPath p =>
      dsimp only at h
      cases h
      split
      · rename_i hc
        constructor <;> simp [failRegexes, ignoreRegexes, ignoredIPs, logPaths, optionValues]
        · simpa using hc
        · intro l h _
          refine ⟨_, ⟨l, h, rfl⟩, ?_⟩
          simp
      · rename_i hc
        constructor <;> simp [failRegexes, ignoreRegexes, ignoredIPs, logPaths, optionValues]
        intro l h hs
        refine ⟨l, h, fun q => ⟨fun hq => ⟨hq, ?_⟩, fun hq => hq.1⟩⟩
        rintro rfl
        exact hc (by simpa using hs q hq)
    | option k v =>
      cases h
      constructor <;> simp [failRegexes, ignoreRegexes, ignoredIPs, logPaths, optionValues]
      · exact fun l h _ => ⟨l, h, fun _ => Iff.rfl⟩
      intro k'
      rw [Dict.get?_insert]
      by_cases e : k' = k
      · subst e; simp
      · have e' : ¬ k = k' := fun h => e h.symm
        simp [e, e']
    | action m a =>
      dsimp only at h
      rw [Option.map_eq_some_iff] at h
      obtain ⟨acts, ha, rfl⟩ := h
      obtain ⟨h1, h2⟩ := Actions.add_keeps ha
      constructor <;> simp [failRegexes, ignoreRegexes, ignoredIPs, logPaths, optionValues]
      · exact fun l h _ => ⟨l, h, fun _ => Iff.rfl⟩
      · exact h1
      · exact h2
  · cases h

theorem SetsRel.append {xs ys : List Setting} {a b c : SJail} (h : SetsRel xs a b) (k : SetsRel ys b c) : SetsRel (xs ++ ys) a c where
  gen := k.gen.trans h.gen
  backend := k.backend.trans h.backend
  alive := k.alive.trans h.alive
  idle := k.idle.trans h.idle
  failRegex := by rw [k.failRegex, h.failRegex]; simp [failRegexes]
  ignoreRegex := by rw [k.ignoreRegex, h.ignoreRegex]; simp [ignoreRegexes]
  ignoreIPs := by intro ip; rw [k.ignoreIPs, h.ignoreIPs]; simp [ignoredIPs, or_assoc]
  logs := by intro p; rw [k.logs, h.logs]; simp [logPaths, or_assoc]
  reloadNone := fun h0 => k.reloadNone (h.reloadNone h0)
  reloadSome := by
    intro l hl hs
    obtain ⟨l1, e1, m1⟩ := h.reloadSome l hl hs
    obtain ⟨l2, e2, m2⟩ := k.reloadSome l1 e1 (fun p hp => (h.logs p).2 (Or.inl (hs p ((m1 p).1 hp).1)))
    refine ⟨l2, e2, fun p => ?_⟩
    rw [m2, m1]
    simp [logPaths, and_assoc]
  options := by
    intro q
    rw [k.options, h.options, ← Option.or_assoc]
    congr 1
    simp only [optionValues, List.filterMap_append, List.getLast?_append]
  bm := k.bm.trans h.bm
  trace := k.trace.trans h.trace

theorem sets_rel {w : World} {n : String} {rl : Bool} (xs : List Setting) {j j' : SJail} (h : SJail.sets w n rl xs j = some j') : SetsRel xs j j' := by
  induction xs generalizing j with
  | nil => simp only [SJail.sets, Option.some.injEq] at h; subst h; exact SetsRel.nil _
  | cons x xs ih =>
    rw [SJail.sets, Option.bind_eq_some_iff] at h
    obtain ⟨j1, h1, h2⟩ := h
    exact (SetsRel.one h1).append (ih h2)

/-- actions of a new jail -/
theorem sets_actions_fresh {w : World} {n : String} (xs : List Setting) {j j' : SJail} (h : SJail.sets w n false xs j = some j') :
    j'.actions.actions.keys = j.actions.actions.keys ++ actionNames xs ∧ j'.actions.reloading = j.actions.reloading := by
  induction xs generalizing j with
  | nil => simp only [SJail.sets, Option.some.injEq] at h; subst h; simp [actionNames]
  | cons x xs ih =>
    rw [SJail.sets, Option.bind_eq_some_iff] at h
    obtain ⟨j1, h1, h2⟩ := h
    obtain ⟨i1, i2⟩ := ih h2
    unfold SJail.set at h1
    split at h1
    · cases x with
      | failRegex r => cases h1; exact ⟨i1, i2⟩
      | ignoreRegex r => cases h1; exact ⟨i1, i2⟩
      | ignoreIP ip =>
        dsimp only at h1
        cases h1
        constructor
        · rw [i1]; split <;> rfl
        · rw [i2]; split <;> rfl
      | logPath p =>
        dsimp only at h1
        cases h1
        constructor
        · rw [i1]; split <;> rfl
        · rw [i2]; split <;> rfl
      | option k v => cases h1; exact ⟨i1, i2⟩
      | action m a =>
        dsimp only at h1
        rw [Option.map_eq_some_iff] at h1
        obtain ⟨acts, ha, rfl⟩ := h1
        unfold Actions.add at ha
        split at ha
        · simp at ha
        · rename_i hno
          cases ha
          dsimp only at i1 i2
          have hk : m ∉ j.actions.actions.keys := (Dict.get?_eq_none_iff _ _).1 hno
          refine ⟨?_, i2⟩
          rw [i1]
          have : (j.actions.actions.insert m a).keys = j.actions.actions.keys ++ [m] := by
            unfold Dict.keys
            rw [Dict.items_insert_of_not_mem _ hk]; simp
          rw [this]
          simp [actionNames]
    · cases h1

/-- can be reloaded in place -/
def Action.reloadable (a : Action) : Bool := a.hasReload && a.hasClear

/-- actions of a jail in a reload -/
theorem sets_actions_reload {w : World} {n : String} (xs : List Setting) {j j' : SJail} (h : SJail.sets w n true xs j = some j') (l : List String)
    (hl : j.actions.reloading = some l) (hnl : l.Nodup) (hnd : (actionNames xs).Nodup) (hdis : ∀ m ∈ actionNames xs, m ∉ l) :
    ∃ l', j'.actions.reloading = some l' ∧ l'.Nodup ∧
      (∀ m, m ∈ l' ↔ m ∈ l ∨ (m ∈ actionNames xs ∧ (j.actions.actions.get? m).any Action.reloadable = true)) ∧
      j'.actions.actions.keys = j.actions.actions.keys ++ (actionNames xs).filter (fun m => decide (m ∉ j.actions.actions.keys)) := by
  induction xs generalizing j l with
  | nil => simp only [SJail.sets, Option.some.injEq] at h; subst h; exact ⟨l, hl, hnl, by simp [actionNames], by simp [actionNames]⟩
  | cons x xs ih =>
    rw [SJail.sets, Option.bind_eq_some_iff] at h
    obtain ⟨j1, h1, h2⟩ := h
    have plain : j1.actions = j.actions → actionNames (x :: xs) = actionNames xs →
        ∃ l', j'.actions.reloading = some l' ∧ l'.Nodup ∧
          (∀ m, m ∈ l' ↔ m ∈ l ∨ (m ∈ actionNames (x :: xs) ∧ (j.actions.actions.get? m).any Action.reloadable = true)) ∧
          j'.actions.actions.keys = j.actions.actions.keys ++ (actionNames (x :: xs)).filter (fun m => decide (m ∉ j.actions.actions.keys)) := by
      intro e1 e2
      rw [e2] at hnd hdis ⊢
      have := ih h2 l (by rw [e1]; exact hl) hnl hnd hdis
      rw [e1] at this
      exact this
    unfold SJail.set at h1
    split at h1
    · cases x with
      | failRegex r => cases h1; exact plain rfl (by simp [actionNames])
      | ignoreRegex r => cases h1; exact plain rfl (by simp [actionNames])
      | ignoreIP ip =>
        dsimp only at h1
        cases h1
        refine plain ?_ (by simp [actionNames])
        split <;> rfl
      | logPath p =>
        dsimp only at h1
        cases h1
        refine plain ?_ (by simp [actionNames])
        split <;> rfl
      | option k v => cases h1; exact plain rfl (by simp [actionNames])
      | action m a =>
        dsimp only at h1
        rw [Option.map_eq_some_iff] at h1
        obtain ⟨acts, ha, rfl⟩ := h1
        have en : actionNames (.action m a :: xs) = m :: actionNames xs := by simp [actionNames]
        rw [en] at hnd hdis ⊢
        rw [List.nodup_cons] at hnd
        have hml : m ∉ l := hdis m List.mem_cons_self
        have hdis' : ∀ q ∈ actionNames xs, q ∉ l := fun q hq => hdis q (List.mem_cons_of_mem _ hq)
        unfold Actions.add at ha
        split at ha
        · rename_i old ho
          have hmk : m ∈ j.actions.actions.keys := (Dict.mem_keys_iff _ _).2 ⟨old, ho⟩
          rw [if_neg (by simp)] at ha
          split at ha
          · rename_i hr
            split at ha
            · rename_i hcl
              cases ha
              obtain ⟨l', i1, i2, i3, i4⟩ := ih h2 (l ++ [m]) (by
                dsimp only; rw [hl, Option.map_some]
                rw [if_neg (by simpa using hml)]) (by
                  rw [List.nodup_append]
                  exact ⟨hnl, by simp, by rintro x hx y hy rfl; simp at hy; subst hy; exact hml hx⟩) hnd.2 (by
                  intro q hq hq'
                  rcases List.mem_append.1 hq' with h | h
                  · exact hdis' q hq h
                  · simp at h; subst h; exact hnd.1 hq)
              refine ⟨l', i1, i2, ?_, ?_⟩
              · intro q
                rw [i3 q]
                dsimp only
                rw [List.mem_append, List.mem_singleton, List.mem_cons]
                constructor
                · rintro ((h | rfl) | ⟨h, h'⟩)
                  · exact Or.inl h
                  · exact Or.inr ⟨Or.inl rfl, by rw [ho]; simp [Action.reloadable, hr, hcl]⟩
                  · exact Or.inr ⟨Or.inr h, h'⟩
                · rintro (h | ⟨rfl | h, h'⟩)
                  · exact Or.inl (Or.inl h)
                  · exact Or.inl (Or.inr rfl)
                  · exact Or.inr ⟨h, h'⟩
              · rw [i4]
                dsimp only
                rw [List.filter_cons_of_neg (by simpa using hmk)]
            · rename_i hcl
              cases ha
              obtain ⟨l', i1, i2, i3, i4⟩ := ih h2 l hl hnl hnd.2 hdis'
              refine ⟨l', i1, i2, ?_, ?_⟩
              · intro q
                rw [i3 q, List.mem_cons]
                constructor
                · rintro (h | ⟨h, h'⟩)
                  · exact Or.inl h
                  · exact Or.inr ⟨Or.inr h, h'⟩
                · rintro (h | ⟨rfl | h, h'⟩)
                  · exact Or.inl h
                  · rw [ho] at h'; simp [Action.reloadable, hcl] at h'
                  · exact Or.inr ⟨h, h'⟩
              · rw [i4, List.filter_cons_of_neg (by simpa using hmk)]
          · rename_i hr
            cases ha
            obtain ⟨l', i1, i2, i3, i4⟩ := ih h2 l hl hnl hnd.2 hdis'
            refine ⟨l', i1, i2, ?_, ?_⟩
            · intro q
              rw [i3 q, List.mem_cons]
              dsimp only
              constructor
              · rintro (h | ⟨h, h'⟩)
                · exact Or.inl h
                · have : q ≠ m := by rintro rfl; exact hnd.1 h
                  rw [Dict.get?_insert_ne _ this] at h'
                  exact Or.inr ⟨Or.inr h, h'⟩
              · rintro (h | ⟨rfl | h, h'⟩)
                · exact Or.inl h
                · rw [ho] at h'; simp [Action.reloadable, hr] at h'
                · have : q ≠ m := by rintro rfl; exact hnd.1 h
                  exact Or.inr ⟨h, by rw [Dict.get?_insert_ne _ this]; exact h'⟩
            · rw [i4]
              dsimp only
              rw [Dict.keys_insert_of_mem _ hmk, List.filter_cons_of_neg (by simpa using hmk)]
        · rename_i ho
          have hmk : m ∉ j.actions.actions.keys := (Dict.get?_eq_none_iff _ _).1 ho
          cases ha
          obtain ⟨l', i1, i2, i3, i4⟩ := ih h2 l hl hnl hnd.2 hdis'
          have hkeys : (j.actions.actions.insert m a).keys = j.actions.actions.keys ++ [m] := by
            unfold Dict.keys
            rw [Dict.items_insert_of_not_mem _ hmk]; simp
          refine ⟨l', i1, i2, ?_, ?_⟩
          · intro q
            rw [i3 q, List.mem_cons]
            dsimp only
            constructor
            · rintro (h | ⟨h, h'⟩)
              · exact Or.inl h
              · have : q ≠ m := by rintro rfl; exact hnd.1 h
                rw [Dict.get?_insert_ne _ this] at h'
                exact Or.inr ⟨Or.inr h, h'⟩
            · rintro (h | ⟨rfl | h, h'⟩)
              · exact Or.inl h
              · rw [ho] at h'; simp at h'
              · have : q ≠ m := by rintro rfl; exact hnd.1 h
                exact Or.inr ⟨h, by rw [Dict.get?_insert_ne _ this]; exact h'⟩
          · rw [i4]
            dsimp only
            rw [hkeys, List.filter_cons_of_pos (by simpa using hmk), List.append_assoc]
            congr 1
            rw [List.singleton_append]
            congr 1
            apply List.filter_congr
            intro q hq
            have : q ≠ m := by rintro rfl; exact hnd.1 hq
            simp [this]
    · cases h1

/-! ## The stream of a configuration -/

/-- the commands of one jail -/
def confCmds (c : JailConf) : List SCmd := (.add c.name c.backend :: c.settings.map (.set c.name)) ++ [.start c.name]

theorem filter_conf_none (conf : List JailConf) (n : String) (h : ∀ c ∈ conf, c.name ≠ n) : (confStream conf).filter (fun x => x.target = some n) = [] := by
  rw [List.filter_eq_nil_iff]
  intro x hx
  unfold confStream at hx
  rcases List.mem_append.1 hx with hx | hx
  · obtain ⟨c, hc, hx⟩ := List.mem_flatMap.1 hx
    rcases List.mem_cons.1 hx with rfl | hx
    · simpa [SCmd.target] using h c hc
    · obtain ⟨y, _, rfl⟩ := List.mem_map.1 hx
      simpa [SCmd.target] using h c hc
  · obtain ⟨c, hc, rfl⟩ := List.mem_map.1 hx
    simpa [SCmd.target] using h c hc

theorem filter_conf (conf : List JailConf) (hn : (conf.map (·.name)).Nodup) (c : JailConf) (hc : c ∈ conf) :
    (confStream conf).filter (fun x => x.target = some c.name) = confCmds c := by
  have h1 : ∀ conf : List JailConf, (conf.map (·.name)).Nodup → c ∈ conf →
      (conf.flatMap (fun c => SCmd.add c.name c.backend :: c.settings.map (.set c.name))).filter (fun x => x.target = some c.name) =
        .add c.name c.backend :: c.settings.map (.set c.name) ∧
      (conf.map (fun c => SCmd.start c.name)).filter (fun x => x.target = some c.name) = [.start c.name] := by
    have h0 : ∀ conf : List JailConf, (∀ d ∈ conf, d.name ≠ c.name) →
        (conf.flatMap (fun c => SCmd.add c.name c.backend :: c.settings.map (.set c.name))).filter (fun x => x.target = some c.name) = [] ∧
        (conf.map (fun c => SCmd.start c.name)).filter (fun x => x.target = some c.name) = [] := by
      intro conf h
      have := filter_conf_none conf c.name h
      unfold confStream at this
      rw [List.filter_append, List.append_eq_nil_iff] at this
      exact this
    intro conf
    induction conf with
    | nil => intro _ h; cases h
    | cons d conf ih =>
      intro hn hc
      simp only [List.map_cons, List.nodup_cons] at hn
      rw [List.flatMap_cons, List.filter_append, List.map_cons]
      by_cases e : d.name = c.name
      · have hd : c = d := by
          rcases List.mem_cons.1 hc with h | h
          · exact h
          · exact absurd (e ▸ List.mem_map.2 ⟨c, h, rfl⟩) hn.1
        subst hd
        obtain ⟨k1, k2⟩ := h0 conf (fun d hd e => hn.1 (e ▸ List.mem_map.2 ⟨d, hd, rfl⟩))
        rw [k1, List.filter_cons_of_pos (by simp [SCmd.target]), List.filter_cons_of_pos (by simp [SCmd.target]), k2, List.append_nil]
        refine ⟨?_, rfl⟩
        congr 1
        rw [List.filter_eq_self]
        intro x hx
        obtain ⟨y, _, rfl⟩ := List.mem_map.1 hx
        simp [SCmd.target]
      · have hc' : c ∈ conf := by
          rcases List.mem_cons.1 hc with h | h
          · exact absurd (by rw [h]) e
          · exact h
        obtain ⟨k1, k2⟩ := ih hn.2 hc'
        rw [k1, List.filter_cons_of_neg (by simpa [SCmd.target] using e), List.filter_cons_of_neg (by simpa [SCmd.target] using e), k2]
        refine ⟨?_, rfl⟩
        have : (d.settings.map (SCmd.set d.name)).filter (fun x => x.target = some c.name) = [] := by
          rw [List.filter_eq_nil_iff]
          intro x hx
          obtain ⟨y, _, rfl⟩ := List.mem_map.1 hx
          simpa [SCmd.target] using e
        rw [this, List.nil_append]
  obtain ⟨k1, k2⟩ := h1 conf hn hc
  unfold confStream confCmds
  rw [List.filter_append, k1, k2]

/-- A new jail is set up and started. -/
theorem conf_fresh {w : World} {c : JailConf} {v v' : View} (hj : v.jail = none) (hm : v.mark = none) (h : View.run w c.name (confCmds c) v = (false, v')) :
    ∃ j, v' = ⟨some j, none, v.gone, v.flag.map (fun _ => some true)⟩ ∧ Configured c j ∧ Fresh c j ∧ j.gen = v.gone.length := by
  obtain ⟨v1, h1, h2⟩ := View.run_append_inv w c.name _ _ v v' h
  rw [View.run] at h1
  have hadd : v.exec w c.name (.add c.name c.backend) = v.new w c.backend := by
    show v.add w c.name c.backend = _
    unfold View.add
    rw [hm]
  rw [hadd] at h1
  unfold View.new at h1
  rw [hj] at h1
  simp only [Option.isSome_none, Bool.false_eq_true, if_false] at h1
  by_cases hb : w.backendOk c.backend = true
  · simp only [hb, if_true, Bool.false_eq_true, if_false] at h1
    rw [View.run_sets w c.name c.settings _ _ rfl] at h1
    dsimp only at h1
    rw [hm] at h1
    simp only [Option.isSome_none] at h1
    cases hs : SJail.sets w c.name false c.settings (SJail.new w v.gone.length c.backend v.flag.isSome) with
    | none => rw [hs] at h1; simp at h1
    | some j =>
      rw [hs] at h1
      simp only [Prod.mk.injEq, true_and] at h1
      subst h1
      have hr := sets_rel _ hs
      obtain ⟨a1, a2⟩ := sets_actions_fresh _ hs
      have hal : j.alive = false := hr.alive
      rw [View.run] at h2
      have hst : View.exec w c.name ⟨some j, none, v.gone, v.flag.map (fun _ => some true)⟩ (.start c.name) =
          (false, ⟨some { j.start w c.name with idle := false }, none, v.gone, v.flag.map (fun _ => some true)⟩) := by
        simp only [View.exec, View.start, hal, Bool.false_eq_true, if_false]
      rw [hst] at h2
      simp only [Bool.false_eq_true, if_false, View.run, Prod.mk.injEq, true_and] at h2
      subst h2
      obtain ⟨t1, t2, t3⟩ := C48_start (w.env c.name j.gen) j.actions
      have hkeys : (Actions.startLoop (w.env c.name j.gen) j.actions.actions.keys j.actions).actions.keys = j.actions.actions.keys := by
        rw [← Actions.config_keys, t3, Actions.config_keys]
      have a1' : j.actions.actions.keys = actionNames c.settings := by rw [a1]; rfl
      have hrl : (Actions.startLoop (w.env c.name j.gen) j.actions.actions.keys j.actions).reloading = j.actions.reloading := by
        have : ∀ l s, (Actions.startLoop (w.env c.name j.gen) l s).reloading = s.reloading := by
          intro l
          induction l with
          | nil => intro s; rfl
          | cons a l ih => intro s; rw [Actions.startLoop, ih]; exact (Actions.call_same _ s a _).reloading
        exact this _ _
      refine ⟨_, rfl, ?_, ?_, ?_⟩
      · constructor
        · rfl
        · rfl
        · exact hr.backend
        · exact hr.failRegex
        · exact hr.ignoreRegex
        · intro ip; rw [show (({ j.start w c.name with idle := false } : SJail).ignoreIPs) = j.ignoreIPs from rfl, hr.ignoreIPs]; simp [SJail.new]
        · intro p; rw [show (({ j.start w c.name with idle := false } : SJail).logs) = j.logs from rfl, hr.logs]; simp [SJail.new]
        · exact hr.reloadNone rfl
        · show (Actions.startLoop (w.env c.name j.gen) j.actions.actions.keys j.actions).reloading = none
          rw [hrl, a2]; rfl
        · intro k x hx
          show j.options.get? k = some x
          rw [hr.options, hx]; rfl
      · constructor
        · intro k
          show j.options.get? k = _
          rw [hr.options]
          simp [SJail.new, Dict.get?, Dict.empty, Dict.lookup]
        · show (Actions.startLoop (w.env c.name j.gen) j.actions.actions.keys j.actions).actions.keys = _
          rw [hkeys, a1']
        · show (Actions.startLoop (w.env c.name j.gen) j.actions.actions.keys j.actions).bm = _
          rw [t2, hr.bm]; rfl
        · show (Actions.startLoop (w.env c.name j.gen) j.actions.actions.keys j.actions).trace = _
          rw [t1, hr.trace, a1']; rfl
      · exact hr.gen
  · rw [Bool.not_eq_true] at hb
    simp [hb] at h1

/-- A reloaded jail with the same backend is set up again. -/
theorem conf_kept {w : World} {c : JailConf} {v v' : View} {j j' : SJail} (hj : v.jail = some j.reloadBegin) (hm : v.mark = some true)
    (hb : j.backend = c.backend) (hal : j.alive = true) (hnd : (actionNames c.settings).Nodup)
    (h : View.run w c.name (confCmds c) v = (false, v')) :
    ∃ j1, v' = ⟨some j1, none, v.gone, v.flag.map (fun _ => some true)⟩ ∧ (j1.reloadEnd w c.name = (false, j') → Configured c j' ∧ Kept c j j') := by
  obtain ⟨v1, h1, h2⟩ := View.run_append_inv w c.name _ _ v v' h
  rw [View.run] at h1
  have hadd : v.exec w c.name (.add c.name c.backend) = (false, ⟨v.jail, some false, v.gone, v.flag.map (fun _ => some true)⟩) := by
    show v.add w c.name c.backend = _
    unfold View.add
    rw [hm, hj]
    dsimp only
    exact if_pos hb
  rw [hadd] at h1
  simp only [Bool.false_eq_true, if_false] at h1
  rw [View.run_sets w c.name c.settings ⟨v.jail, some false, v.gone, v.flag.map (fun _ => some true)⟩ j.reloadBegin hj] at h1
  dsimp only at h1
  simp only [Option.isSome_some] at h1
  cases hs : SJail.sets w c.name true c.settings j.reloadBegin with
  | none => rw [hs] at h1; simp at h1
  | some j1 =>
    rw [hs] at h1
    simp only [Prod.mk.injEq, true_and] at h1
    subst h1
    have hr := sets_rel _ hs
    obtain ⟨l', a1, a2, a3, a4⟩ := sets_actions_reload _ hs [] rfl List.nodup_nil hnd (by simp)
    have hal1 : j1.alive = true := hr.alive.trans hal
    rw [View.run] at h2
    have hst : View.exec w c.name ⟨some j1, some false, v.gone, v.flag.map (fun _ => some true)⟩ (.start c.name) =
        (false, ⟨some { j1 with idle := false }, none, v.gone, v.flag.map (fun _ => some true)⟩) := by
      simp only [View.exec, View.start, hal1, if_true]
    rw [hst] at h2
    simp only [Bool.false_eq_true, if_false, View.run, Prod.mk.injEq, true_and] at h2
    subst h2
    refine ⟨_, rfl, fun he => ?_⟩
    obtain ⟨lr, b1, b2⟩ := hr.reloadSome j.logs rfl (fun p hp => hp)
    unfold SJail.reloadEnd SJail.filterEnd at he
    dsimp only at he
    rw [b1] at he
    dsimp only at he
    simp only [Prod.mk.injEq] at he
    obtain ⟨he1, he2⟩ := he
    have hex : j1.actions.reloadEnd (w.env c.name j1.gen) = (false, (j1.actions.reloadEnd (w.env c.name j1.gen)).2) := by rw [← he1]
    obtain ⟨c1, c2, c3, mid, c4, c5, _, _⟩ := C47_reload_end _ _ _ l' a1 hex
    generalize (j1.actions.reloadEnd (w.env c.name j1.gen)).2 = acts at *
    subst he2
    have hin : ∀ m, m ∈ l' ↔ m ∈ actionNames c.settings ∧ (j.actions.actions.get? m).any Action.reloadable = true := by
      intro m
      rw [a3 m]
      simp only [List.not_mem_nil, false_or]
      exact Iff.rfl
    have hsub : ∀ m, m ∈ l' → m ∈ j.actions.actions.keys := by
      intro m hm
      have := ((hin m).1 hm).2
      cases hg : j.actions.actions.get? m with
      | none => rw [hg] at this; simp at this
      | some a => exact (Dict.mem_keys_iff _ _).2 ⟨a, hg⟩
    have a4' : j1.actions.actions.keys = j.actions.actions.keys ++ (actionNames c.settings).filter (fun m => decide (m ∉ j.actions.actions.keys)) := a4
    have hkeys : acts.actions.keys = j.actions.actions.keys.filter (fun n =>
        decide (n ∈ actionNames c.settings) && ((j.actions.actions.get? n).any (fun a => a.hasReload && a.hasClear))) := by
      rw [c1, a4', List.filter_append]
      have : ((actionNames c.settings).filter (fun m => decide (m ∉ j.actions.actions.keys))).filter (fun k => decide (k ∈ l')) = [] := by
        rw [List.filter_eq_nil_iff]
        intro m hm
        rw [List.mem_filter] at hm
        have h1 : m ∉ j.actions.actions.keys := by simpa using hm.2
        simpa using fun hml => h1 (hsub m hml)
      rw [this, List.append_nil]
      apply List.filter_congr
      intro m _
      rw [Bool.eq_iff_iff]
      simp only [decide_eq_true_eq, Bool.and_eq_true]
      exact hin m
    refine ⟨⟨hal1, rfl, hr.backend.trans hb, ?_, ?_, ?_, ?_, rfl, c3, ?_⟩, ⟨hr.gen, c2.trans hr.bm, ?_, hkeys, ?_⟩⟩
    · exact hr.failRegex
    · exact hr.ignoreRegex
    · intro ip
      rw [hr.ignoreIPs]; simp [SJail.reloadBegin]
    · intro p
      dsimp only
      rw [List.mem_filter, hr.logs]
      simp only [List.contains_eq_mem, Bool.not_eq_true', decide_eq_false_iff_not, b2, not_and, Classical.not_not]
      show (p ∈ j.logs ∨ _) ∧ _ ↔ _
      constructor
      · rintro ⟨h | h, h'⟩
        · exact h' h
        · exact h
      · intro h
        exact ⟨Or.inr h, fun _ => h⟩
    · intro k x hx
      show j1.options.get? k = some x
      rw [hr.options, hx]; rfl
    · intro k hk
      show j1.options.get? k = _
      rw [hr.options, hk]; rfl
    · refine ⟨(l'.filter (fun k => decide (k ∈ j1.actions.actions.keys))).map Call.reload ++ mid ++
        (j1.actions.actions.keys.filter (fun k => decide (k ∉ l'))).reverse.map Call.stop, ?_, ?_⟩
      · show acts.trace = _
        rw [c4, hr.trace, ← List.append_assoc, ← List.append_assoc]; rfl
      · intro n hn
        dsimp only at hn
        rw [c1, List.mem_filter] at hn
        have hnl : n ∈ l' := by simpa using hn.2
        have e1 : (mid.filter (fun x => actionOf x = some n)) = [] := by
          rw [List.filter_eq_nil_iff]
          intro x hx
          obtain ⟨k, hk, hc⟩ := c5 x hx
          rw [List.mem_filter] at hk
          have hkl : k ∉ l' := by simpa using hk.2
          have : k ≠ n := by rintro rfl; exact hkl hnl
          rcases hc with rfl | rfl | ⟨y, _, rfl⟩ <;> simpa [actionOf] using this
        have e2 : ((j1.actions.actions.keys.filter (fun k => decide (k ∉ l'))).reverse.map Call.stop).filter (fun x => actionOf x = some n) = [] := by
          rw [List.filter_eq_nil_iff]
          intro x hx
          obtain ⟨k, hk, rfl⟩ := List.mem_map.1 hx
          rw [List.mem_reverse, List.mem_filter] at hk
          have hkl : k ∉ l' := by simpa using hk.2
          have : k ≠ n := by rintro rfl; exact hkl hnl
          simpa [actionOf] using this
        have e3 : ∀ l : List String, l.Nodup → n ∈ l → (l.map Call.reload).filter (fun x => actionOf x = some n) = [.reload n] := by
          intro l
          induction l with
          | nil => intro _ h; cases h
          | cons a l ih =>
            intro hnd hm
            rw [List.nodup_cons] at hnd
            rw [List.map_cons, List.filter_cons]
            by_cases e : a = n
            · subst e
              have : (l.map Call.reload).filter (fun x => actionOf x = some a) = [] := by
                rw [List.filter_eq_nil_iff]
                intro x hx
                obtain ⟨k, hk, rfl⟩ := List.mem_map.1 hx
                have : k ≠ a := by rintro rfl; exact hnd.1 hk
                simpa [actionOf] using this
              rw [this]; simp [actionOf]
            · rw [if_neg (by simpa [actionOf] using e)]
              exact ih hnd.2 ((List.mem_cons.1 hm).resolve_left (fun h => e h.symm))
        rw [List.filter_append, List.filter_append, e1, e2, List.append_nil, List.append_nil]
        exact e3 _ (a2.filter _) (List.mem_filter.2 ⟨hnl, by simpa using hn.1⟩)

/-- A reloaded jail with another backend is replaced. -/
theorem conf_replaced {w : World} {c : JailConf} {v v' : View} {j : SJail} (hj : v.jail = some j) (hm : v.mark = some true)
    (hb : j.backend ≠ c.backend) (h : View.run w c.name (confCmds c) v = (false, v')) :
    ∃ j1, v' = ⟨some j1, none, v.gone ++ [j.stop w c.name], v.flag.map (fun _ => some true)⟩ ∧ Configured c j1 ∧ Fresh c j1 ∧ j1.gen = v.gone.length + 1 := by
  have e : View.run w c.name (confCmds c) { v.del w c.name with mark := none } = View.run w c.name (confCmds c) v := by
    have : View.exec w c.name { v.del w c.name with mark := none } (.add c.name c.backend) = v.exec w c.name (.add c.name c.backend) := by
      simp only [View.exec, View.add, hm, hj, hb, if_false]
    show View.run w c.name (_ :: _) _ = View.run w c.name (_ :: _) _
    rw [View.run, View.run, this]
  rw [← e] at h
  have hd : v.del w c.name = ⟨none, v.mark, v.gone ++ [j.stop w c.name], v.flag.map (fun f => f.map (fun _ => false))⟩ := by
    unfold View.del; rw [hj]
  rw [hd] at h
  obtain ⟨j1, e1, e2, e3, e4⟩ := conf_fresh rfl rfl h
  refine ⟨j1, ?_, e2, e3, by rw [e4]; simp⟩
  rw [e1]
  simp only [Option.map_map]
  rfl

/-- A jail that is not in a reload stays as it is at the end of one. -/
theorem finish_plain {w : World} {n : String} {v : View} {j : SJail} (hj : v.jail = some j) (hm : v.mark = none) (hl : j.reloadLogs = none)
    (hr : j.actions.reloading = none) : v.finish w n = v := by
  unfold View.finish
  rw [hj]
  dsimp only
  rw [hm]
  simp only [Option.isSome_none, Bool.false_eq_true, if_false]
  unfold SJail.reloadEnd SJail.filterEnd
  rw [hl]
  dsimp only
  unfold Actions.reloadEnd
  rw [hr]
  dsimp only
  obtain ⟨a, b, c, d⟩ := v
  dsimp only at hj hm
  subst hj hm
  rfl

theorem commitLoop_flags (w : World) (l : List (String × SJail)) (del : List String) (s : Server) (h : (Server.commitLoop w l del s).1 = false) :
    ∀ p ∈ l, s.reloadState.contains p.1 = false → (p.2.reloadEnd w p.1).1 = false := by
  induction l generalizing s del with
  | nil => intro p hp; cases hp
  | cons q l ih =>
    obtain ⟨n, j⟩ := q
    rw [Server.commitLoop] at h
    intro p hp hc
    by_cases e : s.reloadState.contains n = true
    · rw [if_pos e] at h
      rcases List.mem_cons.1 hp with rfl | hp
      · dsimp only at hc; rw [e] at hc; cases hc
      · exact ih _ _ h p hp hc
    · rw [if_neg e] at h
      dsimp only at h
      by_cases e' : (j.reloadEnd w n).1 = true
      · rw [if_pos e'] at h; simp at h
      · rw [if_neg e'] at h
        rcases List.mem_cons.1 hp with rfl | hp
        · exact Bool.eq_false_iff.2 e'
        · exact ih _ _ h p hp hc

end Verif
