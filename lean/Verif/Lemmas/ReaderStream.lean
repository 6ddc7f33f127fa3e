import Verif.Lemmas.Reader

/-! # What the stream of a jail sets -/

namespace Verif.Reader

open ReaderSpec

/-- Only the item of one key counts. -/
theorem flatMap_key {X V : Type} {key : String} {F : String × V → List X} : ∀ {items : List (String × V)}, (items.map Prod.fst).Nodup →
    (∀ kv ∈ items, kv.1 ≠ key → F kv = []) →
    items.flatMap F = match Dict.lookup key items with | some v => F (key, v) | none => [] := by
  intro items
  induction items with
  | nil => intro _ _; rfl
  | cons kv items ih =>
    intro hn h
    rw [List.map_cons, List.nodup_cons] at hn
    have ih := ih hn.2 (fun x hx => h x (List.mem_cons_of_mem _ hx))
    obtain ⟨k, v⟩ := kv
    rw [List.flatMap_cons, ih, Dict.lookup]
    by_cases hk : k = key
    · subst hk
      rw [if_pos rfl, (Dict.lookup_eq_none_iff k items).mpr hn.1]
      simp
    · rw [if_neg hk, h (k, v) (List.mem_cons_self ..) hk]
      rfl

/-- Nothing counts. -/
theorem flatMap_nil {X Y : Type} {F : Y → List X} {l : List Y} (h : ∀ y ∈ l, F y = []) : l.flatMap F = [] := by
  rw [List.flatMap_eq_nil_iff]; exact h

/-- Commands of `usedns`, per item. -/
theorem usednsCmds_flatMap {X : Type} (f : Cmd → List X) (jail : Str) (items : List (String × Option Val)) :
    (usednsCmds jail items).flatMap f = items.flatMap (fun kv => match kv.2 with | some v => if kv.1 = "usedns" then f (setCmd jail kv.1 (some v)) else [] | none => []) := by
  induction items with
  | nil => rfl
  | cons kv items ih =>
    obtain ⟨k, v⟩ := kv
    rw [List.flatMap_cons, ← ih]
    cases v with
    | none => rfl
    | some v =>
      unfold usednsCmds
      rw [List.filterMap_cons]
      by_cases hk : k = "usedns"
      · simp [hk]
      · simp [hk]

theorem prioCmds_flatMap {X : Type} (f : Cmd → List X) (jail : Str) (items : List (String × Option Val)) :
    (prioCmds jail items).flatMap f = items.flatMap (fun kv => match kv.2 with | some v => if kv.1 = "maxlines" ∨ kv.1 = "prefregex" then f (setCmd jail kv.1 (some v)) else [] | none => []) := by
  induction items with
  | nil => rfl
  | cons kv items ih =>
    obtain ⟨k, v⟩ := kv
    rw [List.flatMap_cons, ← ih]
    cases v with
    | none => rfl
    | some v =>
      unfold prioCmds
      rw [List.filterMap_cons]
      by_cases hk : k = "maxlines" ∨ k = "prefregex"
      · simp [hk]
      · simp [hk]

theorem restCmds_flatMap {X : Type} (f : Cmd → List X) (env : Env) (jail : Str) : ∀ (items : List (String × Option Val)) (r : List Cmd), restCmds env jail items = some r →
    r.flatMap f = items.flatMap (fun kv => ((appended env jail kv).getD []).flatMap f) := by
  intro items
  induction items with
  | nil => intro r h; cases h; rfl
  | cons kv items ih =>
    intro r h
    rw [restCmds] at h
    cases ha : appended env jail kv with
    | none => rw [ha] at h; cases h
    | some a =>
      rw [ha] at h
      cases hr : restCmds env jail items with
      | none => rw [hr] at h; cases h
      | some r' =>
        rw [hr] at h
        cases h
        rw [List.flatMap_append, List.flatMap_cons, ha, ih r' hr]
        rfl

/-- Commands of journal matches. -/
theorem mem_journalCmds {env : Env} {jail : Str} : ∀ {ms : List Str} {l : List Cmd}, journalCmds env jail ms = some l → ∀ c ∈ l, ∃ args, c = .set jail (arg "addjournalmatch".toList :: args) := by
  intro ms
  induction ms with
  | nil => intro l h; cases h; intro c hc; cases hc
  | cons m ms ih =>
    intro l h
    rw [journalCmds] at h
    split at h
    · exact ih h
    · split at h
      · rename_i args cmds h1 h2
        cases h
        intro c hc
        rcases List.mem_cons.mp hc with rfl | hc
        · exact ⟨_, rfl⟩
        · exact ih h2 c hc
      · cases h

theorem flatMap_regexCmds (key : String) (jail : Str) (k : String) (v : Val) (hk : k = "failregex" ∨ k = "ignoreregex") (hkey : key = "failregex" ∨ key = "ignoreregex") :
    (regexCmds jail k v).flatMap (addedBy key) = if k = key then (lines v).filter (fun l => !l.isEmpty) else [] := by
  have e : (("add" ++ k).toList = ("add" ++ key).toList) = (k = key) := by
    rcases hk with rfl | rfl <;> rcases hkey with rfl | rfl <;> decide
  have e2 : (("add" ++ k) = ("add" ++ key)) = (k = key) := by
    rcases hk with rfl | rfl <;> rcases hkey with rfl | rfl <;> decide
  unfold regexCmds
  dsimp only
  split
  · rename_i h; simp [h]
  · rename_i r h
    rw [h]
    simp only [List.flatMap_cons, List.flatMap_nil, addedBy, arg, e, List.append_nil]
  · simp only [List.flatMap_cons, List.flatMap_nil, addedBy, e2, List.append_nil]

theorem flatMap_regexCmds_set {X : Type} (f : Cmd → List X) (jail : Str) (k : String) (v : Val) (hf : ∀ r, f (.set jail [arg ("add" ++ k).toList, arg r]) = [])
    (hm : ∀ rs, f (.multiSet jail ("add" ++ k) rs) = []) : (regexCmds jail k v).flatMap f = [] := by
  unfold regexCmds
  dsimp only
  split
  · rfl
  · rw [List.flatMap_cons, hf]; rfl
  · rw [List.flatMap_cons, hm]; rfl

/-- Closed form of the part of filter and jail. -/
def streamOf (env : Env) (jail : Str) (fo jo : Opts) : Option (List Cmd) :=
  (restCmds env jail fo.items).bind (fun rf => (restCmds env jail jo.items).map (fun rj =>
    (usednsCmds jail jo.items ++ prioCmds jail jo.items ++ (usednsCmds jail fo.items ++ prioCmds jail fo.items)) ++ (rf ++ rj)))

theorem stream_eq (env : Env) (jail : Str) (fo jo : Opts) :
    (fillStream env jail fo.items 0 []).bind (fillStream env jail jo.items 0) = streamOf env jail fo jo := by
  rw [fillStream_zero, streamOf]
  cases restCmds env jail fo.items with
  | none => rfl
  | some rf =>
    show fillStream env jail jo.items 0 _ = _
    rw [fillStream_zero]
    cases restCmds env jail jo.items with
    | none => rfl
    | some rj => simp

/-- Files of a jail. -/
def logsFor (env : Env) (j : JailSrc) : Option (List Cmd) :=
  match j.opts.get? "logpath" with
  | some (some v) => if isSystemd (backend j.opts) then none else some (logCmds env j.name v)
  | _ => none

def skipOpt (o : Opts) : Bool :=
  match o.get? "skip_if_nologs" with
  | some (some (.bool s)) => s
  | _ => false

/-- `convert` with the options of the filter. -/
def convertWith (env : Env) (allow : Bool) (j : JailSrc) (fo : Opts) : Conv :=
  match streamOf env j.name fo j.opts with
  | none => .raises
  | some s =>
    if logsFor env j = some [] ∧ ¬allow ∧ ¬skipOpt j.opts then .raises
    else if logsFor env j = some [] ∧ skipOpt j.opts then .cmds [.configError] true
    else .cmds (.add j.name (backend j.opts) :: (s ++ j.opts.items.flatMap (plainCmds j.name) ++ (logsFor env j).getD [] ++ j.actions)) false

/-- Closed form of `convert`. -/
theorem convert_eq (env : Env) (allow : Bool) (j : JailSrc) (he : j.error = false) :
    convert env allow j = match j.filter with
      | some (o, i) => (match combined env o i with
        | none => .raises
        | some fo => convertWith env allow j fo)
      | none => convertWith env allow j Dict.empty := by
  have key : ∀ fo : Opts, (match (fillStream env j.name fo.items 0 []).bind (fillStream env j.name j.opts.items 0) with
      | none => Conv.raises
      | some stream =>
        if logsFor env j = some [] ∧ ¬allow ∧ ¬skipOpt j.opts then .raises
        else if logsFor env j = some [] ∧ skipOpt j.opts then .cmds [.configError] true
        else .cmds (.add j.name (backend j.opts) :: (stream ++ j.opts.items.flatMap (plainCmds j.name) ++ (logsFor env j).getD [] ++ j.actions)) false)
      = convertWith env allow j fo := by
    intro fo; rw [stream_eq]; rfl
  unfold convert
  rw [he]
  cases hf : j.filter with
  | none => exact key Dict.empty
  | some oi =>
    obtain ⟨o, i⟩ := oi
    cases hc : combined env o i with
    | none => simp [hc]
    | some fo =>
      simp only [hc, Option.bind_some]
      exact key fo

/-- A jail that is not skipped. -/
theorem convert_cmds {env : Env} {allow : Bool} {j : JailSrc} {l : List Cmd} {fo : Opts} (h : convert env allow j = .cmds l false) (hf : FilterOpts env j fo) :
    ∃ rf rj, restCmds env j.name fo.items = some rf ∧ restCmds env j.name j.opts.items = some rj ∧
      l = .add j.name (backend j.opts) :: (((usednsCmds j.name j.opts.items ++ prioCmds j.name j.opts.items ++ (usednsCmds j.name fo.items ++ prioCmds j.name fo.items)) ++ (rf ++ rj))
        ++ j.opts.items.flatMap (plainCmds j.name) ++ (logsFor env j).getD [] ++ j.actions) := by
  have he : j.error = false := by
    cases hb : j.error with
    | false => rfl
    | true => unfold convert at h; rw [if_pos hb] at h; cases h
  have hw : convertWith env allow j fo = .cmds l false := by
    rw [convert_eq env allow j he] at h
    unfold FilterOpts at hf
    cases hj : j.filter with
    | none => rw [hj] at h hf; subst hf; exact h
    | some oi =>
      obtain ⟨o, i⟩ := oi
      rw [hj] at h hf
      simp only at h hf
      rw [hf] at h
      exact h
  unfold convertWith streamOf at hw
  cases h1 : restCmds env j.name fo.items with
  | none => rw [h1] at hw; cases hw
  | some rf =>
    cases h2 : restCmds env j.name j.opts.items with
    | none => rw [h1, h2] at hw; cases hw
    | some rj =>
      rw [h1, h2] at hw
      simp only [Option.bind_some, Option.map_some] at hw
      split at hw
      · cases hw
      · split at hw
        · cases hw
        · cases hw
          exact ⟨rf, rj, rfl, rfl, rfl⟩

theorem filterOpts_exists {env : Env} {allow : Bool} {j : JailSrc} {l : List Cmd} (h : convert env allow j = .cmds l false) : ∃ fo, FilterOpts env j fo := by
  unfold FilterOpts
  cases hj : j.filter with
  | none => exact ⟨_, rfl⟩
  | some oi =>
    obtain ⟨o, i⟩ := oi
    cases hc : combined env o i with
    | some fo => exact ⟨fo, hc⟩
    | none =>
      unfold convert at h
      split at h
      · cases h
      · rw [hj] at h; simp [hc] at h

end Verif.Reader
