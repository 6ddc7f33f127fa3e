import Verif.Lemmas.ActionServer

/-!
# C71, C72, C73: actions of a jail

Contents of files and substitution of tags are arbitrary (`actionOf`, `env.subst`).
-/

namespace Verif

open Reader (Str Val Opts Got merge)
open ActionReader ActionReaderSpec

/-! ## C71: what is sent for an action -/

/-- Name and parameters of an action that is read from a file. -/
theorem C71_params {env : Reader.Env} {jail : Str} {jo : Opts} {actionOf : Str → Option ActionSrc} {file name : Str} {d : Dict Str Str} {o i : Opts}
    (h : readAction env jail jo actionOf (file, d) = some (.file name o i)) :
    ∃ a p, actionOf file = some a ∧ Params jail file d name p ∧
      ((a.initSection.map Prod.fst).Nodup → ∀ k, IsSetting k → ActionValue a p jo (merge jo p) k ((merge o i).get? k)) ∧
      ∀ k, ¬Known k → i.get? k = (p.get? k).or ((Dict.lookup k a.initSection).map (fun v => some (.str v))) := by
  unfold readAction at h
  dsimp only at h
  split at h
  · cases h
  · cases ha : actionOf file with
    | none => rw [ha] at h; cases h
    | some a =>
      rw [ha] at h
      dsimp only at h
      cases hg : actionGetOptions env a jo (initAction file jail (toOpts d)).2 with
      | none => rw [hg] at h; cases h
      | some oi =>
        rw [hg] at h
        obtain ⟨o', i'⟩ := oi
        simp only [Option.map_some, Option.some.injEq, Job.file.injEq] at h
        obtain ⟨rfl, rfl, rfl⟩ := h
        refine ⟨a, _, rfl, initAction_params .., fun hn => action_sources hn hg, fun k hk => ?_⟩
        rw [action_init hg]
        apply Reader.foldl_addInit_get?
        have := isKnown_iff k
        unfold isKnown at this
        rw [← this, Bool.not_eq_true] at hk
        exact hk

/-- The properties that are sent: settings after substitution with their types, and parameters as they are; each once. -/
theorem C71_sent {env : Reader.Env} {jail name : Str} {o i : Opts} {cs : List ActCmd} (h : convertJob env jail (.file name o i) = some cs) :
    ∃ c kvs rest, cs = .add jail name none :: rest ∧ rest.flatMap (sent jail name) = kvs ∧ rest.length ≤ 1 ∧
      (merge o i = Dict.empty ∧ c = Dict.empty ∨ merge o i ≠ Dict.empty ∧ env.subst (merge o i) = some c) ∧
      (kvs.map Prod.fst).Nodup ∧ ∀ k v, (k, v) ∈ kvs ↔ Sends c i k v := by
  unfold convertJob at h
  dsimp only at h
  cases hc : actionCombined env o i with
  | none => rw [hc] at h; cases h
  | some c =>
    rw [hc] at h
    cases h
    obtain ⟨c', hc', hv⟩ := combined_spec hc
    have he : ∀ d : Opts, d.items = [] ↔ d = Dict.empty := fun d => ⟨fun h => Dict.ext' h, fun h => by rw [h]; rfl⟩
    refine ⟨c', props c i, _, rfl, ?_, ?_, ?_, props_nodup .., fun k v => ?_⟩
    · cases hp : props c i with
      | nil => rfl
      | cons x xs =>
        cases xs with
        | nil => simp [sent]
        | cons y ys => simp [sent]
    · split <;> simp
    · rcases hc' with ⟨h1, h2⟩ | ⟨h1, h2⟩
      · rw [he] at h1; exact .inl ⟨h1, h2.trans h1⟩
      · rw [ne_eq, he] at h1; exact .inr ⟨h1, h2⟩
    · rw [mem_props, hv]
      rfl

/-- An action read from a file is added and gets all its properties with one command. -/
theorem C71_commands {env : Reader.Env} {jail : Str} {jo : Opts} {actionOf : Str → Option ActionSrc} {file name : Str} {d : Dict Str Str} {o i : Opts} {cs : List ActCmd}
    (h : readAction env jail jo actionOf (file, d) = some (.file name o i)) (hc : convertJob env jail (.file name o i) = some cs) :
    ∃ c kvs, env.subst (merge o i) = some c ∧ cs = [.add jail name none, .multi jail name kvs] ∧ (kvs.map Prod.fst).Nodup ∧ ∀ k v, (k, v) ∈ kvs ↔ Sends c i k v := by
  obtain ⟨a, p, _, hp, _, hi⟩ := C71_params h
  obtain ⟨c, kvs, rest, h1, h2, h3, h4, h5, h6⟩ := C71_sent hc
  have k1 : ¬Known "actname" := by rw [← isKnown_iff]; decide
  have k2 : ¬Known "name" := by rw [← isKnown_iff]; decide
  have s1 : ¬IsSetting "actname" := by unfold IsSetting; decide
  have s2 : ¬IsSetting "name" := by unfold IsSetting; decide
  have ia : i.get? "actname" = some (some (.str name)) := by rw [hi _ k1, hp.actname]; rfl
  have i2 : ∃ v, i.get? "name" = some v := by
    rw [hi _ k2]
    cases hn : d.get? "name".toList with
    | none => rw [hp.jail hn]; exact ⟨_, rfl⟩
    | some v => have := hp.given _ _ hn; rw [String.ofList_toList] at this; rw [this]; exact ⟨_, rfl⟩
  obtain ⟨v2, i2⟩ := i2
  have m1 : ("actname", some (Val.str name)) ∈ kvs := (h6 _ _).mpr (.inr ⟨s1, k1, ia⟩)
  have m2 : ("name", v2) ∈ kvs := (h6 _ _).mpr (.inr ⟨s2, k2, i2⟩)
  have hm : merge o i ≠ Dict.empty := by
    intro e
    have : (merge o i).get? "actname" = some (some (.str name)) := by rw [Reader.merge_get?, ia]; rfl
    rw [e] at this
    cases this
  rcases h4 with ⟨h4, _⟩ | ⟨_, h4⟩
  · exact absurd h4 hm
  · refine ⟨c, kvs, h4, ?_, h5, h6⟩
    obtain ⟨py, rest', e1, hr⟩ := convertJob_shape hc
    rw [h1] at e1
    injection e1 with e1 e2
    subst e2
    rw [h1]
    rcases hr with rfl | ⟨k, v, rfl⟩ | ⟨kvs', rfl⟩
    · rw [← h2] at m1; cases m1
    · rw [← h2] at m1 m2
      have m1 : ("actname", some (Val.str name)) ∈ [(k, v)] := by simpa [sent, jobName] using m1
      have m2 : ("name", v2) ∈ [(k, v)] := by simpa [sent, jobName] using m2
      rw [List.mem_singleton] at m1 m2
      rw [← m1] at m2
      injection m2 with m2 _
      exact absurd m2 (by decide)
    · have : kvs' = kvs := by rw [← h2]; simp [sent, jobName]
      rw [this]; rfl

/-- A module in Python is added with its file and options; `actname` is its name, if given. -/
theorem C71_module {env : Reader.Env} {jail base : Str} {jo : Opts} {actionOf : Str → Option ActionSrc} {d : Dict Str Str} :
    ∃ o : Dict Str Str, (readAction env jail jo actionOf (base ++ ".py".toList, d)).bind (convertJob env jail) =
      some [.add jail ((d.get? "actname".toList).getD base) (some (base ++ ".py".toList, o))] ∧ ∀ k, o.get? k = if k = "actname".toList then none else d.get? k := by
  refine ⟨d.erase "actname".toList, ?_, fun k => Dict.get?_erase ..⟩
  have hpy : isPy (base ++ ".py".toList) = true := by unfold isPy; rw [List.isSuffixOf_iff_suffix]; exact ⟨base, rfl⟩
  have ht : (base ++ ".py".toList).take ((base ++ ".py".toList).length - 3) = base := by
    have : (base ++ ".py".toList).length - 3 = base.length := by simp
    rw [this, List.take_left]
  unfold readAction
  dsimp only
  rw [if_pos hpy, ht]
  rfl

/-- The actions of a jail are rejected exactly if the list of actions is, or a file is missing. -/
theorem C71_rejected (cc : Options.Chars) (env : Reader.Env) (jail : Str) (jo : Opts) (actionOf : Str → Option ActionSrc) (text : Str) :
    readActions cc env jail jo actionOf text = none ↔
      Options.readNames cc text = none ∨ ∃ xs, Options.readNames cc text = some xs ∧ ∃ x ∈ xs, (∀ b, x.1 ≠ b ++ ".py".toList) ∧ actionOf x.1 = none := by
  unfold readActions
  cases hr : Options.readNames cc text with
  | none => simp
  | some xs =>
    have hx : ∀ x : Str × Dict Str Str, readAction env jail jo actionOf x = none ↔ (∀ b, x.1 ≠ b ++ ".py".toList) ∧ actionOf x.1 = none := by
      intro x
      have hpy : isPy x.1 = true ↔ ∃ b, x.1 = b ++ ".py".toList := by
        unfold isPy; rw [List.isSuffixOf_iff_suffix]
        exact ⟨fun ⟨b, e⟩ => ⟨b, e.symm⟩, fun ⟨b, e⟩ => ⟨b, e.symm⟩⟩
      unfold readAction
      split
      · rename_i h
        obtain ⟨b, e⟩ := hpy.mp h
        simp only [reduceCtorEq, false_iff, not_and]
        intro hb; exact absurd e (hb b)
      · rename_i h
        have hb : ∀ b, x.1 ≠ b ++ ".py".toList := fun b e => h (hpy.mpr ⟨b, e⟩)
        cases ha : actionOf x.1 with
        | none => exact ⟨fun _ => ⟨hb, rfl⟩, fun _ => rfl⟩
        | some a =>
          obtain ⟨oi, ho⟩ := action_isSome env a jo (initAction x.1 jail (toOpts x.2)).2
          dsimp only
          rw [ho]
          simp
    show Options.allSome _ xs = none ↔ _
    rw [allSome_none]
    simp only [hx, Option.some.injEq, exists_eq_left', reduceCtorEq, false_or]

/-! ## C72: names of actions -/

/-- In a new jail all actions are added, in order, if their names differ; otherwise there is an error. -/
theorem C72_added {env : Reader.Env} {jail : Str} {jobs : List Job} {cs : List ActCmd} (se : SEnv) (h : convertJobs env jail jobs = some cs) :
    (∀ s, runActs se false cs Dict.empty = some s → s.keys = jobs.map jobName) ∧ ((∃ s, runActs se false cs Dict.empty = some s) ↔ (jobs.map jobName).Nodup) := by
  unfold convertJobs at h
  rw [Option.map_eq_some_iff] at h
  obtain ⟨css, hc, rfl⟩ := h
  obtain ⟨h1, h2⟩ := jobs_run se hc Dict.empty
  have e : (Dict.empty : Dict Str Act).keys = [] := rfl
  rw [e, List.nil_append] at h1 h2
  by_cases hn : (jobs.map jobName).Nodup
  · obtain ⟨s', hs, hk⟩ := h1 hn
    refine ⟨fun s hs' => ?_, fun _ => hn, fun _ => ⟨s', hs⟩⟩
    rw [hs] at hs'; cases hs'; exact hk
  · rw [h2 hn]
    refine ⟨fun s hs => absurd hs (by simp), ?_, fun h => absurd h hn⟩
    rintro ⟨s, hs⟩
    exact absurd hs (by simp)

/-- The name of an action: `actname`, else its file and what distinguishes parameter `name` from the name of the jail. -/
theorem C72_name {env : Reader.Env} {jail : Str} {jo : Opts} {actionOf : Str → Option ActionSrc} {file : Str} {d : Dict Str Str} {j : Job} (hf : ∀ b, file ≠ b ++ ".py".toList)
    (h : readAction env jail jo actionOf (file, d) = some j) :
    (∀ a, d.get? "actname".toList = some a → jobName j = a) ∧
    (d.get? "actname".toList = none → ∃ s, Suffix jail ((d.get? "name".toList).getD jail) s ∧ jobName j = file ++ s) := by
  cases j with
  | py n f o =>
    unfold readAction at h
    split at h
    · rename_i hp
      unfold isPy at hp
      rw [List.isSuffixOf_iff_suffix] at hp
      obtain ⟨b, e⟩ := hp
      exact absurd e.symm (hf b)
    · split at h
      · cases h
      · dsimp only at h
        rw [Option.map_eq_some_iff] at h
        obtain ⟨_, _, h⟩ := h
        cases h
  | file n o i =>
    obtain ⟨a, p, _, hp, _⟩ := C71_params h
    exact ⟨hp.chosen, hp.derived⟩

/-- What is added to the name of the file is unique. -/
theorem C72_suffix (jail n : Str) : ∃ s, Suffix jail n s ∧ ∀ s', Suffix jail n s' → s' = s :=
  ⟨suffix jail n, (suffix_iff ..).mpr rfl, fun _ h => (suffix_iff ..).mp h⟩

/-- Actions with the same file have different names, if both parameters `name` begin with the name of the jail, or both do not. -/
theorem C72_distinct {jail n n' s s' : Str} (file : Str) (hne : n ≠ n') (hj : (∃ r, n = jail ++ r) ↔ ∃ r, n' = jail ++ r) (h : Suffix jail n s) (h' : Suffix jail n' s') :
    file ++ s ≠ file ++ s' := by
  intro e
  have e := List.append_cancel_left e
  cases h with
  | same =>
    cases h' with
    | same => exact hne rfl
    | longer r hr => exact hr e.symm
    | other _ h => cases e
  | longer r hr =>
    cases h' with
    | same => exact hr e
    | longer r' hr' => exact hne (by rw [e])
    | other _ h => obtain ⟨r', hr'⟩ := hj.mp ⟨_, rfl⟩; exact h r' hr'
  | other _ h =>
    cases h' with
    | same => cases e
    | longer r' hr' => obtain ⟨r, hr⟩ := hj.mpr ⟨_, rfl⟩; exact h r hr
    | other _ h' => injection e with _ e; exact hne e

/-- Actions without parameters `name` and `actname` have the name of their file. -/
theorem C72_plain {env : Reader.Env} {jail : Str} {jo : Opts} {actionOf : Str → Option ActionSrc} {file : Str} {d : Dict Str Str} {j : Job} (hf : ∀ b, file ≠ b ++ ".py".toList)
    (h : readAction env jail jo actionOf (file, d) = some j) (hn : d.get? "name".toList = none) (ha : d.get? "actname".toList = none) : jobName j = file := by
  obtain ⟨s, hs, e⟩ := (C72_name hf h).2 ha
  rw [hn] at hs
  have : s = [] := by
    have := (suffix_iff ..).mp hs
    rw [this]; simp [suffix]
  rw [e, this, List.append_nil]

namespace ActionExample

/-- Files without any option. -/
def none_ : Str → Option ActionSrc := fun _ => some ⟨fun _ _ => .noOption, []⟩

/-- Substitution of nothing. -/
def env : Reader.Env := ⟨fun _ => none, fun _ => none, fun _ => [], some⟩

def names (jail text : String) : Option (List String) :=
  (readActions Options.ascii env jail.toList Dict.empty none_ text.toList).map (·.map (fun j => String.ofList (jobName j)))

/-- Are the actions accepted by the server? -/
def accepted (jail text : String) : Bool :=
  (((readActions Options.ascii env jail.toList Dict.empty none_ text.toList).bind (convertJobs env jail.toList)).bind
    (fun cs => runActs ⟨fun _ => false, id⟩ false cs Dict.empty)).isSome

end ActionExample

/-- Names of actions are not unique in a jail, although the comment in `ActionReader.__init__` says so: an action with parameter `name` may get the name of another file, and a name
that begins with the name of the jail the same as one that does not. -/
theorem C72_refuted_unique :
    ActionExample.names "sshd" "iptables[name=allports] iptables-allports" = some ["iptables-allports", "iptables-allports"] ∧
    ActionExample.accepted "sshd" "iptables[name=allports] iptables-allports" = false ∧
    ActionExample.names "ssh" "mail[name=ssh-a] mail[name=a]" = some ["mail-a", "mail-a"] ∧ ActionExample.accepted "ssh" "mail[name=ssh-a] mail[name=a]" = false := by
  decide +kernel

/-! ## C73: properties of actions on the server -/

/-- A new action has the properties sent, and defaults for the others; a property with the name of a method is not set but called. Other actions are not touched. -/
theorem C73_new (se : SEnv) {jail name : Str} {kvs : List (String × Option Val)} {s : Dict Str Act} (hn : s.get? name = none) (hk : (kvs.map Prod.fst).Nodup) (reload : Bool) :
    ∃ a s', runActs se reload [.add jail name none, .multi jail name kvs] s = some s' ∧ s'.get? name = some a ∧
      (∀ k, a.attrs.get? k = attr se kvs (unset k) k) ∧ a.calls = (kvs.map Prod.fst).filter se.method ∧ ∀ n, n ≠ name → s'.get? n = s.get? n := by
  refine ⟨kvs.foldl (setProp se) (newAct se), (s.insert name (newAct se)).insert name (kvs.foldl (setProp se) (newAct se)), ?_, by simp, fun k => ?_, ?_, fun n h => ?_⟩
  · unfold runActs runAct
    dsimp only
    rw [hn]
    unfold Option.bind
    dsimp only
    unfold runActs runAct
    dsimp only
    rw [Dict.get?_insert_self]
    rfl
  · rw [foldl_setProp _ _ _ _ hk, newAct_get?]
  · rw [(foldl_calls ..).1]
    unfold newAct
    rw [(clearAll_cache ..).2.1]
    rfl
  · rw [Dict.get?_insert_ne _ h, Dict.get?_insert_ne _ h]

/-- An action that exists gets its properties by a reload: those sent, defaults for settings that are cleared, and the old ones for all others. -/
theorem C73_reload_partial (se : SEnv) {jail name : Str} {kvs : List (String × Option Val)} {s : Dict Str Act} {b : Act} (hn : s.get? name = some b) (hb : b.py = false)
    (hk : (kvs.map Prod.fst).Nodup) :
    ∃ a s', runActs se true [.add jail name none, .multi jail name kvs] s = some s' ∧ s'.get? name = some a ∧
      (∀ k, a.attrs.get? k = attr se kvs ((unset k).or (b.attrs.get? k)) k) ∧ a.calls = b.calls ++ (kvs.map Prod.fst).filter se.method ∧ ∀ n, n ≠ name → s'.get? n = s.get? n := by
  refine ⟨kvs.foldl (setProp se) (clearAll se b), (s.insert name (clearAll se b)).insert name (kvs.foldl (setProp se) (clearAll se b)), ?_, by simp, fun k => ?_, ?_, fun n h => ?_⟩
  · unfold runActs runAct
    dsimp only
    rw [hn]
    simp only [hb]
    unfold Option.bind
    simp only [Bool.not_true, Bool.not_false, Bool.false_eq_true, if_false, if_true]
    unfold runActs runAct
    dsimp only
    rw [Dict.get?_insert_self]
    rfl
  · rw [foldl_setProp _ _ _ _ hk, clearAll_get?]
  · rw [(foldl_calls ..).1, (clearAll_cache ..).2.1]
  · rw [Dict.get?_insert_ne _ h, Dict.get?_insert_ne _ h]

/-- A single property of an action that exists is set as one of several. -/
theorem C73_single (se : SEnv) (reload : Bool) {jail name : Str} {s : Dict Str Act} {b : Act} (hn : s.get? name = some b) (k : String) (v : Option Val) :
    ∃ a s', runActs se reload [.set jail name k v] s = some s' ∧ s'.get? name = some a ∧ (∀ k', a.attrs.get? k' = attr se [(k, v)] (b.attrs.get? k') k') ∧
      a.calls = b.calls ++ [k].filter se.method ∧ ∀ n, n ≠ name → s'.get? n = s.get? n := by
  refine ⟨[(k, v)].foldl (setProp se) b, s.insert name (setProp se b (k, v)), ?_, by simp, fun k' => ?_, ?_, fun n h => Dict.get?_insert_ne _ h _⟩
  · unfold runActs runAct
    dsimp only
    rw [hn]
    rfl
  · exact foldl_setProp _ _ _ _ (by simp)
  · exact (foldl_calls ..).1

/-- A module is not reloaded: in its place comes a new module, or a new action that has only defaults. -/
theorem C73_replaced (se : SEnv) {jail name : Str} {s : Dict Str Act} {b : Act} (hn : s.get? name = some b) (hb : b.py = true) (py : Option (Str × Dict Str Str)) :
    ∃ a s', runActs se true [.add jail name py] s = some s' ∧ s'.get? name = some a ∧ a.py = py.isSome ∧ a.calls = [] ∧ a.cache = none ∧
      (∀ k, a.attrs.get? k = if py.isSome then none else unset k) ∧ ∀ n, n ≠ name → s'.get? n = s.get? n := by
  refine ⟨if py.isSome then ⟨Dict.empty, none, [], true⟩ else newAct se, s.insert name (if py.isSome then ⟨Dict.empty, none, [], true⟩ else newAct se), ?_, by simp, ?_⟩
  · unfold runActs runAct
    dsimp only
    rw [hn]
    simp only [hb]
    rfl
  · have h := clearAll_cache se ⟨Dict.empty, none, [], false⟩
    cases py with
    | none => exact ⟨h.2.2, h.2.1, h.1, fun k => newAct_get? se k, fun n hn => Dict.get?_insert_ne _ hn _⟩
    | some x => exact ⟨rfl, rfl, rfl, fun k => rfl, fun n hn => Dict.get?_insert_ne _ hn _⟩

/-- So it has only properties of the new configuration if each old one is cleared or sent again. -/
theorem C73_reload_clean (se : SEnv) {kvs : List (String × Option Val)} {b : Act}
    (h : ∀ k, b.attrs.get? k ≠ none → unset k ≠ none ∨ (∃ v, Dict.lookup k kvs = some v) ∧ se.method k = false ∧ k ≠ "bantime") (k : String) :
    attr se kvs ((unset k).or (b.attrs.get? k)) k = attr se kvs (unset k) k := by
  cases hb : b.attrs.get? k with
  | none => simp
  | some v =>
    rcases h k (by rw [hb]; simp) with h | ⟨⟨x, hx⟩, hm, hk⟩
    · cases hu : unset k with
      | none => exact absurd hu h
      | some d => rfl
    · unfold attr
      rw [hx]
      simp [hm, hk]

/-- What is remembered of the properties is what they are, after each property that is set, and for new actions. -/
theorem C73_fresh (se : SEnv) (kvs : List (String × Option Val)) {a : Act} (h : Fresh a) :
    Fresh (newAct se) ∧ Fresh (kvs.foldl (setProp se) a) ∧ Fresh (properties a).1 ∧ ∀ k v, (k, v) ∈ (properties a).2 ↔ a.attrs.get? k = some v ∧ ¬Private k := by
  have hvis : ∀ k v, (k, v) ∈ a.attrs.items.filter (fun kv => !isPrivate kv.1) ↔ a.attrs.get? k = some v ∧ ¬Private k := by
    intro k v
    rw [List.mem_filter, ← Dict.get?_eq_some_iff, ← isPrivate_iff]
    simp
  refine ⟨?_, ?_, ?_, ?_⟩
  · intro p hp
    unfold newAct at hp
    rw [(clearAll_cache ..).1] at hp
    cases hp
  · induction kvs generalizing a with
    | nil => exact h
    | cons kv kvs ih =>
      rw [List.foldl_cons]
      refine ih (setProp_fresh h kv) ?_
      intro k v
      rw [List.mem_filter, ← Dict.get?_eq_some_iff, ← isPrivate_iff]
      simp
  · unfold properties
    split
    · exact h
    · intro p hp
      cases hp
      exact hvis
  · unfold properties
    split
    · rename_i p hp
      exact h p hp
    · exact hvis

/-- After the commands for an action its properties, as used for tags, are its attributes; whatever was remembered before. -/
theorem C73_current (se : SEnv) {kvs : List (String × Option Val)} (a : Act) (hk : ∃ kv ∈ kvs, se.method kv.1 = false ∧ ¬Private kv.1 ∧ kv.1 ≠ "bantime") (k : String) (v : Option Val) :
    (k, v) ∈ (properties (kvs.foldl (setProp se) a)).2 ↔ (kvs.foldl (setProp se) a).attrs.get? k = some v ∧ ¬Private k := by
  have hf : Fresh (kvs.foldl (setProp se) a) := by
    intro p hp
    rw [foldl_cache se kvs a hk] at hp
    cases hp
  exact (C73_fresh se [] hf).2.2.2 k v

namespace ActionExample

def se : SEnv := ⟨fun k => k = "reload", id⟩

/-- Commands of an action. -/
def cmds (kvs : List (String × Option Val)) : List ActCmd := [.add "j".toList "a".toList none, .multi "j".toList "a".toList kvs]

def after (old new : List (String × Option Val)) : Option Act :=
  ((runActs se false (cmds old) Dict.empty).bind (runActs se true (cmds new))).bind (·.get? "a".toList)

end ActionExample

open ActionExample in
/-- After a reload an action may keep settings that are not in its configuration any more. -/
theorem C73_refuted_reload : ∃ a, after [("norestored", some (.bool true)), ("actionprolong", some (.str "x".toList)), ("port", some (.str "22".toList))] [("name", some (.str "j".toList))] = some a ∧
    a.attrs.get? "norestored" = some (some (.bool true)) ∧ a.attrs.get? "actionprolong" = some (some (.str "x".toList)) ∧ a.attrs.get? "port" = some (some (.str "22".toList)) :=
  ⟨_, rfl, by decide +kernel, by decide +kernel, by decide +kernel⟩

open ActionExample in
/-- Between clearing of settings and the first property set, the properties remembered are the old ones. -/
theorem C73_refuted_clear : ∃ a : Act, Fresh a ∧ ¬Fresh (clearAll se a) := by
  refine ⟨(properties (setProp se (newAct se) ("actionban", some (.str "x".toList)))).1, ?_, ?_⟩
  · exact (C73_fresh se [] (setProp_fresh (C73_fresh se [] (a := ⟨Dict.empty, none, [], false⟩) (fun p hp => by cases hp)).1 _)).2.2.1
  · intro h
    have hc := clearAll_cache se (properties (setProp se (newAct se) ("actionban", some (.str "x".toList)))).1
    have := ((h _ (hc.1.trans rfl)) "actionban" (some (.str "x".toList))).mp (by decide +kernel)
    rw [clearAll_get?] at this
    exact absurd this.1 (by decide +kernel)

/-! ## Examples -/

namespace ActionExample

/-- An action with two files' worth of options. -/
def file : ActionSrc where
  get _ k := if k = "actionban" then .value "ban <ip> <port>".toList else if k = "norestored" then .value "Yes".toList else .noOption
  initSection := [("port", "any".toList), ("timeout", "5".toList)]

/-- What is sent for a text of actions. -/
def shown (text : String) : Option (List (List (String × Option Val))) :=
  ((readActions Options.ascii env "ssh".toList Dict.empty (fun _ => some file) text.toList).bind (convertJobs env "ssh".toList)).map
    (·.map (fun c => match c with
      | .add _ n _ => [(String.ofList n, none)]
      | .set _ _ k v => [(k, v)]
      | .multi _ _ kvs => kvs))

end ActionExample

open ActionExample in
example : shown "ipt[port=\"22,23\", norestored=0]" = some [[("ipt", none)],
    [("actionban", some (.str "ban <ip> <port>".toList)), ("norestored", some (.bool false)), ("port", some (.str "22,23".toList)), ("name", some (.str "ssh".toList)),
     ("actname", some (.str "ipt".toList)), ("timeout", some (.str "5".toList))]] := by decide +kernel

open ActionExample in
example : names "ssh" "ipt ipt[name=ssh2] ipt[name=x, actname=y] m.py[a=b]" = some ["ipt", "ipt2", "y", "m"] ∧ accepted "ssh" "ipt ipt[name=ssh2] ipt[name=x, actname=y] m.py[a=b]" = true := by
  decide +kernel

open ActionExample in
example : ∃ a, after [("actionban", some (.str "x".toList))] [("timeout", some (.str "5".toList)), ("reload", none), ("bantime", some (.str "1".toList))] = some a ∧
    a.attrs.get? "actionban" = some (some (.str [])) ∧ a.attrs.get? "timeout" = some (some (.str "5".toList)) ∧ a.attrs.get? "bantime" = none ∧ a.calls = ["reload"] :=
  ⟨_, rfl, by decide +kernel, by decide +kernel, by decide +kernel, by decide +kernel⟩

end Verif
