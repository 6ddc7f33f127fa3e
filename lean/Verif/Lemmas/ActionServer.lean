import Verif.Lemmas.ActionReader

/-! # Properties of actions on the server -/

namespace Verif.ActionReader

open Reader ActionReaderSpec

theorem lookup_defaults (k : String) : Dict.lookup k defaults = unset k := by
  unfold unset cleared defaults
  simp only [Dict.lookup, List.mem_cons, List.not_mem_nil, or_false]
  by_cases h : k = "timeout"
  · simp [h]
  · rw [if_neg h, if_neg (fun e => h e.symm)]
    by_cases h : k = "actionstart"; · simp [h]
    by_cases h : k = "actionban"; · simp [h]
    by_cases h : k = "actionreban"; · simp [h]
    by_cases h : k = "actionunban"; · simp [h]
    by_cases h : k = "actioncheck"; · simp [h]
    by_cases h : k = "actionrepair"; · simp [h]
    by_cases h : k = "actionflush"; · simp [h]
    by_cases h : k = "actionstop"; · simp [h]
    by_cases h : k = "actionreload"; · simp [h]
    simp [eq_comm, *]

theorem foldl_init (se : SEnv) : ∀ (l : List (String × Option Val)) (a : Act),
    l.foldl (fun a kv => setattr se true a kv.1 kv.2) a = { a with attrs := l.foldl (fun d kv => d.insert kv.1 kv.2) a.attrs } := by
  intro l
  induction l with
  | nil => intro a; rfl
  | cons kv l ih =>
    intro a
    rw [List.foldl_cons, ih, List.foldl_cons]
    simp [setattr]

theorem clearAll_get? (se : SEnv) (a : Act) (k : String) : (clearAll se a).attrs.get? k = (unset k).or (a.attrs.get? k) := by
  unfold clearAll
  rw [foldl_init]
  show Dict.get? (List.foldl _ _ _) k = _
  rw [foldl_insert_get? _ _ _ (by decide), lookup_defaults]

theorem clearAll_cache (se : SEnv) (a : Act) : (clearAll se a).cache = a.cache ∧ (clearAll se a).calls = a.calls ∧ (clearAll se a).py = a.py := by
  unfold clearAll
  rw [foldl_init]
  exact ⟨rfl, rfl, rfl⟩

theorem newAct_get? (se : SEnv) (k : String) : (newAct se).attrs.get? k = unset k := by
  unfold newAct
  rw [clearAll_get?, Dict.get?_empty, Option.or_none]

theorem setProp_ne (se : SEnv) (a : Act) {kv : String × Option Val} {k : String} (h : k ≠ kv.1) : (setProp se a kv).attrs.get? k = a.attrs.get? k := by
  unfold setProp setattr
  split
  · rfl
  · split
    · exact Dict.get?_insert_ne _ h _
    · split
      · rfl
      · exact Dict.get?_insert_ne _ h _

theorem setProp_self (se : SEnv) (a : Act) (k : String) (v : Option Val) : (setProp se a (k, v)).attrs.get? k =
    if se.method k = true ∨ k = "bantime" then a.attrs.get? k else if k = "timeout" then some (se.secs v) else some v := by
  unfold setProp setattr
  by_cases hm : se.method k = true
  · simp [hm]
  · simp only [hm]
    by_cases hp : isPrivate k = true
    · have h1 : k ≠ "bantime" := by rintro rfl; exact absurd hp (by decide)
      have h2 : k ≠ "timeout" := by rintro rfl; exact absurd hp (by decide)
      simp [hp, h1, h2]
    · by_cases h1 : k = "bantime"
      · subst h1; simp [show isPrivate "bantime" = false by decide]
      · by_cases h2 : k = "timeout"
        · subst h2; simp [show isPrivate "timeout" = false by decide]
        · simp [hp, h1, h2]

theorem foldl_setProp (se : SEnv) : ∀ (kvs : List (String × Option Val)) (a : Act) (k : String), (kvs.map Prod.fst).Nodup →
    (kvs.foldl (setProp se) a).attrs.get? k = attr se kvs (a.attrs.get? k) k := by
  intro kvs
  induction kvs with
  | nil => intro a k _; rfl
  | cons kv kvs ih =>
    intro a k hn
    rw [List.map_cons, List.nodup_cons] at hn
    obtain ⟨k', v⟩ := kv
    rw [List.foldl_cons, ih _ _ hn.2]
    unfold attr
    rw [Dict.lookup]
    by_cases e : k' = k
    · subst e
      rw [if_pos rfl, (Dict.lookup_eq_none_iff _ _).mpr hn.1]
      exact setProp_self ..
    · rw [if_neg e, setProp_ne se a (fun x => e x.symm)]

theorem foldl_calls (se : SEnv) : ∀ (kvs : List (String × Option Val)) (a : Act),
    (kvs.foldl (setProp se) a).calls = a.calls ++ (kvs.map Prod.fst).filter se.method ∧ (kvs.foldl (setProp se) a).py = a.py := by
  intro kvs
  induction kvs with
  | nil => intro a; simp
  | cons kv kvs ih =>
    intro a
    rw [List.foldl_cons]
    obtain ⟨h1, h2⟩ := ih (setProp se a kv)
    rw [h1, h2]
    unfold setProp setattr
    by_cases hm : se.method kv.1 = true
    · simp [hm]
    · simp only [hm]
      constructor
      · simp only [List.map_cons, List.filter_cons, hm]
        simp only [Bool.false_eq_true, if_false]
        congr 1
        split
        · rfl
        · split <;> rfl
      · simp only [Bool.false_eq_true, if_false]
        split
        · rfl
        · split <;> rfl

theorem setProp_cache (se : SEnv) (a : Act) (kv : String × Option Val) : (setProp se a kv).cache = none ∨ (setProp se a kv).cache = a.cache := by
  unfold setProp setattr
  split
  · exact .inr rfl
  · split
    · exact .inr rfl
    · split
      · exact .inr rfl
      · exact .inl rfl

theorem foldl_cache_none (se : SEnv) : ∀ (kvs : List (String × Option Val)) (a : Act), a.cache = none → (kvs.foldl (setProp se) a).cache = none := by
  intro kvs
  induction kvs with
  | nil => intro a h; exact h
  | cons kv kvs ih =>
    intro a h
    rw [List.foldl_cons]
    apply ih
    rcases setProp_cache se a kv with e | e
    · exact e
    · rw [e, h]

theorem foldl_cache (se : SEnv) : ∀ (kvs : List (String × Option Val)) (a : Act), (∃ kv ∈ kvs, se.method kv.1 = false ∧ ¬Private kv.1 ∧ kv.1 ≠ "bantime") →
    (kvs.foldl (setProp se) a).cache = none := by
  intro kvs
  induction kvs with
  | nil => rintro a ⟨kv, h, _⟩; cases h
  | cons kv kvs ih =>
    rintro a ⟨x, hx, h1, h2, h3⟩
    rw [List.foldl_cons]
    rcases List.mem_cons.mp hx with rfl | hx
    · apply foldl_cache_none
      rw [← isPrivate_iff, Bool.not_eq_true] at h2
      unfold setProp setattr
      simp [h1, h2, h3]
    · exact ih _ ⟨x, hx, h1, h2, h3⟩

theorem setProp_fresh {se : SEnv} {a : Act} (h : Fresh a) (kv : String × Option Val) : Fresh (setProp se a kv) := by
  obtain ⟨k, v⟩ := kv
  by_cases hm : se.method k = true
  · have : setProp se a (k, v) = { a with calls := a.calls ++ [k] } := by unfold setProp; simp [hm]
    rw [this]
    exact h
  · by_cases hp : isPrivate k = true
    · have : setProp se a (k, v) = { a with attrs := a.attrs.insert k v } := by unfold setProp setattr; simp [hm, hp]
      rw [this]
      intro p hc k' v'
      rw [h p hc k' v']
      show _ ↔ (a.attrs.insert k v).get? k' = some v' ∧ _
      by_cases e : k' = k
      · subst e
        rw [isPrivate_iff] at hp
        simp [hp]
      · rw [Dict.get?_insert_ne _ e]
    · by_cases hb : k = "bantime"
      · have : setProp se a (k, v) = a := by subst hb; unfold setProp setattr; simp [hm, hp]
        rw [this]; exact h
      · intro p hc
        have : (setProp se a (k, v)).cache = none := by unfold setProp setattr; simp [hm, hp, hb]
        rw [this] at hc; cases hc

/-! ## Commands -/

theorem runActs_append (se : SEnv) (r : Bool) : ∀ (a b : List ActCmd) (s : Dict Str Act), runActs se r (a ++ b) s = (runActs se r a s).bind (runActs se r b) := by
  intro a
  induction a with
  | nil => intro b s; rfl
  | cons c a ih =>
    intro b s
    rw [List.cons_append, runActs, runActs]
    cases runAct se r s c with
    | none => rfl
    | some s' => exact ih b s'

/-- Commands of an action: it is added, then its properties are set. -/
theorem convertJob_shape {env : Reader.Env} {jail : Str} {j : Job} {cs : List ActCmd} (h : convertJob env jail j = some cs) :
    ∃ py rest, cs = .add jail (jobName j) py :: rest ∧ (rest = [] ∨ (∃ k v, rest = [.set jail (jobName j) k v]) ∨ ∃ kvs, rest = [.multi jail (jobName j) kvs]) := by
  cases j with
  | py n f o => cases h; exact ⟨_, [], rfl, .inl rfl⟩
  | file n o i =>
    unfold convertJob at h
    dsimp only at h
    cases hc : actionCombined env o i with
    | none => rw [hc] at h; cases h
    | some c =>
      rw [hc] at h
      cases h
      refine ⟨none, _, rfl, ?_⟩
      split
      · exact .inl rfl
      · exact .inr (.inl ⟨_, _, rfl⟩)
      · exact .inr (.inr ⟨_, rfl⟩)

theorem keys_insert_new {V : Type} (d : Dict Str V) {k : Str} (h : k ∉ d.keys) (v : V) : (d.insert k v).keys = d.keys ++ [k] := by
  unfold Dict.keys
  rw [Dict.items_insert_of_not_mem d h]
  simp

theorem job_run {env : Reader.Env} {jail : Str} {j : Job} {cs : List ActCmd} (se : SEnv) (h : convertJob env jail j = some cs) (s : Dict Str Act) :
    (jobName j ∈ s.keys → runActs se false cs s = none) ∧ (jobName j ∉ s.keys → ∃ s', runActs se false cs s = some s' ∧ s'.keys = s.keys ++ [jobName j]) := by
  obtain ⟨py, rest, rfl, hrest⟩ := convertJob_shape h
  constructor
  · intro hk
    obtain ⟨a, ha⟩ := (Dict.mem_keys_iff _ _).mp hk
    unfold runActs runAct
    dsimp only
    rw [ha]
    rfl
  · intro hk
    have ha := (Dict.get?_eq_none_iff _ _).mpr hk
    unfold runActs runAct
    dsimp only
    rw [ha]
    show ∃ s', runActs se false rest (s.insert (jobName j) _) = some s' ∧ _
    generalize (if py.isSome then (⟨Dict.empty, none, [], true⟩ : Act) else newAct se) = a
    have h1 := keys_insert_new s hk a
    have hm : jobName j ∈ (s.insert (jobName j) a).keys := by rw [h1]; simp
    rcases hrest with rfl | ⟨k, v, rfl⟩ | ⟨kvs, rfl⟩
    · exact ⟨_, rfl, h1⟩
    · refine ⟨_, by unfold runActs runAct; dsimp only; rw [Dict.get?_insert_self]; rfl, ?_⟩
      rw [Dict.keys_insert_of_mem _ hm, h1]
    · refine ⟨_, by unfold runActs runAct; dsimp only; rw [Dict.get?_insert_self]; rfl, ?_⟩
      rw [Dict.keys_insert_of_mem _ hm, h1]

theorem allSome_cons {α β : Type} {f : α → Option β} {a : α} {as : List α} {bs : List β} (h : Options.allSome f (a :: as) = some bs) :
    ∃ b bs', f a = some b ∧ Options.allSome f as = some bs' ∧ bs = b :: bs' := by
  rw [Options.allSome] at h
  cases h1 : f a with
  | none => rw [h1] at h; cases h
  | some b =>
    cases h2 : Options.allSome f as with
    | none => rw [h1, h2] at h; cases h
    | some bs' => rw [h1, h2] at h; cases h; exact ⟨b, bs', rfl, rfl, rfl⟩

theorem allSome_none {α β : Type} (f : α → Option β) : ∀ l : List α, Options.allSome f l = none ↔ ∃ a ∈ l, f a = none := by
  intro l
  induction l with
  | nil => simp [Options.allSome]
  | cons a as ih =>
    rw [Options.allSome]
    cases h1 : f a with
    | none => simp [h1]
    | some b =>
      cases h2 : Options.allSome f as with
      | none =>
        obtain ⟨x, hx, e⟩ := ih.mp h2
        simp only [true_iff]
        exact ⟨x, by simp [hx], e⟩
      | some bs =>
        simp only [reduceCtorEq, false_iff]
        rintro ⟨x, hx, e⟩
        rcases List.mem_cons.mp hx with rfl | hx
        · rw [h1] at e; cases e
        · rw [ih.mpr ⟨x, hx, e⟩] at h2; cases h2

theorem jobs_run {env : Reader.Env} {jail : Str} (se : SEnv) : ∀ {jobs : List Job} {css : List (List ActCmd)}, Options.allSome (convertJob env jail) jobs = some css →
    ∀ s : Dict Str Act, ((s.keys ++ jobs.map jobName).Nodup → ∃ s', runActs se false css.flatten s = some s' ∧ s'.keys = s.keys ++ jobs.map jobName) ∧
      (¬(s.keys ++ jobs.map jobName).Nodup → runActs se false css.flatten s = none) := by
  intro jobs
  induction jobs with
  | nil =>
    intro css h s
    cases h
    refine ⟨fun _ => ⟨s, rfl, by simp⟩, fun h => absurd ?_ h⟩
    simpa using s.keys_nodup
  | cons j jobs ih =>
    intro css h s
    obtain ⟨cs, css', h1, h2, rfl⟩ := allSome_cons h
    rw [List.flatten_cons, runActs_append, List.map_cons]
    obtain ⟨hin, hout⟩ := job_run se h1 s
    by_cases hk : jobName j ∈ s.keys
    · rw [hin hk]
      refine ⟨fun hn => ?_, fun _ => rfl⟩
      rw [List.nodup_append] at hn
      exact absurd rfl (hn.2.2 _ hk _ (List.mem_cons_self ..))
    · obtain ⟨s', hs, hkeys⟩ := hout hk
      rw [hs]
      have := ih h2 s'
      rw [hkeys, List.append_assoc] at this
      exact this

end Verif.ActionReader
