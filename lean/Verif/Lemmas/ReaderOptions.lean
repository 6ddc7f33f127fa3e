import Verif.Lemmas.ReaderValues

/-! # Reading of options -/

namespace Verif.Reader

open ReaderSpec

theorem converts_iff (env : Env) (k : Kind) (v : Str) (x : Val) : convertVal env k v = some x ↔ Converts env k v x := by
  have hb : ∀ b : Bool, asBool v = b ↔ (b = true ↔ v.map Char.toLower ∈ ["1".toList, "on".toList, "true".toList, "yes".toList]) := by
    have e : (asBool v = true) ↔ v.map Char.toLower ∈ ["1".toList, "on".toList, "true".toList, "yes".toList] := by
      unfold asBool
      rw [decide_eq_true_iff]
      simp only [List.mem_cons, List.not_mem_nil, or_false]
      have h : ∀ w : String, String.ofList (v.map Char.toLower) = w ↔ v.map Char.toLower = w.toList := by
        intro w
        constructor
        · rintro rfl; simp
        · intro h; rw [h]; simp
      rw [h, h, h, h]
    intro b
    cases b with
    | true => rw [← e]; simp
    | false => rw [← e]; simp
  constructor
  · intro h
    cases k with
    | string => cases h; exact .string v
    | int =>
      cases hi : env.toInt v with
      | none => simp [convertVal, hi] at h
      | some i => simp [convertVal, hi] at h; subst h; exact .int v i hi
    | bool => cases h; exact .bool v _ ((hb _).mp rfl)
  · intro h
    cases h with
    | string => rfl
    | int _ i h => simp [convertVal, h]
    | bool _ b h => simp [convertVal, (hb b).mpr h]

theorem readOpt_spec {env : Env} {get : String → Got} {given : String → Bool} {se conv : Bool} {acc o : Opts} {t : Template} (hacc : acc.get? t.name = none)
    (h : readOpt env get given se conv acc t = some o) :
    (∃ x, Reads env get given conv t x ∧ o.get? t.name = x) ∧ ∀ k, k ≠ t.name → o.get? k = acc.get? k := by
  unfold readOpt at h
  split at h
  · rename_i hg
    cases h
    exact ⟨⟨_, .given hg, hacc⟩, fun _ _ => rfl⟩
  · rename_i hg
    have hg : given t.name = false := by simpa using hg
    have ins : ∀ v : Option Val, ∀ k, k ≠ t.name → (acc.insert t.name v).get? k = acc.get? k := fun v k hk => Dict.get?_insert_ne _ hk _
    split at h
    · rename_i v hv
      split at h
      · rename_i hc
        split at h
        · rename_i x hx
          cases h
          exact ⟨⟨_, .converted v x hg hv hc ((converts_iff ..).mp hx), Dict.get?_insert_self ..⟩, ins _⟩
        · rename_i hx
          cases h
          refine ⟨⟨_, .wrong v hg hv hc ?_, Dict.get?_insert_self ..⟩, ins _⟩
          intro x hx'
          rw [(converts_iff ..).mpr hx'] at hx; cases hx
      · rename_i hc
        cases h
        exact ⟨⟨_, .text v hg hv (by simpa using hc), Dict.get?_insert_self ..⟩, ins _⟩
    · rename_i hv
      split at h
      · cases h
      · cases h
        exact ⟨⟨_, .noSection hg hv, Dict.get?_insert_self ..⟩, ins _⟩
    · rename_i hv
      cases h
      cases hd : t.default with
      | none =>
        refine ⟨⟨_, .missing hg hv, ?_⟩, fun _ _ => by simp⟩
        rw [hd]; simpa using hacc
      | some d =>
        refine ⟨⟨_, .missing hg hv, ?_⟩, fun k hk => by simpa using ins (some d) k hk⟩
        rw [hd]; simp

theorem getOptions_spec {env : Env} {get : String → Got} {given : String → Bool} {se conv : Bool} : ∀ {ts : List Template} {acc o : Opts},
    (ts.map (·.name)).Nodup → (∀ t ∈ ts, acc.get? t.name = none) → getOptions env get given se conv ts acc = some o →
    (∀ t ∈ ts, ∃ x, Reads env get given conv t x ∧ o.get? t.name = x) ∧ ∀ k, k ∉ ts.map (·.name) → o.get? k = acc.get? k := by
  intro ts
  induction ts with
  | nil => intro acc o _ _ h; cases h; exact ⟨fun t ht => (List.not_mem_nil ht).elim, fun _ _ => rfl⟩
  | cons t ts ih =>
    intro acc o hn hacc h
    rw [List.map_cons, List.nodup_cons] at hn
    rw [getOptions] at h
    cases hr : readOpt env get given se conv acc t with
    | none => rw [hr] at h; cases h
    | some acc' =>
      rw [hr] at h
      obtain ⟨h1, h2⟩ := readOpt_spec (hacc t (List.mem_cons_self ..)) hr
      have hne : ∀ t' ∈ ts, t'.name ≠ t.name := fun t' ht' e => hn.1 (e ▸ List.mem_map_of_mem ht')
      obtain ⟨h3, h4⟩ := ih hn.2 (fun t' ht' => by rw [h2 _ (hne t' ht')]; exact hacc t' (List.mem_cons_of_mem _ ht')) h
      refine ⟨?_, ?_⟩
      · intro t' ht'
        rcases List.mem_cons.mp ht' with rfl | ht'
        · rw [h4 _ hn.1]; exact h1
        · exact h3 t' ht'
      · intro k hk
        rw [List.map_cons, List.mem_cons, not_or] at hk
        rw [h4 k hk.2, h2 k hk.1]

/-- An exception is raised only if there is no section that should exist. -/
theorem getOptions_isSome {env : Env} {get : String → Got} {given : String → Bool} {se conv : Bool} (h : se = true → ∀ k, get k ≠ .noSection) :
    ∀ (ts : List Template) (acc : Opts), ∃ o, getOptions env get given se conv ts acc = some o := by
  intro ts
  induction ts with
  | nil => intro acc; exact ⟨acc, rfl⟩
  | cons t ts ih =>
    intro acc
    have : ∃ o, readOpt env get given se conv acc t = some o := by
      unfold readOpt
      split
      · exact ⟨_, rfl⟩
      · split
        · split
          · split <;> exact ⟨_, rfl⟩
          · exact ⟨_, rfl⟩
        · rename_i hv
          split
          · rename_i hs; exact absurd hv (h hs _)
          · exact ⟨_, rfl⟩
        · exact ⟨_, rfl⟩
    obtain ⟨o, ho⟩ := this
    rw [getOptions, ho]
    exact ih o

/-! ## Filters -/

theorem foldl_insert_get? {V : Type} : ∀ (items : List (String × V)) (x : Dict String V) (k : String), (items.map Prod.fst).Nodup →
    (items.foldl (fun d kv => d.insert kv.1 kv.2) x).get? k = (Dict.lookup k items).or (x.get? k) := by
  intro items
  induction items with
  | nil => intro x k _; simp [Dict.lookup]
  | cons kv items ih =>
    intro x k hn
    rw [List.map_cons, List.nodup_cons] at hn
    obtain ⟨k', v⟩ := kv
    rw [List.foldl_cons, ih _ _ hn.2, Dict.lookup]
    by_cases h : k' = k
    · subst h
      rw [if_pos rfl, (Dict.lookup_eq_none_iff _ _).mpr hn.1]
      simp
    · rw [if_neg h, Dict.get?_insert_ne _ (fun e => h e.symm)]

theorem merge_get? {V : Type} (x y : Dict String V) (k : String) : (merge x y).get? k = (y.get? k).or (x.get? k) :=
  foldl_insert_get? y.items x k y.nodup

theorem addInit_get? (init : Opts) (kv : String × Str) (k : String) (hk : "known/".toList.isPrefixOf k.toList = false) :
    (addInit init kv).get? k = (init.get? k).or (if kv.1 = k then some (some (.str kv.2)) else none) := by
  have hne : k ≠ "known/" ++ kv.1 := by
    rintro rfl
    rw [String.toList_append] at hk
    simp at hk
  unfold addInit
  dsimp only
  generalize hi : (if "known/".toList.isPrefixOf kv.1.toList = true then init else init.insert ("known/" ++ kv.1) (some (.str kv.2))) = i2
  have h2 : i2.get? k = init.get? k := by
    subst hi
    split
    · rfl
    · exact Dict.get?_insert_ne _ hne _
  have hc : i2.contains kv.1 = (i2.get? kv.1).isSome := rfl
  by_cases e : kv.1 = k
  · rw [e] at hc ⊢
    rw [if_pos rfl, ← h2]
    cases hg : i2.get? k with
    | none => rw [hg] at hc; rw [if_neg (by rw [hc]; simp), Dict.get?_insert_self]; rfl
    | some v => rw [hg] at hc; rw [if_pos (by rw [hc]; rfl), hg]; rfl
  · rw [if_neg e]
    split
    · rw [h2]; simp
    · rw [Dict.get?_insert_ne _ (fun x => e x.symm), h2]; simp

theorem foldl_addInit_get? : ∀ (items : List (String × Str)) (init : Opts) (k : String), "known/".toList.isPrefixOf k.toList = false →
    (items.foldl addInit init).get? k = (init.get? k).or ((Dict.lookup k items).map (fun v => some (.str v))) := by
  intro items
  induction items with
  | nil => intro init k _; simp [Dict.lookup]
  | cons kv items ih =>
    intro init k hk
    rw [List.foldl_cons, ih _ _ hk, addInit_get? _ _ _ hk, Dict.lookup]
    obtain ⟨k', v⟩ := kv
    by_cases e : k' = k
    · simp only [if_pos e, Option.map_some]
      cases init.get? k <;> simp
    · simp only [if_neg e]
      cases init.get? k <;> simp

theorem filterOpts_nodup : (filterOpts.map (·.name)).Nodup := by decide
theorem jailOpts_nodup : (jailOpts.map (·.name)).Nodup := by decide
theorem jailOpts1st_nodup : (jailOpts1st.map (·.name)).Nodup := by decide

theorem filterOpts_plain {t : Template} (ht : t ∈ filterOpts) : t.default = none ∧ "known/".toList.isPrefixOf t.name.toList = false := by
  have : ∀ t ∈ filterOpts, t.default = none ∧ "known/".toList.isPrefixOf t.name.toList = false := by decide
  exact this t ht

theorem filter_init {env : Env} {f : FilterSrc} {o1 params init x : Opts} (h1 : filterGetOptions env f o1 params = some (x, init)) : init = f.initSection.foldl addInit params := by
  unfold filterGetOptions at h1
  dsimp only at h1
  cases hg : getOptions env (f.get (merge o1 params)) (merge o1 params).contains false false filterOpts Dict.empty with
  | none => rw [hg] at h1; cases h1
  | some o => rw [hg] at h1; cases h1; rfl

/-- Options of a filter after both passes. -/
theorem filter_sources {env : Env} {f : FilterSrc} {o1 o2 params init : Opts} {x : Opts} {fo fi : Opts}
    (hi : (f.initSection.map Prod.fst).Nodup) (h1 : filterGetOptions env f o1 params = some (x, init)) (h2 : filterGetOptions env f o2 init = some (fo, fi)) :
    ∀ t ∈ filterOpts, FilterValue f params o2 (merge o2 init) t.name ((merge fo fi).get? t.name) := by
  intro t ht
  obtain ⟨hd, hk⟩ := filterOpts_plain ht
  have hinit := filter_init h1
  unfold filterGetOptions at h2
  dsimp only at h2
  cases hg : getOptions env (f.get (merge o2 init)) (merge o2 init).contains false false filterOpts Dict.empty with
  | none => rw [hg] at h2; cases h2
  | some o =>
    rw [hg] at h2
    cases h2
    obtain ⟨hs, _⟩ := getOptions_spec filterOpts_nodup (fun t _ => Dict.get?_empty _) hg
    obtain ⟨y, hr, hy⟩ := hs t ht
    have gi : init.get? t.name = (params.get? t.name).or ((Dict.lookup t.name f.initSection).map (fun v => some (.str v))) := by
      rw [hinit]; exact foldl_addInit_get? _ _ _ hk
    have gf : (f.initSection.foldl addInit init).get? t.name = init.get? t.name := by
      rw [foldl_addInit_get? _ _ _ hk, gi]
      cases params.get? t.name <;> cases Dict.lookup t.name f.initSection <;> rfl
    have gc : (merge o2 init).contains t.name = ((init.get? t.name).or (o2.get? t.name)).isSome := by
      show ((merge o2 init).get? t.name).isSome = _
      rw [merge_get?]
    have gm : (merge fo (f.initSection.foldl addInit init)).get? t.name = (init.get? t.name).or y := by
      rw [merge_get?, gf, hy]
    rw [gm]
    cases hp : params.get? t.name with
    | some v => rw [gi, hp]; exact .param v hp
    | none =>
      rw [hp] at gi
      cases hl : Dict.lookup t.name f.initSection with
      | some v => rw [gi, hl]; exact .init v hp ((Dict.lookup_eq_some_iff hi _ _).mp hl)
      | none =>
        rw [hl] at gi
        have gi : init.get? t.name = none := gi
        have hni := (Dict.lookup_eq_none_iff _ _).mp hl
        rw [gi] at gc ⊢
        show FilterValue f params o2 _ t.name y
        cases hj : o2.get? t.name with
        | some v =>
          have gc : (merge o2 init).contains t.name = true := by rw [gc, hj]; rfl
          cases hr with
          | given => exact .jail v hp hni hj
          | text _ h => rw [gc] at h; cases h
          | converted _ _ h => rw [gc] at h; cases h
          | wrong _ h => rw [gc] at h; cases h
          | missing h => rw [gc] at h; cases h
          | noSection h => rw [gc] at h; cases h
        | none =>
          have gc : (merge o2 init).contains t.name = false := by rw [gc, hj]; rfl
          cases hr with
          | given h => rw [gc] at h; cases h
          | text v _ h => exact .definition v hp hni hj h
          | converted _ _ _ _ h => cases h
          | wrong _ _ _ h => cases h
          | missing _ h => rw [hd]; exact .missing hp hni hj h
          | noSection _ h => rw [hd]; exact .noSection hp hni hj h

end Verif.Reader
