import Verif.Lemmas.ReaderOptions
import Verif.Spec.ActionReader

/-! # Reading of actions -/

namespace Verif.ActionReader

open Reader ActionReaderSpec

theorem prefix_iff (p k : String) : p.toList.isPrefixOf k.toList = true ↔ ∃ r : String, k = p ++ r := by
  rw [List.isPrefixOf_iff_prefix]
  constructor
  · rintro ⟨r, h⟩
    refine ⟨String.ofList r, ?_⟩
    apply String.toList_inj.mp
    rw [String.toList_append, String.toList_ofList, h]
  · rintro ⟨r, rfl⟩
    exact ⟨r.toList, by rw [String.toList_append]⟩

theorem isKnown_iff (k : String) : isKnown k = true ↔ Known k := prefix_iff "known/" k
theorem isPrivate_iff (k : String) : isPrivate k = true ↔ Private k := prefix_iff "_" k

theorem names_iff (k : String) : k ∈ actionOpts.map (·.name) ↔ IsSetting k := by
  unfold IsSetting commands switches
  simp only [actionOpts, List.map_cons, List.map_nil, List.mem_cons, List.not_mem_nil, or_false]
  constructor
  · rintro (h | h | h | h | h | h | h | h | h | h | h | h | h) <;> simp [h]
  · rintro ((h | h | h | h | h | h | h | h | h | h) | (h | h | h)) <;> simp [h]

theorem setting_plain {k : String} (h : IsSetting k) : ¬Known k := by
  rw [← isKnown_iff]
  have : ∀ k ∈ actionOpts.map (·.name), ¬isKnown k = true := by decide
  exact this k ((names_iff k).mpr h)

/-! ## Names and parameters -/

theorem suffix_iff (jail n s : Str) : Suffix jail n s ↔ s = suffix jail n := by
  unfold suffix
  constructor
  · intro h
    cases h with
    | same => simp
    | longer r hr =>
      rw [if_neg (by intro e; exact hr (List.append_cancel_left (e.trans (List.append_nil _).symm))), if_pos (by rw [List.isPrefixOf_iff_prefix]; exact ⟨_, rfl⟩)]
      simp
    | other n h =>
      rw [if_neg (by rintro rfl; exact h [] (by simp)), if_neg (by rw [List.isPrefixOf_iff_prefix]; rintro ⟨r, e⟩; exact h r e.symm)]
  · rintro rfl
    split
    · rename_i e; subst e; exact .same
    · rename_i hn
      split
      · rename_i hp
        rw [List.isPrefixOf_iff_prefix] at hp
        obtain ⟨r, rfl⟩ := hp
        rw [List.drop_left]
        exact .longer r (by rintro rfl; simp at hn)
      · rename_i hp
        rw [List.isPrefixOf_iff_prefix] at hp
        exact .other n (fun r e => hp ⟨r, e.symm⟩)

theorem foldl_toOpts : ∀ (items : List (Str × Str)) (o : Opts) (k : String), (items.map Prod.fst).Nodup →
    (items.foldl (fun o kv => o.insert (String.ofList kv.1) (some (.str kv.2))) o).get? k = ((Dict.lookup k.toList items).map (fun v => some (.str v))).or (o.get? k) := by
  intro items
  induction items with
  | nil => intro o k _; simp [Dict.lookup]
  | cons kv items ih =>
    intro o k hn
    rw [List.map_cons, List.nodup_cons] at hn
    obtain ⟨k', v⟩ := kv
    rw [List.foldl_cons, ih _ _ hn.2, Dict.lookup]
    by_cases h : k' = k.toList
    · subst h
      rw [if_pos rfl, (Dict.lookup_eq_none_iff _ _).mpr hn.1]
      simp
    · rw [if_neg h, Dict.get?_insert_ne]
      rintro rfl
      simp at h

theorem toOpts_get? (d : Dict Str Str) (k : String) : (toOpts d).get? k = (d.get? k.toList).map (fun v => some (.str v)) := by
  unfold toOpts
  rw [foldl_toOpts _ _ _ d.nodup]
  rw [Dict.get?_empty, Option.or_none]; rfl

theorem initAction_params (file jail : Str) (d : Dict Str Str) : Params jail file d (initAction file jail (toOpts d)).1 (initAction file jail (toOpts d)).2 := by
  have hn : param (toOpts d) "name" = d.get? "name".toList := by
    unfold param; rw [toOpts_get?]; cases d.get? "name".toList <;> rfl
  have ha : ∀ v, param ((toOpts d).insert "name" v) "actname" = d.get? "actname".toList := by
    intro v
    unfold param; rw [Dict.get?_insert_ne _ (by decide), toOpts_get?]; cases d.get? "actname".toList <;> rfl
  have ha' : param (toOpts d) "actname" = d.get? "actname".toList := by
    unfold param; rw [toOpts_get?]; cases d.get? "actname".toList <;> rfl
  have hg : ∀ k : Str, (toOpts d).get? (String.ofList k) = (d.get? k).map (fun v => some (.str v)) := by
    intro k; rw [toOpts_get?, String.toList_ofList]
  have ne : ∀ k : Str, ∀ s : String, k ≠ s.toList → String.ofList k ≠ s := by
    intro k s h e; rw [← e] at h; simp at h
  unfold initAction
  rw [hn]
  cases h1 : d.get? "name".toList with
  | some n =>
    dsimp only
    rw [ha']
    cases h2 : d.get? "actname".toList with
    | some a =>
      dsimp only
      refine ⟨fun x hx => ?_, fun hx => ?_, fun k v hk => ?_, fun hx => ?_, ?_, fun k hk _ _ => ?_⟩
      · rw [h2] at hx; cases hx; rfl
      · rw [h2] at hx; cases hx
      · rw [hg, hk]; rfl
      · rw [h1] at hx; cases hx
      · rw [toOpts_get?, h2]; rfl
      · rw [toOpts_get?, hk]; rfl
    | none =>
      dsimp only
      refine ⟨fun x hx => ?_, fun hx => ?_, fun k v hk => ?_, fun hx => ?_, ?_, fun k hk _ hk2 => ?_⟩
      · rw [h2] at hx; cases hx
      · refine ⟨_, (suffix_iff ..).mpr rfl, ?_⟩; rw [h1]; rfl
      · rw [Dict.get?_insert_ne, hg, hk]; rfl
        apply ne; rintro rfl; rw [h2] at hk; cases hk
      · rw [h1] at hx; cases hx
      · simp
      · rw [Dict.get?_insert_ne _ hk2, toOpts_get?, hk]; rfl
  | none =>
    dsimp only
    rw [ha]
    cases h2 : d.get? "actname".toList with
    | some a =>
      dsimp only
      refine ⟨fun x hx => ?_, fun hx => ?_, fun k v hk => ?_, fun hx => ?_, ?_, fun k hk hk1 _ => ?_⟩
      · rw [h2] at hx; cases hx; rfl
      · rw [h2] at hx; cases hx
      · rw [Dict.get?_insert_ne, hg, hk]; rfl
        apply ne; rintro rfl; rw [h1] at hk; cases hk
      · simp
      · rw [Dict.get?_insert_ne _ (by decide), toOpts_get?, h2]; rfl
      · rw [Dict.get?_insert_ne _ hk1, toOpts_get?, hk]; rfl
    | none =>
      dsimp only
      refine ⟨fun x hx => ?_, fun hx => ?_, fun k v hk => ?_, fun hx => ?_, ?_, fun k hk hk1 hk2 => ?_⟩
      · rw [h2] at hx; cases hx
      · refine ⟨_, (suffix_iff ..).mpr rfl, ?_⟩; rw [h1]; rfl
      · rw [Dict.get?_insert_ne, Dict.get?_insert_ne, hg, hk]; rfl
        · apply ne; rintro rfl; rw [h1] at hk; cases hk
        · apply ne; rintro rfl; rw [h2] at hk; cases hk
      · rw [Dict.get?_insert_ne _ (by decide)]; simp
      · simp
      · rw [Dict.get?_insert_ne _ hk2, Dict.get?_insert_ne _ hk1, toOpts_get?, hk]; rfl

/-! ## Values -/

theorem actionOpts_nodup : (actionOpts.map (·.name)).Nodup := by decide

theorem actionOpts_plain {t : Template} (ht : t ∈ actionOpts) : t.default = none ∧ "known/".toList.isPrefixOf t.name.toList = false := by
  have : ∀ t ∈ actionOpts, t.default = none ∧ "known/".toList.isPrefixOf t.name.toList = false := by decide
  exact this t ht

theorem action_init {env : Reader.Env} {a : ActionSrc} {jo params o i : Opts} (h : actionGetOptions env a jo params = some (o, i)) : i = a.initSection.foldl addInit params := by
  unfold actionGetOptions at h
  dsimp only at h
  cases hg : getOptions env (a.get (merge jo params)) (merge jo params).contains false false actionOpts Dict.empty with
  | none => rw [hg] at h; cases h
  | some x => rw [hg] at h; cases h; rfl

theorem action_isSome (env : Reader.Env) (a : ActionSrc) (jo params : Opts) : ∃ oi, actionGetOptions env a jo params = some oi := by
  obtain ⟨o, ho⟩ := getOptions_isSome (env := env) (get := a.get (merge jo params)) (given := (merge jo params).contains) (se := false) (conv := false) (by simp) actionOpts Dict.empty
  exact ⟨_, by unfold actionGetOptions; dsimp only; rw [ho]; rfl⟩

theorem action_sources {env : Reader.Env} {a : ActionSrc} {jo params o i : Opts} (hi : (a.initSection.map Prod.fst).Nodup) (h : actionGetOptions env a jo params = some (o, i)) :
    ∀ k, IsSetting k → ActionValue a params jo (merge jo params) k ((merge o i).get? k) := by
  intro k hk
  rw [← names_iff] at hk
  obtain ⟨t, ht, rfl⟩ := List.mem_map.mp hk
  obtain ⟨hd, hkn⟩ := actionOpts_plain ht
  have hinit := action_init h
  unfold actionGetOptions at h
  dsimp only at h
  cases hg : getOptions env (a.get (merge jo params)) (merge jo params).contains false false actionOpts Dict.empty with
  | none => rw [hg] at h; cases h
  | some o' =>
    rw [hg] at h
    cases h
    obtain ⟨hs, _⟩ := getOptions_spec actionOpts_nodup (fun t _ => Dict.get?_empty _) hg
    obtain ⟨y, hr, hy⟩ := hs t ht
    have gi : (a.initSection.foldl addInit params).get? t.name = (params.get? t.name).or ((Dict.lookup t.name a.initSection).map (fun v => some (.str v))) :=
      foldl_addInit_get? _ _ _ hkn
    have gc : (merge jo params).contains t.name = ((params.get? t.name).or (jo.get? t.name)).isSome := by
      show ((merge jo params).get? t.name).isSome = _
      rw [merge_get?]
    rw [merge_get?, gi, hy]
    cases hp : params.get? t.name with
    | some v => exact .param v hp
    | none =>
      cases hl : Dict.lookup t.name a.initSection with
      | some v => exact .init v hp ((Dict.lookup_eq_some_iff hi _ _).mp hl)
      | none =>
        have hni := (Dict.lookup_eq_none_iff _ _).mp hl
        rw [hp] at gc
        show ActionValue a params jo _ t.name y
        cases hj : jo.get? t.name with
        | some v =>
          have gc : (merge jo params).contains t.name = true := by rw [gc, hj]; rfl
          cases hr with
          | given => exact .jail v hp hni hj
          | text _ h => rw [gc] at h; cases h
          | converted _ _ h => rw [gc] at h; cases h
          | wrong _ h => rw [gc] at h; cases h
          | missing h => rw [gc] at h; cases h
          | noSection h => rw [gc] at h; cases h
        | none =>
          have gc : (merge jo params).contains t.name = false := by rw [gc, hj]; rfl
          cases hr with
          | given h => rw [gc] at h; cases h
          | text v _ h => exact .definition v hp hni hj h
          | converted _ _ _ _ h => cases h
          | wrong _ _ _ h => cases h
          | missing _ h => rw [hd]; exact .missing hp hni hj h
          | noSection _ h => rw [hd]; exact .noSection hp hni hj h

/-! ## Types -/

def typed (b : Bool) (x : Option Val) : Option Val :=
  match b, x with
  | true, some (.str v) => some (.bool (asBool v))
  | _, x => x

theorem typed_typed (b c : Bool) (x : Option Val) : typed c (typed b x) = typed (b || c) x := by
  cases b <;> cases c <;> cases x with
  | none => rfl
  | some x => cases x <;> rfl

theorem convertOpt_get? (o : Opts) (t : Template) (k : String) :
    (convertOpt o t).get? k = (o.get? k).map (typed (decide (t.name = k) && decide (t.kind = .bool))) := by
  have id : ∀ y : Option (Option Val), Option.map (typed false) y = y := by
    intro y; cases y with
    | none => rfl
    | some x => rfl
  unfold convertOpt
  cases hk : t.kind with
  | bool =>
    by_cases e : t.name = k
    · subst e
      cases ho : o.get? t.name with
      | none => simp [ho]
      | some x =>
        cases x with
        | none => simp [ho, typed]
        | some v => cases v <;> simp [ho, typed]
    · have : (decide (t.name = k) && decide (Kind.bool = Kind.bool)) = false := by simp [e]
      rw [this, id]
      split
      · rw [Dict.get?_insert_ne _ (fun x => e x.symm)]
      · rfl
  | string => simp [id]
  | int => simp [id]

theorem foldl_convertOpt : ∀ (ts : List Template) (o : Opts) (k : String),
    (ts.foldl convertOpt o).get? k = (o.get? k).map (typed (ts.any (fun t => decide (t.name = k) && decide (t.kind = .bool)))) := by
  intro ts
  induction ts with
  | nil =>
    intro o k
    cases h : o.get? k with
    | none => simp [h]
    | some x => simp [h, typed]
  | cons t ts ih =>
    intro o k
    rw [List.foldl_cons, ih, convertOpt_get?, List.any_cons, Option.map_map]
    congr 1
    funext x
    exact typed_typed ..

theorem switch_iff (k : String) : actionOpts.any (fun t => decide (t.name = k) && decide (t.kind = .bool)) = decide (k ∈ switches) := by
  rw [Bool.eq_iff_iff]
  simp [actionOpts, switches, List.any_cons]
  constructor
  · rintro (h | h | h) <;> simp [h]
  · rintro (h | h | h) <;> simp [h]

theorem typed_iff (k : String) (x v : Option Val) : v = typed (decide (k ∈ switches)) x ↔ Typed k x v := by
  have hb : ∀ (s : Str) (b : Bool), b = asBool s ↔ (b = true ↔ s.map Char.toLower ∈ ["1".toList, "on".toList, "true".toList, "yes".toList]) := by
    intro s b
    have h1 := converts_iff (env := ⟨fun _ => none, fun _ => none, fun _ => [], fun _ => none⟩) .bool s (.bool b)
    constructor
    · intro e
      have := h1.mp (by simp [convertVal, e])
      cases this with
      | bool _ _ h => exact h
    · intro h
      have := h1.mpr (.bool s b h)
      simp [convertVal] at this
      exact this.symm
  constructor
  · rintro rfl
    by_cases hk : k ∈ switches
    · rw [decide_eq_true hk]
      cases x with
      | none => exact .other _ (by simp)
      | some x =>
        cases x with
        | str s => exact .switch s _ hk ((hb s _).mp rfl)
        | int i => exact .other _ (by simp)
        | bool b => exact .other _ (by simp)
    · rw [decide_eq_false hk]
      exact .text x hk
  · intro h
    cases h with
    | switch s b hk h => rw [decide_eq_true hk, (hb s b).mpr h]; rfl
    | text _ hk => rw [decide_eq_false hk]; rfl
    | other _ h =>
      cases hd : decide (k ∈ switches) with
      | false => rfl
      | true =>
        cases x with
        | none => rfl
        | some x =>
          cases x with
          | str s => exact absurd rfl (h s)
          | int i => rfl
          | bool b => rfl

/-! ## Properties -/

theorem props_nodup (c i : Opts) : ((props c i).map Prod.fst).Nodup := by
  unfold props
  rw [List.map_append, List.nodup_append]
  refine ⟨Dict.nodup_filter _ c.nodup _, Dict.nodup_filter _ i.nodup _, ?_⟩
  intro k h1 k' h2 e
  subst e
  obtain ⟨x, hx, e1⟩ := List.mem_map.mp h1
  obtain ⟨y, hy, e2⟩ := List.mem_map.mp h2
  have hx := (List.mem_filter.mp hx).2
  have hy := (List.mem_filter.mp hy).2
  rw [e1] at hx
  rw [e2] at hy
  rw [Bool.and_eq_true] at hx hy
  have h1 := hx.1
  have h2 := hy.1
  rw [h1] at h2
  cases h2

theorem mem_props (c i : Opts) (k : String) (v : Option Val) : (k, v) ∈ props c i ↔ (IsSetting k ∧ c.get? k = some v) ∨ (¬IsSetting k ∧ ¬Known k ∧ i.get? k = some v) := by
  unfold props
  rw [List.mem_append, List.mem_filter, List.mem_filter, ← Dict.get?_eq_some_iff, ← Dict.get?_eq_some_iff]
  have hk : (!isKnown k) = true ↔ ¬Known k := by rw [← isKnown_iff]; simp
  have hs : decide (k ∈ actionOpts.map (·.name)) = true ↔ IsSetting k := by rw [decide_eq_true_iff, names_iff]
  have hs' : (!decide (k ∈ actionOpts.map (·.name))) = true ↔ ¬IsSetting k := by rw [← hs]; simp
  simp only [Bool.and_eq_true]
  rw [hk, hs, hs']
  constructor
  · rintro (⟨h1, h2, _⟩ | ⟨h1, h2, h3⟩)
    · exact .inl ⟨h2, h1⟩
    · exact .inr ⟨h2, h3, h1⟩
  · rintro (⟨h1, h2⟩ | ⟨h1, h2, h3⟩)
    · exact .inl ⟨h2, h1, setting_plain h1⟩
    · exact .inr ⟨h3, h1, h2⟩

/-- What is combined. -/
theorem combined_spec {env : Reader.Env} {o i c : Opts} (h : actionCombined env o i = some c) :
    ∃ c', ((merge o i).items = [] ∧ c' = merge o i ∨ (merge o i).items ≠ [] ∧ env.subst (merge o i) = some c') ∧
      ∀ k v, c.get? k = some v ↔ ∃ x, c'.get? k = some x ∧ Typed k x v := by
  unfold actionCombined at h
  dsimp only at h
  split at h
  · rename_i he
    rw [List.isEmpty_iff] at he
    cases h
    refine ⟨_, .inl ⟨he, rfl⟩, fun k v => ?_⟩
    have : (merge o i).get? k = none := by unfold Dict.get?; rw [he]; rfl
    rw [this]
    simp
  · rename_i he
    rw [List.isEmpty_iff] at he
    cases hs : env.subst (merge o i) with
    | none => rw [hs] at h; cases h
    | some c' =>
      rw [hs] at h
      cases h
      refine ⟨c', .inr ⟨he, rfl⟩, fun k v => ?_⟩
      rw [foldl_convertOpt, switch_iff, Option.map_eq_some_iff]
      constructor
      · rintro ⟨x, hx, e⟩; exact ⟨x, hx, (typed_iff ..).mp e.symm⟩
      · rintro ⟨x, hx, e⟩; exact ⟨x, hx, ((typed_iff ..).mpr e).symm⟩

end Verif.ActionReader
