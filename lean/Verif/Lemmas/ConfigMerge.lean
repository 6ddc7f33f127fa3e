import Verif.Spec.Config

/-!
# Lemmas: merged sections
-/

namespace Verif.Config

open Spec.Config

theorem known_inj {a b : String} (h : "KNOWN/" ++ a = "KNOWN/" ++ b) : a = b := by
  have := congrArg String.toList h
  exact String.toList_inj.1 (by simpa using this)

/-- reading from a dictionary of items -/
theorem lookup_foldl_insert {k : String} : ∀ (l : List (String × Value)) (d : Section), (l.map Prod.fst).Nodup →
    (l.foldl (fun d kv => d.insert kv.1 kv.2) d).get? k = (Dict.lookup k l).or (d.get? k)
  | [], d, _ => by simp [Dict.lookup]
  | (j, v) :: l, d, h => by
      have h' := List.nodup_cons.1 h
      rw [List.foldl_cons, lookup_foldl_insert l _ h'.2]
      by_cases e : k = j
      · subst e
        have : Dict.lookup k l = none := (Dict.lookup_eq_none_iff _ _).2 h'.1
        simp [Dict.lookup, this, Dict.get?_insert_self]
      · simp only [Dict.lookup]
        rw [Dict.get?_insert_ne _ e]
        simp [e, eq_comm]

theorem get?_update (d s : Section) (k : String) : (update d s).get? k = (s.get? k).or (d.get? k) :=
  lookup_foldl_insert s.items d s.nodup

theorem update_empty (s : Section) (k : String) : (update Dict.empty s).get? k = s.get? k := by
  rw [get?_update]; simp

/-- value of an option of a section -/
def optOf (c : Cfg) (sec opt : String) : Option Value := (c.sections.get? sec).bind (·.get? opt)

/-- a section that keeps previous values -/
def IsKnown (sec : String) : Prop := ∃ m, sec = "KNOWN/" ++ m

structure Inv (c : Cfg) (w : List (String × Section)) : Prop where
  sec : ∀ sec, ¬IsKnown sec → ∀ opt, optOf c sec opt = (assigned w sec opt).getLast?
  ex : ∀ sec, ¬IsKnown sec → ((∃ s, c.sections.get? sec = some s) ↔ ∃ x ∈ w, x.1 = sec)
  known : ∀ sec opt, optOf c ("KNOWN/" ++ sec) opt = (assigned w sec opt).dropLast.getLast?

theorem assigned_snoc (w : List (String × Section)) (n : String) (s : Section) (sec opt : String) :
    assigned (w ++ [(n, s)]) sec opt = assigned w sec opt ++ (if n = sec then (s.get? opt).toList else []) := by
  unfold assigned
  rw [List.filterMap_append]
  congr 1
  by_cases e : n = sec
  · cases h : s.get? opt <;> simp [e, h]
  · simp [e]

theorem inv_nil : Inv empty [] where
  sec := fun _ _ _ => rfl
  ex := fun _ _ => by simp [empty]
  known := fun _ _ => rfl

theorem inv_step {c : Cfg} {w : List (String × Section)} (h : Inv c w) {n : String} (s : Section) (hn : ¬IsKnown n) :
    Inv (mergeOne c n s) (w ++ [(n, s)]) := by
  have hk : ∀ sec, "KNOWN/" ++ sec ≠ n := fun sec e => hn ⟨sec, e.symm⟩
  unfold mergeOne
  cases hs : c.sections.get? n with
  | some s2 =>
    have hs2 : ∀ opt, s2.get? opt = (assigned w n opt).getLast? := fun opt => by rw [← h.sec n hn]; simp [optOf, hs]
    refine ⟨fun sec hsec opt => ?_, fun sec hsec => ?_, fun sec opt => ?_⟩
    · rw [assigned_snoc]
      by_cases e : sec = n
      · subst e
        simp only [optOf, mergeSection, Dict.get?_insert_self, Option.bind_some, get?_update, if_true, hs2]
        cases s.get? opt <;> simp
      · have e' : sec ≠ "KNOWN/" ++ n := fun x => hsec ⟨n, x⟩
        rw [if_neg (Ne.symm e), List.append_nil, ← h.sec sec hsec]
        simp only [optOf, mergeSection]
        rw [Dict.get?_insert_ne _ e, Dict.get?_insert_ne _ e']
    · by_cases e : sec = n
      · subst e; simp [mergeSection]
      · have e' : sec ≠ "KNOWN/" ++ n := fun x => hsec ⟨n, x⟩
        simp only [mergeSection]
        rw [Dict.get?_insert_ne _ e, Dict.get?_insert_ne _ e', h.ex sec hsec]
        simp [Ne.symm e]
    · rw [assigned_snoc]
      by_cases e : sec = n
      · subst e
        simp only [optOf, mergeSection, if_true]
        rw [Dict.get?_insert_ne _ (hk _), Dict.get?_insert_self]
        have ho := h.known sec opt
        have hf : (s2.filter (fun k _ => s.contains k)).get? opt = if s.contains opt then s2.get? opt else none := by
          rw [Dict.get?_filter]; cases s2.get? opt <;> simp [Option.filter]
        have hd : ((c.sections.get? ("KNOWN/" ++ sec)).getD Dict.empty).get? opt = optOf c ("KNOWN/" ++ sec) opt := by
          unfold optOf; cases c.sections.get? ("KNOWN/" ++ sec) <;> simp
        rw [Option.bind_some, get?_update, hf, hd, ho, hs2]
        cases hv : s.get? opt with
        | none => simp [Dict.contains, hv]
        | some v =>
          simp only [Dict.contains, hv, Option.isSome_some, if_true, Option.toList_some, List.dropLast_concat]
          cases hg : (assigned w sec opt).getLast? with
          | some x => simp
          | none => rw [List.getLast?_eq_none_iff.1 hg]; rfl
      · have e' : "KNOWN/" ++ sec ≠ "KNOWN/" ++ n := fun x => e (known_inj x)
        rw [if_neg (Ne.symm e), List.append_nil, ← h.known]
        simp only [optOf, mergeSection]
        rw [Dict.get?_insert_ne _ (hk _), Dict.get?_insert_ne _ e']
  | none =>
    have hs2 : ∀ opt, assigned w n opt = [] := fun opt => List.getLast?_eq_none_iff.1 (by rw [← h.sec n hn]; simp [optOf, hs])
    refine ⟨fun sec hsec opt => ?_, fun sec hsec => ?_, fun sec opt => ?_⟩
    · rw [assigned_snoc]
      by_cases e : sec = n
      · subst e
        simp only [optOf, Dict.get?_insert_self, Option.bind_some, if_true, hs2]
        cases s.get? opt <;> simp
      · rw [if_neg (Ne.symm e), List.append_nil, ← h.sec sec hsec]
        simp only [optOf]
        rw [Dict.get?_insert_ne _ e]
    · by_cases e : sec = n
      · subst e; simp
      · dsimp only
        rw [Dict.get?_insert_ne _ e, h.ex sec hsec]
        simp [Ne.symm e]
    · have : optOf { c with sections := c.sections.insert n s } ("KNOWN/" ++ sec) opt = optOf c ("KNOWN/" ++ sec) opt := by
        simp only [optOf]
        rw [Dict.get?_insert_ne _ (hk _)]
      rw [this, h.known, assigned_snoc]
      by_cases e : sec = n
      · subst e
        rw [hs2, if_pos rfl]
        cases s.get? opt <;> simp
      · rw [if_neg (Ne.symm e), List.append_nil]

theorem isWord_iff (c : Char) : isWord c = true ↔ c.isAlphanum ∨ c = '_' := by simp [isWord]

theorem conditional_iff (name base cond : String) : conditional name = some (base, cond) ↔ Conditional name base cond := by
  constructor
  · intro h
    have e : name.toList.takeWhile isWord ++ name.toList.dropWhile isWord = name.toList := List.takeWhile_append_dropWhile
    unfold conditional at h
    dsimp only at h
    split at h
    · exact absurd h (by simp)
    · rename_i c r hr hne
      simp only [Option.some.injEq, Prod.mk.injEq] at h
      obtain ⟨rfl, rfl⟩ := h
      refine ⟨?_, ?_, ?_, c, r, by simp⟩
      · apply String.toList_inj.1
        rw [String.toList_append, String.toList_ofList, String.toList_ofList, ← hr, e]
      · intro e0
        apply hne
        have := congrArg String.toList e0
        simpa using this
      · intro ch hch
        rw [String.toList_ofList] at hch
        exact (isWord_iff ch).1 (List.all_eq_true.1 List.all_takeWhile ch hch)
    · exact absurd h (by simp)
  · rintro ⟨rfl, hne, hw, x, r, hc⟩
    have hw' : ∀ c ∈ base.toList, isWord c = true := fun c hc => (isWord_iff c).2 (hw c hc)
    have e1 : (base ++ cond).toList = base.toList ++ '?' :: x :: r := by rw [String.toList_append, hc]
    have hq : ¬isWord '?' = true := by decide
    have e2 : (base ++ cond).toList.takeWhile isWord = base.toList := by
      rw [e1, List.takeWhile_append_of_pos hw', List.takeWhile_cons_of_neg hq, List.append_nil]
    have e3 : (base ++ cond).toList.dropWhile isWord = '?' :: x :: r := by
      rw [e1, List.dropWhile_append_of_pos hw', List.dropWhile_cons_of_neg hq]
    unfold conditional
    rw [e2, e3]
    have hb : base.toList ≠ [] := fun h => hne (String.toList_inj.1 (by simpa using h))
    obtain ⟨y, ys, hy⟩ := List.exists_cons_of_ne_nil hb
    have : String.ofList ('?' :: x :: r) = cond := by rw [← hc, String.ofList_toList]
    rw [← this]
    have : String.ofList (y :: ys) = base := by rw [← hy, String.ofList_toList]
    rw [hy, ← this]
    rfl

theorem suffix_inj {a b c : String} (h : a ++ c = b ++ c) : a = b := by
  have := congrArg String.toList h
  exact String.toList_inj.1 (by simpa using this)

theorem get?_suffixed_aux {cond opt : String} {v : Value} : ∀ (l : List (String × Value)) (d : Section), (l.map Prod.fst).Nodup →
    ((l.foldl (fun d kv => d.insert (kv.1 ++ cond) kv.2) d).get? opt = some v ↔
      (∃ k, opt = k ++ cond ∧ (k, v) ∈ l) ∨ ((∀ k, opt = k ++ cond → k ∉ l.map Prod.fst) ∧ d.get? opt = some v))
  | [], d, _ => by simp
  | (j, u) :: l, d, h => by
      have h' := List.nodup_cons.1 h
      rw [List.foldl_cons, get?_suffixed_aux l _ h'.2]
      by_cases e : opt = j ++ cond
      · subst e
        rw [Dict.get?_insert_self]
        constructor
        · rintro (⟨k, e, hk⟩ | ⟨_, e⟩)
          · exact .inl ⟨k, e, List.mem_cons_of_mem _ hk⟩
          · cases e; exact .inl ⟨j, rfl, List.mem_cons_self ..⟩
        · rintro (⟨k, e, hk⟩ | ⟨hn, _⟩)
          · obtain rfl := suffix_inj e
            rcases List.mem_cons.1 hk with e | hk
            · cases e
              refine .inr ⟨fun k e => ?_, rfl⟩
              obtain rfl := suffix_inj e
              exact h'.1
            · exact .inl ⟨j, rfl, hk⟩
          · exact absurd (List.mem_cons_self ..) (hn j rfl)
      · rw [Dict.get?_insert_ne _ e]
        constructor
        · rintro (⟨k, e', hk⟩ | ⟨hn, hd⟩)
          · exact .inl ⟨k, e', List.mem_cons_of_mem _ hk⟩
          · refine .inr ⟨fun k e' => ?_, hd⟩
            rw [List.map_cons, List.mem_cons]
            rintro (rfl | hk)
            · exact e e'
            · exact hn k e' hk
        · rintro (⟨k, e', hk⟩ | ⟨hn, hd⟩)
          · rcases List.mem_cons.1 hk with e2 | hk
            · cases e2; exact absurd e' e
            · exact .inl ⟨k, e', hk⟩
          · exact .inr ⟨fun k e' hk => hn k e' (List.mem_cons_of_mem _ hk), hd⟩

theorem get?_suffixed (s : Section) (cond opt : String) (v : Value) :
    (suffixed s cond).get? opt = some v ↔ ∃ k, opt = k ++ cond ∧ s.get? k = some v := by
  unfold suffixed
  rw [get?_suffixed_aux _ _ s.nodup]
  simp only [Dict.get?_empty, Dict.get?_eq_some_iff]
  simp

theorem contributes_target (n : String) (s : Section) : Contributes n s (target n s).1 (target n s).2 := by
  unfold target
  cases h : conditional n with
  | none =>
    refine .inr ⟨fun base cond hc => ?_, rfl, rfl⟩
    rw [(conditional_iff ..).2 hc] at h
    cases h
  | some bc =>
    obtain ⟨base, cond⟩ := bc
    exact .inl ⟨cond, (conditional_iff ..).1 h, fun opt v => get?_suffixed s cond opt v⟩

theorem contributes_unique {n sec : String} {s opts : Section} (h : Contributes n s sec opts) :
    (target n s).1 = sec ∧ ∀ opt, (target n s).2.get? opt = opts.get? opt := by
  unfold target
  rcases h with ⟨cond, hc, ho⟩ | ⟨hc, rfl, rfl⟩
  · rw [(conditional_iff ..).2 hc]
    refine ⟨rfl, fun opt => Option.ext fun v => ?_⟩
    rw [ho, get?_suffixed]
  · cases h : conditional sec with
    | none => exact ⟨rfl, fun _ => rfl⟩
    | some bc => exact absurd ((conditional_iff ..).1 h) (hc _ _)

theorem target_not_known {n : String} (s : Section) (h : ¬IsKnown n) : ¬IsKnown (target n s).1 := by
  unfold target
  cases hc : conditional n with
  | none => exact h
  | some bc =>
    obtain ⟨base, cond⟩ := bc
    rintro ⟨m, e⟩
    have := ((conditional_iff ..).1 hc).2.2.1 '/' (by rw [show base = "KNOWN/" ++ m from e, String.toList_append]; simp)
    revert this
    decide

/-- what sections contribute -/
def targets (l : List (String × Section)) : List (String × Section) := l.map (fun ns => target ns.1 ns.2)

theorem written_assigned {l w : List (String × Section)} (h : Written l w) (sec opt : String) : assigned (targets l) sec opt = assigned w sec opt := by
  induction h with
  | nil => rfl
  | @cons n s sec' opts l w hc _ ih =>
    have hu := contributes_unique hc
    unfold assigned targets at ih ⊢
    rw [List.map_cons, List.filterMap_cons, List.filterMap_cons, ih]
    dsimp only
    rw [hu.1, hu.2]

theorem written_mem {l w : List (String × Section)} (h : Written l w) (sec : String) : (∃ x ∈ targets l, x.1 = sec) ↔ ∃ x ∈ w, x.1 = sec := by
  induction h with
  | nil => rfl
  | @cons n s sec' opts l w hc _ ih =>
    have hu := contributes_unique hc
    unfold targets at ih ⊢
    have hx : ∀ (a : String × Section) (t : List (String × Section)), (∃ x ∈ a :: t, x.1 = sec) ↔ a.1 = sec ∨ ∃ x ∈ t, x.1 = sec :=
      fun a t => by simp only [List.mem_cons, or_and_right, exists_or, exists_eq_left]
    rw [List.map_cons, hx, hx, ih, hu.1]

theorem written_targets : ∀ l : List (String × Section), Written l (targets l)
  | [] => .nil
  | (n, s) :: l => .cons (contributes_target n s) (written_targets l)

theorem mergeOne_defaults (c : Cfg) (n : String) (s : Section) : (mergeOne c n s).defaults = c.defaults := by
  unfold mergeOne; split <;> rfl

theorem inv_sections : ∀ (l : List (String × Section)) {c : Cfg} {w : List (String × Section)}, Inv c w → (∀ ns ∈ l, ¬IsKnown ns.1) →
    Inv (l.foldl (fun c ns => mergeOne c (target ns.1 ns.2).1 (target ns.1 ns.2).2) c) (w ++ targets l)
  | [], _, w, h, _ => by simpa [targets] using h
  | ns :: l, c, w, h, hk => by
      have := inv_sections l (inv_step h (target ns.1 ns.2).2 (target_not_known ns.2 (hk ns (List.mem_cons_self ..))))
        (fun x hx => hk x (List.mem_cons_of_mem _ hx))
      simpa [targets] using this

theorem defaults_sections : ∀ (l : List (String × Section)) (c : Cfg),
    (l.foldl (fun c ns => mergeOne c (target ns.1 ns.2).1 (target ns.1 ns.2).2) c).defaults = c.defaults
  | [], _ => rfl
  | ns :: l, c => by rw [List.foldl_cons, defaults_sections l, mergeOne_defaults]

/-- All files merged. -/
def mergeAll (c : Cfg) (files : List Cfg) : Cfg := files.foldl mergeFile c

theorem mergeFiles_eq (fs : FileSys) : ∀ (l : List String) (c : Cfg),
    mergeFiles fs l c = (l.filter (fun f => (fs.parse f).isSome), mergeAll c (l.filterMap (fun f => (fs.parse f).map (·.cfg))))
  | [], _ => rfl
  | f :: l, c => by
      unfold mergeFiles
      cases h : fs.parse f with
      | none => simp [h, mergeFiles_eq fs l]
      | some x => simp [h, mergeFiles_eq fs l, mergeAll]

theorem inv_mergeAll : ∀ (files : List Cfg) {c : Cfg} {w : List (String × Section)}, Inv c w → (∀ ns ∈ sectionsOf files, ¬IsKnown ns.1) →
    Inv (mergeAll c files) (w ++ targets (sectionsOf files))
  | [], _, w, h, _ => by simpa [targets, sectionsOf, mergeAll] using h
  | f :: files, c, w, h, hk => by
      have hk1 : ∀ ns ∈ f.sections.items, ¬IsKnown ns.1 := fun ns hn => hk ns (by simp [sectionsOf, hn])
      have hk2 : ∀ ns ∈ sectionsOf files, ¬IsKnown ns.1 := fun ns hn => hk ns (by
        unfold sectionsOf at hn ⊢; rw [List.flatMap_cons]; exact List.mem_append_right _ hn)
      have h1 : Inv { c with defaults := update c.defaults f.defaults } w := ⟨h.sec, h.ex, h.known⟩
      have := inv_mergeAll files (inv_sections f.sections.items h1 hk1) hk2
      simpa [targets, sectionsOf, mergeAll, mergeFile] using this

theorem defaults_mergeAll (opt : String) : ∀ (files : List Cfg) (c : Cfg),
    (mergeAll c files).defaults.get? opt = ((assignedDefault files opt).getLast?).or (c.defaults.get? opt)
  | [], _ => rfl
  | f :: files, c => by
      have : mergeAll c (f :: files) = mergeAll (mergeFile c f) files := rfl
      rw [this, defaults_mergeAll opt files]
      unfold mergeFile
      rw [defaults_sections]
      dsimp only
      rw [get?_update]
      unfold assignedDefault
      rw [List.filterMap_cons]
      cases h : f.defaults.get? opt with
      | none => simp
      | some v =>
        dsimp only
        rw [List.getLast?_cons]
        cases (List.filterMap (fun f => f.defaults.get? opt) files).getLast? <;> simp

end Verif.Config
