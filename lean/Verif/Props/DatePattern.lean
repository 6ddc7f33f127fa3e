import Verif.Spec.DatePattern
import Verif.Props.Cache

/-! # Properties of date patterns (C101) -/

set_option linter.unusedSimpArgs false

namespace Verif.DatePattern

open Verif.Spec.DatePattern

/-! ## A pattern alone -/

theorem inText_iff (a l : Text) : inText a l = true ↔ Part a l := by
  induction l with
  | nil =>
    simp only [inText, List.isEmpty_iff, Part]
    constructor
    · rintro rfl; exact ⟨[], [], rfl⟩
    · rintro ⟨u, v, h⟩
      have := congrArg List.length h
      simp only [List.length_nil, List.length_append] at this
      exact List.eq_nil_of_length_eq_zero (by omega)
  | cons c l ih =>
    rw [inText, Bool.or_eq_true, ih, List.isPrefixOf_iff_prefix]
    constructor
    · rintro (⟨v, h⟩ | ⟨u, v, h⟩)
      · exact ⟨[], v, by simpa using h.symm⟩
      · exact ⟨c :: u, v, by simp [h]⟩
    · rintro ⟨u, v, h⟩
      cases u with
      | nil => exact .inl ⟨v, by simpa using h.symm⟩
      | cons d u =>
        simp only [List.cons_append, List.cons.injEq] at h
        exact .inr ⟨u, v, h.2⟩

theorem prefix_map (w l : Text) : w.isPrefixOf (l.map Char.toLower) = true ↔ ∃ x v, l = x ++ v ∧ x.map Char.toLower = w := by
  rw [List.isPrefixOf_iff_prefix]
  constructor
  · rintro ⟨v, h⟩
    refine ⟨l.take w.length, l.drop w.length, (List.take_append_drop _ _).symm, ?_⟩
    rw [List.map_take, ← h]
    simp
  · rintro ⟨x, v, rfl, rfl⟩
    exact ⟨v.map Char.toLower, by simp⟩

theorem hasEpoch_iff (prev : Option Char) (l : Text) :
    hasEpoch prev l = true ↔ ∃ u w v, l = u ++ w ++ v ∧ (w.map Char.toLower = "{epoch}".toList ∨ w.map Char.toLower = "{lepoch}".toList) ∧
      (u = [] → prev ≠ some '\\') ∧ ∀ u', u ≠ u' ++ ['\\'] := by
  induction l generalizing prev with
  | nil =>
    simp only [hasEpoch, Bool.false_eq_true, false_iff]
    rintro ⟨u, w, v, h, hw, -⟩
    have h0 := congrArg List.length h
    simp only [List.length_nil, List.length_append] at h0
    have : w = [] := List.eq_nil_of_length_eq_zero (by omega)
    subst this
    simp at hw
  | cons c l ih =>
    rw [hasEpoch, Bool.or_eq_true, ih, Bool.and_eq_true, Bool.or_eq_true, prefix_map, prefix_map, decide_eq_true_iff]
    constructor
    · rintro (⟨hp, h⟩ | ⟨u, w, v, h, hw, h1, h2⟩)
      · rcases h with ⟨x, v, h, hx⟩ | ⟨x, v, h, hx⟩
        · exact ⟨[], x, v, by simpa using h, .inl hx, fun _ => hp, by simp⟩
        · exact ⟨[], x, v, by simpa using h, .inr hx, fun _ => hp, by simp⟩
      · refine ⟨c :: u, w, v, by simp [h], hw, by simp, ?_⟩
        intro u' e
        cases u' with
        | nil => simp at e; exact h1 e.2 (by simp [e.1])
        | cons d u' => simp at e; exact h2 u' e.2
    · rintro ⟨u, w, v, h, hw, h1, h2⟩
      cases u with
      | nil =>
        refine .inl ⟨h1 rfl, ?_⟩
        rcases hw with hw | hw
        · exact .inl ⟨w, v, by simpa using h, hw⟩
        · exact .inr ⟨w, v, by simpa using h, hw⟩
      | cons d u =>
        simp only [List.cons_append, List.cons.injEq] at h
        refine .inr ⟨u, w, v, by simpa using h.2, hw, ?_, ?_⟩
        · rintro rfl e
          simp only [Option.some.injEq] at e
          exact h2 [] (by simp [← h.1, e])
        · intro u' e; exact h2 (d :: u') (by simp [e])

theorem hasEpoch_none (p : Text) : hasEpoch none p = true ↔ Epoch p := by
  rw [hasEpoch_iff]
  constructor
  · rintro ⟨u, w, v, h, hw, -, h2⟩; exact ⟨u, w, v, h, hw, h2⟩
  · rintro ⟨u, w, v, h, hw, h2⟩; exact ⟨u, w, v, h, hw, by simp, h2⟩

/-- What is added for a pattern known as `key` if nothing is known from before -/
def fresh (lib : Lib) (p key : Text) : Added :=
  if key = "{^LN-BEG}".toList ∨ key = "{DEFAULT}".toList then .defaults (decide (key = "{^LN-BEG}".toList))
  else if inText "{DATE}".toList key then .within p
  else
    match build lib (if key = "{NONE}".toList then "{UNB}^".toList else p) key with
    | some x => .template x
    | none => .invalid

theorem word_true (w : String) (key : Text) : Word w true key ↔ key = ("{^LN-BEG}" ++ w).toList ∨ key = ("^" ++ w).toList := Iff.rfl
theorem word_false (w : String) (key : Text) : Word w false key ↔ key = w.toList := by simp [Word]

theorem word_iff (w : String) (key : Text) (b : Bool) :
    Word w b key ↔ (key = w.toList ∨ key = ("{^LN-BEG}" ++ w).toList ∨ key = ("^" ++ w).toList) ∧ b = decide (key ≠ w.toList) := by
  cases b with
  | true =>
    rw [word_true]
    constructor
    · rintro (rfl | rfl)
      · exact ⟨.inr (.inl rfl), by simpa using fun h => by have := congrArg List.length h; simp only [List.length_cons] at this; omega⟩
      · exact ⟨.inr (.inr rfl), by simp⟩
    · rintro ⟨h | h | h, e⟩
      · simp [h] at e
      · exact .inl h
      · exact .inr h
  | false =>
    rw [word_false]
    constructor
    · rintro rfl; exact ⟨.inl rfl, by simp⟩
    · rintro ⟨-, e⟩; simpa using e.symm

theorem word_epoch (key : Text) (b : Bool) : Word "EPOCH" b key ↔
    (key = "EPOCH".toList ∨ key = "{^LN-BEG}EPOCH".toList ∨ key = "^EPOCH".toList) ∧ b = decide (key ≠ "EPOCH".toList) :=
  word_iff _ _ _
theorem word_lepoch (key : Text) (b : Bool) : Word "LEPOCH" b key ↔
    (key = "LEPOCH".toList ∨ key = "{^LN-BEG}LEPOCH".toList ∨ key = "^LEPOCH".toList) ∧ b = decide (key ≠ "LEPOCH".toList) :=
  word_iff _ _ _
theorem word_tai (key : Text) (b : Bool) : Word "TAI64N" b key ↔
    (key = "TAI64N".toList ∨ key = "{^LN-BEG}TAI64N".toList ∨ key = "^TAI64N".toList) ∧ b = decide (key ≠ "TAI64N".toList) :=
  word_iff _ _ _

theorem not_part {a b : Text} (h : inText a b = false) : ¬ Part a b := by rw [← inText_iff]; simp [h]

theorem means_fresh (lib : Lib) (p key : Text) : Means lib p key (fresh lib p key) := by
  unfold fresh
  by_cases h1 : key = "{^LN-BEG}".toList ∨ key = "{DEFAULT}".toList
  · rw [if_pos h1]
    rcases h1 with rfl | rfl
    · exact .lineBegin rfl
    · exact .default rfl
  · rw [if_neg h1]
    simp only [not_or] at h1
    by_cases h2 : inText "{DATE}".toList key = true
    · rw [if_pos h2]; exact .date ((inText_iff _ _).mp h2)
    · rw [if_neg h2]
      have h2' : ¬ Part "{DATE}".toList key := by rw [← inText_iff]; exact h2
      have rest : (Part "EPOCH".toList key → ¬ Epoch p ∧ ∀ b, ¬ Word "EPOCH" b key ∧ ¬ Word "LEPOCH" b key) →
          Means lib p key (match (if key = "TAI64N".toList ∨ key = "{^LN-BEG}TAI64N".toList ∨ key = "^TAI64N".toList then
            some (Template.tai64n (decide (key ≠ "TAI64N".toList)))
            else if lib.valid (used p key) then some (.regex (used p key)) else none) with | some x => .template x | none => .invalid) := by
        intro he
        by_cases h3 : key = "TAI64N".toList ∨ key = "{^LN-BEG}TAI64N".toList ∨ key = "^TAI64N".toList
        · rw [if_pos h3]
          exact .tai _ ((word_tai _ _).mpr ⟨h3, rfl⟩)
        · rw [if_neg h3]
          have := Means.format (lib := lib) (p := p) (key := key) (lib.valid (used p key)) h1.2 h1.1 h2' he
            (fun b hb => h3 ((word_tai _ _).mp hb).1) rfl
          cases hv : lib.valid (used p key) <;> simpa [hv] using this
      have hu : (if key = "{NONE}".toList then "{UNB}^".toList else p) = used p key := rfl
      rw [hu]
      unfold build
      dsimp only
      by_cases h4 : inText "EPOCH".toList key = true
      · rw [if_pos h4]
        have hn : key ≠ "{NONE}".toList := by rintro rfl; revert h4; decide
        have hup : used p key = p := if_neg hn
        by_cases h5 : hasEpoch none p = true
        · rw [hup, if_pos h5]
          exact .epochIn _ h2' ((inText_iff _ _).mp h4) ((hasEpoch_none p).mp h5) (inText_iff _ _)
        · rw [hup, if_neg h5]
          have h5' : ¬ Epoch p := by rw [← hasEpoch_none]; exact h5
          by_cases h6 : key = "EPOCH".toList ∨ key = "{^LN-BEG}EPOCH".toList ∨ key = "^EPOCH".toList
          · rw [if_pos h6]; exact .epoch _ h5' ((word_epoch _ _).mpr ⟨h6, rfl⟩)
          · rw [if_neg h6]
            by_cases h7 : key = "LEPOCH".toList ∨ key = "{^LN-BEG}LEPOCH".toList ∨ key = "^LEPOCH".toList
            · rw [if_pos h7]; exact .lepoch _ h5' ((word_lepoch _ _).mpr ⟨h7, rfl⟩)
            · rw [if_neg h7]
              have := rest (fun _ => ⟨h5', fun b => ⟨fun h => h6 ((word_epoch _ _).mp h).1, fun h => h7 ((word_lepoch _ _).mp h).1⟩⟩)
              rw [hup] at this
              exact this
      · rw [if_neg h4]
        exact rest (fun h => absurd ((inText_iff _ _).mpr h) h4)

theorem means_unique (lib : Lib) (p key : Text) (x : Added) (h : Means lib p key x) : x = fresh lib p key := by
  unfold fresh
  cases h with
  | default h => subst h; rfl
  | lineBegin h => subst h; rfl
  | date h =>
    have h := (inText_iff _ _).mpr h
    rw [if_neg, if_pos h]
    rintro (rfl | rfl) <;> (revert h; decide)
  | epochIn long h1 h2 h3 h4 =>
    have h2 := (inText_iff _ _).mpr h2
    have h3 := (hasEpoch_none p).mpr h3
    rw [← inText_iff] at h1 h4
    have hk : ¬ (key = "{^LN-BEG}".toList ∨ key = "{DEFAULT}".toList) := by rintro (rfl | rfl) <;> (revert h2; decide)
    have hn : key ≠ "{NONE}".toList := by rintro rfl; revert h2; decide
    rw [if_neg hk, if_neg h1, if_neg hn]
    unfold build
    dsimp only
    rw [if_pos h2, if_pos h3]
    have : inText "LEPOCH".toList key = long := by
      cases long <;> cases h : inText "LEPOCH".toList key <;> simp_all
    rw [this]
  | epoch b h1 h2 =>
    obtain ⟨hk, rfl⟩ := (word_epoch _ _).mp h2
    have h1 : ¬ hasEpoch none p = true := by rw [hasEpoch_none]; exact h1
    have e1 : ¬ (key = "{^LN-BEG}".toList ∨ key = "{DEFAULT}".toList) := by rcases hk with rfl | rfl | rfl <;> decide
    have e2 : ¬ inText "{DATE}".toList key = true := by rcases hk with rfl | rfl | rfl <;> decide
    have e3 : ¬ key = "{NONE}".toList := by rcases hk with rfl | rfl | rfl <;> decide
    have e4 : inText "EPOCH".toList key = true := by rcases hk with rfl | rfl | rfl <;> decide
    rw [if_neg e1, if_neg e2, if_neg e3]
    unfold build
    dsimp only
    rw [if_pos e4, if_neg h1, if_pos hk]
  | lepoch b h1 h2 =>
    obtain ⟨hk, rfl⟩ := (word_lepoch _ _).mp h2
    have h1 : ¬ hasEpoch none p = true := by rw [hasEpoch_none]; exact h1
    have e1 : ¬ (key = "{^LN-BEG}".toList ∨ key = "{DEFAULT}".toList) := by rcases hk with rfl | rfl | rfl <;> decide
    have e2 : ¬ inText "{DATE}".toList key = true := by rcases hk with rfl | rfl | rfl <;> decide
    have e3 : ¬ key = "{NONE}".toList := by rcases hk with rfl | rfl | rfl <;> decide
    have e4 : inText "EPOCH".toList key = true := by rcases hk with rfl | rfl | rfl <;> decide
    have e5 : ¬ (key = "EPOCH".toList ∨ key = "{^LN-BEG}EPOCH".toList ∨ key = "^EPOCH".toList) := by rcases hk with rfl | rfl | rfl <;> decide
    rw [if_neg e1, if_neg e2, if_neg e3]
    unfold build
    dsimp only
    rw [if_pos e4, if_neg h1, if_neg e5, if_pos hk]
  | tai b h2 =>
    obtain ⟨hk, rfl⟩ := (word_tai _ _).mp h2
    have e1 : ¬ (key = "{^LN-BEG}".toList ∨ key = "{DEFAULT}".toList) := by rcases hk with rfl | rfl | rfl <;> decide
    have e2 : ¬ inText "{DATE}".toList key = true := by rcases hk with rfl | rfl | rfl <;> decide
    have e3 : ¬ key = "{NONE}".toList := by rcases hk with rfl | rfl | rfl <;> decide
    have e4 : ¬ inText "EPOCH".toList key = true := by rcases hk with rfl | rfl | rfl <;> decide
    rw [if_neg e1, if_neg e2, if_neg e3]
    unfold build
    dsimp only
    rw [if_neg e4, if_pos hk]
  | format ok h1 h2 h3 h4 h5 h6 =>
    have e1 : ¬ (key = "{^LN-BEG}".toList ∨ key = "{DEFAULT}".toList) := fun h => h.elim h2 h1
    have e2 : ¬ inText "{DATE}".toList key = true := by rw [inText_iff]; exact h3
    rw [if_neg e1, if_neg e2]
    have hu : (if key = "{NONE}".toList then "{UNB}^".toList else p) = used p key := rfl
    have h7 : ¬ (key = "TAI64N".toList ∨ key = "{^LN-BEG}TAI64N".toList ∨ key = "^TAI64N".toList) :=
      fun h => h5 _ ((word_tai _ _).mpr ⟨h, rfl⟩)
    rw [hu]
    unfold build
    dsimp only
    rw [if_neg h7]
    by_cases h8 : inText "EPOCH".toList key = true
    · obtain ⟨h9, h10⟩ := h4 ((inText_iff _ _).mp h8)
      have hn : key ≠ "{NONE}".toList := by rintro rfl; revert h8; decide
      have hup : used p key = p := if_neg hn
      rw [← hasEpoch_none] at h9
      rw [if_pos h8, hup, if_neg h9, if_neg (fun h => (h10 _).1 ((word_epoch _ _).mpr ⟨h, rfl⟩)),
        if_neg (fun h => (h10 _).2 ((word_lepoch _ _).mpr ⟨h, rfl⟩))]
      rw [hup] at h6
      cases ok <;> simp [h6]
    · rw [if_neg h8]
      cases ok <;> simp [h6]

/-! ## With the cache -/

theorem get_again (c : Templates) (t : Int) (k : Text) (h : c.lookup t k = none) :
    ((c.get t k).2.get t k) = (none, (c.get t k).2) := by
  have hn : (c.get t k).2.cache.get? k = none := by
    unfold Cache.get
    unfold Cache.lookup at h
    cases hg : c.cache.get? k with
    | none => exact hg
    | some v =>
      rw [hg] at h
      dsimp only at h ⊢
      by_cases hv : t < v.2
      · rw [if_pos hv] at h; exact absurd h (by simp)
      · rw [if_neg hv]
        show (c.cache.erase k).get? k = none
        rw [Dict.get?_erase]; simp
  unfold Cache.get at hn ⊢
  rw [hn]

/-- The cache after a pattern was added -/
theorem append_eq (lib : Lib) (c : Templates) (t : Int) (p : Text) :
    append lib c t p = match c.lookup t (keyOf lib p) with
      | some x => (.template x, (c.get t (keyOf lib p)).2.set t (keyOf lib p) x)
      | none => match fresh lib p (keyOf lib p) with
        | .template x => (.template x, ((c.get t (keyOf lib p)).2.set t (keyOf lib p) x).set t (keyOf lib p) x)
        | y => (y, (c.get t (keyOf lib p)).2) := by
  unfold append
  dsimp only
  rw [Cache.get_fst]
  cases h : c.lookup t (keyOf lib p) with
  | some x => rfl
  | none =>
    dsimp only
    unfold fresh
    by_cases h1 : keyOf lib p = "{^LN-BEG}".toList ∨ keyOf lib p = "{DEFAULT}".toList
    · rw [if_pos h1, if_pos h1]
    · rw [if_neg h1, if_neg h1]
      by_cases h2 : inText "{DATE}".toList (keyOf lib p) = true
      · rw [if_pos h2, if_pos h2]
      · rw [if_neg h2, if_neg h2]
        unfold getTemplate
        dsimp only
        rw [get_again c t _ h]
        dsimp only
        cases build lib (if keyOf lib p = "{NONE}".toList then "{UNB}^".toList else p) (keyOf lib p) <;> rfl

/-- What is in the cache after a history: templates of patterns of this history, each until an hour after its key was used -/
structure Inv (lib : Lib) (h : List (Int × Text)) (c : Templates) : Prop where
  time : c.maxTime = 3600
  count : c.maxCount = 1000
  size : c.cache.size ≤ 1000
  entry : ∀ k v, c.cache.get? k = some v →
    (∃ e ∈ h, keyOf lib e.2 = k ∧ fresh lib e.2 k = .template v.1) ∧ ∃ e ∈ h, keyOf lib e.2 = k ∧ v.2 = e.1 + 3600

theorem Inv.mono {lib : Lib} {h h' : List (Int × Text)} {c : Templates} (i : Inv lib h c) (hs : ∀ e ∈ h, e ∈ h') : Inv lib h' c :=
  ⟨i.time, i.count, i.size, fun k v hk => by
    obtain ⟨⟨e, he, a⟩, e', he', b⟩ := i.entry k v hk
    exact ⟨⟨e, hs e he, a⟩, e', hs e' he', b⟩⟩

theorem Inv.get {lib : Lib} {h : List (Int × Text)} {c : Templates} (i : Inv lib h c) (t : Int) (k : Text) : Inv lib h (c.get t k).2 := by
  rcases Cache.get_state c t k with e | ⟨e, -⟩
  · rw [e]; exact i
  · rw [e]
    refine ⟨i.time, i.count, ?_, fun j v hj => i.entry j v ?_⟩
    · refine Nat.le_trans ?_ i.size
      exact List.length_filter_le _ _
    · replace hj : (c.cache.erase k).get? j = some v := hj
      rw [Dict.get?_erase] at hj
      split at hj
      · exact absurd hj (by simp)
      · exact hj

theorem Inv.set {lib : Lib} {h : List (Int × Text)} {c : Templates} (i : Inv lib h c) (t : Int) (k : Text) (x : Template)
    (h1 : ∃ e ∈ h, keyOf lib e.2 = k ∧ fresh lib e.2 k = .template x) (h2 : ∃ e ∈ h, keyOf lib e.2 = k ∧ t = e.1) :
    Inv lib h (c.set t k x) := by
  refine ⟨i.time, i.count, ?_, ?_⟩
  · have := Cache.set_size c t k x (by rw [i.count]; decide)
    rwa [i.count] at this
  · intro j v hj
    rcases Cache.set_get c t k j x v hj with ⟨rfl, rfl⟩ | ⟨-, hj⟩
    · refine ⟨h1, ?_⟩
      obtain ⟨e, he, hk, rfl⟩ := h2
      exact ⟨e, he, hk, by simp [i.time]⟩
    · exact i.entry j v hj

theorem Inv.append {lib : Lib} {h : List (Int × Text)} {c : Templates} (i : Inv lib h c) (t : Int) (p : Text) :
    Inv lib (h ++ [(t, p)]) (append lib c t p).2 := by
  have i' : Inv lib (h ++ [(t, p)]) c := i.mono (by simp +contextual)
  have h2 : ∃ e ∈ h ++ [(t, p)], keyOf lib e.2 = keyOf lib p ∧ t = e.1 := ⟨(t, p), by simp, rfl, rfl⟩
  rw [append_eq]
  cases hl : c.lookup t (keyOf lib p) with
  | some x =>
    refine (i'.get t _).set t _ x ?_ h2
    unfold Cache.lookup at hl
    cases hg : c.cache.get? (keyOf lib p) with
    | none => rw [hg] at hl; exact absurd hl (by simp)
    | some v =>
      rw [hg] at hl
      dsimp only at hl
      split at hl
      · cases hl; exact (i'.entry _ v hg).1
      · exact absurd hl (by simp)
  | none =>
    dsimp only
    have h1 : ∀ x, fresh lib p (keyOf lib p) = .template x → ∃ e ∈ h ++ [(t, p)], keyOf lib e.2 = keyOf lib p ∧ fresh lib e.2 (keyOf lib p) = .template x :=
      fun x hx => ⟨(t, p), by simp, rfl, hx⟩
    cases hf : fresh lib p (keyOf lib p) with
    | template x => exact ((i'.get t _).set t _ x (h1 x hf) h2).set t _ x (h1 x hf) h2
    | defaults b => exact i'.get t _
    | within q => exact i'.get t _
    | invalid => exact i'.get t _

theorem run_append (lib : Lib) (c : Templates) (l₁ l₂ : List (Int × Text)) :
    run lib c (l₁ ++ l₂) = ((run lib c l₁).1 ++ (run lib (run lib c l₁).2 l₂).1, (run lib (run lib c l₁).2 l₂).2) := by
  induction l₁ generalizing c with
  | nil => rfl
  | cons a l ih => simp only [List.cons_append, run, ih]

theorem inv_run (lib : Lib) (h : List (Int × Text)) (c : Templates) (g : List (Int × Text)) (i : Inv lib g c) :
    Inv lib (g ++ h) (run lib c h).2 := by
  induction h generalizing c g with
  | nil => simpa [run] using i
  | cons a l ih =>
    have := ih _ _ (i.append a.1 a.2)
    simpa [run] using this

theorem inv0 (lib : Lib) (h : List (Int × Text)) : Inv lib h (run lib cache0 h).2 := by
  have := inv_run lib h cache0 [] ⟨rfl, rfl, by decide, fun k v hk => absurd hk (by simp [cache0, Cache.init, Dict.get?, Dict.empty, Dict.lookup])⟩
  simpa using this

/-- What is known of a key after a history -/
theorem lookup_run (lib : Lib) (h : List (Int × Text)) (t : Int) (k : Text) (x : Template) (hl : (run lib cache0 h).2.lookup t k = some x) :
    (∃ e ∈ h, keyOf lib e.2 = k ∧ fresh lib e.2 k = .template x) ∧ ∃ e ∈ h, keyOf lib e.2 = k ∧ t < e.1 + 3600 := by
  unfold Cache.lookup at hl
  cases hg : (run lib cache0 h).2.cache.get? k with
  | none => rw [hg] at hl; exact absurd hl (by simp)
  | some v =>
    rw [hg] at hl
    dsimp only at hl
    split at hl
    · rename_i hv
      cases hl
      obtain ⟨a, e, he, hk, hv'⟩ := (inv0 lib h).entry k v hg
      exact ⟨a, e, he, hk, by omega⟩
    · exact absurd hl (by simp)

/-- What is added is a function of the pattern and what is known of its key -/
theorem append_fst (lib : Lib) (c : Templates) (t : Int) (p : Text) :
    (append lib c t p).1 = match c.lookup t (keyOf lib p) with | some x => .template x | none => fresh lib p (keyOf lib p) := by
  rw [append_eq]
  cases c.lookup t (keyOf lib p) with
  | some x => rfl
  | none => cases fresh lib p (keyOf lib p) <;> rfl

/-! ## Properties -/

/-- C101: the first pattern of a server (nothing known from before) is added as it is meant: exactly this is the meaning of a pattern -/
theorem C101_first (lib : Lib) (t : Int) (p : Text) (x : Added) :
    (append lib cache0 t p).1 = x ↔ Means lib p (keyOf lib p) x := by
  have : (append lib cache0 t p).1 = fresh lib p (keyOf lib p) := by rw [append_fst]; rfl
  rw [this]
  exact ⟨fun h => h ▸ means_fresh lib p _, fun h => (means_unique lib p _ x h).symm⟩

/-- C101: after any history of patterns (of any jails, at any times), what is added for a pattern is what it means; or what some
pattern of this history means that has the same key, and then the key was used less than an hour ago -/
theorem C101_history (lib : Lib) (h : List (Int × Text)) (t : Int) (p : Text) (x : Added)
    (hx : (append lib (run lib cache0 h).2 t p).1 = x) :
    Means lib p (keyOf lib p) x ∨
      ((∃ e ∈ h, keyOf lib e.2 = keyOf lib p ∧ Means lib e.2 (keyOf lib p) x) ∧ ∃ e ∈ h, keyOf lib e.2 = keyOf lib p ∧ t < e.1 + 3600) := by
  subst hx
  rw [append_fst]
  cases hl : (run lib cache0 h).2.lookup t (keyOf lib p) with
  | none => exact .inl (means_fresh lib p _)
  | some y =>
    obtain ⟨⟨e, he, hk, hf⟩, b⟩ := lookup_run lib h t _ y hl
    exact .inr ⟨⟨e, he, hk, (show Means lib e.2 _ (.template y) from hf ▸ means_fresh lib e.2 _)⟩, b⟩

/-- C101: if no other pattern of the history has the key of this pattern, the cache is not to be seen -/
theorem C101_same (lib : Lib) (h : List (Int × Text)) (t : Int) (p : Text) (x : Added)
    (hk : ∀ e ∈ h, keyOf lib e.2 = keyOf lib p → e.2 = p) :
    (append lib (run lib cache0 h).2 t p).1 = x ↔ Means lib p (keyOf lib p) x := by
  have : (append lib (run lib cache0 h).2 t p).1 = fresh lib p (keyOf lib p) := by
    rcases C101_history lib h t p _ rfl with hm | ⟨⟨e, he, he', hm⟩, -⟩
    · exact means_unique lib p _ _ hm
    · rw [hk e he he'] at hm; exact means_unique lib p _ _ hm
  rw [this]
  exact ⟨fun h => h ▸ means_fresh lib p _, fun h => (means_unique lib p _ x h).symm⟩

/-- C101: so a format (pattern with a percent sign) is in each jail what is written in it, whatever other jails use -/
theorem C101_format (lib : Lib) (hu : ∀ q, '%' ∈ lib.upper q → '%' ∈ q) (h : List (Int × Text)) (t : Int) (p : Text) (hp : '%' ∈ p) (x : Added) :
    (append lib (run lib cache0 h).2 t p).1 = x ↔ Means lib p p x := by
  have hkey : keyOf lib p = p := by simp [keyOf, hp]
  have := C101_same lib h t p x (fun e _ he => by
    rw [hkey] at he
    unfold keyOf at he
    split at he
    · exact he
    · rename_i hn
      exact absurd (hu _ (he ▸ hp)) hn)
  rwa [hkey] at this

/-- C101: an hour after the last use of its key, a pattern is again what is written in it -/
theorem C101_hour (lib : Lib) (h : List (Int × Text)) (t : Int) (p : Text) (x : Added)
    (hk : ∀ e ∈ h, keyOf lib e.2 = keyOf lib p → e.1 + 3600 ≤ t) :
    (append lib (run lib cache0 h).2 t p).1 = x ↔ Means lib p (keyOf lib p) x := by
  have : (append lib (run lib cache0 h).2 t p).1 = fresh lib p (keyOf lib p) := by
    rcases C101_history lib h t p _ rfl with hm | ⟨-, e, he, he', hlt⟩
    · exact means_unique lib p _ _ hm
    · have := hk e he he'; omega
  rw [this]
  exact ⟨fun h => h ▸ means_fresh lib p _, fun h => (means_unique lib p _ x h).symm⟩

/-- C101: the defaults are never taken from the cache: the words that stand for them mean this after any history, and a pattern with
`{DATE}` is always used as it is written in this jail -/
theorem C101_defaults (lib : Lib) (h : List (Int × Text)) (t : Int) (p : Text) :
    (keyOf lib p = "{DEFAULT}".toList → (append lib (run lib cache0 h).2 t p).1 = .defaults false) ∧
    (keyOf lib p = "{^LN-BEG}".toList → (append lib (run lib cache0 h).2 t p).1 = .defaults true) ∧
    (Part "{DATE}".toList (keyOf lib p) → (append lib (run lib cache0 h).2 t p).1 = .within p) := by
  have key : ∀ y : Text → Added, (∀ q, Means lib q (keyOf lib p) (y q)) → (∀ q x, y q ≠ .template x) → (append lib (run lib cache0 h).2 t p).1 = y p := by
    intro y hy hn
    rw [append_fst]
    cases hl : (run lib cache0 h).2.lookup t (keyOf lib p) with
    | none => exact (means_unique lib p _ _ (hy p)).symm
    | some z =>
      obtain ⟨⟨e, he, hk, hf⟩, -⟩ := lookup_run lib h t _ z hl
      exact absurd ((means_unique lib e.2 _ _ (hy e.2)).trans hf) (hn _ _)
  exact ⟨fun hk => key (fun _ => .defaults false) (fun _ => .default hk) (by simp),
    fun hk => key (fun _ => .defaults true) (fun _ => .lineBegin hk) (by simp),
    fun hk => key (fun q => .within q) (fun _ => .date hk) (by simp)⟩

/-- C101: a pattern is used again within an hour by another jail, nothing in between: this jail gets the same template, even if it wrote
another pattern of the same key -/
theorem C101_shared (lib : Lib) (h : List (Int × Text)) (t t' : Int) (p q : Text) (x : Template) (hk : keyOf lib p = keyOf lib q) (ht : t' < t + 3600)
    (hx : (append lib (run lib cache0 h).2 t p).1 = .template x) :
    (append lib (run lib cache0 (h ++ [(t, p)])).2 t' q).1 = .template x := by
  have i := inv0 lib h
  have hs : ∀ c : Templates, c.maxTime = 3600 → (c.set t (keyOf lib p) x).lookup t' (keyOf lib p) = some x := by
    intro c hc
    unfold Cache.lookup Cache.set
    dsimp only
    rw [Dict.get?_insert]
    simp [hc, ht]
  have hg : (run lib cache0 (h ++ [(t, p)])).2 = (append lib (run lib cache0 h).2 t p).2 := by rw [run_append]; rfl
  have hl : (append lib (run lib cache0 h).2 t p).2.lookup t' (keyOf lib p) = some x := by
    have hm : ((run lib cache0 h).2.get t (keyOf lib p)).2.maxTime = 3600 := (i.get t _).time
    rw [append_fst] at hx
    rw [append_eq]
    cases h1 : (run lib cache0 h).2.lookup t (keyOf lib p) with
    | some y =>
      rw [h1] at hx
      cases hx
      exact hs _ hm
    | none =>
      rw [h1] at hx
      dsimp only at hx ⊢
      rw [hx]
      exact hs _ hm
  rw [append_fst, hg, ← hk, hl]

/-- C101: an invalid pattern of one jail leaves no trace -/
theorem C101_invalid (lib : Lib) (h : List (Int × Text)) (t t' : Int) (p q : Text) (hx : (append lib (run lib cache0 h).2 t p).1 = .invalid) (ht : t ≤ t') :
    (append lib (run lib cache0 (h ++ [(t, p)])).2 t' q).1 = (append lib (run lib cache0 h).2 t' q).1 := by
  have hg : (run lib cache0 (h ++ [(t, p)])).2 = ((run lib cache0 h).2.get t (keyOf lib p)).2 := by
    have : (run lib cache0 (h ++ [(t, p)])).2 = (append lib (run lib cache0 h).2 t p).2 := by rw [run_append]; rfl
    rw [this]
    rw [append_fst] at hx
    rw [append_eq]
    cases h1 : (run lib cache0 h).2.lookup t (keyOf lib p) with
    | some y => rw [h1] at hx; exact absurd hx (by simp)
    | none => rw [h1] at hx; dsimp only at hx ⊢; rw [hx]
  have hl : (run lib cache0 (h ++ [(t, p)])).2.lookup t' (keyOf lib q) = (run lib cache0 h).2.lookup t' (keyOf lib q) := by
    rw [hg]
    rcases Cache.get_state (run lib cache0 h).2 t (keyOf lib p) with e | ⟨e, v, hv, hv'⟩
    · rw [e]
    · rw [e]
      unfold Cache.lookup Cache.unset
      dsimp only
      rw [Dict.get?_erase]
      by_cases hk : keyOf lib q = keyOf lib p
      · rw [hk, hv]
        have : ¬ t' < v.2 := by omega
        simp [this]
      · simp [hk]
  rw [append_fst, append_fst, hl]

/-- C101: a template that is in the cache is used, and kept for another hour -/
theorem C101_cached (lib : Lib) (c : Templates) (t : Int) (p key : Text) (x : Template) (hx : c.lookup t key = some x) :
    (getTemplate lib c t p key).1 = some x ∧ ∀ t', t' < t + c.maxTime → (getTemplate lib c t p key).2.lookup t' key = some x := by
  have h1 : (c.get t key).1 = some x := by rw [Cache.get_fst, hx]
  have h2 : (c.get t key).2.maxTime = c.maxTime := by
    rcases Cache.get_state c t key with e | ⟨e, -⟩ <;> rw [e] <;> rfl
  have e : getTemplate lib c t p key = (some x, (c.get t key).2.set t key x) := by
    unfold getTemplate
    dsimp only
    rw [h1]
  rw [e]
  refine ⟨rfl, fun t' ht => ?_⟩
  unfold Cache.lookup Cache.set
  dsimp only
  rw [Dict.get?_insert]
  simp [h2, ht]

/-- C101: never more than 1000 templates are kept -/
theorem C101_size (lib : Lib) (h : List (Int × Text)) : (run lib cache0 h).2.cache.size ≤ 1000 := (inv0 lib h).size

/-- Latin letters; all formats are valid -/
def lib0 : Lib := { upper := List.map Char.toUpper, valid := fun _ => true }

/-- C101, what does not hold: that a pattern without percent sign means in each jail what is written in it. Two jails, the second within an hour: the one
has white space before the date, the other has none, `\s` and `\S` have the same key. -/
theorem C101_refuted_case : ∃ p q : Text, ∃ x y : Template, x ≠ y ∧ Means lib0 q (keyOf lib0 q) (.template y) ∧
    (run lib0 cache0 [(0, p), (60, q)]).1 = [.template x, .template x] := by
  refine ⟨"^\\s*{EPOCH}".toList, "^\\S*{EPOCH}".toList, .epochIn "^\\s*{EPOCH}".toList false, .epochIn "^\\S*{EPOCH}".toList false, by decide, ?_, by decide +kernel⟩
  rw [← C101_first lib0 0]
  decide +kernel

/-- C101, what does not hold: that the names in braces are known in lower case in all patterns. With a percent sign in it the pattern is a format, in which
there is no date. -/
theorem C101_refuted_lower : ∃ p q : Text, (append lib0 cache0 0 p).1 = .within p ∧ q = p.map Char.toLower ∧ (append lib0 cache0 0 q).1 = .template (.regex q) := by
  refine ⟨"%% {DATE}".toList, _, ?_, rfl, ?_⟩ <;> decide +kernel

-- patterns of five jails
example : (run lib0 cache0 [(0, "epoch".toList), (1, "^LEPOCH".toList), (2, "{date} x".toList), (3, "%Y-%m-%d".toList), (4, "{None}".toList), (5, "{default}".toList),
    (6, "\\[{LEPOCH}\\]".toList), (7, "tai64n".toList), (8, "\\{EPOCH}".toList)]).1 =
    [.template (.epoch false false), .template (.epoch true true), .within "{date} x".toList, .template (.regex "%Y-%m-%d".toList), .template (.regex "{UNB}^".toList),
      .defaults false, .template (.epochIn "\\[{LEPOCH}\\]".toList true), .template (.tai64n false), .template (.regex "\\{EPOCH}".toList)] := by decide +kernel

-- the same two patterns, an hour between
example : (run lib0 cache0 [(0, "^\\s*{EPOCH}".toList), (3600, "^\\S*{EPOCH}".toList)]).1 =
    [.template (.epochIn "^\\s*{EPOCH}".toList false), .template (.epochIn "^\\S*{EPOCH}".toList false)] := by decide +kernel

end Verif.DatePattern
