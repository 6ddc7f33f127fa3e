import Verif.Spec.Config

/-!
# Lemmas: references in values
-/

namespace Verif.Config

open Spec.Config

/-- a function as a relation -/
def Looks (look : String → Option Value) (name : String) (v : Value) : Prop := look name = some v

/-- What a name stands for, given the mapping. -/
def effective (c : Cfg) (cur : String) (m : Names) (name : String) : Option Value :=
  (m.get? name).or ((sectionRef name).bind (fun so => sectionOption c cur so.1 so.2))

theorem get?_set (m : Names) (k j : String) (v : Value) : (m.set k v).get? j = if j = k then some v else m.get? j := by
  unfold Names.set Names.get?
  dsimp only
  rw [Dict.get?_insert]
  by_cases e : j = k
  · simp [e]
  · simp [e]

theorem mapSectionOptions_effective (c : Cfg) (cur : String) : ∀ (v : Value) (m : Names) (name : String),
    effective c cur (mapSectionOptions c cur v m) name = effective c cur m name
  | [], _, _ => rfl
  | .lit _ :: rest, m, name => mapSectionOptions_effective c cur rest m name
  | .pct :: rest, m, name => mapSectionOptions_effective c cur rest m name
  | .ref r :: rest, m, name => by
      unfold mapSectionOptions
      split
      · exact mapSectionOptions_effective c cur rest m name
      · rename_i sec opt hr
        by_cases e : (m.get? r).isSome = true
        · rw [if_pos e]; exact mapSectionOptions_effective c cur rest m name
        · rw [if_neg e]
          split
          · exact mapSectionOptions_effective c cur rest m name
          · rename_i v hv
            rw [mapSectionOptions_effective c cur rest _ name]
            unfold effective
            rw [get?_set]
            by_cases en : name = r
            · subst en
              have : m.get? name = none := by simpa using e
              simp [this, hr, hv]
            · rw [if_neg en]

theorem mapSectionOptions_keeps (c : Cfg) (cur : String) : ∀ (v : Value) (m : Names) (name : String) (x : Value),
    m.get? name = some x → (mapSectionOptions c cur v m).get? name = some x
  | [], _, _, _, h => h
  | .lit _ :: rest, m, name, x, h => mapSectionOptions_keeps c cur rest m name x h
  | .pct :: rest, m, name, x, h => mapSectionOptions_keeps c cur rest m name x h
  | .ref r :: rest, m, name, x, h => by
      unfold mapSectionOptions
      split
      · exact mapSectionOptions_keeps c cur rest m name x h
      · by_cases e : (m.get? r).isSome = true
        · rw [if_pos e]; exact mapSectionOptions_keeps c cur rest m name x h
        · rw [if_neg e]
          split
          · exact mapSectionOptions_keeps c cur rest m name x h
          · apply mapSectionOptions_keeps c cur rest
            rw [get?_set]
            by_cases en : name = r
            · subst en; rw [h] at e; exact absurd rfl e
            · rw [if_neg en]; exact h

theorem mapSectionOptions_covers (c : Cfg) (cur : String) : ∀ (v : Value) (m : Names) (name : String), Tok.ref name ∈ v →
    (mapSectionOptions c cur v m).get? name = effective c cur m name := by
  intro v
  induction v with
  | nil => intro _ _ h; cases h
  | cons t rest ih =>
    intro m name h
    by_cases hrest : Tok.ref name ∈ rest
    · cases t with
      | lit s => exact ih m name hrest
      | pct => exact ih m name hrest
      | ref r =>
        have key : ∀ m', effective c cur m' name = effective c cur m name → (mapSectionOptions c cur rest m').get? name = effective c cur m name :=
          fun m' h => by rw [ih m' name hrest, h]
        unfold mapSectionOptions
        split
        · exact key m rfl
        · rename_i sec opt hr
          by_cases e : (m.get? r).isSome = true
          · rw [if_pos e]; exact key m rfl
          · rw [if_neg e]
            split
            · exact key m rfl
            · rename_i v hv
              apply key
              unfold effective
              rw [get?_set]
              by_cases en : name = r
              · subst en
                have : m.get? name = none := by simpa using e
                simp [this, hr, hv]
              · rw [if_neg en]
    · have ht : t = .ref name := by
        rcases List.mem_cons.1 h with h | h
        · exact h.symm
        · exact absurd h hrest
      subst ht
      have skip : ∀ (rest : Value) (m' : Names), Tok.ref name ∉ rest → (mapSectionOptions c cur rest m').get? name = m'.get? name := by
        intro rest
        induction rest with
        | nil => intro _ _; rfl
        | cons t rest ih =>
          intro m' hn
          have hn' : Tok.ref name ∉ rest := fun h => hn (List.mem_cons_of_mem _ h)
          cases t with
          | lit s => exact ih m' hn'
          | pct => exact ih m' hn'
          | ref r =>
            have hrn : name ≠ r := fun e => hn (by rw [e]; exact List.mem_cons_self ..)
            unfold mapSectionOptions
            split
            · exact ih m' hn'
            · by_cases e : (m'.get? r).isSome = true
              · rw [if_pos e]; exact ih m' hn'
              · rw [if_neg e]
                split
                · exact ih m' hn'
                · rw [ih _ hn', get?_set, if_neg hrn]
      unfold mapSectionOptions
      split
      · rename_i hr
        rw [skip _ _ hrest]
        unfold effective
        rw [hr]
        simp
      · rename_i sec opt hr
        by_cases e : (m.get? name).isSome = true
        · rw [if_pos e, skip _ _ hrest]
          unfold effective
          obtain ⟨x, hx⟩ := Option.isSome_iff_exists.1 e
          simp [hx]
        · rw [if_neg e]
          have hnone : m.get? name = none := by simpa using e
          split
          · rename_i hv
            rw [skip _ _ hrest]
            unfold effective
            simp [hnone, hr, hv]
          · rename_i v hv
            rw [skip _ _ hrest, get?_set, if_pos rfl]
            unfold effective
            simp [hnone, hr, hv]

theorem plain_of_not_percent : ∀ {v : Value}, hasPercent v = false → v = (plain v).map .lit
  | [], _ => rfl
  | .lit s :: v, h => by
      have h' : hasPercent v = false := by simpa [hasPercent] using h
      have := plain_of_not_percent h'
      unfold plain at this ⊢
      rw [List.map_cons, List.map_cons, ← this]
  | .pct :: v, h => by simp [hasPercent] at h
  | .ref _ :: v, h => by simp [hasPercent] at h

theorem plain_lits (t : List String) : plain (t.map .lit) = t := by
  unfold plain; rw [List.map_map]
  exact (List.map_congr_left (fun _ _ => rfl)).trans (List.map_id t)

theorem hasPercent_lits (t : List String) : hasPercent (t.map .lit) = false := by
  simp [hasPercent]

theorem expands_pos {look : String → Option Value} {n : Nat} {v : Value} {r : List String} (h : Expands (Looks look) n v r) : ∃ k, n = k + 1 := by
  cases h <;> exact ⟨_, rfl⟩

theorem map_ok {ε α β : Type} {x : Except ε α} {f : α → β} {y : β} : x.map f = .ok y ↔ ∃ a, x = .ok a ∧ y = f a := by
  cases x with
  | error e => constructor
               · intro h; cases h
               · rintro ⟨_, h, _⟩; cases h
  | ok a => constructor
            · intro h; cases h; exact ⟨a, rfl, rfl⟩
            · rintro ⟨_, h, rfl⟩; cases h; rfl

/-- Literal text expands to itself. -/
theorem expands_lits {look : String → Option Value} {n : Nat} : ∀ {t r : List String}, Expands (Looks look) (n + 1) (t.map .lit) r → r = t
  | [], _, h => by cases h; rfl
  | s :: t, _, h => by
      cases h with
      | lit h => rw [expands_lits h]

theorem loop_iff {look : String → Option Value} {sub : Value → Names → Except GetError (List String)} {m : Names} {n : Nat}
    (hsub : ∀ v r, sub v m = .ok r ↔ Expands (Looks look) n v r) : ∀ (v : Value), (∀ name, Tok.ref name ∈ v → m.get? name = look name) → ∀ r,
    (interpolateLoop sub m v = .ok r ↔ Expands (Looks look) (n + 1) v r)
  | [], _, r => by
      constructor
      · intro h; cases h; exact .nil
      · intro h; cases h; rfl
  | .lit s :: v, hm, r => by
      have ih := loop_iff hsub v (fun name h => hm name (List.mem_cons_of_mem _ h))
      unfold interpolateLoop
      rw [map_ok]
      constructor
      · rintro ⟨a, ha, rfl⟩; exact .lit ((ih a).1 ha)
      · intro h
        cases h with
        | lit h => exact ⟨_, (ih _).2 h, rfl⟩
  | .pct :: v, hm, r => by
      have ih := loop_iff hsub v (fun name h => hm name (List.mem_cons_of_mem _ h))
      unfold interpolateLoop
      rw [map_ok]
      constructor
      · rintro ⟨a, ha, rfl⟩; exact .pct ((ih a).1 ha)
      · intro h
        cases h with
        | pct h => exact ⟨_, (ih _).2 h, rfl⟩
  | .ref name :: v, hm, r => by
      have ih := loop_iff hsub v (fun name h => hm name (List.mem_cons_of_mem _ h))
      have hn := hm name (List.mem_cons_self ..)
      unfold interpolateLoop
      rw [hn]
      cases hl : look name with
      | none =>
        constructor
        · intro h; cases h
        · intro h
          cases h with
          | text e _ => rw [Looks, hl] at e; cases e
          | ref e _ _ => rw [Looks, hl] at e; cases e
      | some w =>
        dsimp only
        cases hp : hasPercent w with
        | false =>
          rw [if_neg Bool.false_ne_true]
          dsimp only
          rw [map_ok]
          have hw := plain_of_not_percent hp
          constructor
          · rintro ⟨a, ha, rfl⟩
            exact .text (by rw [Looks, hl, ← hw]) ((ih a).1 ha)
          · intro h
            cases h with
            | text e h =>
              rw [Looks, hl] at e
              cases e
              rw [plain_lits]
              exact ⟨_, (ih _).2 h, rfl⟩
            | ref e hx h =>
              rw [Looks, hl] at e
              cases e
              obtain ⟨k, rfl⟩ := expands_pos hx
              rw [hw] at hx
              rw [expands_lits hx]
              exact ⟨_, (ih _).2 h, rfl⟩
        | true =>
          rw [if_pos rfl]
          cases hs : sub w m with
          | error e =>
            constructor
            · intro h; cases h
            · intro h
              cases h with
              | text e h =>
                rw [Looks, hl] at e
                cases e
                rw [hasPercent_lits] at hp
                cases hp
              | ref e hx h =>
                rw [Looks, hl] at e
                cases e
                rw [(hsub _ _).2 hx] at hs
                cases hs
          | ok a =>
            dsimp only
            rw [map_ok]
            constructor
            · rintro ⟨b, hb, rfl⟩
              exact .ref hl ((hsub _ _).1 hs) ((ih b).1 hb)
            · intro h
              cases h with
              | text e h =>
                rw [Looks, hl] at e
                cases e
                rw [hasPercent_lits] at hp
                cases hp
              | ref e hx h =>
                rw [Looks, hl] at e
                cases e
                rw [(hsub _ _).2 hx] at hs
                cases hs
                exact ⟨_, (ih _).2 h, rfl⟩

/-- names after the name of the section is set -/
def named (c : Cfg) (cur : String) (m : Names) (name : String) : Option Value := effective c cur (m.set "__name__" [.lit cur]) name

theorem interpolate_iff (c : Cfg) (cur : String) (look : String → Option Value) : ∀ (n : Nat) (v : Value) (m : Names),
    (∀ name, named c cur m name = look name) → ∀ r, (interpolate c cur n v m = .ok r ↔ Expands (Looks look) n v r)
  | 0, v, m, _, r => by
      constructor
      · intro h; cases h
      · intro h; obtain ⟨k, hk⟩ := expands_pos h; cases hk
  | n + 1, v, m, hm, r => by
      unfold interpolate
      have hname : ∀ name, named c cur (mapSectionOptions c cur v (m.set "__name__" [.lit cur])) name = look name := by
        intro name
        rw [← hm name]
        unfold named
        by_cases e : name = "__name__"
        · subst e
          unfold effective
          rw [get?_set, get?_set, if_pos rfl, if_pos rfl]
        · have : ∀ m : Names, effective c cur (m.set "__name__" [.lit cur]) name = effective c cur m name := by
            intro m; unfold effective; rw [get?_set, if_neg e]
          rw [this, mapSectionOptions_effective]
      apply loop_iff
      · intro v' r'
        exact interpolate_iff c cur look n v' _ hname r'
      · intro name h
        rw [mapSectionOptions_covers c cur v _ name h]
        exact hm name

theorem sectionRef_iff (name sec opt : String) : sectionRef name = some (sec, opt) ↔ SectionReference name sec opt := by
  have hw : ∀ c : Char, (isWord c || decide (c = '-')) = true ↔ (c.isAlphanum ∨ c = '_' ∨ c = '-') := fun c => by simp [isWord, or_assoc]
  constructor
  · intro h
    have e : name.toList.takeWhile (fun c => isWord c || c = '-') ++ name.toList.dropWhile (fun c => isWord c || c = '-') = name.toList :=
      List.takeWhile_append_dropWhile
    unfold sectionRef at h
    dsimp only at h
    split at h
    · exact absurd h (by simp)
    · rename_i c r hr hne
      simp only [Option.some.injEq, Prod.mk.injEq] at h
      obtain ⟨rfl, rfl⟩ := h
      refine ⟨?_, ?_, ?_, ?_⟩
      · apply String.toList_inj.1
        rw [String.toList_append, String.toList_append, String.toList_ofList, String.toList_ofList, List.append_assoc]
        exact e.symm.trans (by rw [hr, String.toList_ofList]; rfl)
      · intro e0
        apply hne
        have := congrArg String.toList e0
        simpa using this
      · intro e0
        have := congrArg String.toList e0
        simp at this
      · intro ch hch
        rw [String.toList_ofList] at hch
        exact (hw ch).1 (List.all_eq_true.1 List.all_takeWhile ch hch)
    · exact absurd h (by simp)
  · rintro ⟨rfl, hs, ho, hc⟩
    have hc' : ∀ c ∈ sec.toList, (isWord c || decide (c = '-')) = true := fun c h => (hw c).2 (hc c h)
    have hb : sec.toList ≠ [] := fun h => hs (String.toList_inj.1 (by simpa using h))
    have hb' : opt.toList ≠ [] := fun h => ho (String.toList_inj.1 (by simpa using h))
    obtain ⟨y, ys, hy⟩ := List.exists_cons_of_ne_nil hb
    obtain ⟨z, zs, hz⟩ := List.exists_cons_of_ne_nil hb'
    have e1 : (sec ++ "/" ++ opt).toList = sec.toList ++ '/' :: z :: zs := by
      rw [String.toList_append, String.toList_append, hz]; simp
    have hq : ¬(fun c => isWord c || decide (c = '-')) '/' = true := by decide
    have e2 : (sec ++ "/" ++ opt).toList.takeWhile (fun c => isWord c || c = '-') = sec.toList := by
      rw [e1, List.takeWhile_append_of_pos hc', List.takeWhile_cons_of_neg (p := fun c => isWord c || decide (c = '-')) hq, List.append_nil]
    have e3 : (sec ++ "/" ++ opt).toList.dropWhile (fun c => isWord c || c = '-') = '/' :: z :: zs := by
      rw [e1, List.dropWhile_append_of_pos hc', List.dropWhile_cons_of_neg (p := fun c => isWord c || decide (c = '-')) hq]
    have h1 : String.ofList (z :: zs) = opt := by rw [← hz, String.ofList_toList]
    have h2 : String.ofList (y :: ys) = sec := by rw [← hy, String.ofList_toList]
    unfold sectionRef
    rw [e2, e3, hy, ← h1, ← h2]
    rfl

theorem sectionOption_eq (c : Cfg) (cur sec opt : String) : sectionOption c cur sec opt = valueOf c cur sec opt := by
  unfold sectionOption valueOf
  by_cases h1 : sec.toLower = "default"
  · rw [if_neg (fun h => h h1), if_pos h1]
  · rw [if_pos h1, if_neg h1]
    by_cases h2 : sec.toLower = "known"
    · rw [if_pos h2, if_pos h2]
    · rw [if_neg h2, if_neg h2]
      cases c.sections.get? sec <;> rfl

theorem named_means (c : Cfg) (cur : String) (vars sec : Section) (name : String) (v : Value) :
    named c cur ⟨vars, sec, c.defaults⟩ name = some v ↔ Means c cur vars sec name v := by
  unfold named effective Means
  rw [get?_set]
  by_cases e : name = "__name__"
  · rw [if_pos e, if_pos e]
    simp [eq_comm]
  · rw [if_neg e, if_neg e]
    unfold Names.get?
    cases vars.get? name with
    | some w => simp [eq_comm]
    | none =>
      cases sec.get? name with
      | some w => simp [eq_comm]
      | none =>
        cases c.defaults.get? name with
        | some w => simp [eq_comm]
        | none =>
          simp only [Option.or_none, Option.none_or, Option.bind_eq_some_iff]
          constructor
          · rintro ⟨⟨s, o⟩, h1, h2⟩
            exact ⟨s, o, (sectionRef_iff ..).1 h1, by rw [← sectionOption_eq]; exact h2⟩
          · rintro ⟨s, o, h1, h2⟩
            exact ⟨(s, o), (sectionRef_iff ..).2 h1, by rw [sectionOption_eq]; exact h2⟩

theorem expands_ref {look : String → Option Value} {name : String} {n : Nat} {v : Value} {r : List String} (h : Expands (Looks look) (n + 1) v r)
    (hm : Tok.ref name ∈ v) : (∃ t : List String, look name = some (t.map .lit)) ∨ ∃ w a, look name = some w ∧ Expands (Looks look) n w a := by
  induction v generalizing r with
  | nil => cases hm
  | cons t v ih =>
    cases h with
    | lit h => exact ih h (by simpa using hm)
    | pct h => exact ih h (by simpa using hm)
    | @text _ nm t _ r e h =>
      rcases List.mem_cons.1 hm with hm | hm
      · cases hm; exact .inl ⟨t, e⟩
      · exact ih h hm
    | @ref _ nm w _ a r e hx h =>
      rcases List.mem_cons.1 hm with hm | hm
      · cases hm; exact .inr ⟨w, a, e, hx⟩
      · exact ih h hm

/-- A value that refers to itself has no text. -/
theorem expands_loop {look : String → Option Value} {name : String} {v : Value} (hl : look name = some v) (hm : Tok.ref name ∈ v) :
    ∀ (n : Nat) (r : List String), ¬Expands (Looks look) n v r := by
  intro n
  induction n with
  | zero => intro r h; obtain ⟨k, hk⟩ := expands_pos h; cases hk
  | succ n ih =>
    intro r h
    rcases expands_ref h hm with ⟨t, ht⟩ | ⟨w, a, hw, ha⟩
    · rw [hl] at ht
      cases ht
      simp at hm
    · rw [hl] at hw
      cases hw
      exact ih a ha

end Verif.Config
