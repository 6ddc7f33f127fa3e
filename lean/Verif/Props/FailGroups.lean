import Verif.Lemmas.FailGroups

/-!
# Groups of a match — theorems (C86)
-/

namespace Verif

open Verif.FailTags Verif.FailTagsSpec Verif.FailGroups Verif.FailGroupsSpec

/-- The value of every group of a match: its own text, or that of the first alternative with text; and if it has parts, this value and those of all parts, in the order of their names. -/
theorem C86_groups (names : List Str) (hn : names.Nodup) (hs : Simple names) (f : Dict) (hf : Plain f) (n : Str) :
    ∃ v ps, Merged names f n v ∧ Increasing ps ∧ (∀ k, k ∈ ps ↔ k ∈ names ∧ Part n k) ∧ groups names f n = if ps = [] then v else .tup (v :: ps.map f) := by
  refine ⟨merge (values .alt names) f n, ((values .tuple names).filter (fun p => decide (p.2 = n))).map Prod.fst, merged hn hf (apart_of hs .alt .alt) n,
    increasing_filter (sorted_values .tuple hn) _, fun k => ?_, ?_⟩
  · rw [List.mem_map]
    constructor
    · rintro ⟨⟨k', m⟩, h, rfl⟩
      obtain ⟨h1, h2⟩ := List.mem_filter.1 h
      simp only [decide_eq_true_eq] at h2
      subst h2
      obtain ⟨a, b⟩ := (mem_values _ _ _ _).1 h1
      exact ⟨a, (complex_tuple _ _).1 b⟩
    · rintro ⟨a, b⟩
      exact ⟨(k, n), List.mem_filter.2 ⟨(mem_values _ _ _ _).2 ⟨a, (complex_tuple _ _).2 b⟩, by simp⟩, rfl⟩
  · unfold groups
    rw [combine_eq _ _ (apart_of hs .tuple .tuple)]
    have keys : ((values .tuple names).filter (fun p => decide (p.2 = n))).map (fun p => merge (values .alt names) f p.1) =
        (((values .tuple names).filter (fun p => decide (p.2 = n))).map Prod.fst).map f := by
      rw [List.map_map]
      refine List.map_congr_left (fun q hq => ?_)
      show merge (values .alt names) f q.1 = f q.1
      rw [merge_eq _ _ (apart_of hs .alt .alt)]
      split
      · rfl
      · unfold firstAlt
        cases hfind : (values .alt names).find? (fun p => decide (p.2 = q.1) && truthy (f p.1)) with
        | none => rfl
        | some p =>
          have hP := List.find?_some hfind
          simp only [Bool.and_eq_true, decide_eq_true_eq] at hP
          exact absurd hP.1 (apart_of hs .alt .tuple p (List.mem_of_find?_eq_some hfind) q (List.mem_filter.1 hq).1)
    rw [keys]
    generalize ((values .tuple names).filter (fun p => decide (p.2 = n))).map Prod.fst = ps
    cases ps with
    | nil => rfl
    | cons k ps =>
      have plain : merge (values .alt names) f n = .none ∨ ∃ s, merge (values .alt names) f n = .str s := by
        rw [merge_eq _ _ (apart_of hs .alt .alt)]
        split
        · exact hf n
        · unfold firstAlt
          split
          · exact hf _
          · exact hf n
      rw [if_neg (by simp)]
      show (ps.map f).foldl extend (extend (merge (values .alt names) f n) (f k)) = _
      have : extend (merge (values .alt names) f n) (f k) = .tup [merge (values .alt names) f n, f k] := by
        rcases plain with h | ⟨s, h⟩ <;> rw [h] <;> rfl
      rw [this, foldl_tup]
      rfl

/-- The identifier of a failure is the value of the first of the groups that took part in the match; it is an error only if none of them did. -/
theorem C86_id (m : Str → Option (Option Str)) (gs : List Str) :
    (∀ v, failId m gs = some v ↔ ∃ a g b, gs = a ++ g :: b ∧ m g = some (some v) ∧ ∀ x ∈ a, ∀ w, m x ≠ some (some w)) ∧
    (failId m gs = none ↔ ∀ g ∈ gs, ∀ w, m g ≠ some (some w)) := by
  induction gs with
  | nil => exact ⟨fun v => ⟨fun h => (by cases h), fun ⟨a, g, b, e, _⟩ => by cases a <;> cases e⟩, by simp [failId]⟩
  | cons g gs ih =>
    by_cases h : ∃ v, m g = some (some v)
    · obtain ⟨v, h⟩ := h
      have e : failId m (g :: gs) = some v := by simp [failId, h]
      rw [e]
      refine ⟨fun u => ⟨fun k => ?_, ?_⟩, ⟨fun k => (by cases k), fun k => absurd h (k g (List.mem_cons_self ..) v)⟩⟩
      · injection k with k
        exact ⟨[], g, gs, rfl, by rw [h, k], by simp⟩
      · rintro ⟨a, g', b, e1, e2, e3⟩
        cases a with
        | nil => injection e1 with e1; rw [← e1, h] at e2; injection e2
        | cons x a => injection e1 with e1 _; exact absurd (e1 ▸ h) (e3 x (List.mem_cons_self ..) v)
    · have hno : ∀ w, m g ≠ some (some w) := fun w k => h ⟨w, k⟩
      have e : failId m (g :: gs) = failId m gs := by
        unfold failId
        cases hg : m g with
        | none => cases gs <;> rfl
        | some o => cases o with
          | none => cases gs <;> rfl
          | some w => exact absurd hg (hno w)
      rw [e]
      refine ⟨fun v => (ih.1 v).trans ⟨?_, ?_⟩, ih.2.trans ⟨fun k x hx => ?_, fun k x hx => k x (List.mem_cons_of_mem _ hx)⟩⟩
      · rintro ⟨a, g', b, e1, e2, e3⟩
        refine ⟨g :: a, g', b, by rw [e1]; rfl, e2, fun x hx => ?_⟩
        rcases List.mem_cons.1 hx with k | k
        · rw [k]; exact hno
        · exact e3 x k
      · rintro ⟨a, g', b, e1, e2, e3⟩
        cases a with
        | nil => injection e1 with e1; rw [← e1] at e2; exact absurd e2 (hno v)
        | cons x a => injection e1 with _ e1; exact ⟨a, g', b, e1, e2, fun y hy => e3 y (List.mem_cons_of_mem _ hy)⟩
      · rcases List.mem_cons.1 hx with k' | k'
        · rw [k']; exact hno
        · exact k x k'

/-- `getFailID()` looks for an identifier first, then for an address, then for a name. -/
theorem C86_id_order (m : Str → Option (Option Str)) (v : Str) :
    failId m idGroups = some v ↔
      m "fid".toList = some (some v) ∨ ((∀ w, m "fid".toList ≠ some (some w)) ∧ (m "ip4".toList = some (some v) ∨ ((∀ w, m "ip4".toList ≠ some (some w)) ∧
        (m "ip6".toList = some (some v) ∨ ((∀ w, m "ip6".toList ≠ some (some w)) ∧ m "dns".toList = some (some v)))))) := by
  have one : ∀ g gs, failId m (g :: gs) = some v ↔ m g = some (some v) ∨ ((∀ w, m g ≠ some (some w)) ∧ failId m gs = some v) := by
    intro g gs
    rw [failId]
    cases hg : m g with
    | none => simp
    | some o => cases o with
      | none => simp
      | some w => simp
  unfold idGroups
  rw [one, one, one, one]
  simp [failId]

/-- An expression is accepted as `failregex` if and only if it, or `prefregex`, has a group for an identifier, an address, a name, or the identifier of a connection. -/
theorem C86_accepted (names : List Str) (pref : Option (List Str)) :
    accepted names pref = true ↔ ∃ g, (g = "fid".toList ∨ g = "ip4".toList ∨ g = "ip6".toList ∨ g = "dns".toList ∨ g = "mlfid".toList) ∧ (g ∈ names ∨ ∃ p, pref = some p ∧ g ∈ p) := by
  have mem : ∀ g, g ∈ idPresents ↔ (g = "fid".toList ∨ g = "ip4".toList ∨ g = "ip6".toList ∨ g = "dns".toList ∨ g = "mlfid".toList) := by
    intro g; simp [idPresents, idGroups]
  unfold accepted
  cases pref with
  | none =>
    simp only [Bool.or_false, List.any_eq_true, List.contains_iff_mem]
    constructor
    · rintro ⟨g, h1, h2⟩; exact ⟨g, (mem g).1 h1, Or.inl h2⟩
    · rintro ⟨g, h1, h2 | ⟨p, h, _⟩⟩
      · exact ⟨g, (mem g).2 h1, h2⟩
      · cases h
  | some q =>
    simp only [Bool.or_eq_true, List.any_eq_true, List.contains_iff_mem]
    constructor
    · rintro (⟨g, h1, h2⟩ | ⟨g, h1, h2⟩)
      · exact ⟨g, (mem g).1 h1, Or.inl h2⟩
      · exact ⟨g, (mem g).1 h1, Or.inr ⟨q, rfl, h2⟩⟩
    · rintro ⟨g, h1, h2 | ⟨p, h, h2⟩⟩
      · exact Or.inl ⟨g, (mem g).2 h1, h2⟩
      · injection h with h; rw [← h] at h2; exact Or.inr ⟨g, (mem g).2 h1, h2⟩

namespace FailGroupsSample

def names : List Str := ["tuple_id_2".toList, "user".toList, "alt_user_1".toList, "id".toList, "alt_user".toList, "tuple_id_10".toList, "fid".toList]

/-- a match: `user` took no part, both alternatives have text -/
def found : Dict := fun n =>
  if n = "alt_user".toList then .str [] else if n = "alt_user_1".toList then .str "root".toList else if n = "fid".toList then .str "a".toList
  else if n = "tuple_id_2".toList then .str "b".toList else if n = "tuple_id_10".toList then .str "c".toList else .none

end FailGroupsSample

open FailGroupsSample

example : groups names found "user".toList = .str "root".toList ∧ groups names found "fid".toList = .tup [.str "a".toList, .str "c".toList, .str "b".toList] ∧
    groups names found "alt_user".toList = .str [] := by
  refine ⟨?_, ?_, ?_⟩ <;> rfl

example : names.Nodup ∧ Simple names ∧ Plain found := by
  refine ⟨by decide +kernel, simple_of (by decide +kernel), fun n => ?_⟩
  unfold found
  repeat' split
  all_goals first | exact Or.inr ⟨_, rfl⟩ | exact Or.inl rfl

example : failId (fun g => if g = "ip4".toList then some none else if g = "dns".toList then some (some "host".toList) else none) idGroups = some "host".toList ∧
    accepted ["user".toList, "mlfid".toList] none = true ∧ accepted ["user".toList] (some ["ip6".toList]) = true := by decide +kernel

/-- But parts are not in the order of their numbers: `tuple_id_10` comes before `tuple_id_2`. -/
theorem C86_textual_order :
    ∃ names f, groups names f "fid".toList = .tup [.str "a".toList, .str "10".toList, .str "2".toList] ∧ f "tuple_id_2".toList = .str "2".toList ∧ f "tuple_id_10".toList = .str "10".toList :=
  ⟨["fid".toList, "tuple_id_2".toList, "tuple_id_10".toList], fun n => if n = "fid".toList then .str "a".toList else if n = "tuple_id_2".toList then .str "2".toList else .str "10".toList, rfl, rfl, rfl⟩

/-- And an expression whose address is in an alternative only (`<F-ALT_IP4>`) is not accepted. -/
theorem C86_alternative_not_enough : Alternative "ip4".toList "alt_ip4".toList ∧ accepted ["alt_ip4".toList] none = false :=
  ⟨(complex_alt _ _).1 (by decide +kernel), by decide +kernel⟩

end Verif
