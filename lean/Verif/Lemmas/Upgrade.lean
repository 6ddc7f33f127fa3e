import Verif.Spec.Upgrade

set_option linter.unusedSimpArgs false

/-!
# Opening, upgrade and repair of the database — lemmas
-/

namespace Verif.UpgradeLemmas

open Verif.Upgrade Verif.UpgradeSpec

/-- key of a row -/
def key (k : Fid × String) (r : BanRow) : Bool := decide ((r.ip, r.jail) = k)

/-- last row of the key -/
def lastOf (k : Fid × String) : List BanRow → Option BanRow
  | [] => none
  | a :: l => match lastOf k l with
    | some m => some m
    | none => if key k a then some a else none

/-- newest row of the key, by recursion -/
def best (k : Fid × String) : List BanRow → Option BanRow
  | [] => none
  | a :: l => match best k l with
    | some m => if key k a && decide (m.time < a.time) then some a else some m
    | none => if key k a then some a else none

def Sorted (l : List BanRow) : Prop := l.Pairwise fun a b => a.time ≤ b.time

theorem mem_insTime (r x : BanRow) : ∀ l, x ∈ insTime r l ↔ x = r ∨ x ∈ l
  | [] => by simp [insTime]
  | a :: l => by
    unfold insTime
    split
    · simp only [List.mem_cons, mem_insTime r x l]
      constructor
      · rintro (h | h | h) <;> simp [h]
      · rintro (h | h | h) <;> simp [h]
    · simp

theorem sorted_insTime (r : BanRow) : ∀ l, Sorted l → Sorted (insTime r l)
  | [], _ => by simp [insTime, Sorted]
  | a :: l, h => by
    unfold insTime
    have h1 := List.pairwise_cons.mp h
    split
    · rename_i hlt
      refine List.pairwise_cons.mpr ⟨fun b hb => ?_, sorted_insTime r l h1.2⟩
      rcases (mem_insTime r b l).mp hb with rfl | hb
      · omega
      · exact h1.1 b hb
    · rename_i hlt
      refine List.pairwise_cons.mpr ⟨fun b hb => ?_, h⟩
      rcases List.mem_cons.mp hb with rfl | hb
      · omega
      · have := h1.1 b hb; omega

theorem sorted_sortTime : ∀ l, Sorted (sortTime l)
  | [] => by simp [sortTime, Sorted]
  | r :: l => sorted_insTime r _ (sorted_sortTime l)

theorem lastOf_mem (k : Fid × String) (m : BanRow) : ∀ l, lastOf k l = some m → m ∈ l
  | [], h => by simp [lastOf] at h
  | a :: l, h => by
    unfold lastOf at h
    cases hl : lastOf k l with
    | some m' =>
      rw [hl] at h
      injection h with h; subst h
      exact List.mem_cons_of_mem _ (lastOf_mem k _ l hl)
    | none =>
      rw [hl] at h
      dsimp only at h
      split at h
      · injection h with h; subst h; exact List.mem_cons_self
      · cases h

theorem lastOf_insTime (k : Fid × String) (r : BanRow) : ∀ l, Sorted l →
    lastOf k (insTime r l) = match lastOf k l with
      | some m => if key k r && decide (m.time < r.time) then some r else some m
      | none => if key k r then some r else none
  | [], _ => by simp [insTime, lastOf]
  | a :: l, h => by
    have h1 := List.pairwise_cons.mp h
    unfold insTime
    by_cases hlt : a.time < r.time
    · rw [if_pos hlt]
      have ih := lastOf_insTime k r l h1.2
      show (match lastOf k (insTime r l) with | some m => some m | none => if key k a then some a else none) = _
      rw [ih]
      show _ = match (match lastOf k l with | some m => some m | none => if key k a then some a else none) with
        | some m => if key k r && decide (m.time < r.time) then some r else some m
        | none => if key k r then some r else none
      cases hl : lastOf k l with
      | some m => dsimp only; cases (key k r && decide (m.time < r.time)) <;> rfl
      | none =>
        dsimp only
        cases hk : key k r <;> cases ha : key k a <;> simp [hlt]
    · rw [if_neg hlt]
      have hm : ∀ m, lastOf k (a :: l) = some m → ¬ m.time < r.time := by
        intro m hm
        rcases List.mem_cons.mp (lastOf_mem k m _ hm) with rfl | hm'
        · exact hlt
        · have := h1.1 m hm'; omega
      show (match lastOf k (a :: l) with | some m => some m | none => if key k r then some r else none) = _
      cases hl : lastOf k (a :: l) with
      | some m => dsimp only; simp [hm m hl]
      | none => rfl

theorem lastOf_sortTime (k : Fid × String) : ∀ l, lastOf k (sortTime l) = best k l
  | [] => rfl
  | r :: l => by
    show lastOf k (insTime r (sortTime l)) = _
    rw [lastOf_insTime k r _ (sorted_sortTime l), lastOf_sortTime k l]
    rfl

theorem get?_foldl (k : Fid × String) : ∀ (l : List BanRow) (d : Dict (Fid × String) BanRow),
    (l.foldl replaceInto d).get? k = (lastOf k l).or (d.get? k)
  | [], d => by simp [lastOf]
  | a :: l, d => by
    rw [List.foldl_cons, get?_foldl k l]
    have e : lastOf k (a :: l) = match lastOf k l with
      | some m => some m
      | none => if key k a then some a else none := rfl
    rw [e]
    cases hl : lastOf k l with
    | some m => simp
    | none =>
      simp only [Option.none_or, replaceInto, Dict.get?_insert, key]
      by_cases hk : k = (a.ip, a.jail)
      · simp [hk]
      · have : ¬ (a.ip, a.jail) = k := fun h => hk h.symm
        simp [hk, this]

theorem newest_cons (a r : BanRow) (l : List BanRow) (ip : Fid) (jail : String) :
    Newest (a :: l) ip jail r ↔
      (a = r ∧ r.ip = ip ∧ r.jail = jail ∧ ∀ x ∈ l, x.ip = ip → x.jail = jail → x.time < r.time) ∨
      (Newest l ip jail r ∧ (a.ip = ip → a.jail = jail → a.time ≤ r.time)) := by
  constructor
  · rintro ⟨p, q, h1, h2, h3, h4, h5⟩
    cases p with
    | nil =>
      simp only [List.nil_append, List.cons.injEq] at h1
      obtain ⟨rfl, rfl⟩ := h1
      exact Or.inl ⟨rfl, h2, h3, h5⟩
    | cons y p =>
      simp only [List.cons_append, List.cons.injEq] at h1
      obtain ⟨rfl, rfl⟩ := h1
      exact Or.inr ⟨⟨p, q, rfl, h2, h3, fun x hx => h4 x (List.mem_cons_of_mem _ hx), h5⟩, h4 _ List.mem_cons_self⟩
  · rintro (⟨rfl, h2, h3, h4⟩ | ⟨⟨p, q, rfl, h2, h3, h4, h5⟩, h6⟩)
    · exact ⟨[], l, rfl, h2, h3, by simp, h4⟩
    · refine ⟨a :: p, q, rfl, h2, h3, fun x hx => ?_, h5⟩
      rcases List.mem_cons.mp hx with rfl | hx
      · exact h6
      · exact h4 x hx

theorem best_spec (ip : Fid) (jail : String) : ∀ l,
    (∀ r, best (ip, jail) l = some r ↔ Newest l ip jail r) ∧
    (best (ip, jail) l = none → ∀ x ∈ l, ¬ (x.ip = ip ∧ x.jail = jail)) ∧
    (∀ r, best (ip, jail) l = some r → r.ip = ip ∧ r.jail = jail ∧ r ∈ l ∧ ∀ x ∈ l, x.ip = ip → x.jail = jail → x.time ≤ r.time)
  | [] => by
    refine ⟨fun r => ⟨fun h => by simp [best] at h, ?_⟩, by simp, by simp [best]⟩
    rintro ⟨a, b, h, _⟩
    simp at h
  | a :: l => by
    obtain ⟨ih1, ih2, ih3⟩ := best_spec ip jail l
    have hk : ∀ x : BanRow, key (ip, jail) x = true ↔ x.ip = ip ∧ x.jail = jail := by intro x; simp [key]
    cases hb : best (ip, jail) l with
    | none =>
      have hno := ih2 hb
      have e : best (ip, jail) (a :: l) = if key (ip, jail) a then some a else none := by
        show (match best (ip, jail) l with | some m => _ | none => _) = _
        rw [hb]
      have hnone : ∀ r, ¬ Newest l ip jail r := fun r h => by rw [← ih1, hb] at h; cases h
      rw [e]
      refine ⟨fun r => ?_, ?_, ?_⟩
      · rw [newest_cons]
        by_cases ha : key (ip, jail) a = true
        · have := (hk a).mp ha
          simp only [ha, if_true, Option.some.injEq, hnone, false_and, or_false]
          constructor
          · rintro rfl
            exact ⟨rfl, this.1, this.2, fun x hx h1 h2 => (hno x hx ⟨h1, h2⟩).elim⟩
          · exact fun h => h.1
        · simp only [ha, if_neg, hnone, false_and, or_false, Bool.false_eq_true, if_false]
          constructor
          · intro h; cases h
          · rintro ⟨rfl, h1, h2, _⟩
            exact (ha ((hk _).mpr ⟨h1, h2⟩)).elim
      · intro h x hx hx2
        by_cases ha : key (ip, jail) a = true
        · rw [if_pos ha] at h; cases h
        · rcases List.mem_cons.mp hx with rfl | hx
          · exact ha ((hk _).mpr hx2)
          · exact hno x hx hx2
      · intro r h
        by_cases ha : key (ip, jail) a = true
        · rw [if_pos ha] at h
          injection h with h; subst h
          have := (hk a).mp ha
          refine ⟨this.1, this.2, List.mem_cons_self, fun x hx h1 h2 => ?_⟩
          rcases List.mem_cons.mp hx with rfl | hx
          · omega
          · exact (hno x hx ⟨h1, h2⟩).elim
        · rw [if_neg ha] at h; cases h
    | some m =>
      obtain ⟨m1, m2, m3, m4⟩ := ih3 m hb
      have e : best (ip, jail) (a :: l) = if key (ip, jail) a && decide (m.time < a.time) then some a else some m := by
        show (match best (ip, jail) l with | some m => _ | none => _) = _
        rw [hb]
      have hnew : ∀ r, Newest l ip jail r ↔ m = r := fun r => by rw [← ih1, hb, Option.some.injEq]
      rw [e]
      by_cases ha : key (ip, jail) a = true ∧ m.time < a.time
      · have ha1 := (hk a).mp ha.1
        have ha2 := ha.2
        rw [if_pos (by simp [ha.1, ha.2])]
        refine ⟨fun r => ?_, by simp, fun r h => ?_⟩
        · rw [newest_cons, hnew, Option.some.injEq]
          constructor
          · rintro rfl
            exact Or.inl ⟨rfl, ha1.1, ha1.2, fun x hx h1 h2 => by have := m4 x hx h1 h2; omega⟩
          · rintro (h | ⟨rfl, h⟩)
            · exact h.1
            · have := h ha1.1 ha1.2; omega
        · injection h with h; subst h
          refine ⟨ha1.1, ha1.2, List.mem_cons_self, fun x hx h1 h2 => ?_⟩
          rcases List.mem_cons.mp hx with rfl | hx
          · omega
          · have := m4 x hx h1 h2; omega
      · rw [if_neg (by simpa using ha)]
        have hle : a.ip = ip → a.jail = jail → a.time ≤ m.time := fun h1 h2 => by
          have : ¬ m.time < a.time := fun h => ha ⟨(hk a).mpr ⟨h1, h2⟩, h⟩
          omega
        refine ⟨fun r => ?_, by simp, fun r h => ?_⟩
        · rw [newest_cons, hnew, Option.some.injEq]
          constructor
          · rintro rfl
            exact Or.inr ⟨rfl, hle⟩
          · rintro (⟨rfl, h1, h2, h3⟩ | ⟨h, _⟩)
            · exact (ha ⟨(hk _).mpr ⟨h1, h2⟩, h3 m m3 m1 m2⟩).elim
            · exact h
        · injection h with h; subst h
          refine ⟨m1, m2, List.mem_cons_of_mem _ m3, fun x hx h1 h2 => ?_⟩
          rcases List.mem_cons.mp hx with rfl | hx
          · exact hle h1 h2
          · exact m4 x hx h1 h2

/-- The table of the newest bans. -/
theorem filled (rows : List BanRow) (ip : Fid) (jail : String) (r : BanRow) :
    ((sortTime rows).foldl replaceInto Dict.empty).get? (ip, jail) = some r ↔ Newest rows ip jail r := by
  rw [get?_foldl, lastOf_sortTime, ← (best_spec ip jail rows).1]
  simp

theorem all₂_map {α β : Type} (R : α → β → Prop) (f : α → β) (h : ∀ a, R a (f a)) : ∀ l, All₂ R l (l.map f)
  | [] => .nil
  | a :: l => .cons (h a) (all₂_map R f h l)

theorem create_eq (t : Tables) :
    create t = ⟨some (if (t.version.getD []).isEmpty then [4] else t.version.getD []), some (t.logs.getD []), some (t.bans.getD (.new [])), some (t.bips.getD Dict.empty)⟩ := rfl

theorem fresh_create : Fresh (create emptyTables) := ⟨rfl, rfl, rfl, rfl⟩

theorem ready_create (t : Tables) (h : t.version = none ∨ versionOf t = some 4 ∨ t.version = some []) : Ready (create t) := by
  rw [create_eq]
  refine ⟨?_, rfl, rfl, rfl⟩
  rcases h with h | h | h
  · simp [versionOf, h]
  · cases hv : t.version with
    | none => simp [versionOf, hv] at h
    | some l => cases l with
      | nil => simp [versionOf, hv] at h
      | cons a l => simpa [versionOf, hv] using h
  · simp [versionOf, h]

/-- All transactions together. -/
theorem upgrade_eq (v : Nat) (t : Tables) (h : Older v t) :
    upgrade 4 v t = ⟨some [4], t.logs, some (.new (if v < 3 then (t.bans.map convert).getD [] else newRows t.bans)),
      some ((sortTime (if v < 3 then (t.bans.map convert).getD [] else newRows t.bans)).foldl replaceInto Dict.empty)⟩ := by
  obtain ⟨hv, ho, hb, hp, ⟨ls, hl⟩⟩ := h
  obtain ⟨tv, tl, tb, tp⟩ := t
  simp only at hv hb hp hl
  subst hv hp hl
  have hc : v = 0 ∨ v = 1 ∨ v = 2 ∨ v = 3 := by omega
  rcases hb with ⟨h3, l, rfl⟩ | ⟨h3, l, rfl⟩
  · rcases hc with rfl | rfl | rfl | rfl
    · rfl
    · rfl
    · rfl
    · omega
  · subst h3; rfl

theorem isOld_of (t : Tables) (v : Nat) (h : versionOf t = some v) : isOld t = true ↔ v < 4 := by
  unfold isOld
  rw [h]
  exact decide_eq_true_iff

theorem openDb_older (v : Nat) (t : Tables) (h : Older v t) : openDb t = (true, upgrade 4 v t) := by
  have hne : v ≠ current := by have := h.old; simp [current]; omega
  have hng : ¬ v > current := by have := h.old; simp [current]; omega
  have hu : versionOf (upgrade 4 v t) = some current := by rw [upgrade_eq v t h]; rfl
  have hv : versionOf t = some v := by simp [versionOf, h.version]
  unfold openDb
  rw [hv]
  simp [h.version, hne, hng, hu]

theorem connectAgain_backups (e : Outside) (f : Files) : (connectAgain e f).2.backups = f.backups := by
  unfold connectAgain
  split
  · rfl
  · rfl
  · split <;> rfl

theorem rebuild_backups (e : Outside) (c : Content) (f : Files) : (rebuild e c f).2.backups = f.backups := by
  unfold rebuild
  split
  · rfl
  · split
    · exact connectAgain_backups e f
    · dsimp only
      split
      · exact connectAgain_backups e _
      · rw [connectAgain_backups, connectAgain_backups]

end Verif.UpgradeLemmas
