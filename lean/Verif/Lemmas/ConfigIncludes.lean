import Verif.Spec.Config

/-!
# Lemmas: included files
-/

namespace Verif.Config

open Spec.Config

theorem insertSorted_perm (x : String) : ∀ l : List String, (insertSorted x l).Perm (x :: l)
  | [] => .refl _
  | y :: l => by
      unfold insertSorted
      split
      · exact .refl _
      · exact ((insertSorted_perm x l).cons y).trans (.swap x y l)

theorem sorted_perm : ∀ l : List String, (sorted l).Perm l
  | [] => .refl _
  | x :: l => (insertSorted_perm x (sorted l)).trans ((sorted_perm l).cons x)

theorem insertSorted_pairwise (x : String) : ∀ l : List String, l.Pairwise (· ≤ ·) → (insertSorted x l).Pairwise (· ≤ ·)
  | [], _ => by simp [insertSorted]
  | y :: l, h => by
      unfold insertSorted
      have h' := List.pairwise_cons.1 h
      split
      · rename_i hxy
        refine List.pairwise_cons.2 ⟨fun z hz => ?_, h⟩
        rcases List.mem_cons.1 hz with rfl | hz
        · exact hxy
        · exact String.le_trans hxy (h'.1 z hz)
      · rename_i hxy
        refine List.pairwise_cons.2 ⟨fun z hz => ?_, insertSorted_pairwise x l h'.2⟩
        rcases List.mem_cons.1 ((insertSorted_perm x l).mem_iff.1 hz) with rfl | hz
        · rcases String.le_total z y with h | h
          · exact absurd h hxy
          · exact h
        · exact h'.1 z hz

theorem sorted_pairwise : ∀ l : List String, (sorted l).Pairwise (· ≤ ·)
  | [] => .nil
  | x :: l => insertSorted_pairwise x _ (sorted_pairwise l)

/-- The include list of a file, if the recursion ends. -/
def Reads (fs : FileSys) (seen : List String) (f : String) (l : List String) : Prop := ∃ n, includes fs n seen f = some l

theorem concat_cons_some {f : String → Option (List String)} {x : String} {xs l : List String} :
    concat f (x :: xs) = some l ↔ ∃ a b, f x = some a ∧ concat f xs = some b ∧ l = a ++ b := by
  have e : concat f (x :: xs) = (f x).bind (fun a => (concat f xs).map (fun b => a ++ b)) := rfl
  rw [e]
  cases f x with
  | none => simp
  | some a =>
    cases concat f xs with
    | none => simp
    | some b => simp [eq_comm]

theorem concat_mono {f g : String → Option (List String)} (h : ∀ x l, f x = some l → g x = some l) : ∀ (xs : List String) (l : List String),
    concat f xs = some l → concat g xs = some l
  | [], _, e => e
  | x :: xs, l, e => by
      obtain ⟨a, b, h1, h2, rfl⟩ := concat_cons_some.1 e
      exact concat_cons_some.2 ⟨a, b, h x a h1, concat_mono h xs b h2, rfl⟩

theorem expandLocal_one (fs : FileSys) (r : String) : expandLocal fs [r] =
    if fs.localName r ≠ r ∧ fs.isFile (fs.localName r) = true then [r, fs.localName r] else [r] := by
  simp [expandLocal]

/-- the include list for one name -/
def sub (fs : FileSys) (n : Nat) (seen : List String) (res r : String) : Option (List String) :=
  if r ∈ seen then some [] else concat (includes fs n (seen ++ [res])) (expandLocal fs [r])

theorem includes_succ (fs : FileSys) (n : Nat) (seen : List String) (res : String) : includes fs (n + 1) seen res =
    match fs.parse res with
    | none => some []
    | some c => (concat (sub fs n seen res) (c.before.map (fs.resolve res))).bind (fun b =>
        (concat (sub fs n seen res) (c.after.map (fs.resolve res))).map (fun a => b ++ [res] ++ a)) := rfl

theorem includes_some (fs : FileSys) (n : Nat) (seen : List String) (res : String) (l : List String) : includes fs (n + 1) seen res = some l ↔
    match fs.parse res with
    | none => l = []
    | some c => ∃ b a, l = b ++ [res] ++ a ∧ concat (sub fs n seen res) (c.before.map (fs.resolve res)) = some b ∧
        concat (sub fs n seen res) (c.after.map (fs.resolve res)) = some a := by
  rw [includes_succ]
  cases fs.parse res with
  | none => simp [eq_comm]
  | some c =>
    dsimp only
    cases concat (sub fs n seen res) (c.before.map (fs.resolve res)) with
    | none => simp
    | some b =>
      cases concat (sub fs n seen res) (c.after.map (fs.resolve res)) with
      | none => simp
      | some a => simp [eq_comm]

theorem includes_mono (fs : FileSys) : ∀ (n : Nat) (seen : List String) (f : String) (l : List String), includes fs n seen f = some l →
    includes fs (n + 1) seen f = some l
  | 0, _, _, _, h => by simp [includes] at h
  | n + 1, seen, f, l, h => by
      have hs : ∀ r l, sub fs n seen f r = some l → sub fs (n + 1) seen f r = some l := by
        intro r l h
        unfold sub at h ⊢
        by_cases e : r ∈ seen
        · rw [if_pos e] at h ⊢; exact h
        · rw [if_neg e] at h ⊢; exact concat_mono (fun x l => includes_mono fs n _ x l) _ _ h
      rw [includes_some] at h ⊢
      cases hp : fs.parse f with
      | none => rw [hp] at h; exact h
      | some c =>
        rw [hp] at h
        obtain ⟨b, a, rfl, hb, ha⟩ := h
        exact ⟨b, a, rfl, concat_mono hs _ _ hb, concat_mono hs _ _ ha⟩

theorem includes_le (fs : FileSys) {n m : Nat} (hnm : n ≤ m) {seen : List String} {f : String} {l : List String} (h : includes fs n seen f = some l) :
    includes fs m seen f = some l := by
  obtain ⟨k, rfl⟩ := Nat.le.dest hnm
  clear hnm
  induction k with
  | zero => exact h
  | succ k ih => exact includes_mono fs _ _ _ _ ih

theorem reads_unique {fs : FileSys} {seen : List String} {f : String} {l l' : List String} (h : Reads fs seen f l) (h' : Reads fs seen f l') : l = l' := by
  obtain ⟨n, h⟩ := h
  obtain ⟨m, h'⟩ := h'
  have h1 := includes_le fs (Nat.le_max_left n m) h
  have h2 := includes_le fs (Nat.le_max_right n m) h'
  rw [h1] at h2
  exact Option.some.inj h2

theorem sub_some {fs : FileSys} {n : Nat} {seen : List String} {res r : String} {l : List String} : sub fs n seen res r = some l ↔
    ∃ own loc, l = own ++ loc ∧ (r ∈ seen → own = [] ∧ loc = []) ∧ (r ∉ seen → includes fs n (seen ++ [res]) r = some own) ∧
      (r ∉ seen → fs.localName r ≠ r → fs.isFile (fs.localName r) = true → includes fs n (seen ++ [res]) (fs.localName r) = some loc) ∧
      (fs.localName r = r ∨ fs.isFile (fs.localName r) = false → loc = []) := by
  unfold sub
  by_cases e : r ∈ seen
  · rw [if_pos e]
    constructor
    · intro h; cases h; exact ⟨[], [], rfl, fun _ => ⟨rfl, rfl⟩, fun h => absurd e h, fun h => absurd e h, fun _ => rfl⟩
    · rintro ⟨own, loc, rfl, h, -⟩; rw [(h e).1, (h e).2]; rfl
  · rw [if_neg e, expandLocal_one]
    by_cases hl : fs.localName r ≠ r ∧ fs.isFile (fs.localName r) = true
    · rw [if_pos hl, concat_cons_some]
      constructor
      · rintro ⟨a, b, h1, h2, rfl⟩
        obtain ⟨b1, b2, h3, h4, rfl⟩ := concat_cons_some.1 h2
        cases h4
        refine ⟨a, b1, by simp, fun h => absurd h e, fun _ => h1, fun _ _ _ => h3, fun h => ?_⟩
        rcases h with h | h
        · exact absurd h hl.1
        · rw [hl.2] at h; cases h
      · rintro ⟨own, loc, rfl, -, h1, h2, -⟩
        exact ⟨own, loc, h1 e, concat_cons_some.2 ⟨loc, [], h2 e hl.1 hl.2, rfl, by simp⟩, rfl⟩
    · rw [if_neg hl, concat_cons_some]
      have hl' : fs.localName r = r ∨ fs.isFile (fs.localName r) = false := by
        by_cases h1 : fs.localName r = r
        · exact .inl h1
        · right
          cases h2 : fs.isFile (fs.localName r) with
          | false => rfl
          | true => exact absurd ⟨h1, h2⟩ hl
      constructor
      · rintro ⟨a, b, h1, h2, rfl⟩
        cases h2
        exact ⟨a, [], rfl, fun h => absurd h e, fun _ => h1, fun _ h2 h3 => absurd ⟨h2, h3⟩ hl, fun _ => rfl⟩
      · rintro ⟨own, loc, rfl, -, h1, -, h2⟩
        exact ⟨own, [], h1 e, rfl, by rw [h2 hl']⟩

theorem concat_sub {fs : FileSys} {n : Nat} {seen : List String} {res : String} : ∀ (rs l : List String),
    concat (sub fs n seen res) rs = some l ↔ Included fs (fun r l => includes fs n (seen ++ [res]) r = some l) seen rs l
  | [], l => by simp [concat, Included, eq_comm]
  | r :: rs, l => by
      rw [concat_cons_some]
      unfold Included
      constructor
      · rintro ⟨a, b, h1, h2, rfl⟩
        obtain ⟨own, loc, rfl, h3, h4, h5, h6⟩ := sub_some.1 h1
        exact ⟨own, loc, b, rfl, (concat_sub rs b).1 h2, h3, h4, h5, h6⟩
      · rintro ⟨own, loc, rest, rfl, h2, h3, h4, h5, h6⟩
        exact ⟨own ++ loc, rest, sub_some.2 ⟨own, loc, rfl, h3, h4, h5, h6⟩, (concat_sub rs rest).2 h2, rfl⟩

theorem included_mono {fs : FileSys} {R R' : String → List String → Prop} (h : ∀ r l, R r l → R' r l) {seen : List String} : ∀ (rs l : List String),
    Included fs R seen rs l → Included fs R' seen rs l
  | [], _, hi => hi
  | r :: rs, l, hi => by
      obtain ⟨own, loc, rest, rfl, h2, h3, h4, h5, h6⟩ := hi
      exact ⟨own, loc, rest, rfl, included_mono h rs rest h2, h3, fun e => h _ _ (h4 e), fun e e1 e2 => h _ _ (h5 e e1 e2), h6⟩

theorem included_fuel {fs : FileSys} {seen seen' : List String} : ∀ (rs l : List String), Included fs (Reads fs seen') seen rs l →
    ∃ n, Included fs (fun r l => includes fs n seen' r = some l) seen rs l
  | [], _, hi => ⟨0, hi⟩
  | r :: rs, l, hi => by
      obtain ⟨own, loc, rest, rfl, h2, h3, h4, h5, h6⟩ := hi
      obtain ⟨n, hn⟩ := included_fuel rs rest h2
      have h4' : ∃ m, r ∉ seen → includes fs m seen' r = some own := by
        by_cases e : r ∈ seen
        · exact ⟨0, fun h => absurd e h⟩
        · obtain ⟨m, hm⟩ := h4 e; exact ⟨m, fun _ => hm⟩
      have h5' : ∃ k, r ∉ seen → fs.localName r ≠ r → fs.isFile (fs.localName r) = true → includes fs k seen' (fs.localName r) = some loc := by
        by_cases e : r ∉ seen ∧ fs.localName r ≠ r ∧ fs.isFile (fs.localName r) = true
        · obtain ⟨k, hk⟩ := h5 e.1 e.2.1 e.2.2; exact ⟨k, fun _ _ _ => hk⟩
        · exact ⟨0, fun a b c => absurd ⟨a, b, c⟩ e⟩
      obtain ⟨m, hm⟩ := h4'
      obtain ⟨k, hk⟩ := h5'
      refine ⟨max n (max m k), own, loc, rest, rfl, included_mono (fun r l h => includes_le fs (by omega) h) rs rest hn, h3,
        fun e => includes_le fs (by omega) (hm e), fun e e1 e2 => includes_le fs (by omega) (hk e e1 e2), h6⟩

theorem reads_iff (fs : FileSys) (seen : List String) (f : String) (l : List String) : Reads fs seen f l ↔ ReadingOrder fs (Reads fs) seen f l := by
  unfold ReadingOrder
  constructor
  · rintro ⟨n, h⟩
    cases n with
    | zero => simp [includes] at h
    | succ n =>
      rw [includes_some] at h
      cases hp : fs.parse f with
      | none => rw [hp] at h; exact h
      | some c =>
        rw [hp] at h
        obtain ⟨b, a, rfl, hb, ha⟩ := h
        exact ⟨b, a, rfl, included_mono (fun r l h => ⟨n, h⟩) _ _ ((concat_sub _ _).1 hb),
          included_mono (fun r l h => ⟨n, h⟩) _ _ ((concat_sub _ _).1 ha)⟩
  · intro h
    cases hp : fs.parse f with
    | none =>
      rw [hp] at h
      exact ⟨1, (includes_some ..).2 (by rw [hp]; exact h)⟩
    | some c =>
      rw [hp] at h
      obtain ⟨b, a, rfl, hb, ha⟩ := h
      obtain ⟨n, hn⟩ := included_fuel _ _ hb
      obtain ⟨m, hm⟩ := included_fuel _ _ ha
      refine ⟨max n m + 1, (includes_some ..).2 ?_⟩
      rw [hp]
      exact ⟨b, a, rfl, (concat_sub _ _).2 (included_mono (fun r l h => includes_le fs (by omega) h) _ _ hn),
        (concat_sub _ _).2 (included_mono (fun r l h => includes_le fs (by omega) h) _ _ hm)⟩

/-! ## Loops -/

theorem concat_total {f : String → Option (List String)} : ∀ {xs : List String}, (∀ x ∈ xs, ∃ l, f x = some l) → ∃ l, concat f xs = some l
  | [], _ => ⟨[], rfl⟩
  | x :: xs, h => by
      obtain ⟨a, ha⟩ := h x (List.mem_cons_self ..)
      obtain ⟨b, hb⟩ := concat_total (fun y hy => h y (List.mem_cons_of_mem _ hy))
      exact ⟨a ++ b, concat_cons_some.2 ⟨a, b, ha, hb, rfl⟩⟩

theorem includes_total {fs : FileSys} {n : Nat} {seen : List String} {f : String}
    (h : ∀ c, fs.parse f = some c → ∀ r ∈ (c.before ++ c.after).map (fs.resolve f), ∃ l, sub fs n seen f r = some l) :
    ∃ l, includes fs (n + 1) seen f = some l := by
  cases hp : fs.parse f with
  | none => exact ⟨[], (includes_some ..).2 (by rw [hp])⟩
  | some c =>
    have h' := h c hp
    obtain ⟨b, hb⟩ := concat_total (f := sub fs n seen f) (xs := c.before.map (fs.resolve f))
      (fun r hr => h' r (by rw [List.map_append]; exact List.mem_append_left _ hr))
    obtain ⟨a, ha⟩ := concat_total (f := sub fs n seen f) (xs := c.after.map (fs.resolve f))
      (fun r hr => h' r (by rw [List.map_append]; exact List.mem_append_right _ hr))
    exact ⟨b ++ [f] ++ a, (includes_some ..).2 (by rw [hp]; exact ⟨b, a, rfl, hb, ha⟩)⟩

theorem mem_expandLocal_one {fs : FileSys} {r x : String} (h : x ∈ expandLocal fs [r]) : x = r ∨ (x = fs.localName r ∧ fs.localName r ≠ r) := by
  rw [expandLocal_one] at h
  split at h
  · rename_i e
    rcases List.mem_cons.1 h with h | h
    · exact .inl h
    · exact .inr ⟨List.mem_singleton.1 h, e.1⟩
  · exact .inl (List.mem_singleton.1 h)

/-- How long the chain of includes can still be. -/
def measure (files seen : List String) (f : String) : Nat := 3 * (files.filter (fun x => decide (x ∉ seen))).length + (if f ∈ seen then 2 else 1)

theorem length_filter_seen {files : List String} {seen : List String} {f : String} (hf : f ∈ files) (hs : f ∉ seen) :
    (files.filter (fun x => decide (x ∉ seen ++ [f]))).length < (files.filter (fun x => decide (x ∉ seen))).length := by
  have e : files.filter (fun x => decide (x ∉ seen ++ [f])) = (files.filter (fun x => decide (x ∉ seen))).filter (fun x => decide (x ≠ f)) := by
    rw [List.filter_filter]
    apply List.filter_congr
    intro x _
    by_cases h1 : x ∈ seen <;> by_cases h2 : x = f <;> simp [h1, h2]
  rw [e]
  apply List.length_filter_lt_length_iff_exists.2
  exact ⟨f, by simp [hf, hs], by simp⟩

theorem length_filter_same {files : List String} {seen : List String} {f : String} (hs : f ∈ seen) :
    (files.filter (fun x => decide (x ∉ seen ++ [f]))).length = (files.filter (fun x => decide (x ∉ seen))).length := by
  congr 1
  apply List.filter_congr
  intro x _
  by_cases h1 : x ∈ seen
  · simp [h1]
  · have : x ≠ f := fun e => h1 (e ▸ hs)
    simp [h1, this]

theorem includes_ends {fs : FileSys} {files : List String} (hc : Closed fs files) (hl : PlainLocals fs) : ∀ (n : Nat) (seen : List String) (f : String),
    f ∈ files → measure files seen f ≤ n → ∃ l, includes fs n seen f = some l
  | 0, seen, f, _, hm => by
      exfalso
      unfold measure at hm
      split at hm <;> omega
  | n + 1, seen, f, hf, hm => by
      apply includes_total
      intro c hp r hr
      unfold sub
      by_cases e : r ∈ seen
      · rw [if_pos e]; exact ⟨_, rfl⟩
      · rw [if_neg e]
        have hrf := hc f hf c hp r hr
        have hlt : measure files (seen ++ [f]) r < measure files seen f := by
          unfold measure
          by_cases hfs : f ∈ seen
          · have : r ≠ f := fun h => e (h ▸ hfs)
            rw [length_filter_same hfs, if_pos hfs, if_neg (by simp [e, this])]
            omega
          · have := length_filter_seen hf hfs
            rw [if_neg hfs]
            split <;> omega
        apply concat_total
        intro x hx
        rcases mem_expandLocal_one hx with rfl | ⟨rfl, hne⟩
        · exact includes_ends hc hl n _ _ hrf (by omega)
        · have hn : 0 < n := by
            have : 0 < measure files (seen ++ [f]) r := by unfold measure; split <;> omega
            omega
          obtain ⟨m, rfl⟩ := Nat.exists_eq_succ_of_ne_zero (by omega : n ≠ 0)
          apply includes_total
          intro c' hp' r' hr'
          obtain ⟨hb, ha⟩ := hl r c' hne hp'
          rw [hb, ha] at hr'
          cases hr'

/-- Without loops, files seen do not matter. -/
theorem includes_acyclic {fs : FileSys} {rank : String → Nat} (ha : Acyclic fs rank) : ∀ (n : Nat) (seen : List String) (f : String),
    rank f < n → (∀ s ∈ seen, rank f < rank s) → ∃ l, includes fs n seen f = some l ∧ includes fs n [] f = some l
  | 0, _, _, h, _ => absurd h (Nat.not_lt_zero _)
  | n + 1, seen, f, h, hs => by
      have key : ∀ rs : List String, (∀ r ∈ rs, rank r < rank f ∧ rank (fs.localName r) < rank f) →
          ∃ l, concat (sub fs n seen f) rs = some l ∧ concat (sub fs n [] f) rs = some l := by
        intro rs
        induction rs with
        | nil => exact fun _ => ⟨[], rfl, rfl⟩
        | cons r rs ih =>
          intro hr
          obtain ⟨b, hb1, hb2⟩ := ih (fun x hx => hr x (List.mem_cons_of_mem _ hx))
          have hr0 := hr r (List.mem_cons_self ..)
          have e : r ∉ seen := fun hm => by have := hs r hm; omega
          have one : ∀ x, rank x < rank f → ∃ l, includes fs n (seen ++ [f]) x = some l ∧ includes fs n ([] ++ [f]) x = some l := by
            intro x hx
            have hx1 : ∀ s ∈ seen ++ [f], rank x < rank s := by
              intro s hm
              rcases List.mem_append.1 hm with hm | hm
              · have := hs s hm; omega
              · rw [List.mem_singleton.1 hm]; exact hx
            obtain ⟨l1, h1, h2⟩ := includes_acyclic ha n (seen ++ [f]) x (by omega) hx1
            obtain ⟨l2, h3, h4⟩ := includes_acyclic ha n ([] ++ [f]) x (by omega) (fun s hm => hx1 s (List.mem_append_right _ (by simpa using hm)))
            rw [h2] at h4
            cases h4
            exact ⟨l1, h1, h3⟩
          have : ∃ a, sub fs n seen f r = some a ∧ sub fs n [] f r = some a := by
            unfold sub
            rw [if_neg e, if_neg (List.not_mem_nil)]
            obtain ⟨a1, h1, h2⟩ := one r hr0.1
            obtain ⟨a2, h3, h4⟩ := one _ hr0.2
            rw [expandLocal_one]
            split
            · exact ⟨a1 ++ (a2 ++ []), concat_cons_some.2 ⟨a1, _, h1, concat_cons_some.2 ⟨a2, [], h3, rfl, rfl⟩, rfl⟩,
                concat_cons_some.2 ⟨a1, _, h2, concat_cons_some.2 ⟨a2, [], h4, rfl, rfl⟩, rfl⟩⟩
            · exact ⟨a1 ++ [], concat_cons_some.2 ⟨a1, [], h1, rfl, rfl⟩, concat_cons_some.2 ⟨a1, [], h2, rfl, rfl⟩⟩
          obtain ⟨a, ha1, ha2⟩ := this
          exact ⟨a ++ b, concat_cons_some.2 ⟨a, b, ha1, hb1, rfl⟩, concat_cons_some.2 ⟨a, b, ha2, hb2, rfl⟩⟩
      cases hp : fs.parse f with
      | none => exact ⟨[], (includes_some ..).2 (by rw [hp]), (includes_some ..).2 (by rw [hp])⟩
      | some c =>
        obtain ⟨b, hb1, hb2⟩ := key (c.before.map (fs.resolve f)) (fun r hr => ha f c r hp (by rw [List.map_append]; exact List.mem_append_left _ hr))
        obtain ⟨a, ha1, ha2⟩ := key (c.after.map (fs.resolve f)) (fun r hr => ha f c r hp (by rw [List.map_append]; exact List.mem_append_right _ hr))
        exact ⟨b ++ [f] ++ a, (includes_some ..).2 (by rw [hp]; exact ⟨b, a, rfl, hb1, ha1⟩),
          (includes_some ..).2 (by rw [hp]; exact ⟨b, a, rfl, hb2, ha2⟩)⟩

/-- A file with extension `.local` that includes its own file never ends. -/
theorem includes_endless {fs : FileSys} {f g : String} {cf cg : CfgFile} (hf : fs.parse f = some cf) (hg : fs.parse g = some cg)
    (hl : fs.localName f = g) (hne : g ≠ f) (hi : fs.isFile g = true) (hm : f ∈ (cg.before ++ cg.after).map (fs.resolve g)) : ∀ (n : Nat) (seen : List String),
    f ∉ seen → includes fs n seen g = none
  | 0, _, _ => rfl
  | n + 1, seen, hs => by
      have ih : includes fs n (seen ++ [g]) g = none := includes_endless hf hg hl hne hi hm n _ (by
        rw [List.mem_append, List.mem_singleton]
        rintro (h | h)
        · exact hs h
        · exact hne h.symm)
      have hsub : sub fs n seen g f = none := by
        unfold sub
        rw [if_neg hs, expandLocal_one, hl, if_pos ⟨hne, hi⟩]
        cases he : concat (includes fs n (seen ++ [g])) [f, g] with
        | none => rfl
        | some l =>
          obtain ⟨_, _, _, h2, _⟩ := concat_cons_some.1 he
          obtain ⟨_, _, h3, _, _⟩ := concat_cons_some.1 h2
          rw [ih] at h3
          cases h3
      have hnone : ∀ rs : List String, f ∈ rs → concat (sub fs n seen g) rs = none := by
        intro rs
        induction rs with
        | nil => intro h; cases h
        | cons r rs ih =>
          intro h
          cases he : concat (sub fs n seen g) (r :: rs) with
          | none => rfl
          | some l =>
            obtain ⟨_, _, h1, h2, _⟩ := concat_cons_some.1 he
            rcases List.mem_cons.1 h with rfl | h
            · rw [hsub] at h1; cases h1
            · rw [ih h] at h2; cases h2
      cases he : includes fs (n + 1) seen g with
      | none => rfl
      | some l =>
        rw [includes_some, hg] at he
        obtain ⟨b, a, _, hb, ha⟩ := he
        rw [List.map_append, List.mem_append] at hm
        rcases hm with hm | hm
        · rw [hnone _ hm] at hb; cases hb
        · rw [hnone _ hm] at ha; cases ha

end Verif.Config
