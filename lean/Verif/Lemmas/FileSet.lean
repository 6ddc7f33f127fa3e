import Verif.Spec.FileSet
import Verif.Lemmas.ReaderOrder

set_option linter.unusedSimpArgs false

/-!
# Ignored addresses from a file — lemmas
-/

namespace Verif.FileSetLemmas

open Verif.FileSet Verif.FileSetSpec Verif.Reader Verif.ReaderSpec

theorem splitwords_sep (c : Char) (b : Str) (h : isSep c = true) : splitwords (c :: b) = splitwords b := by
  rw [splitwords.eq_def]
  simp [h]

theorem splitwords_word (c d : Char) (cs : Str) (hc : isSep c = false) (hd : isSep d = false) :
    splitwords (c :: d :: cs) = match splitwords (d :: cs) with
      | [] => [[c]]
      | w :: ws => (c :: w) :: ws := by
  rw [splitwords.eq_def]
  simp only [hc, hd, Bool.false_eq_true, if_false]
  cases splitwords (d :: cs) <;> rfl

theorem splitwords_one (c d : Char) (cs : Str) (hc : isSep c = false) (hd : isSep d = true) :
    splitwords (c :: d :: cs) = [c] :: splitwords (d :: cs) := by
  rw [splitwords.eq_def]
  simp [hc, hd]

theorem splitwords_single (c : Char) (hc : isSep c = false) : splitwords [c] = [[c]] := by
  rw [splitwords.eq_def]
  simp [hc]

theorem splitwords_ne (c : Char) (cs : Str) (hc : isSep c = false) : splitwords (c :: cs) ≠ [] := by
  rw [splitwords.eq_def]
  simp only [hc, Bool.false_eq_true, if_false]
  cases cs with
  | nil => simp
  | cons d cs =>
    simp only
    split
    · simp
    · split <;> simp

theorem splitwords_append (c : Char) (b : Str) (h : isSep c = true) : ∀ a, splitwords (a ++ c :: b) = splitwords a ++ splitwords b
  | [] => by simp [splitwords_sep c b h, splitwords]
  | x :: [] => by
    rw [List.cons_append, List.nil_append]
    cases hx : isSep x with
    | true => rw [splitwords_sep x _ hx, splitwords_sep x _ hx, splitwords_sep c _ h]; simp [splitwords]
    | false => rw [splitwords_one x c b hx h, splitwords_single x hx, splitwords_sep c b h]; rfl
  | x :: y :: a => by
    have ih := splitwords_append c b h (y :: a)
    rw [List.cons_append] at ih ⊢
    cases hx : isSep x with
    | true => rw [splitwords_sep x _ hx, splitwords_sep x _ hx]; exact ih
    | false =>
      rw [List.cons_append]
      cases hy : isSep y with
      | true => rw [splitwords_one x y _ hx hy, splitwords_one x y _ hx hy, ih]; rfl
      | false =>
        rw [splitwords_word x y _ hx hy, splitwords_word x y _ hx hy, ih]
        have := splitwords_ne y a hy
        cases hs : splitwords (y :: a) with
        | nil => exact (this hs).elim
        | cons w ws => rfl

/-- The same words, whatever is before. -/
def Equiv (a b : Str) : Prop := ∀ w, splitwords (w ++ a) = splitwords (w ++ b)

theorem Equiv.rfl {a : Str} : Equiv a a := fun _ => Eq.refl _

theorem Equiv.cons {a b : Str} (c : Char) (h : Equiv a b) : Equiv (c :: a) (c :: b) := by
  intro w
  have := h (w ++ [c])
  simpa using this

theorem Equiv.trans {a b c : Str} (h : Equiv a b) (h2 : Equiv b c) : Equiv a c := fun w => (h w).trans (h2 w)

/-- The text without comments, separators kept. -/
def eff : Mode → Str → Str
  | _, [] => []
  | m, c :: cs =>
    if c = '\n' then c :: eff .start cs
    else match m with
      | .comment => eff .comment cs
      | .start => if mark c then eff .comment cs else c :: eff (if space c then .start else .mid) cs
      | .mid => c :: eff (if space c then .start else .mid) cs

theorem eff_comment (t : Str) : eff .comment t = [] ∨ ∃ r, eff .comment t = '\n' :: r := by
  induction t with
  | nil => exact Or.inl rfl
  | cons c cs ih =>
    unfold eff
    split
    · rename_i h; subst h; exact Or.inr ⟨_, rfl⟩
    · exact ih

theorem equiv_sep (c : Char) (h : isSep c = true) (t : Str) : Equiv (eff .comment t) (c :: eff .comment t) := by
  intro w
  have hn : isSep '\n' = true := by decide
  rcases eff_comment t with e | ⟨r, e⟩
  · rw [e, splitwords_append c [] h w]; simp [splitwords]
  · rw [e, splitwords_append c _ h w, splitwords_append '\n' r hn w, splitwords_sep '\n' r hn]

theorem space_sep (c : Char) (h : space c = true) : isSep c = true := by
  simp only [space, Bool.and_eq_true] at h
  exact h.1

theorem mark_not (c : Char) (h : mark c = true) : c ≠ '\n' ∧ space c = false := by
  simp only [mark, Bool.or_eq_true, decide_eq_true_eq] at h
  rcases h with rfl | rfl <;> exact ⟨by decide, by decide⟩

theorem eff_mid (t : Str) (h : marked t = false) : eff .mid t = eff .start t := by
  cases t with
  | nil => rfl
  | cons c cs =>
    have : mark c = false := h
    simp [eff, this]

theorem eff_marked (t : Str) (h : marked t = true) : eff .start t = eff .comment t := by
  cases t with
  | nil => rfl
  | cons c cs =>
    have hm : mark c = true := h
    simp [eff, hm]

theorem removeComments_eff : ∀ t : Str, Equiv (removeComments .comment t) (eff .comment t) ∧ Equiv (removeComments .start t) (eff .start t) ∧ Equiv (removeComments .mid t) (eff .mid t)
  | [] => ⟨Equiv.rfl, Equiv.rfl, Equiv.rfl⟩
  | c :: cs => by
    obtain ⟨h1, h2, h3⟩ := removeComments_eff cs
    have hnl : space '\n' = true := by decide
    have hmid : Equiv (if space c && marked cs then removeComments .comment cs else c :: removeComments (if c = '\n' then .start else .mid) cs)
        (if c = '\n' then c :: eff .start cs else c :: eff (if space c then .start else .mid) cs) := by
      by_cases hs : space c = true
      · have e : (if c = '\n' then c :: eff .start cs else c :: eff (if space c = true then .start else .mid) cs) = c :: eff .start cs := by
          simp [hs]
        rw [e]
        by_cases hm : marked cs = true
        · simp only [hs, hm, Bool.and_self, if_true]
          rw [eff_marked cs hm]
          exact h1.trans (equiv_sep c (space_sep c hs) cs)
        · have hm : marked cs = false := by simpa using hm
          simp only [hs, hm, Bool.and_false, Bool.false_eq_true, if_false]
          split
          · exact Equiv.cons c h2
          · rw [← eff_mid cs hm]; exact Equiv.cons c h3
      · have hs : space c = false := by simpa using hs
        have hc : c ≠ '\n' := by rintro rfl; rw [hnl] at hs; cases hs
        simp only [hs, hc, Bool.false_and, Bool.false_eq_true, if_false]
        exact Equiv.cons c h3
    refine ⟨?_, ?_, ?_⟩
    · unfold removeComments eff
      by_cases hc : c = '\n'
      · subst hc
        simp only [if_true]
        by_cases hm : marked cs = true
        · rw [if_pos hm, eff_marked cs hm]
          exact h1.trans (equiv_sep '\n' (by decide) cs)
        · rw [if_neg hm]
          exact Equiv.cons _ h2
      · simp only [hc, if_false]; exact h1
    · unfold removeComments eff
      by_cases hm : mark c = true
      · rw [if_pos hm, if_neg (mark_not c hm).1]
        dsimp only
        rw [if_pos hm]; exact h1
      · rw [if_neg hm]
        dsimp only
        rw [if_neg hm]; exact hmid
    · unfold removeComments eff
      exact hmid

/-- The part of a line before the first comment. -/
def cut : Bool → Str → Str
  | _, [] => []
  | atStart, c :: cs => if atStart && mark c then [] else c :: cut (space c) cs

theorem split_ne (c : Char) (t : Str) : split c t ≠ [] := by
  cases t with
  | nil => simp [split]
  | cons x xs =>
    unfold split
    split
    · simp
    · split <;> simp

theorem lines_split : ∀ t : Str, Lines t (split '\n' t)
  | [] => ⟨by simp [split], by simp [split, List.intercalate, List.intersperse], by simp [split]⟩
  | x :: xs => by
    obtain ⟨h1, h2, h3⟩ := lines_split xs
    refine ⟨split_ne _ _, ?_, ?_⟩
    · unfold split
      by_cases hx : x = '\n'
      · rw [if_pos hx]
        cases hs : split '\n' xs with
        | nil => exact (h1 hs).elim
        | cons l ls =>
          rw [hs] at h2
          have : ['\n'].intercalate ([] :: l :: ls) = '\n' :: ['\n'].intercalate (l :: ls) := by
            simp [List.intercalate, List.intersperse]
          rw [this, ← h2, hx]
      · rw [if_neg hx]
        cases hs : split '\n' xs with
        | nil => exact (h1 hs).elim
        | cons l ls =>
          rw [hs] at h2
          have : ['\n'].intercalate ((x :: l) :: ls) = x :: ['\n'].intercalate (l :: ls) := by
            cases ls <;> simp [List.intercalate, List.intersperse]
          dsimp only
          rw [this, ← h2]
    · intro l hl
      unfold split at hl
      by_cases hx : x = '\n'
      · rw [if_pos hx] at hl
        rcases List.mem_cons.mp hl with rfl | hl
        · simp
        · exact h3 l hl
      · rw [if_neg hx] at hl
        cases hs : split '\n' xs with
        | nil => exact (h1 hs).elim
        | cons l' ls =>
          rw [hs] at hl h3
          dsimp only at hl
          rcases List.mem_cons.mp hl with rfl | hl
          · intro hm
            rcases List.mem_cons.mp hm with h | h
            · exact hx h.symm
            · exact h3 l' List.mem_cons_self h
          · exact h3 l (List.mem_cons_of_mem _ hl)

/-- cut for a mode -/
def cutM : Mode → Str → Str
  | .comment, _ => []
  | .start, l => cut true l
  | .mid, l => cut false l

theorem eff_split : ∀ (t : Str) (m : Mode), ∃ l ls, split '\n' t = l :: ls ∧ eff m t = ['\n'].intercalate (cutM m l :: ls.map (cut true))
  | [], m => ⟨[], [], rfl, by cases m <;> simp [eff, cutM, cut, List.intercalate, List.intersperse]⟩
  | c :: cs, m => by
    have hcons : ∀ (x : Char) (l : Str) (ls : List Str), ['\n'].intercalate ((x :: l) :: ls) = x :: ['\n'].intercalate (l :: ls) := by
      intro x l ls
      cases ls <;> simp [List.intercalate, List.intersperse]
    by_cases hc : c = '\n'
    · subst hc
      obtain ⟨l, ls, h1, h2⟩ := eff_split cs .start
      refine ⟨[], l :: ls, by simp [split, h1], ?_⟩
      have e : eff m ('\n' :: cs) = '\n' :: eff .start cs := by rw [eff.eq_def]; simp
      rw [e, h2]
      cases m <;> simp [cutM, cut, List.intercalate, List.intersperse]
    · have hsp : ∀ l ls, split '\n' cs = l :: ls → split '\n' (c :: cs) = (c :: l) :: ls := by
        intro l ls h; simp [split, hc, h]
      cases m with
      | comment =>
        obtain ⟨l, ls, h1, h2⟩ := eff_split cs .comment
        refine ⟨c :: l, ls, hsp l ls h1, ?_⟩
        have e : eff .comment (c :: cs) = eff .comment cs := by rw [eff.eq_def]; simp [hc]
        rw [e, h2]; rfl
      | start =>
        by_cases hm : mark c = true
        · obtain ⟨l, ls, h1, h2⟩ := eff_split cs .comment
          refine ⟨c :: l, ls, hsp l ls h1, ?_⟩
          have e : eff .start (c :: cs) = eff .comment cs := by rw [eff.eq_def]; simp [hc, hm]
          rw [e, h2]
          simp [cutM, cut, hm]
        · have hm : mark c = false := by simpa using hm
          by_cases hs : space c = true
          · obtain ⟨l, ls, h1, h2⟩ := eff_split cs .start
            refine ⟨c :: l, ls, hsp l ls h1, ?_⟩
            have e : eff .start (c :: cs) = c :: eff .start cs := by rw [eff.eq_def]; simp [hc, hm, hs]
            rw [e, h2, ← hcons]
            simp [cutM, cut, hm, hs]
          · have hs : space c = false := by simpa using hs
            obtain ⟨l, ls, h1, h2⟩ := eff_split cs .mid
            refine ⟨c :: l, ls, hsp l ls h1, ?_⟩
            have e : eff .start (c :: cs) = c :: eff .mid cs := by rw [eff.eq_def]; simp [hc, hm, hs]
            rw [e, h2, ← hcons]
            simp [cutM, cut, hm, hs]
      | mid =>
        by_cases hs : space c = true
        · obtain ⟨l, ls, h1, h2⟩ := eff_split cs .start
          refine ⟨c :: l, ls, hsp l ls h1, ?_⟩
          have e : eff .mid (c :: cs) = c :: eff .start cs := by rw [eff.eq_def]; simp [hc, hs]
          rw [e, h2, ← hcons]
          simp [cutM, cut, hs]
        · have hs : space c = false := by simpa using hs
          obtain ⟨l, ls, h1, h2⟩ := eff_split cs .mid
          refine ⟨c :: l, ls, hsp l ls h1, ?_⟩
          have e : eff .mid (c :: cs) = c :: eff .mid cs := by rw [eff.eq_def]; simp [hc, hs]
          rw [e, h2, ← hcons]
          simp [cutM, cut, hs]

theorem splitwords_intercalate : ∀ ls : List Str, splitwords (['\n'].intercalate ls) = (ls.map splitwords).flatten
  | [] => by simp [List.intercalate, List.intersperse, splitwords]
  | [l] => by simp [List.intercalate, List.intersperse]
  | l :: l2 :: ls => by
    have e : ['\n'].intercalate (l :: l2 :: ls) = l ++ '\n' :: ['\n'].intercalate (l2 :: ls) := by simp [List.intercalate, List.intersperse]
    rw [e, splitwords_append '\n' _ (by decide), splitwords_intercalate (l2 :: ls)]
    rfl

theorem words_eq (t : Str) : entries t = ((split '\n' t).map fun l => splitwords (cut true l)).flatten := by
  have h := (removeComments_eff t).2.1 []
  rw [List.nil_append, List.nil_append] at h
  unfold entries
  rw [h]
  obtain ⟨l, ls, h1, h2⟩ := eff_split t .start
  rw [h2, h1, splitwords_intercalate]
  simp [cutM, List.map_map, Function.comp_def]

theorem space_iff (c : Char) : space c = true ↔ isSpace c := by
  unfold space isSpace
  rw [Bool.and_eq_true, isSep_iff]
  simp

theorem mark_iff (c : Char) : mark c = true ↔ c = '#' ∨ c = ';' := by simp [mark]

/-- comment at a position if what is before is (not) a start -/
theorem cut_before (b : Bool) : ∀ line : Str,
    (∃ rest, line = cut b line ++ rest) ∧
    (∀ i, (∃ c, line[i]? = some c ∧ mark c = true) → ((i = 0 ∧ b = true) ∨ ∃ j c, i = j + 1 ∧ line[j]? = some c ∧ space c = true) → (cut b line).length ≤ i) ∧
    (cut b line = line ∨ ((∃ c, line[(cut b line).length]? = some c ∧ mark c = true) ∧
      (((cut b line).length = 0 ∧ b = true) ∨ ∃ j c, (cut b line).length = j + 1 ∧ line[j]? = some c ∧ space c = true)))
  | [] => by simp [cut]
  | x :: xs => by
    unfold cut
    by_cases h : (b && mark x) = true
    · rw [if_pos h]
      simp only [Bool.and_eq_true] at h
      exact ⟨⟨x :: xs, rfl⟩, fun i _ _ => Nat.zero_le _, Or.inr ⟨⟨x, rfl, h.2⟩, Or.inl ⟨rfl, h.1⟩⟩⟩
    · rw [if_neg h]
      obtain ⟨⟨rest, h1⟩, h2, h3⟩ := cut_before (space x) xs
      refine ⟨⟨rest, by rw [List.cons_append, ← h1]⟩, ?_, ?_⟩
      · rintro i ⟨c, hc, hm⟩ hi
        cases i with
        | zero =>
          simp at hc
          subst hc
          rcases hi with hi | ⟨j, _, hj, _⟩
          · exact (h (by simp [hi.2, hm])).elim
          · omega
        | succ i =>
          simp only [List.length_cons, Nat.add_le_add_iff_right]
          rcases hi with hi | ⟨j, d, hj, hd, hs⟩
          · omega
          · have : j = i := by omega
            subst this
            refine h2 j ⟨c, by simpa using hc, hm⟩ ?_
            cases j with
            | zero =>
              simp at hd
              subst hd
              exact Or.inl ⟨rfl, hs⟩
            | succ j => exact Or.inr ⟨j, d, rfl, by simpa using hd, hs⟩
      · rcases h3 with h3 | ⟨⟨c, hc, hm⟩, h4⟩
        · left; rw [h3]
        · right
          refine ⟨⟨c, by simpa using hc, hm⟩, Or.inr ?_⟩
          rcases h4 with ⟨h4, h5⟩ | ⟨j, d, h4, h5, h6⟩
          · exact ⟨0, x, by simp [h4], by simp, h5⟩
          · exact ⟨j + 1, d, by simp [h4], by simpa using h5, h6⟩

theorem before_cut (line : Str) : Before line (cut true line) := by
  obtain ⟨h1, h2, h3⟩ := cut_before true line
  refine ⟨h1, ?_, ?_⟩
  · rintro i ⟨hi, hj⟩
    refine h2 i ?_ ?_
    · rcases hi with hi | hi
      · exact ⟨_, hi, by decide⟩
      · exact ⟨_, hi, by decide⟩
    · cases i with
      | zero => exact Or.inl ⟨rfl, rfl⟩
      | succ j =>
        obtain ⟨c, hc, hs⟩ := hj j rfl
        exact Or.inr ⟨j, c, rfl, hc, (space_iff c).mpr hs⟩
  · rcases h3 with h3 | ⟨⟨c, hc, hm⟩, h4⟩
    · exact Or.inl h3
    · right
      refine ⟨?_, ?_⟩
      · rcases (mark_iff c).mp hm with rfl | rfl
        · exact Or.inl hc
        · exact Or.inr hc
      · intro j hj
        rcases h4 with ⟨h4, _⟩ | ⟨j', d, h4, h5, h6⟩
        · omega
        · have : j' = j := by omega
          subst this
          exact ⟨d, h5, (space_iff d).mp h6⟩

theorem all₂_map {α β : Type} (R : α → β → Prop) (f : α → β) (h : ∀ a, R a (f a)) : ∀ l, All₂ R l (l.map f)
  | [] => .nil
  | a :: l => .cons (h a) (all₂_map R f h l)

theorem entries_words (t : Str) : Entries t (entries t) := by
  refine ⟨split '\n' t, (split '\n' t).map (cut true), ((split '\n' t).map (cut true)).map splitwords, lines_split t, all₂_map _ _ before_cut _, all₂_map _ _ words_splitwords _, ?_⟩
  rw [words_eq, List.map_map]
  rfl

/-! ## Time -/

/-- What is known about the set at time `now`. -/
structure Inv (lib : NetLib) (file : Int → FileState) (now : Int) (s : FileSet) : Prop where
  known : ∀ st, s.stats = some st → ∃ t0 t1, t0 ≤ t1 ∧ t1 ≤ now ∧ (file t0).stat = some st ∧ ((file t1).text.bind (parse lib) = some s.set ∨ (file t1).stat = none)
  next : s.nextCheck ≤ 0 ∨ ∃ t u, t ≤ u ∧ u ≤ now ∧
    ((s.nextCheck = t + latency ∧ (file u).text.bind (parse lib) = some s.set) ∨ (s.nextCheck = t + latency + 60 * second ∧ (file u).stat = none))

theorem inv_init (lib : NetLib) (file : Int → FileState) (now : Int) : Inv lib file now {} := ⟨by simp, Or.inl (Int.le_refl _)⟩

theorem inv_later {lib : NetLib} {file : Int → FileState} {now now' : Int} {s : FileSet} (h : Inv lib file now s) (hn : now ≤ now') : Inv lib file now' s := by
  refine ⟨fun st hst => ?_, ?_⟩
  · obtain ⟨t0, t1, h1, h2, h3⟩ := h.known st hst
    exact ⟨t0, t1, h1, by omega, h3⟩
  · rcases h.next with h1 | ⟨t, u, h1, h2, h3⟩
    · exact Or.inl h1
    · exact Or.inr ⟨t, u, h1, by omega, h3⟩

/-- The file is as remembered: so is the set. -/
theorem same_set {lib : NetLib} {file : Int → FileState} {now : Int} {s : FileSet} (h : Inv lib file now s) (hh : Honest file) (t : Int) (ht : now ≤ t) (st : Stat)
    (hst : s.stats = some st) (hf : (file t).stat = some st) : (file t).text.bind (parse lib) = some s.set := by
  obtain ⟨t0, t1, h1, h2, h3, h4⟩ := h.known st hst
  have e := hh t0 t1 t h1 (by omega) (by rw [h3]; simp) (by rw [h3, hf])
  rcases h4 with h4 | h4
  · rw [← e]; exact h4
  · rw [e, hf] at h4; cases h4

theorem inv_ask {lib : NetLib} {file : Int → FileState} {now : Int} {s : FileSet} (h : Inv lib file now s) (hh : Honest file) (hr : Readable lib file) (c : Int × Int) (h1 : now ≤ c.1) (h2 : c.1 ≤ c.2) :
    Inv lib file c.2 (ask lib file s c) := by
  unfold ask load isModified
  by_cases hn : c.1 ≤ s.nextCheck
  · simp only [hn, if_true, Bool.false_eq_true, if_false]
    exact inv_later h (by omega)
  · simp only [hn, if_false]
    cases hs : (file c.1).stat with
    | none =>
      simp only [Bool.false_eq_true, if_false, failed]
      refine ⟨fun st hst => ?_, Or.inr ⟨c.1, c.1, by omega, h2, Or.inr ⟨rfl, hs⟩⟩⟩
      exact (inv_later h (by omega)).known st hst
    | some st =>
      dsimp only
      by_cases he : s.stats = some st
      · simp only [he, if_true, Bool.false_eq_true, if_false]
        refine ⟨fun st' hst => ?_, Or.inr ⟨c.1, c.1, by omega, h2, Or.inl ⟨rfl, same_set h hh c.1 h1 st he hs⟩⟩⟩
        exact (inv_later h (by omega)).known st' (he.trans hst)
      · simp only [he, if_false, if_true, take]
        cases hp : (file c.2).text.bind (parse lib) with
        | none =>
          have hnone : (file c.2).stat = none := by
            cases hx : (file c.2).stat with
            | none => rfl
            | some st' =>
              obtain ⟨text, ips, e1, e2⟩ := hr c.2 (by rw [hx]; simp)
              rw [e1, Option.bind_some, e2] at hp
              cases hp
          simp only [failed]
          refine ⟨fun st' hst => ?_, Or.inr ⟨c.1, c.2, h2, Int.le_refl _, Or.inr ⟨rfl, hnone⟩⟩⟩
          injection hst with hst
          subst hst
          exact ⟨c.1, c.2, h2, Int.le_refl _, hs, Or.inr hnone⟩
        | some ips =>
          dsimp only
          refine ⟨fun st' hst => ?_, Or.inr ⟨c.1, c.2, h2, Int.le_refl _, Or.inl ⟨rfl, hp⟩⟩⟩
          injection hst with hst
          subst hst
          exact ⟨c.1, c.2, h2, Int.le_refl _, hs, Or.inl hp⟩

theorem inv_run {lib : NetLib} {file : Int → FileState} (hh : Honest file) (hr : Readable lib file) : ∀ (cs : List (Int × Int)) (now : Int) (s : FileSet), Inv lib file now s → InOrder now cs →
    ∃ now', Inv lib file now' (cs.foldl (ask lib file) s) ∧ now ≤ now' ∧ ∀ c, InOrder now (cs ++ [c]) → now' ≤ c.1
  | [], now, s, h, _ => ⟨now, h, Int.le_refl _, fun c hc => hc.1⟩
  | c :: cs, now, s, h, ho => by
    obtain ⟨h1, h2, h3, h4⟩ := ho
    obtain ⟨now', h5, h6, h7⟩ := inv_run hh hr cs c.2 _ (inv_ask h hh hr c h1 h3) h4
    exact ⟨now', h5, by omega, fun d hd => h7 d hd.2.2.2⟩

theorem inOrder_append : ∀ (cs : List (Int × Int)) (now : Int) (c : Int × Int), InOrder now (cs ++ [c]) → InOrder now cs ∧ 0 < c.1 ∧ c.1 ≤ c.2
  | [], now, c, h => ⟨trivial, h.2.1, h.2.2.1⟩
  | d :: cs, now, c, h => by
    obtain ⟨h1, h2, h3, h4⟩ := h
    obtain ⟨h5, h6, h7⟩ := inOrder_append cs d.2 c h4
    exact ⟨⟨h1, h2, h3, h5⟩, h6, h7⟩

end Verif.FileSetLemmas
