import Verif.Spec.Journal

namespace Verif.JournalSpec

open Verif.Journal

theorem addElements_ok (valid : String → Bool) : ∀ (t : List String) (r : Reader), (∀ m ∈ t, valid m = true) →
    addElements valid r t = (⟨r.terms, r.cur ++ t⟩, true)
  | [], r, _ => by simp [addElements]
  | m :: t, r, h => by
    unfold addElements
    rw [if_pos (h m (by simp)), addElements_ok valid t _ (fun x hx => h x (by simp [hx]))]
    simp [Reader.addMatch]

theorem addElements_bad (valid : String → Bool) : ∀ (t : List String) (r : Reader), ¬ (∀ m ∈ t, valid m = true) →
    (addElements valid r t).2 = false
  | [], r, h => absurd (by simp) h
  | m :: t, r, h => by
    unfold addElements
    split
    · rename_i hm
      refine addElements_bad valid t _ (fun h' => h ?_)
      intro x hx
      rcases List.mem_cons.1 hx with rfl | hx
      · exact hm
      · exact h' x hx
    · rfl

theorem addTerms_ok (valid : String → Bool) : ∀ (ts : List (List String)) (r : Reader), r.cur = [] → AllValid valid ts →
    addTerms valid r ts = (⟨r.terms ++ ts.filter (fun t => t ≠ []), []⟩, true)
  | [], r, h, _ => by
    cases r; subst h; simp [addTerms]
  | t :: ts, r, h, hv => by
    unfold addTerms
    rw [addElements_ok valid t r (hv t (by simp))]
    dsimp only
    rw [if_pos rfl]
    have hr : (Reader.addOr ⟨r.terms, r.cur ++ t⟩) = ⟨r.terms ++ (if t = [] then [] else [t]), []⟩ := by
      unfold Reader.addOr
      rw [h]
      by_cases ht : t = []
      · subst ht; simp
      · simp [ht]
    rw [hr, addTerms_ok valid ts _ rfl (fun x hx => hv x (by simp [hx]))]
    by_cases ht : t = []
    · subst ht; simp
    · simp [ht]

theorem addTerms_bad (valid : String → Bool) : ∀ (ts : List (List String)) (r : Reader), ¬ AllValid valid ts →
    (addTerms valid r ts).2 = false
  | [], r, h => absurd (by intro t ht; simp at ht) h
  | t :: ts, r, h => by
    unfold addTerms
    by_cases ht : ∀ m ∈ t, valid m = true
    · rw [addElements_ok valid t r ht]
      dsimp only
      rw [if_pos rfl]
      refine addTerms_bad valid ts _ (fun h' => h ?_)
      intro x hx
      rcases List.mem_cons.1 hx with rfl | hx
      · exact ht
      · exact h' x hx
    · have := addElements_bad valid t r ht
      revert this
      generalize addElements valid r t = q
      obtain ⟨q1, q2⟩ := q
      rintro rfl
      rfl

/-- What always holds for filter and reader. -/
structure Inv (valid : String → Bool) (s : Matches) : Prop where
  cur : s.reader.cur = []
  terms : s.reader.terms = s.shown.filter (fun t => t ≠ [])
  good : AllValid valid s.shown
  plain : Plain s.shown

theorem Inv.ext {valid : String → Bool} {s : Matches} (h : Inv valid s) : s = ⟨⟨s.shown.filter (fun t => t ≠ []), []⟩, s.shown⟩ := by
  obtain ⟨⟨a, b⟩, c⟩ := s
  have h1 := h.cur
  have h2 := h.terms
  dsimp only at h1 h2 ⊢
  rw [← h2, h1]

/-- The state with these matches. -/
def state (ts : List (List String)) : Matches := ⟨⟨ts.filter (fun t => t ≠ []), []⟩, ts⟩

theorem addMatches_ok (valid : String → Bool) (a ts : List (List String)) (h : AllValid valid ts) :
    Matches.addMatches valid (state a) ts = (state (a ++ ts), true) := by
  unfold Matches.addMatches
  have hr : (if (state a).shown.isEmpty then (state a).reader else (state a).reader.addOr) = (state a).reader := by
    split
    · rfl
    · simp [state, Reader.addOr]
  dsimp only
  rw [hr, addTerms_ok valid ts _ rfl h]
  simp [state]

theorem addMatches_bad (valid : String → Bool) (s : Matches) (ts : List (List String)) (h : ¬ AllValid valid ts) :
    (Matches.addMatches valid s ts).2 = false ∧ (Matches.addMatches valid s ts).1.shown = s.shown := by
  unfold Matches.addMatches
  have := addTerms_bad valid ts (if s.shown.isEmpty then s.reader else s.reader.addOr) h
  dsimp only
  revert this
  generalize addTerms valid _ ts = q
  obtain ⟨q1, q2⟩ := q
  rintro rfl
  exact ⟨rfl, rfl⟩

theorem reset_ok (valid : String → Bool) (s : Matches) (h : AllValid valid s.shown) : s.reset valid = (state s.shown, true) := by
  have := addMatches_ok valid [] s.shown h
  simpa [Matches.reset, state, flushed] using this

theorem splitMatches_eq : ∀ (ts : List (List String)) (done : List (List String)) (cur : List String), ts ≠ [] → Plain ts →
    splitMatches done cur (withPlus ts) = done ++ (match ts with | [] => [cur] | t :: ts => (cur ++ t) :: ts)
  | [], _, _, h, _ => absurd rfl h
  | t :: ts, done, cur, _, hp => by
    have one : ∀ (t : List String) (done : List (List String)) (cur rest : List String), "+" ∉ t →
        splitMatches done cur (t ++ rest) = splitMatches done (cur ++ t) rest := by
      intro t
      induction t with
      | nil => intro done cur rest _; simp
      | cons m t ih =>
        intro done cur rest h
        rw [List.cons_append]
        show (if m = "+" then _ else splitMatches done (cur ++ [m]) (t ++ rest)) = _
        rw [if_neg (fun e => h (by simp [e])), ih _ _ _ (fun hx => h (by simp [hx]))]
        simp
    have ht : "+" ∉ t := hp t (by simp)
    cases ts with
    | nil =>
      show splitMatches done cur t = _
      have := one t done cur [] ht
      rw [List.append_nil] at this
      rw [this]; rfl
    | cons t' ts =>
      show splitMatches done cur (t ++ "+" :: withPlus (t' :: ts)) = _
      rw [one t done cur _ ht]
      show (if "+" = "+" then splitMatches (done ++ [cur ++ t]) [] (withPlus (t' :: ts)) else _) = _
      rw [if_pos rfl, splitMatches_eq (t' :: ts) _ [] (by simp) (fun x hx => hp x (by simp [hx]))]
      simp

theorem split_withPlus (ts : List (List String)) (h : ts ≠ []) (hp : Plain ts) : splitMatches [] [] (withPlus ts) = ts := by
  rw [splitMatches_eq ts [] [] h hp]
  cases ts with
  | nil => exact absurd rfl h
  | cons t ts => simp

theorem exists_withPlus : ∀ m : List String, ∃ ts, ts ≠ [] ∧ Plain ts ∧ withPlus ts = m
  | [] => ⟨[[]], by simp, by simp [Plain], rfl⟩
  | a :: m => by
    obtain ⟨ts, h1, h2, h3⟩ := exists_withPlus m
    by_cases ha : a = "+"
    · refine ⟨[] :: ts, by simp, ?_, ?_⟩
      · intro t ht
        rcases List.mem_cons.1 ht with rfl | ht
        · simp
        · exact h2 t ht
      · cases ts with
        | nil => exact absurd rfl h1
        | cons t ts => rw [← h3, ha]; rfl
    · cases ts with
      | nil => exact absurd rfl h1
      | cons t ts =>
        refine ⟨(a :: t) :: ts, by simp, ?_, ?_⟩
        · intro x hx
          rcases List.mem_cons.1 hx with rfl | hx
          · intro hm
            rcases List.mem_cons.1 hm with e | hm
            · exact ha e.symm
            · exact h2 t (by simp) hm
          · exact h2 x (by simp [hx])
        · rw [← h3]
          cases ts <;> rfl

theorem state_inv (valid : String → Bool) (ts : List (List String)) (h : AllValid valid ts) (hp : Plain ts) : Inv valid (state ts) := ⟨rfl, rfl, h, hp⟩

theorem add_ok (valid : String → Bool) (a ts : List (List String)) (ht : ts ≠ []) (hp : Plain ts) (h : AllValid valid ts) :
    Matches.add valid (state a) (withPlus ts) = (state (a ++ ts), true) := by
  unfold Matches.add
  rw [split_withPlus ts ht hp, addMatches_ok valid a ts h]

theorem add_bad (valid : String → Bool) (a ts : List (List String)) (ht : ts ≠ []) (hp : Plain ts) (ha : AllValid valid a) (h : ¬ AllValid valid ts) :
    Matches.add valid (state a) (withPlus ts) = (state a, false) := by
  unfold Matches.add
  rw [split_withPlus ts ht hp]
  have := addMatches_bad valid (state a) ts h
  revert this
  generalize Matches.addMatches valid (state a) ts = q
  obtain ⟨q1, q2⟩ := q
  rintro ⟨rfl, h2⟩
  dsimp only at h2 ⊢
  have h3 : q1.shown = a := h2
  rw [reset_ok valid q1 (by rw [h3]; exact ha), h3]

theorem del_ok (valid : String → Bool) (a : List (List String)) (m : List String) (ha : AllValid valid a) (h : m ∈ a) :
    Matches.del valid (state a) (some m) = (state (a.erase m), true) := by
  unfold Matches.del
  dsimp only
  rw [if_pos (show m ∈ (state a).shown from h), reset_ok valid _ (fun t ht => ha t (List.mem_of_mem_erase ht))]
  rfl

theorem clear_ok (valid : String → Bool) (a : List (List String)) : Matches.del valid (state a) none = (state [], true) := by
  unfold Matches.del
  dsimp only
  split
  · rename_i h
    have : a = [] := by simpa [state] using h
    rw [this]
  · rw [reset_ok valid _ (fun t ht => by simp at ht)]

theorem command_inv (valid : String → Bool) (s : Matches) (c : Command) (h : Inv valid s) : Inv valid (s.command valid c).1 := by
  have hs : s = state s.shown := h.ext
  have hg := h.good
  have hp := h.plain
  generalize s.shown = a at hs hg hp
  subst hs
  cases c with
  | add m =>
    obtain ⟨ts, h1, h2, rfl⟩ := exists_withPlus m
    show Inv valid (Matches.add valid (state a) (withPlus ts)).1
    by_cases hv : AllValid valid ts
    · rw [add_ok valid a ts h1 h2 hv]
      exact state_inv valid _ (fun t ht => (List.mem_append.1 ht).elim (hg t) (hv t)) (fun t ht => (List.mem_append.1 ht).elim (hp t) (h2 t))
    · rw [add_bad valid a ts h1 h2 hg hv]; exact h
  | del m =>
    show Inv valid (Matches.del valid (state a) (some m)).1
    by_cases hm : m ∈ a
    · rw [del_ok valid a m hg hm]
      exact state_inv valid _ (fun t ht => hg t (List.mem_of_mem_erase ht)) (fun t ht => hp t (List.mem_of_mem_erase ht))
    · unfold Matches.del
      dsimp only
      rw [if_neg (show ¬ m ∈ (state a).shown from hm)]
      exact h
  | clear =>
    show Inv valid (Matches.del valid (state a) none).1
    rw [clear_ok]
    exact state_inv valid _ (fun t ht => by simp at ht) (fun t ht => by simp at ht)

theorem commands_inv (valid : String → Bool) : ∀ (cs : List Command) (s : Matches), Inv valid s → Inv valid (s.commands valid cs)
  | [], _, h => h
  | c :: cs, s, h => commands_inv valid cs _ (command_inv valid s c h)

theorem reached_inv {valid : String → Bool} {s : Matches} (h : Reached valid s) : Inv valid s := by
  obtain ⟨cs, rfl⟩ := h
  exact commands_inv valid cs _ ⟨rfl, rfl, fun t ht => by simp [noMatches] at ht, fun t ht => by simp [noMatches] at ht⟩

theorem fulfils_iff (t e : List String) : fulfils t e = true ↔ Meets t e := by
  simp [fulfils, Meets]

theorem gives_state (ts : List (List String)) (e : List String) : (state ts).reader.gives e = true ↔ Wanted ts e := by
  unfold Reader.gives state Wanted
  simp only [if_pos, List.append_nil, Bool.or_eq_true, List.isEmpty_iff, List.any_eq_true, List.filter_eq_nil_iff, List.mem_filter, fulfils_iff]
  constructor
  · rintro (h | ⟨t, ⟨h1, h2⟩, h3⟩)
    · left; intro t ht; simpa using h t ht
    · right; exact ⟨t, h1, by simpa using h2, h3⟩
  · rintro (h | ⟨t, h1, h2, h3⟩)
    · left; intro t ht; simpa using h t ht
    · right; exact ⟨t, ⟨h1, by simpa using h2⟩, h3⟩

/-! ## Lines -/

theorem escape_append (a b : List Char) : escape (a ++ b) = escape a ++ escape b := by simp [escape]

theorem escape_no (a : List Char) : '\n' ∉ escape a := by
  intro h
  obtain ⟨c, _, hc⟩ := List.mem_flatMap.1 h
  split at hc
  · simp at hc
  · rename_i hn
    exact hn (List.mem_singleton.1 hc).symm

theorem escape_plain (a : List Char) (h : '\n' ∉ a) : escape a = a := by
  induction a with
  | nil => rfl
  | cons c a ih =>
    have hc : c ≠ '\n' := fun e => h (by simp [e])
    show (if c = '\n' then ['\\', 'n'] else [c]) ++ escape a = _
    rw [if_neg hc, ih (fun hx => h (by simp [hx]))]; rfl

theorem lines_exist : ∀ s : List Char, ∃ ls : List (List Char), (∀ l ∈ ls, '\n' ∉ l) ∧ ls ≠ [] ∧
    s = List.intercalate ['\n'] ls ∧ escape s = List.intercalate ['\\', 'n'] ls
  | [] => ⟨[[]], by simp, by simp, rfl, rfl⟩
  | c :: s => by
    obtain ⟨ls, h1, h2, h3, h4⟩ := lines_exist s
    by_cases hc : c = '\n'
    · refine ⟨[] :: ls, ?_, by simp, ?_, ?_⟩
      · intro l hl
        rcases List.mem_cons.1 hl with rfl | hl
        · simp
        · exact h1 l hl
      · cases ls with
        | nil => exact absurd rfl h2
        | cons l ls => rw [h3, hc]; simp [List.intercalate]
      · cases ls with
        | nil => exact absurd rfl h2
        | cons l ls =>
          show (if c = '\n' then ['\\', 'n'] else [c]) ++ escape s = _
          rw [h4, if_pos hc]; simp [List.intercalate]
    · cases ls with
      | nil => exact absurd rfl h2
      | cons l ls =>
        refine ⟨(c :: l) :: ls, ?_, by simp, ?_, ?_⟩
        · intro x hx
          rcases List.mem_cons.1 hx with rfl | hx
          · intro hm
            rcases List.mem_cons.1 hm with e | hm
            · exact hc e.symm
            · exact h1 l (by simp) hm
          · exact h1 x (by simp [hx])
        · rw [h3]; cases ls <;> simp [List.intercalate]
        · show (if c = '\n' then ['\\', 'n'] else [c]) ++ escape s = _
          rw [h4, if_neg hc]; cases ls <;> simp [List.intercalate]

theorem oneLine_escape (s : List Char) : OneLine s (escape s) := ⟨escape_no s, lines_exist s⟩

theorem joinSpace_append (l : List (List Char)) (m : List Char) : joinSpace (l ++ [m]) = l.flatMap (fun p => p ++ [' ']) ++ m := by
  induction l with
  | nil => simp [joinSpace]
  | cons a l ih =>
    have : joinSpace (a :: (l ++ [m])) = a ++ ' ' :: joinSpace (l ++ [m]) := by
      cases l <;> rfl
    rw [List.cons_append, this, ih]
    simp

theorem joinSpace_cons (a : List Char) (l : List (List Char)) : joinSpace (a :: l) = a ++ l.flatMap (fun t => ' ' :: t) := by
  induction l generalizing a with
  | nil => simp [joinSpace]
  | cons b l ih =>
    show a ++ ' ' :: joinSpace (b :: l) = _
    rw [ih]; simp

theorem text?_eq (x : Option (List Char)) : text? x = firstText [x] := by
  match x with
  | none => rfl
  | some [] => rfl
  | some (c :: s) => rfl

theorem firstText_two (x y : Option (List Char)) : (match text? x with | some v => some v | none => text? y) = firstText [x, y] := by
  match x with
  | none => exact text?_eq y
  | some [] => exact text?_eq y
  | some (c :: s) => rfl

/-- The text shown for the process. -/
theorem showPid_eq (int0 : List Char → Option Int) (x : Option Pid) :
    (pid? x).map (showPid int0) = (pidText int0 x).map (fun p => '[' :: p ++ [']']) := by
  match x with
  | none => rfl
  | some (.num n) =>
    by_cases hn : n = 0
    · subst hn; rfl
    · have : pid? (some (.num n)) = some (.num n) := by
        unfold pid?
        split
        · rename_i h; injection h with h; injection h with h; exact absurd h hn
        · rename_i h; injection h with h; cases h
        · rfl
      rw [this]
      unfold pidText
      dsimp only
      rw [if_neg hn]; rfl
  | some (.text []) => rfl
  | some (.text (c :: s)) =>
    show some (showPid int0 (.text (c :: s))) = _
    unfold pidText showPid
    dsimp only
    rw [if_neg (by simp)]
    cases int0 (c :: s) <;> rfl
  | some (.other s) => rfl

theorem firstText_brackets (x y : Option (List Char)) :
    firstText [x.map (fun p => '[' :: p ++ [']']), y.map (fun p => '[' :: p ++ [']'])] =
    (match x.map (fun p => '[' :: p ++ [']']) with | some v => some v | none => y.map (fun p => '[' :: p ++ [']'])) := by
  cases x <;> cases y <;> rfl

end Verif.JournalSpec
