import Verif.Lemmas.Options

/-! # Lemmas about splitting a list of names with options -/

namespace Verif.Options

open Verif.Regex Verif.OptionsSpec

/-- The match ends here, with some groups. -/
def Ends (x : Option Res) (u : Str) : Prop := ∃ c, x = some (u, c)

/-- The text does not go on with an opening bracket. -/
def NoBracket (cc : Chars) (s : Str) : Prop := ∀ b w, Blank cc b → s ≠ b ++ '[' :: w

set_option linter.unusedSectionVars false

section
variable {cc : Chars} (sane : Sane cc)
include sane

theorem spaces_first {k : Cont} {b w u : Str} {c : Caps} (hb : Blank cc b) (hw : ∀ x xs, w = x :: xs → cc.space x = false) (h : Ends (k w c) u) : Ends ((spaces cc).run (b ++ w) c k) u := by
  obtain ⟨c', h⟩ := h
  rw [spaces, run_starc]
  exact ⟨c', starc_first b w c hb (by rw [starc_stop hw]; exact h)⟩

theorem spaces_none {k : Cont} {w : Str} {c : Caps} (h : ∀ x xs, w = x :: xs → cc.space x = false) (hk : Ends (k w c) u) : Ends ((spaces cc).run w c k) u :=
  spaces_first sane (b := []) blank_nil h hk

theorem key_run {k : Cont} {key t u : Str} {c : Caps} (hk : Key cc key) (h : Ends (k ('=' :: t) c) u) : Ends ((plus (.cls (isKey cc))).run (key ++ '=' :: t) c k) u := by
  obtain ⟨c', h⟩ := h
  cases key with
  | nil => exact absurd rfl hk.1
  | cons x key =>
    have hx : ∀ y ∈ x :: key, isKey cc y = true := fun y hy => (isKey_iff cc y).mpr (hk.2 y hy)
    refine ⟨c', ?_⟩
    rw [List.cons_append, plus_cons, if_pos (hx x (by simp))]
    refine starc_first key _ c (fun y hy => hx y (by simp [hy])) ?_
    rw [starc_stop]
    · exact h
    · intro y ys e; cases e; exact punct_notKey sane (by simp)

omit sane in
theorem written_value {t v w : Str} (h : Written t v) (hw : ∀ x xs, w = x :: xs → x = ',' ∨ x = ']') : Value (t ++ w) v w := by
  cases h with
  | quoted q _ hq hv =>
    have := Value.quoted q v w hq hv
    simpa using this
  | bare _ h1 h2 h3 =>
    refine .bare t w h1 h2 hw ?_
    rintro ⟨q, u, y, hq, e⟩
    cases t with
    | nil =>
      rw [List.nil_append] at e
      rcases hw _ _ e with rfl | rfl <;> rcases hq with h | h <;> cases h
    | cons x t =>
      injection e with e _
      subst e
      exact h3 x rfl hq

/-- An option, and what follows it. -/
theorem splitItem_run {k : Cont} {key t v w u : Str} {c : Caps} (hk : Key cc key) (ht : Written t v) (hw : ∀ x xs, w = x :: xs → x = ',' ∨ x = ']')
    (h : ∀ c, Ends ((Re.seq (.opt (.alt (chr ',') (nextGroupRe cc))) (spaces cc)).run w c k) u) : Ends ((splitItemRe cc).run (key ++ '=' :: (t ++ w)) c k) u := by
  rw [splitItemRe, Re.run]
  apply key_run sane hk
  rw [Re.run, chr_self, Re.run]
  have hw' : ∀ x xs, w = x :: xs → cc.space x = false := by
    intro x xs e
    rcases hw x xs e with rfl | rfl <;> exact sane.space _ (by simp)
  have hs : ∀ n, Ends ((Re.seq (spaces cc) (.seq (.opt (.alt (chr ',') (nextGroupRe cc))) (spaces cc))).run w ((n, v) :: c) k) u := by
    intro n
    rw [Re.run]
    exact spaces_none sane hw' (h _)
  obtain ⟨n, _, e⟩ := value_run sane (c := c) (k := fun s c => (Re.seq (spaces cc) (.seq (.opt (.alt (chr ',') (nextGroupRe cc))) (spaces cc))).run s c k)
    (f := fun n => (u, (hs n).choose)) (written_value ht hw) (fun n _ => (hs n).choose_spec)
  exact ⟨_, e⟩

theorem splitItem_none {s : Str} {c : Caps} (h : ∀ x xs, s = x :: xs → isKey cc x = false) (k : Cont) : (splitItemRe cc).run s c k = none := by
  rw [splitItemRe, Re.run]
  cases s with
  | nil => rfl
  | cons x xs => rw [plus_cons, if_neg (by simp [h x xs rfl])]

/-- All options up to the closing bracket. -/
theorem items_run {o : Str} {os : List (Str × Str)} (ho : Items cc o os) {tail u : Str} {k : Cont} (hk : ∀ c, Ends (k tail c) u) (hb : NoBracket cc tail) :
    ∀ (c : Caps) (L : Nat), (o ++ ']' :: tail).length < L → Ends ((spaces cc).run (o ++ ']' :: tail) c
      (fun s c => if s.length < L then (Re.star (splitItemRe cc)).run s c (fun s c => (chr ']').run s c k) else none)) u := by
  have close : ∀ c, Ends ((Re.star (splitItemRe cc)).run (']' :: tail) c (fun s c => (chr ']').run s c k)) u := by
    intro c
    rw [star_stop (splitItem_none sane (by intro x xs e; cases e; exact punct_notKey sane (by simp))), chr_self]
    exact hk c
  have keyHead : ∀ {key t : Str}, Key cc key → ∀ x xs, key ++ '=' :: t = x :: xs → cc.space x = false := by
    intro key t hkey x xs e
    cases key with
    | nil => exact absurd rfl hkey.1
    | cons y key =>
      injection e with e _
      subst e
      cases hs : cc.space y with
      | false => rfl
      | true => have := space_notKey sane hs; rw [(isKey_iff cc y).mpr (hkey.2 y (by simp))] at this; cases this
  have turn : ∀ {key t v w : Str}, Key cc key → Written t v → (∀ x xs, w = x :: xs → x = ',' ∨ x = ']') → ∀ c,
      (∀ c L, w.length < L → Ends ((Re.seq (.opt (.alt (chr ',') (nextGroupRe cc))) (spaces cc)).run w c
        (fun s c => if s.length < L then (Re.star (splitItemRe cc)).run s c (fun s c => (chr ']').run s c k) else none)) u) →
      Ends ((Re.star (splitItemRe cc)).run (key ++ '=' :: (t ++ w)) c (fun s c => (chr ']').run s c k)) u := by
    intro key t v w hkey ht hw c h
    obtain ⟨c', e⟩ := splitItem_run sane (c := c) hkey ht hw (fun c => h c (key ++ '=' :: (t ++ w)).length (by simp; omega))
    exact ⟨c', star_turn e⟩
  induction ho with
  | none b hbl =>
    intro c L hL
    apply spaces_first sane hbl (by intro x xs e; cases e; exact sane.space _ (by simp))
    rw [if_pos (by simp at hL ⊢; omega)]
    exact close c
  | last b key t v v' hbl hkey ht _ =>
    intro c L hL
    rw [List.append_assoc, List.append_assoc]
    apply spaces_first sane hbl (keyHead hkey)
    rw [if_pos (by simp at hL ⊢; omega)]
    apply turn hkey ht (by intro x xs e; cases e; exact .inr rfl)
    intro c L hL
    rw [Re.run, Re.run, Re.run, chr_none (by rintro t e; cases e)]
    simp only
    rw [nextGroup_none sane (by intro b w hbl e; injection e with _ e; exact hb b w hbl e)]
    apply spaces_none sane (by intro x xs e; cases e; exact sane.space _ (by simp))
    rw [if_pos hL]
    exact close c
  | comma b key t v v' r os hbl hkey ht _ hr ih =>
    intro c L hL
    rw [List.append_assoc, List.append_assoc, List.cons_append, List.append_assoc, List.cons_append] at *
    apply spaces_first sane hbl (keyHead hkey)
    rw [if_pos (by simp at hL ⊢; omega)]
    apply turn hkey ht (by intro x xs e; cases e; exact .inl rfl)
    intro c L hL
    obtain ⟨c', e⟩ := ih c L (by simp at hL ⊢; omega)
    refine ⟨c', ?_⟩
    rw [Re.run, Re.run, Re.run, chr_self, e]
  | group b key t v v' b' r os hbl hkey ht _ hbl' hr ih =>
    intro c L hL
    rw [List.append_assoc, List.append_assoc, List.cons_append, List.append_assoc, List.cons_append, List.append_assoc, List.cons_append] at *
    apply spaces_first sane hbl (keyHead hkey)
    rw [if_pos (by simp at hL ⊢; omega)]
    apply turn hkey ht (by intro x xs e; cases e; exact .inr rfl)
    intro c L hL
    obtain ⟨c', e⟩ := ih c L (by simp at hL ⊢; omega)
    refine ⟨c', ?_⟩
    rw [Re.run, Re.run, Re.run, chr_none (by rintro t e; cases e)]
    simp only
    rw [nextGroup_run sane hbl', e]

/-! ## An entry -/

/-- Whether a part ends here. -/
abbrev edge (cc : Chars) : Re := .ahead (.alt (.seq (chr '\n') (spaces cc)) (.alt (plus (.cls cc.space)) .eos))

theorem edge_nil {c : Caps} {k : Cont} : (edge cc).run [] c k = k [] c := by
  rw [edge, Re.run, if_pos]
  rw [Re.run, Re.run, chr_nil]
  simp only
  rw [Re.run, plus_nil]
  rfl

theorem edge_space {x : Char} {s : Str} {c : Caps} {k : Cont} (h : cc.space x = true) : (edge cc).run (x :: s) c k = k (x :: s) c := by
  rw [edge, Re.run, if_pos]
  rw [Re.run]
  split
  · rfl
  · rw [Re.run, plus_cons, if_pos h]
    obtain ⟨b, w, rfl, hb, hw⟩ := span cc.space s
    rw [starc_first (r := (w, c)) b w c hb (by rw [starc_stop hw])]
    rfl

theorem edge_none {x : Char} {s : Str} {c : Caps} {k : Cont} (h : cc.space x = false) : (edge cc).run (x :: s) c k = none := by
  have hx : x ≠ '\n' := by rintro rfl; rw [sane.newline] at h; cases h
  rw [edge, Re.run, if_neg]
  rw [Re.run, Re.run, chr_none (by rintro t e; cases e; exact hx rfl)]
  simp only
  rw [Re.run, plus_cons, if_neg (by simp [h])]
  simp only
  rw [Re.run, if_neg]
  · simp
  · rintro (e | e)
    · cases e
    · cases e; exact hx rfl

/-- Where a part ends: at the end, or before the last white space before the next one. -/
def Stops (cc : Chars) (tail u : Str) : Prop :=
  ∃ b, Blank cc b ∧ tail = b ++ u ∧ (u = [] ∨ ∃ x y ys, u = x :: y :: ys ∧ cc.space x = true ∧ cc.space y = false)

omit sane in
theorem stops_exists {x : Char} {s : Str} (hx : cc.space x = true) : ∃ u, Stops cc (x :: s) u := by
  obtain ⟨b, w, rfl, hb, hw⟩ := span cc.space s
  cases w with
  | nil =>
    refine ⟨[], x :: (b ++ []), ?_, by simp, .inl rfl⟩
    intro y hy
    rcases List.mem_cons.mp hy with rfl | hy
    · exact hx
    · exact hb y (by simpa using hy)
  | cons y ys =>
    have hl : ∃ b' z, x :: b = b' ++ [z] := ⟨(x :: b).dropLast, (x :: b).getLast (by simp), (List.dropLast_concat_getLast (by simp)).symm⟩
    obtain ⟨b', z, e⟩ := hl
    have hbl : ∀ c ∈ b' ++ [z], cc.space c = true := by
      rw [← e]
      intro c hc
      rcases List.mem_cons.mp hc with rfl | hc
      · exact hx
      · exact hb c hc
    refine ⟨z :: y :: ys, b', fun c hc => hbl c (by simp [hc]), ?_, .inr ⟨z, y, ys, rfl, hbl z (by simp), hw y ys rfl⟩⟩
    rw [← List.cons_append, e]; simp

theorem stops_run {tail u : Str} {c : Caps} (h : Stops cc tail u) : Ends ((spaces cc).run tail c (fun s c => (edge cc).run s c done)) u := by
  obtain ⟨b, hb, rfl, h⟩ := h
  rw [spaces, run_starc]
  refine ⟨c, starc_first b u c hb ?_⟩
  rcases h with rfl | ⟨x, y, ys, rfl, hx, hy⟩
  · rw [starc, edge_nil sane]
  · rw [starc, if_pos hx, starc_stop (by intro z zs e; cases e; exact hy), edge_space sane hx, edge_none sane hy]

theorem name_run {n w u : Str} {c : Caps} {k : Cont} (hn : Name cc n) (hw : ∀ x xs, w = x :: xs → x = '[' ∨ cc.space x = true) (h : Ends (k w c) u) :
    Ends ((plus (.cls (fun c => c ≠ '[' && !cc.space c))).run (n ++ w) c k) u := by
  obtain ⟨c', h⟩ := h
  cases n with
  | nil => exact absurd rfl hn.1
  | cons x n =>
    have hx : ∀ y ∈ x :: n, (decide (y ≠ '[') && !cc.space y) = true := by
      intro y hy
      rw [hn.2.2 y hy]
      simp
      rintro rfl; exact hn.2.1 hy
    refine ⟨c', ?_⟩
    rw [List.cons_append, plus_cons, if_pos (hx x (by simp))]
    refine starc_first n w c (fun y hy => hx y (by simp [hy])) ?_
    rw [starc_stop, h]
    intro y ys e
    rcases hw y ys e with rfl | h <;> simp [*]

theorem splitOpts_run {o tail u : Str} {os : List (Str × Str)} {c : Caps} {k : Cont} (ho : Items cc o os) (hk : ∀ c, Ends (k tail c) u) (hb : NoBracket cc tail) :
    Ends ((splitOptsRe cc).run ('[' :: (o ++ ']' :: tail)) c k) u := by
  have : Ends ((Re.seq (spaces cc) (.seq (chr '[') (.seq (spaces cc) (.seq (.star (splitItemRe cc)) (chr ']'))))).run ('[' :: (o ++ ']' :: tail)) c k) u := by
    rw [Re.run]
    apply spaces_none sane (by intro x xs e; cases e; exact sane.space _ (by simp))
    rw [Re.run, chr_self, Re.run]
    obtain ⟨c', e⟩ := items_run sane ho hk hb c ((o ++ ']' :: tail).length + 1) (by omega)
    refine ⟨c', ?_⟩
    rw [← e]
    rw [spaces, run_starc, run_starc]
    have key : ∀ s : Str, s.length < (o ++ ']' :: tail).length + 1 →
        starc cc.space (fun s' c' => (Re.seq (.star (splitItemRe cc)) (chr ']')).run s' c' k) s c =
        starc cc.space (fun s c => if s.length < (o ++ ']' :: tail).length + 1 then (Re.star (splitItemRe cc)).run s c (fun s c => (chr ']').run s c k) else none) s c := by
      intro s
      induction s with
      | nil => intro hl; rw [starc, starc, if_pos hl, Re.run]
      | cons x s ih =>
        intro hl
        rw [starc, starc, ih (by simp at hl ⊢; omega), if_pos hl, Re.run]
    exact key _ (by omega)
  obtain ⟨c', e⟩ := this
  exact ⟨c', by rw [splitOptsRe, Re.run, e]⟩

theorem splitOpts_skip {tail : Str} {c : Caps} {k : Cont} (hb : NoBracket cc tail) : (splitOptsRe cc).run tail c k = k tail c := by
  have : (Re.seq (spaces cc) (.seq (chr '[') (.seq (spaces cc) (.seq (.star (splitItemRe cc)) (chr ']'))))).run tail c k = none := by
    obtain ⟨b, w, rfl, hbl, hw⟩ := span cc.space tail
    rw [Re.run, spaces_det sane _ hbl hw]
    · rw [Re.run]
      apply chr_none
      rintro t rfl
      exact hb b t hbl rfl
    · intro x xs c hx
      rw [Re.run]
      apply chr_none
      rintro t e; cases e
      rw [sane.space _ (by simp)] at hx; cases hx
  rw [splitOptsRe, Re.run, this]

theorem entry_run {a n tail u : Str} {os : List (Str × Str)} (ha : Entry cc a n os) (hs : Stops cc tail u) (hb : NoBracket cc tail) (ht : ∀ x xs, tail = x :: xs → cc.space x = true) :
    Ends ((splitRe cc).at (a ++ tail)) u := by
  have hk : ∀ c, Ends ((spaces cc).run tail c (fun s c => (edge cc).run s c done)) u := fun c => stops_run sane hs
  have : Ends ((Re.seq (plus (.cls (fun c => c ≠ '[' && !cc.space c))) (.seq (splitOptsRe cc) (spaces cc))).run (a ++ tail) [] (fun s c => (edge cc).run s c done)) u := by
    rw [Re.run]
    cases ha with
    | name _ hn =>
      apply name_run sane hn (fun x xs e => .inr (ht x xs e))
      rw [Re.run, splitOpts_skip sane hb]
      exact hk _
    | options _ o _ hn ho =>
      rw [List.append_assoc, List.cons_append, List.append_assoc, List.singleton_append]
      apply name_run sane hn (by intro x xs e; cases e; exact .inl rfl)
      rw [Re.run]
      exact splitOpts_run sane ho hk hb
  obtain ⟨c', e⟩ := this
  refine ⟨c', ?_⟩
  rw [Re.at, splitRe, Re.run, Re.run, e]

/-! ## The list -/

theorem split_space {x : Char} {s : Str} (h : cc.space x = true) : (splitRe cc).at (x :: s) = none := by
  rw [Re.at, splitRe, Re.run, Re.run, Re.run, plus_cons, if_neg (by simp [h])]
  simp only
  rw [plus_cons, if_neg (by simp [h])]

omit sane in
theorem split_nil : (splitRe cc).at [] = none := rfl

theorem skip_blank : ∀ (b s : Str) (n : Nat), Blank cc b → (b ++ s).length < n → ∃ m, s.length < m ∧ finditer (splitRe cc) n (b ++ s) = finditer (splitRe cc) m s := by
  intro b
  induction b with
  | nil => intro s n _ h; exact ⟨n, h, rfl⟩
  | cons x b ih =>
    intro s n hb h
    cases n with
    | zero => cases h
    | succ n =>
      obtain ⟨m, hm, e⟩ := ih s n (fun c hc => hb c (by simp [hc])) (by simpa using h)
      exact ⟨m, hm, by rw [List.cons_append, finditer_skip (split_space sane (hb x (by simp))), e]⟩

theorem entry_ends {a n : Str} {os : List (Str × Str)} (h : Entry cc a n os) : ∃ x xs, a = x :: xs ∧ cc.space x = false ∧ x ≠ '[' ∧ ∀ y, a.getLast? = some y → cc.space y = false := by
  have key : ∀ n, Name cc n → ∃ x xs, n = x :: xs ∧ cc.space x = false ∧ x ≠ '[' := by
    intro n hn
    cases n with
    | nil => exact absurd rfl hn.1
    | cons x n => exact ⟨x, n, rfl, hn.2.2 x (by simp), fun e => hn.2.1 (by simp [e])⟩
  cases h with
  | name _ hn =>
    obtain ⟨x, xs, rfl, h1, h2⟩ := key _ hn
    exact ⟨x, xs, rfl, h1, h2, fun y hy => hn.2.2 y (List.mem_of_getLast? hy)⟩
  | options _ o _ hn ho =>
    obtain ⟨x, xs, rfl, h1, h2⟩ := key _ hn
    refine ⟨x, xs ++ '[' :: (o ++ [']']), rfl, h1, h2, ?_⟩
    intro y hy
    simp [List.getLast?_append, List.getLast?_cons] at hy
    rw [← hy]
    exact sane.space _ (by simp)

theorem entries_noBracket {s : Str} {es : List (Str × List (Str × Str))} (h : Entries cc s es) : NoBracket cc s := by
  have key : ∀ (b a n : Str) (os : List (Str × Str)) (t : Str), Blank cc b → Entry cc a n os → NoBracket cc (b ++ (a ++ t)) := by
    intro b a n os t hb ha b' w hb' e
    obtain ⟨x, xs, rfl, h1, h2, _⟩ := entry_ends sane ha
    have e1 := dropWhile_eq (p := cc.space) (a := b) (w := x :: (xs ++ t)) hb (by intro y hy; cases hy; exact h1)
    have e2 := dropWhile_eq (p := cc.space) (a := b') (w := '[' :: w) hb' (by intro y hy; cases hy; exact sane.space _ (by simp))
    rw [List.cons_append] at e
    rw [e, e2] at e1
    injection e1 with e1 _
    exact h2 e1.symm
  cases h with
  | nil _ hb =>
    rintro b w hb' rfl
    have := hb '[' (by simp)
    rw [sane.space _ (by simp)] at this; cases this
  | last b a n os hb ha => have := key b a n os [] hb ha; rwa [List.append_nil] at this
  | cons b a n os x s es hb ha hx hs => exact key b a n os _ hb ha

theorem strip_entry {a n b : Str} {os : List (Str × Str)} (ha : Entry cc a n os) (hb : Blank cc b) : strip cc (a ++ b) = a := by
  obtain ⟨x, xs, rfl, h1, _, h3⟩ := entry_ends sane ha
  exact trimmed_eq ⟨[], b, blank_nil, hb, by simp, by intro y hy; cases hy; exact h1, h3⟩

/-- Texts of the entries. -/
inductive Texts (cc : Chars) : List Str → List (Str × List (Str × Str)) → Prop where
  | nil : Texts cc [] []
  | cons (a n : Str) (os : List (Str × Str)) (as : List Str) (es : List (Str × List (Str × Str))) : Entry cc a n os → Texts cc as es → Texts cc (a :: as) ((n, os) :: es)

theorem split_entries {s : Str} {es : List (Str × List (Str × Str))} (h : Entries cc s es) : ∀ n, s.length < n →
    Texts cc ((finditer (splitRe cc) n s).map (fun m => strip cc m.1)) es := by
  induction h with
  | nil b hb =>
    intro n hn
    obtain ⟨m, _, e⟩ := skip_blank sane b [] n hb (by simpa using hn)
    rw [List.append_nil] at e
    rw [e, finditer_nil_none split_nil]
    exact .nil
  | last b a nm os hb ha =>
    intro n hn
    obtain ⟨m, hm, e⟩ := skip_blank sane b a n hb hn
    rw [e]
    obtain ⟨c, e2⟩ := entry_run sane ha (tail := []) (u := []) ⟨[], blank_nil, rfl, .inl rfl⟩ (by intro b w _ e; simp at e) (by intro x xs e; cases e)
    rw [List.append_nil] at e2
    obtain ⟨x, xs, rfl, _⟩ := entry_ends sane ha
    cases m with
    | zero => cases hm
    | succ m =>
      rw [finditer_cons e2 (by simp), finditer_nil_none split_nil]
      simp only [List.map_cons, List.map_nil, List.length_nil, Nat.sub_zero, List.take_length]
      have := strip_entry sane ha (b := []) blank_nil
      rw [List.append_nil] at this
      rw [this]
      exact .cons _ _ _ _ _ ha .nil
  | cons b a nm os x s es hb ha hx hs ih =>
    intro n hn
    obtain ⟨m, hm, e⟩ := skip_blank sane b (a ++ x :: s) n hb hn
    rw [e]
    obtain ⟨u, hu⟩ := stops_exists (s := s) hx
    obtain ⟨c, e2⟩ := entry_run sane ha hu (entries_noBracket sane hs) (by intro y ys e; cases e; exact hx)
    obtain ⟨y, ys, rfl, _⟩ := entry_ends sane ha
    obtain ⟨b', hb', e3, _⟩ := hu
    cases m with
    | zero => cases hm
    | succ m =>
      have hlen : u.length < (y :: ys ++ x :: s).length := by rw [e3]; simp; omega
      rw [finditer_cons e2 hlen]
      have e4 : (y :: ys ++ x :: s).take ((y :: ys ++ x :: s).length - u.length) = y :: ys ++ b' := by
        rw [e3, ← List.append_assoc, take_sub]
      rw [List.map_cons, e4, strip_entry sane ha hb']
      refine .cons _ _ _ _ _ ha ?_
      have hi := ih ((x :: s).length + 1) (by omega)
      rw [e3] at hi
      obtain ⟨m', hm', e5⟩ := skip_blank sane b' u ((b' ++ u).length + 1) hb' (by omega)
      rw [e5] at hi
      rwa [finditer_fuel _ m m' u (by omega) hm']

/-! ## Nothing is lost -/

theorem split_some {x : Char} {s : Str} (h : cc.space x = false) : ∃ p u c, x :: s = p ++ u ∧ (∃ xs, p = x :: xs) ∧ (splitRe cc).at (x :: s) = some (u, c) := by
  have hsome : ∃ res, (splitRe cc).at (x :: s) = some res := by
    rw [Re.at, splitRe, Re.run, Re.run]
    split
    · exact ⟨_, rfl⟩
    · rw [plus_cons, if_pos (by simp [h])]
      obtain ⟨a, w, rfl, ha, hw⟩ := span (fun c => !cc.space c) s
      refine ⟨(w, []), starc_first a w [] ha ?_⟩
      rw [starc_stop hw]
      cases w with
      | nil => rw [edge_nil sane]
      | cons y w => rw [edge_space sane (by simpa using hw y w rfl)]
  obtain ⟨⟨u, c⟩, e⟩ := hsome
  have hend : ∃ xs, s = xs ++ u := by
    have e' := e
    rw [Re.at, splitRe, Re.run, Re.run] at e'
    have he : ∀ (w : Str) (c' : Caps), (edge cc).run w c' (fun s c => some (s, c)) = some (u, c) → w = u := by
      intro w c' hh
      rw [edge, Re.run] at hh
      split at hh
      · injection hh with hh; injection hh
      · cases hh
    have hst : ∀ (p : Char → Bool) (k : Cont) (s : Str) (c' : Caps), starc p k s c' = some (u, c) → ∃ a w c'', s = a ++ w ∧ k w c'' = some (u, c) := by
      intro p k s c' hh
      rw [← run_starc] at hh
      exact run_suffix _ _ _ _ _ hh
    split at e'
    · rename_i hh
      cases e'
      rw [Re.run, plus_cons] at hh
      split at hh
      · obtain ⟨a, w, c2, rfl, hk⟩ := hst _ _ _ _ hh
        obtain ⟨a2, w2, c3, rfl, hk2⟩ := run_suffix _ _ _ _ _ hk
        exact ⟨a ++ a2, by rw [he _ _ hk2]; simp⟩
      · cases hh
    · rw [plus_cons] at e'
      split at e'
      · obtain ⟨a, w, c2, rfl, hk⟩ := hst _ _ _ _ e'
        exact ⟨a, by rw [he _ _ hk]⟩
      · cases e'
  obtain ⟨xs, rfl⟩ := hend
  exact ⟨x :: xs, u, c, rfl, ⟨xs, rfl⟩, e⟩

theorem split_parts : ∀ (n : Nat) (s : Str), s.length < n → Parts cc s ((finditer (splitRe cc) n s).map (·.1)) := by
  intro n
  induction n with
  | zero => intro s h; cases h
  | succ n ih =>
    intro s hn
    cases s with
    | nil => rw [finditer_nil_none split_nil]; exact .nil [] blank_nil
    | cons x s =>
      cases hx : cc.space x with
      | true =>
        rw [finditer_skip (split_space sane hx)]
        have hp := ih s (by simpa using hn)
        have hb : ∀ b, Blank cc b → Blank cc (x :: b) := by
          intro b hb y hy
          rcases List.mem_cons.mp hy with rfl | hy
          · exact hx
          · exact hb y hy
        generalize (finditer (splitRe cc) n s).map (·.1) = ps at hp
        cases hp with
        | nil _ h => exact .nil _ (hb _ h)
        | cons b p t ps h1 h2 h3 => exact .cons (x :: b) p t ps (hb b h1) h2 h3
      | false =>
        obtain ⟨p, u, c, e, ⟨xs, rfl⟩, he⟩ := split_some sane hx
        rw [e] at hn he ⊢
        rw [finditer_cons he (by simp; omega), List.map_cons, take_sub]
        exact .cons [] _ u _ blank_nil ⟨x, xs, rfl, hx⟩ (ih u (by simp at hn; omega))

/-! ## Reading of entries -/

omit sane in
theorem items_list {o : Str} {os : List (Str × Str)} (h : Items cc o os) : OptionList cc o os := by
  induction h with
  | none b hb => exact .none b hb
  | last b key t v v' hb hk ht hv =>
    have := written_value (w := []) ht (by intro x xs e; cases e)
    rw [List.append_nil] at this
    exact .item b key t v v' [] [] [] hb hk this hv .last (.none [] blank_nil)
  | comma b key t v v' r os hb hk ht hv _ ih =>
    exact .item b key _ v v' (',' :: r) r os hb hk (written_value ht (by intro x xs e; cases e; exact .inl rfl)) hv (.comma r) ih
  | group b key t v v' b' r os hb hk ht hv hb' _ ih =>
    exact .item b key _ v v' (']' :: (b' ++ '[' :: r)) r os hb hk (written_value ht (by intro x xs e; cases e; exact .inr rfl)) hv (.group b' r hb') ih

omit sane in
theorem entry_shape {a n : Str} {os : List (Str × Str)} (h : Entry cc a n os) : Shape cc a n os := by
  cases h with
  | name _ hn => exact .name a hn.1 hn.2.1
  | options _ o _ hn ho => exact .options n o [] os hn.1 hn.2.1 blank_nil (items_list ho)

theorem texts_read {as : List Str} {es : List (Str × List (Str × Str))} (h : Texts cc as es) :
    allSome (extractOptions cc) (as.filter (fun a => !a.isEmpty)) = some (es.map (fun e => (e.1, setAll Dict.empty e.2))) := by
  induction h with
  | nil => rfl
  | cons a n os as es ha _ ih =>
    obtain ⟨x, xs, rfl, _⟩ := entry_ends sane ha
    rw [List.filter_cons_of_pos (by simp), allSome, extract_shape sane (entry_shape ha), ih]
    rfl

end

end Verif.Options
