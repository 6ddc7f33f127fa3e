import Verif.Lemmas.Regex
import Verif.Spec.Options

/-! # Lemmas about options in brackets -/

namespace Verif.Options

open Verif.Regex Verif.OptionsSpec

/-- The end of a match. -/
abbrev done : Cont := fun s c => some (s, c)

theorem isKey_iff (cc : Chars) (c : Char) : isKey cc c = true ↔ (cc.word c = true ∨ c = '-' ∨ c = '_' ∨ c = '.') := by
  simp [isKey, or_assoc]

set_option linter.unusedSectionVars false

section
variable {cc : Chars} (sane : Sane cc)
include sane

theorem space_notKey {c : Char} (h : cc.space c = true) : isKey cc c = false := by
  cases hk : isKey cc c with
  | false => rfl
  | true =>
    rcases (isKey_iff cc c).mp hk with hw | rfl | rfl | rfl
    · rw [sane.disjoint c h] at hw; cases hw
    all_goals rw [sane.space _ (by simp)] at h; cases h

theorem punct_notKey {c : Char} (h : c ∈ ['=', '"', '\'', ',', '[', ']']) : isKey cc c = false := by
  cases hk : isKey cc c with
  | false => rfl
  | true =>
    rcases (isKey_iff cc c).mp hk with hw | rfl | rfl | rfl
    · rw [sane.word c h] at hw; cases hw
    all_goals simp at h

theorem spaces_det {k : Cont} (h : ∀ x xs c, cc.space x = true → k (x :: xs) c = none) {b w : Str} {c : Caps} (hb : Blank cc b) (hw : ∀ x xs, w = x :: xs → cc.space x = false) :
    (spaces cc).run (b ++ w) c k = k w c := by
  rw [spaces, run_starc]; exact starc_det h b w c hb hw

theorem spaces_eos {b : Str} {c : Caps} (hb : Blank cc b) {k : Cont} {r : Res} (hk : k [] c = some r) :
    (Re.seq (spaces cc) .eos).run b c k = some r := by
  rw [Re.run, spaces, run_starc]
  have := starc_first (p := cc.space) (k := fun s' c' => Re.eos.run s' c' k) (r := r) b [] c hb (by simp [starc, Re.run, hk])
  rwa [List.append_nil] at this

theorem spaces_eos_none {s : Str} {c : Caps} (hs : ¬Blank cc s) (k : Cont) : (Re.seq (spaces cc) .eos).run s c k = none := by
  obtain ⟨b, w, rfl, hb, hw⟩ := span cc.space s
  rw [Re.run, spaces, run_starc]
  have hne : w ≠ [] := by rintro rfl; apply hs; rw [List.append_nil]; exact hb
  have key : ∀ a b' : Str, b = a ++ b' → Re.eos.run (b' ++ w) c k = none := by
    intro a b' e
    rw [Re.run, if_neg]
    rintro (h | h)
    · simp [hne] at h
    · cases b' with
      | nil =>
        rw [List.nil_append] at h
        have := hw _ _ h
        rw [sane.newline] at this; cases this
      | cons y b' =>
        simp at h
        exact hne h.2.2
  clear hs
  induction b with
  | nil => rw [List.nil_append, starc_stop hw]; exact key [] [] rfl
  | cons x b ih =>
    rw [List.cons_append, starc, if_pos (hb x (by simp)), ih (fun y hy => hb y (by simp [hy])) (fun a b' e => key (x :: a) b' (by rw [e]; rfl))]
    exact key [] _ rfl

/-! ## A value -/

theorem quoted_run {q : Char} {v w : Str} {n : Nat} {c : Caps} {k : Cont} (hv : q ∉ v) :
    (quotedRe q n).run (q :: (v ++ q :: w)) c k = k w ((n, v) :: c) := by
  rw [quotedRe, Re.run, chr_self, Re.run, Re.run, run_starc, starc_det]
  · rw [chr_self, take_sub]
  · intro x xs c hx
    rw [chr_none]
    rintro t e; cases e; simp at hx
  · intro x hx; simp; rintro rfl; exact hv hx
  · intro x xs e; cases e; simp

theorem quoted_none {q : Char} {s : Str} {n : Nat} {c : Caps} {k : Cont} (h : ∀ u w, s ≠ q :: (u ++ q :: w)) : (quotedRe q n).run s c k = none := by
  rw [quotedRe, Re.run]
  cases s with
  | nil => rfl
  | cons x s =>
    rw [chr_cons]
    split
    · rename_i e
      subst e
      rw [Re.run, Re.run, run_starc]
      apply starc_none
      intro a w e
      apply chr_none
      rintro t rfl
      exact h a t (by rw [e])
    · rfl

/-- Matching of a value, if what follows matches. -/
theorem value_run {t v w : Str} {c : Caps} {k : Cont} {f : Nat → Res} (h : Value t v w) (hk : ∀ n, n ∈ [2, 3, 4] → k w ((n, v) :: c) = some (f n)) :
    ∃ n, n ∈ [2, 3, 4] ∧ valueRe.run t c k = some (f n) := by
  cases h with
  | quoted q _ _ hq hv =>
    rcases hq with rfl | rfl
    · refine ⟨2, by simp, ?_⟩
      rw [valueRe, Re.run, quoted_run sane hv, hk 2 (by simp)]
    · refine ⟨3, by simp, ?_⟩
      rw [valueRe, Re.run, quoted_none sane (by rintro u w e; cases e), Re.run, quoted_run sane hv, hk 3 (by simp)]
  | bare _ _ h1 h2 h3 h4 =>
    refine ⟨4, by simp, ?_⟩
    have hq : ∀ q, IsQuote q → ∀ u y, v ++ w ≠ q :: (u ++ q :: y) := fun q hq u y e => h4 ⟨q, u, y, hq, e⟩
    rw [valueRe, Re.run, quoted_none sane (hq _ (.inl rfl)), Re.run, quoted_none sane (hq _ (.inr rfl)), Re.run, run_starc]
    simp only
    refine starc_first v w c ?_ ?_
    · intro x hx
      simp only [Bool.and_eq_true, decide_eq_true_eq]
      exact ⟨fun e => h1 (e ▸ hx), fun e => h2 (e ▸ hx)⟩
    · rw [starc_stop, take_sub, hk 4 (by simp)]
      intro x xs e
      rcases h3 x xs e with rfl | rfl <;> simp

omit sane in
/-- Each text begins with a value. -/
theorem value_exists (t : Str) : ∃ v w, Value t v w := by
  by_cases h : BeginsQuoted t
  · obtain ⟨q, u, w, hq, rfl⟩ := h
    obtain ⟨a, y, e, ha, hy⟩ := span (fun c => c ≠ q) (u ++ q :: w)
    cases y with
    | nil =>
      have := ha q (by rw [List.append_nil] at e; rw [← e]; simp)
      simp at this
    | cons z y =>
      have := hy z y rfl
      simp at this
      subst this
      rw [e]
      exact ⟨a, y, .quoted z a y hq (fun hm => by have := ha z hm; simp at this)⟩
  · obtain ⟨a, y, e, ha, hy⟩ := span (fun c => c ≠ ',' && c ≠ ']') t
    subst e
    refine ⟨a, y, .bare a y ?_ ?_ ?_ h⟩
    · intro hm; have := ha _ hm; simp at this
    · intro hm; have := ha _ hm; simp at this
    · intro x xs e
      have := hy x xs e
      simp at this
      by_cases hx : x = ','
      · exact .inl hx
      · exact .inr (this hx)

/-! ## What follows a value -/

theorem nextGroup_run {b w : Str} {c : Caps} {k : Cont} (hb : Blank cc b) : (nextGroupRe cc).run (']' :: (b ++ '[' :: w)) c k = k w c := by
  rw [nextGroupRe, Re.run, chr_self, Re.run, spaces_det sane _ hb, chr_self]
  · intro x xs e; cases e; exact sane.space _ (by simp)
  · intro x xs c hx
    apply chr_none
    rintro t e; cases e
    rw [sane.space _ (by simp)] at hx; cases hx

theorem nextGroup_none {s : Str} {c : Caps} {k : Cont} (h : ∀ b w, Blank cc b → s ≠ ']' :: (b ++ '[' :: w)) : (nextGroupRe cc).run s c k = none := by
  rw [nextGroupRe, Re.run]
  cases s with
  | nil => rfl
  | cons x s =>
    rw [chr_cons]
    split
    · rename_i e
      subst e
      obtain ⟨b, w, rfl, hb, hw⟩ := span cc.space s
      rw [Re.run, spaces_det sane _ hb hw]
      · apply chr_none
        rintro t rfl
        exact h b t hb rfl
      · intro x xs c hx
        apply chr_none
        rintro t e; cases e
        rw [sane.space _ (by simp)] at hx; cases hx
    · rfl

theorem after_run {w r : Str} {c : Caps} (h : Sep cc w r) : (afterRe cc).run w c done = some (r, c) := by
  rw [afterRe]
  cases h with
  | comma => simp only [Re.run, chr_self]
  | group b _ hb =>
    rw [Re.run, chr_none (by rintro t e; cases e), Re.run, nextGroup_run sane hb]
  | last =>
    rw [Re.run, chr_nil, Re.run, nextGroup_none sane (by rintro b w _ e; cases e)]
    rfl
  | newline =>
    rw [Re.run, chr_none (by rintro t e; cases e), Re.run, nextGroup_none sane (by rintro b w _ e; cases e)]
    rfl

theorem any_plus {x : Char} {s : Str} {n : Nat} {c : Caps} : (Re.cap n (plus any)).run (x :: s) c done = some ([], (n, x :: s) :: c) := by
  rw [Re.run, any, plus_cons, if_pos rfl]
  have := starc_first (p := fun _ => true) (k := fun s' c' => done s' ((n, (x :: s).take ((x :: s).length - s'.length)) :: c')) (r := ([], (n, x :: s) :: c)) s [] c (fun _ _ => rfl)
    (by simp [starc])
  rwa [List.append_nil] at this

theorem after_none {w : Str} {c : Caps} (h : ∀ r, ¬Sep cc w r) : w ≠ [] ∧ (afterRe cc).run w c done = some ([], (5, w) :: c) := by
  have hne : w ≠ [] := by rintro rfl; exact h _ .last
  refine ⟨hne, ?_⟩
  rw [afterRe, Re.run, chr_none (by rintro t rfl; exact h _ (.comma _)), Re.run, nextGroup_none sane (by rintro b w hb rfl; exact h _ (.group _ _ hb)), Re.run]
  have : Re.eos.run w c done = none := by
    rw [Re.run, if_neg]
    rintro (e | rfl)
    · exact hne e
    · exact h _ .newline
  rw [this]
  cases w with
  | nil => exact absurd rfl hne
  | cons x w => exact any_plus sane

/-! ## An option -/

theorem item_run {b key t v w : Str} (hb : Blank cc b) (hkey : Key cc key) (hv : Value t v w) :
    ∃ n, n ∈ [2, 3, 4] ∧ (itemRe cc).at (b ++ (key ++ '=' :: t)) = (afterRe cc).run w [(n, v), (1, key)] done := by
  obtain ⟨x, key', rfl⟩ : ∃ x key', key = x :: key' := by
    cases key with
    | nil => exact absurd rfl hkey.1
    | cons x k => exact ⟨x, k, rfl⟩
  have hk : ∀ y ∈ x :: key', isKey cc y = true := fun y hy => (isKey_iff cc y).mpr (hkey.2 y hy)
  have hsome : ∀ n, ∃ r, (afterRe cc).run w [(n, v), (1, x :: key')] done = some r := by
    intro n
    by_cases hs : ∃ r, Sep cc w r
    · obtain ⟨r, hr⟩ := hs; exact ⟨_, after_run sane hr⟩
    · exact ⟨_, (after_none sane (fun r hr => hs ⟨r, hr⟩)).2⟩
  obtain ⟨n, hn, e⟩ := value_run sane (c := [(1, x :: key')]) (k := fun s c => (afterRe cc).run s c done) (f := fun n => (hsome n).choose) hv (fun n _ => (hsome n).choose_spec)
  refine ⟨n, hn, ?_⟩
  rw [(hsome n).choose_spec, ← e, Re.at, itemRe, Re.run, spaces_det sane _ hb]
  · rw [Re.run, Re.run, List.cons_append, plus_cons, if_pos (hk x (by simp)), starc_det]
    · rw [Re.run, chr_self, Re.run, ← List.cons_append, take_sub]
    · intro y ys c hy
      rw [Re.run]
      apply chr_none
      rintro t e; cases e
      rw [punct_notKey sane (by simp)] at hy; cases hy
    · exact fun y hy => hk y (by simp [hy])
    · intro y ys e; cases e; exact punct_notKey sane (by simp)
  · intro y ys e
    cases e
    cases hs : cc.space x with
    | false => rfl
    | true => have := space_notKey sane hs; rw [hk x (by simp)] at this; cases this
  · intro y ys c hy
    rw [Re.run, Re.run, plus_cons, if_neg]
    rw [space_notKey sane hy]; simp

theorem item_none {s : Str} (h : ∀ b key t, Blank cc b → Key cc key → s ≠ b ++ (key ++ '=' :: t)) : (itemRe cc).at s = none := by
  obtain ⟨b, w, rfl, hb, hw⟩ := span cc.space s
  rw [Re.at, itemRe, Re.run, spaces_det sane _ hb hw]
  · cases w with
    | nil => rw [Re.run, Re.run, plus_nil]
    | cons x w =>
      rw [Re.run, Re.run, plus_cons]
      split
      · rename_i hx
        obtain ⟨key, y, rfl, hk, hy⟩ := span (isKey cc) w
        rw [starc_det _ _ _ _ hk hy]
        · rw [Re.run]
          apply chr_none
          rintro t rfl
          refine h b (x :: key) t hb ⟨by simp, ?_⟩ rfl
          intro z hz
          rcases List.mem_cons.mp hz with rfl | hz
          · exact (isKey_iff cc _).mp hx
          · exact (isKey_iff cc _).mp (hk z hz)
        · intro y ys c hy
          rw [Re.run]
          apply chr_none
          rintro t e; cases e
          rw [punct_notKey sane (by simp)] at hy; cases hy
      · rfl
  · intro y ys c hy
    rw [Re.run, Re.run, plus_cons, if_neg]
    rw [space_notKey sane hy]; simp

/-! ## All options -/

omit sane in
theorem at_alt (a b : Re) (s : Str) : (Re.alt a b).at s = match a.at s with | some r => some r | none => b.at s := by
  rw [Re.at, Re.run]; rfl

theorem extract_item {b key t v w : Str} (hb : Blank cc b) (hkey : Key cc key) (hv : Value t v w) :
    ∃ n, n ∈ [2, 3, 4] ∧ ((∀ r, Sep cc w r → (extractRe cc).at (b ++ (key ++ '=' :: t)) = some (r, [(n, v), (1, key)])) ∧
      ((∀ r, ¬Sep cc w r) → ∃ y ys, (extractRe cc).at (b ++ (key ++ '=' :: t)) = some ([], [(5, y :: ys), (n, v), (1, key)]))) := by
  obtain ⟨n, hn, e⟩ := item_run sane hb hkey hv
  refine ⟨n, hn, ?_, ?_⟩
  · intro r hr
    rw [extractRe, at_alt, e, after_run sane hr]
  · intro hr
    obtain ⟨hne, e2⟩ := after_none sane (c := [(n, v), (1, key)]) hr
    rw [extractRe, at_alt, e, e2]
    cases w with
    | nil => exact absurd rfl hne
    | cons y ys => exact ⟨y, ys, rfl⟩

/-- The text does not begin with an option. -/
def NoItem (cc : Chars) (s : Str) : Prop := ∀ b key t, Blank cc b → Key cc key → s ≠ b ++ (key ++ '=' :: t)

theorem eq_notBlank {b key t : Str} : ¬Blank cc (b ++ (key ++ '=' :: t)) := by
  intro h
  have := h '=' (by simp)
  rw [sane.space _ (by simp)] at this; cases this

theorem noItem_blank {b : Str} (hb : Blank cc b) : NoItem cc b := by
  rintro b' key t _ _ rfl
  exact eq_notBlank sane hb

theorem noItem_comma {b : Str} : NoItem cc (',' :: b) := by
  rintro b' key t hb' hk e
  cases b' with
  | nil =>
    cases key with
    | nil => exact hk.1 rfl
    | cons x k =>
      cases e
      have := (isKey_iff cc ',').mpr (hk.2 ',' (by simp))
      rw [punct_notKey sane (by simp)] at this; cases this
  | cons x b' =>
    cases e
    have := hb' ',' (by simp)
    rw [sane.space _ (by simp)] at this; cases this

theorem extract_blank {b : Str} (hb : Blank cc b) : (extractRe cc).at b = some ([], []) := by
  rw [extractRe, at_alt, item_none sane (noItem_blank sane hb), at_alt, Re.at, Re.run, Re.run, chr_none, spaces_eos sane hb rfl]
  rintro t rfl
  have := hb ',' (by simp)
  rw [sane.space _ (by simp)] at this; cases this

theorem extract_comma {b : Str} (hb : Blank cc b) : (extractRe cc).at (',' :: b) = some ([], []) := by
  rw [extractRe, at_alt, item_none sane (noItem_comma sane), at_alt, Re.at, Re.run, Re.run, chr_self, spaces_eos sane hb rfl]

theorem extract_wrong {s : Str} (h1 : NoItem cc s) (h2 : ¬Blank cc s) (h3 : ∀ b, Blank cc b → s ≠ ',' :: b) : ∃ y ys, (extractRe cc).at s = some ([], [(6, y :: ys)]) := by
  have e : (Re.seq (.opt (chr ',')) (.seq (spaces cc) .eos)).at s = none := by
    rw [Re.at, Re.run, Re.run, spaces_eos_none sane h2]
    cases s with
    | nil => rfl
    | cons x s =>
      rw [chr_cons]
      by_cases hx : x = ','
      · subst hx
        rw [if_pos rfl, spaces_eos_none sane (fun hb => h3 s hb rfl)]
      · rw [if_neg hx]
  rw [extractRe, at_alt, item_none sane h1, at_alt, e]
  cases s with
  | nil => exact absurd (fun _ hc => by cases hc) h2
  | cons y ys => exact ⟨y, ys, any_plus sane⟩

omit sane in
theorem dropWhile_blank {s : Str} : ∃ a, Blank cc a ∧ s = a ++ s.dropWhile cc.space :=
  ⟨s.takeWhile cc.space, fun x hx => List.all_eq_true.1 List.all_takeWhile x hx, List.takeWhile_append_dropWhile.symm⟩

omit sane in
theorem head_dropWhile {s : Str} {x : Char} (h : (s.dropWhile cc.space).head? = some x) : cc.space x = false := by
  have := List.head?_dropWhile_not cc.space s
  rw [h] at this
  simpa using this

omit sane in
theorem strip_trimmed (s : Str) : Trimmed cc s (strip cc s) := by
  obtain ⟨a, ha, e1⟩ := dropWhile_blank (cc := cc) (s := s)
  obtain ⟨b, hb, e2⟩ := dropWhile_blank (cc := cc) (s := (s.dropWhile cc.space).reverse)
  have e3 : s.dropWhile cc.space = strip cc s ++ b.reverse := by
    have := congrArg List.reverse e2
    rwa [List.reverse_reverse, List.reverse_append] at this
  refine ⟨a, b.reverse, ha, fun x hx => hb x (by simpa using hx), ?_, ?_, ?_⟩
  · rw [List.append_assoc, ← e3]; exact e1
  · intro x hx
    apply head_dropWhile (s := s)
    rw [e3, List.head?_append, hx]; rfl
  · intro x hx
    rw [strip, List.getLast?_reverse] at hx
    exact head_dropWhile hx

omit sane in
theorem dropWhile_eq {p : Char → Bool} : ∀ {a w : Str}, (∀ x ∈ a, p x = true) → (∀ x, w.head? = some x → p x = false) → (a ++ w).dropWhile p = w := by
  intro a w ha hw
  induction a with
  | nil =>
    cases w with
    | nil => rfl
    | cons x w => rw [List.nil_append, List.dropWhile_cons, if_neg (by simp [hw x rfl])]
  | cons x a ih => rw [List.cons_append, List.dropWhile_cons, if_pos (ha x (by simp)), ih (fun y hy => ha y (by simp [hy]))]

omit sane in
theorem trimmed_eq {s t : Str} (h : Trimmed cc s t) : strip cc s = t := by
  obtain ⟨a, b, ha, hb, rfl, h1, h2⟩ := h
  cases t with
  | nil =>
    have hbl : (a ++ [] ++ b).dropWhile cc.space = [] := by
      rw [← List.append_nil (a ++ [] ++ b)]
      apply dropWhile_eq
      · intro x hx
        simp at hx
        rcases hx with hx | hx
        · exact ha x hx
        · exact hb x hx
      · simp
    rw [strip, hbl]; rfl
  | cons y t =>
    rw [strip, List.append_assoc, dropWhile_eq ha, List.reverse_append, dropWhile_eq, List.reverse_reverse]
    · intro x hx; exact hb x (by simpa using hx)
    · intro x hx; rw [List.head?_reverse] at hx; exact h2 x hx
    · intro x hx; exact h1 x hx

theorem strip_key {key : Str} (h : Key cc key) : strip cc key = key := by
  apply trimmed_eq
  have hk : ∀ x ∈ key, cc.space x = false := by
    intro x hx
    cases hs : cc.space x with
    | false => rfl
    | true => have := space_notKey sane hs; rw [(isKey_iff cc x).mpr (h.2 x hx)] at this; cases this
  refine ⟨[], [], (fun _ h => by cases h), (fun _ h => by cases h), by simp, fun x hx => hk x (List.mem_of_head? hx), fun x hx => hk x (List.mem_of_getLast? hx)⟩

/-- Options in order, the last one of each name counts. -/
def setAll (d : Dict Str Str) (os : List (Str × Str)) : Dict Str Str := os.foldl (fun d kv => d.insert kv.1 kv.2) d

theorem collect_item {n : Nat} (hn : n ∈ [2, 3, 4]) {key v m : Str} (hk : Key cc key) (ms : List (Str × Caps)) (d : Dict Str Str) :
    collect cc ((m, [(n, v), (1, key)]) :: ms) d = collect cc ms (d.insert key (strip cc v)) := by
  obtain ⟨x, k, rfl⟩ : ∃ x k, key = x :: k := by
    cases key with
    | nil => exact absurd rfl hk.1
    | cons x k => exact ⟨x, k, rfl⟩
  have := strip_key sane hk
  simp only [List.mem_cons, List.not_mem_nil, or_false] at hn
  rcases hn with rfl | rfl | rfl <;> simp [collect, group, truthy, this]

theorem sep_length {w r : Str} (h : Sep cc w r) : r.length ≤ w.length := by
  cases h <;> simp <;> omega

omit sane in
theorem value_length {t v w : Str} (h : Value t v w) : w.length ≤ t.length := by
  cases h <;> simp <;> omega

theorem loop : ∀ (n : Nat) (s : Str) (d : Dict Str Str), s.length < n →
    (∀ os, OptionList cc s os → collect cc (finditer (extractRe cc) n s) d = some (setAll d os)) ∧
    ((∀ os, ¬OptionList cc s os) → collect cc (finditer (extractRe cc) n s) d = none) := by
  intro n
  induction n with
  | zero => intro s d h; cases h
  | succ n ih =>
    intro s d hlen
    have stop : ∀ d, collect cc (finditer (extractRe cc) n []) d = some d := by
      intro d
      cases n with
      | zero => rfl
      | succ n => rw [finditer_nil (extract_blank sane (fun _ h => by cases h))]; rfl
    have blank : (extractRe cc).at s = some ([], []) → collect cc (finditer (extractRe cc) (n + 1) s) d = some d := by
      intro e
      by_cases hne : s = []
      · subst hne; rw [finditer_nil e]; rfl
      · rw [finditer_cons e (List.length_pos_iff.mpr hne), collect]
        exact stop d
    have item : ∀ b key t, Blank cc b → Key cc key → s = b ++ (key ++ '=' :: t) → ∀ v w, Value t v w →
        (∀ r, Sep cc w r → collect cc (finditer (extractRe cc) (n + 1) s) d = collect cc (finditer (extractRe cc) n r) (d.insert key (strip cc v)) ∧ r.length < n) ∧
        ((∀ r, ¬Sep cc w r) → collect cc (finditer (extractRe cc) (n + 1) s) d = none) := by
      rintro b key t hb hk rfl v w hv
      obtain ⟨m, hm, h1, h2⟩ := extract_item sane hb hk hv
      have hne : b ++ (key ++ '=' :: t) ≠ [] := by simp
      have hv' := value_length hv
      refine ⟨?_, ?_⟩
      · intro r hr
        have hr' := sep_length sane hr
        have : r.length < (b ++ (key ++ '=' :: t)).length := by simp; omega
        rw [finditer_cons (h1 r hr) this, collect_item sane hm hk]
        exact ⟨rfl, by omega⟩
      · intro hr
        obtain ⟨y, ys, e⟩ := h2 hr
        rw [finditer_cons e (List.length_pos_iff.mpr hne)]
        simp [collect, group, truthy]
    refine ⟨?_, ?_⟩
    · intro os h
      cases h with
      | none _ hb => exact blank (extract_blank sane hb)
      | comma b hb => exact blank (extract_comma sane hb)
      | item b key t v v' w r os hb hk hv ht hs ho =>
        obtain ⟨e, hl⟩ := (item b key t hb hk rfl v w hv).1 r hs
        rw [e, ((ih r _ hl).1 os ho), trimmed_eq ht]
        rfl
    · intro hno
      by_cases hi : NoItem cc s
      · obtain ⟨y, ys, e⟩ := extract_wrong sane hi (fun hb => hno _ (.none s hb)) (fun b hb e => hno [] (e ▸ .comma b hb))
        have hne : s ≠ [] := by rintro rfl; exact hno _ (.none [] (fun _ h => by cases h))
        rw [finditer_cons e (List.length_pos_iff.mpr hne)]
        simp [collect, group, truthy]
      · have : ∃ b key t, Blank cc b ∧ Key cc key ∧ s = b ++ (key ++ '=' :: t) :=
          Classical.byContradiction (fun hx => hi (fun b key t h1 h2 e => hx ⟨b, key, t, h1, h2, e⟩))
        obtain ⟨b, key, t, hb, hk, e⟩ := this
        obtain ⟨v, w, hv⟩ := value_exists t
        by_cases hs : ∃ r, Sep cc w r
        · obtain ⟨r, hr⟩ := hs
          obtain ⟨e2, hl⟩ := (item b key t hb hk e v w hv).1 r hr
          rw [e2, (ih r _ hl).2]
          intro os ho
          exact hno ((key, strip cc v) :: os) (by rw [e]; exact .item b key t v _ w r os hb hk hv (strip_trimmed v) hr ho)
        · exact (item b key t hb hk e v w hv).2 (fun r hr => hs ⟨r, hr⟩)

/-! ## Name and options -/

omit sane in
theorem blank_nil : Blank cc [] := fun _ h => by cases h

/-- What follows the name. -/
abbrev rest (cc : Chars) : Cont := fun s c => (Re.seq (.opt (.seq (chr '[') (.seq (.cap 2 (.star any)) (chr ']')))) (.seq (spaces cc) .eos)).run s c done

omit sane in
theorem option_cons (x : Char) (n w : Str) (hx : x ≠ '[') : (optionRe cc).at (x :: (n ++ w)) =
    starc (fun c => c ≠ '[') (fun s' c' => rest cc s' ((1, (x :: (n ++ w)).take ((x :: (n ++ w)).length - s'.length)) :: c')) (n ++ w) [] := by
  rw [Re.at, optionRe, Re.run, Re.run, plus_cons, if_pos (by simpa using hx)]

theorem option_name {n : Str} (hne : n ≠ []) (hn : '[' ∉ n) : (optionRe cc).at n = some ([], [(1, n)]) := by
  cases n with
  | nil => exact absurd rfl hne
  | cons x n =>
    have := option_cons (cc := cc) x n [] (fun e => hn (by simp [e]))
    rw [List.append_nil] at this
    rw [this, ← List.append_nil n]
    apply starc_first
    · intro y hy; simp; rintro rfl; exact hn (by simp [hy])
    · rw [starc_stop (by simp), rest, Re.run, Re.run, Re.run, chr_nil]
      simp only
      rw [spaces_eos sane blank_nil rfl]
      simp

theorem rest_some {o b : Str} {c : Caps} (hb : Blank cc b) : rest cc ('[' :: (o ++ ']' :: b)) c = some ([], (2, o) :: c) := by
  have e : (Re.seq (chr '[') (.seq (.cap 2 (.star any)) (chr ']'))).run ('[' :: (o ++ ']' :: b)) c (fun s c => (Re.seq (spaces cc) .eos).run s c done) = some ([], (2, o) :: c) := by
    rw [Re.run, chr_self, Re.run, Re.run, any, run_starc]
    refine starc_first o (']' :: b) _ (fun _ _ => rfl) ?_
    rw [starc, if_pos rfl, starc_none]
    · simp only
      rw [take_sub, chr_self, spaces_eos sane hb rfl]
    · rintro a w rfl
      apply chr_none
      rintro t rfl
      have := hb ']' (by simp)
      rw [sane.space _ (by simp)] at this; cases this
  rw [rest, Re.run, Re.run, e]

theorem rest_none {s : Str} {c : Caps} (h1 : ∀ o b, Blank cc b → s ≠ '[' :: (o ++ ']' :: b)) (h2 : ¬Blank cc s) : rest cc s c = none := by
  have e : (Re.seq (chr '[') (.seq (.cap 2 (.star any)) (chr ']'))).run s c (fun s c => (Re.seq (spaces cc) .eos).run s c done) = none := by
    rw [Re.run]
    cases s with
    | nil => rfl
    | cons x s =>
      rw [chr_cons]
      split
      · rename_i hx
        subst hx
        rw [Re.run, Re.run, any, run_starc]
        apply starc_none
        rintro a w rfl
        cases w with
        | nil => rfl
        | cons y w =>
          rw [chr_cons]
          split
          · rename_i hy
            subst hy
            exact spaces_eos_none sane (fun hb => h1 a w hb rfl) _
          · rfl
      · rfl
  rw [rest, Re.run, Re.run, e]
  exact spaces_eos_none sane h2 _

theorem option_options {n o b : Str} (hne : n ≠ []) (hn : '[' ∉ n) (hb : Blank cc b) : (optionRe cc).at (n ++ '[' :: (o ++ ']' :: b)) = some ([], [(2, o), (1, n)]) := by
  cases n with
  | nil => exact absurd rfl hne
  | cons x n =>
    rw [List.cons_append, option_cons _ _ _ (fun e => hn (by simp [e]))]
    apply starc_first
    · intro y hy; simp; rintro rfl; exact hn (by simp [hy])
    · rw [starc_stop (by intro x xs e; cases e; simp), rest_some sane hb, ← List.cons_append, take_sub]

theorem option_none {s : Str} (h1 : ¬(s ≠ [] ∧ '[' ∉ s)) (h2 : ∀ n o b, n ≠ [] → '[' ∉ n → Blank cc b → s ≠ n ++ '[' :: (o ++ ']' :: b)) : (optionRe cc).at s = none := by
  cases s with
  | nil => rfl
  | cons x s =>
    by_cases hx : x = '['
    · subst hx
      rw [Re.at, optionRe, Re.run, Re.run, plus_cons, if_neg (by simp)]
    · obtain ⟨n, w, rfl, hn, hw⟩ := span (fun c => c ≠ '[') s
      have hn' : '[' ∉ x :: n := by
        intro hm
        rcases List.mem_cons.mp hm with e | hm
        · exact hx e.symm
        · have := hn _ hm; simp at this
      cases w with
      | nil => exact absurd ⟨by simp, by simpa using hn'⟩ h1
      | cons y w =>
        have := hw y w rfl
        simp at this
        subst this
        rw [option_cons _ _ _ hx]
        apply starc_none' (by intro x xs e; cases e; simp)
        rintro a z rfl
        apply rest_none sane
        · intro o b hb e
          cases z with
          | nil =>
            injection e with _ e
            subst e
            exact h2 (x :: (a ++ [])) o b (by simp) hn' hb (by simp)
          | cons y z =>
            injection e with e _
            subst e
            exact hn' (by simp)
        · intro hb
          have := hb '[' (by simp)
          rw [sane.space _ (by simp)] at this; cases this

/-! ## Result -/

theorem extract_shape {s n : Str} {os : List (Str × Str)} (h : Shape cc s n os) : extractOptions cc s = some (n, setAll Dict.empty os) := by
  cases h with
  | name _ h1 h2 => rw [extractOptions, option_name sane h1 h2]; rfl
  | options _ o b _ h1 h2 hb ho =>
    rw [extractOptions, option_options sane h1 h2 hb]
    have hl := (loop sane (o.length + 1) o Dict.empty (by omega)).1 os ho
    cases o with
    | nil =>
      have : os = [] := by
        rcases ho' : (⟨os, ho⟩ : { os // OptionList cc [] os }) with ⟨os', hx⟩
        have e : os = os' := congrArg Subtype.val ho'
        rw [e]
        clear ho' e hl ho
        generalize hs : ([] : Str) = s at hx
        cases hx with
        | none => rfl
        | comma => cases hs
        | item b => simp at hs
      subst this; rfl
    | cons x o =>
      show (collect cc (matches_ (extractRe cc) (x :: o)) Dict.empty).map _ = _
      rw [matches_, hl]; rfl

theorem extract_none {s : Str} (h : ∀ n os, ¬Shape cc s n os) : extractOptions cc s = none := by
  by_cases h1 : ∃ n o b, n ≠ [] ∧ '[' ∉ n ∧ Blank cc b ∧ s = n ++ '[' :: (o ++ ']' :: b)
  · obtain ⟨n, o, b, hne, hn, hb, rfl⟩ := h1
    rw [extractOptions, option_options sane hne hn hb]
    cases o with
    | nil => exact absurd (.options n [] b [] hne hn hb (.none [] blank_nil)) (h n [])
    | cons x o =>
      show (collect cc (matches_ (extractRe cc) (x :: o)) Dict.empty).map _ = _
      rw [matches_, (loop sane _ _ _ (by omega)).2]
      · rfl
      · intro os ho
        exact h n os (.options n _ b os hne hn hb ho)
  · rw [extractOptions, option_none sane]
    · rintro ⟨h2, h3⟩; exact h _ _ (.name s h2 h3)
    · intro n o b h2 h3 h4 e; exact h1 ⟨n, o, b, h2, h3, h4, e⟩

omit sane in
theorem setAll_get? (os : List (Str × Str)) : ∀ (d : Dict Str Str) (k : Str), (setAll d os).get? k = (lastValue k os).or (d.get? k) := by
  induction os with
  | nil => intro d k; rfl
  | cons kv os ih =>
    obtain ⟨x, v⟩ := kv
    intro d k
    show (setAll (d.insert x v) os).get? k = _
    rw [ih, lastValue]
    by_cases hx : x = k
    · subst hx
      rw [Dict.get?_insert_self, if_pos rfl]
      cases lastValue x os <;> rfl
    · rw [Dict.get?_insert_ne _ (fun e => hx e.symm), if_neg hx]
      cases lastValue k os <;> rfl

end

end Verif.Options
