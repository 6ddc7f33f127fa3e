import Verif.Spec.RegexName

/-!
# C119 — what the argument of `fail2ban-regex` names
-/

namespace Verif.RegexName

open RegexNameSpec
open Options (Chars extractOptions)

/-! Paths -/

private theorem tw_append {p : Char → Bool} {a b : Str} (h : ∀ c ∈ a, p c = true) : (a ++ b).takeWhile p = a ++ b.takeWhile p := by
  induction a with
  | nil => rfl
  | cons x xs ih => simp [h x (by simp), ih (fun c hc => h c (by simp [hc]))]

private theorem dw_append {p : Char → Bool} {a b : Str} (h : ∀ c ∈ a, p c = true) : (a ++ b).dropWhile p = b.dropWhile p := by
  induction a with
  | nil => rfl
  | cons x xs ih => simp [h x (by simp), ih (fun c hc => h c (by simp [hc]))]

private theorem ne_slash {t : Str} (h : '/' ∉ t) : ∀ c ∈ t.reverse, decide (c ≠ '/') = true := by
  intro c hc; simp only [decide_eq_true_eq]; intro e; subst e; exact h (by simpa using hc)

private theorem basename_none {t : Str} (h : '/' ∉ t) : basename t = t := by
  have := tw_append (b := []) (ne_slash h)
  simp only [List.append_nil, List.takeWhile_nil] at this
  unfold basename; rw [this]; simp

private theorem head_none {t : Str} (h : '/' ∉ t) : head t = [] := by
  have := dw_append (b := []) (ne_slash h)
  simp only [List.append_nil, List.dropWhile_nil] at this
  unfold head; rw [this]; rfl

private theorem basename_slash {d t : Str} (h : '/' ∉ t) : basename (d ++ '/' :: t) = t := by
  have e : (d ++ '/' :: t).reverse = t.reverse ++ '/' :: d.reverse := by simp
  rw [basename, e, tw_append (ne_slash h)]; simp

private theorem head_slash {d t : Str} (h : '/' ∉ t) : head (d ++ '/' :: t) = d ++ ['/'] := by
  have e : (d ++ '/' :: t).reverse = t.reverse ++ '/' :: d.reverse := by simp
  rw [head, e, dw_append (ne_slash h)]; simp

private theorem last_rev (d : Str) : d.reverse.head? = d.getLast? := by simp

private theorem rstrip_dir {d : Str} (h : Dir d) : rstrip d = d := by
  unfold rstrip
  have hl := last_rev d
  have hn := h.noSlash
  cases hr : d.reverse with
  | nil => exact absurd (by simpa using hr) h.nonempty
  | cons c cs =>
    rw [hr] at hl
    have hc : c ≠ '/' := by intro e; subst e; exact hn (by rw [← hl]; rfl)
    have : (c :: cs).dropWhile (· = '/') = c :: cs := by simp [hc]
    rw [this, ← hr]; simp

private theorem rstrip_slash {d : Str} (h : Dir d) : rstrip (d ++ ['/']) = d := by
  have := rstrip_dir h
  unfold rstrip at this ⊢
  simpa using this

private theorem dirname_slash {d t : Str} (hd : Dir d) (h : '/' ∉ t) : dirname (d ++ '/' :: t) = d := by
  rw [dirname, head_slash h, rstrip_slash hd]
  rw [if_neg]
  intro ha
  rw [List.all_eq_true] at ha
  have hl := List.getLast?_eq_some_getLast hd.nonempty
  have := ha (d.getLast hd.nonempty) (by simp)
  simp only [decide_eq_true_eq] at this
  exact hd.noSlash (by rw [hl, this])

private theorem dirname_none {t : Str} (h : '/' ∉ t) : dirname t = [] := by
  rw [dirname, head_none h]; rfl

private theorem join_dir {d t : Str} (hd : Dir d) (h : t.head? ≠ some '/') : join d t = d ++ '/' :: t := by
  rw [join, if_neg h, if_neg]
  rintro (e | e)
  · exact hd.nonempty e
  · exact hd.noSlash e

private theorem head_ne {t : Str} (h : '/' ∉ t) : t.head? ≠ some '/' := by
  cases t with
  | nil => simp
  | cons c cs => simp only [List.head?_cons, ne_eq, Option.some.injEq]; intro e; subst e; simp at h

private theorem contains_false {t : Str} (h : '/' ∉ t) : t.contains '/' = false := by simpa using h

private theorem stem_ext {n e : Str} (hn : ∃ c ∈ n, c ≠ '.') (he : '.' ∉ e) : stem (n ++ '.' :: e) = n := by
  have h1 : (n ++ '.' :: e).reverse = e.reverse ++ '.' :: n.reverse := by simp
  have h2 : ∀ c ∈ e.reverse, decide (c ≠ '.') = true := by
    intro c hc; simp only [decide_eq_true_eq]; intro x; subst x; exact he (by simpa using hc)
  unfold stem
  rw [h1, dw_append h2]
  have h3 : ('.' :: n.reverse).dropWhile (fun c => decide (c ≠ '.')) = '.' :: n.reverse := by simp
  rw [h3]
  dsimp only
  rw [if_neg]
  · simp
  · intro ha
    rw [List.all_eq_true] at ha
    obtain ⟨c, hc, hne⟩ := hn
    exact hne (by simpa using ha c (by simpa using hc))

private theorem stem_plain {n : Str} (h : '.' ∉ n) : stem n = n := by
  have h2 : ∀ c ∈ n.reverse, decide (c ≠ '.') = true := by
    intro c hc; simp only [decide_eq_true_eq]; intro x; subst x; exact h (by simpa using hc)
  have := dw_append (b := []) h2
  simp only [List.append_nil, List.dropWhile_nil] at this
  unfold stem; rw [this]

private theorem filterD_head (t : Str) : (filterD ++ t).head? ≠ some '/' := by
  have : filterD = 'f' :: "ilter.d".toList := by decide
  rw [this, List.cons_append, List.head?_cons]; decide

private theorem dir_filterD : Dir filterD := ⟨by decide, by decide⟩

private theorem basename_filterD {d : Str} : basename d = filterD ↔ ¬NotFilterD d := by
  have hs : '/' ∉ filterD := by decide
  constructor
  · intro h hn
    by_cases hm : '/' ∈ d
    · have : d.reverse.takeWhile (· ≠ '/') ++ d.reverse.dropWhile (· ≠ '/') = d.reverse := List.takeWhile_append_dropWhile
      have h1 : d.reverse.takeWhile (· ≠ '/') = filterD.reverse := by
        have : (d.reverse.takeWhile (· ≠ '/')).reverse = filterD := h
        rw [← this]; simp
      rw [h1] at this
      cases hdw : d.reverse.dropWhile (· ≠ '/') with
      | nil =>
        rw [hdw] at this
        have : d = filterD := by have := congrArg List.reverse this; simpa using this.symm
        exact hn.1 this
      | cons c cs =>
        have hc : c = '/' := by
          have := List.head?_dropWhile_not (p := (· ≠ '/')) (l := d.reverse)
          rw [hdw] at this
          simpa using this
        rw [hdw, hc] at this
        have h2 := congrArg List.reverse this
        simp only [List.reverse_append, List.reverse_reverse, List.reverse_cons, List.append_assoc] at h2
        exact hn.2 cs.reverse h2.symm
    · rw [basename_none hm] at h; exact hn.1 h
  · intro h
    simp only [NotFilterD, Classical.not_and_iff_not_or_not, Classical.not_not, Classical.not_forall] at h
    rcases h with h | ⟨a, h⟩
    · rw [h]; exact basename_none hs
    · rw [h]; exact basename_slash (d := a) (t := filterD) hs

private theorem dir_append {a b : Str} (h : Dir b) : Dir (a ++ '/' :: b) := by
  refine ⟨by simp, ?_⟩
  have h1 := List.getLast?_eq_some_getLast h.nonempty
  have h2 := h.noSlash
  rw [h1] at h2
  have h3 : (a ++ '/' :: b).getLast? = b.getLast? := by
    rw [List.getLast?_append, List.getLast?_cons, h1]; rfl
  rw [h3, h1]; exact h2

private theorem inFilterD_eq (d f : Str) : inFilterD d f = d ++ '/' :: (filterD ++ '/' :: f) := by
  have : "/filter.d/".toList = '/' :: (filterD ++ ['/']) := by decide
  rw [inFilterD, this]; simp

/-! Which files are tried -/

private theorem dotted_iff (n : Str) : dotted n = true ↔ ∃ a b, n = a ++ '.' :: b ∧ b.length < 6 := by
  unfold dotted
  rw [List.contains_iff_mem]
  constructor
  · intro h
    obtain ⟨s, t, e⟩ := List.append_of_mem h
    refine ⟨n.take (n.length - 6) ++ s, t, ?_, ?_⟩
    · conv => lhs; rw [← List.take_append_drop (n.length - 6) n, e]
      simp
    · have := congrArg List.length e
      simp only [List.length_drop, List.length_append, List.length_cons] at this
      omega
  · rintro ⟨a, b, e, hb⟩
    subst e
    have : (a ++ '.' :: b).length - 6 ≤ a.length := by simp; omega
    rw [List.drop_append_of_le_length this]
    simp

private theorem mem_tryNames (n f : Str) : f ∈ tryNames n ↔ Tried n f := by
  unfold tryNames Tried
  rw [← dotted_iff]
  split <;> rename_i h <;> simp [h]

private theorem tried_slash {n f : Str} (h : Tried n f) : ('/' ∈ f ↔ '/' ∈ n) := by
  have h1 : '/' ∉ ".conf".toList := by decide
  have h2 : '/' ∉ ".local".toList := by decide
  rcases h with rfl | ⟨-, rfl | rfl⟩
  · rfl
  · simp only [List.mem_append, h1, or_false]
  · simp only [List.mem_append, h2, or_false]

private theorem find_plain {env : Env} (hc : Dir env.config) (hf : NotFilterD env.config) (l : List Str) (hl : ∀ f ∈ l, '/' ∉ f) :
    find env env.config l = ((l.find? (fun f => env.isFile (inFilterD env.config f))).map (inFilterD env.config), env.config) := by
  induction l with
  | nil => rfl
  | cons f fs ih =>
    have h := hl f (by simp)
    have ih := ih (fun g hg => hl g (by simp [hg]))
    have hb : ¬basename env.config = filterD := fun e => basename_filterD.1 e hf
    have hdn : ¬dirname f = filterD := by rw [dirname_none h]; decide
    have hj1 : join env.config filterD = env.config ++ '/' :: filterD := join_dir hc (by decide)
    have hj2 : join (join env.config filterD) f = inFilterD env.config f := by
      rw [hj1, join_dir (dir_append dir_filterD) (head_ne h), inFilterD_eq]; simp
    rw [find]
    simp only [hdn, if_false, contains_false h, Bool.not_false, if_true, hb, hj2, List.find?_cons]
    by_cases hi : env.isFile (inFilterD env.config f) = true
    · simp [hi]
    · simp [hi, ih]

/-- Whether the argument is taken as a name -/
theorem C119_looks {cc : Chars} (hn : cc.word '\n' = false) (hb : cc.word '[' = false) (s : Str) :
    looks cc s = true ↔ HasName (fun c => cc.word c = true ∨ c ∈ "/_-.".toList) s := by
  have hname : ∀ c, nameChar cc c = true ↔ (cc.word c = true ∨ c ∈ "/_-.".toList) := by
    intro c; simp [nameChar, or_assoc]
  have hend : ∀ t, lineEnd t = true ↔ AtEnd t := by
    intro t; cases t with
    | nil => simp [lineEnd, AtEnd]
    | cons c cs => simp [lineEnd, AtEnd]
  have hcl : ∀ t, closes t = true ↔ ∃ o u, t = o ++ ']' :: u ∧ AtEnd u := by
    intro t
    induction t with
    | nil => simp [closes]
    | cons c cs ih =>
      simp only [closes, Bool.or_eq_true, Bool.and_eq_true, decide_eq_true_eq, ih, hend]
      constructor
      · rintro (⟨rfl, h⟩ | ⟨o, u, rfl, h⟩)
        · exact ⟨[], cs, rfl, h⟩
        · exact ⟨c :: o, u, rfl, h⟩
      · rintro ⟨o, u, e, h⟩
        cases o with
        | nil => simp only [List.nil_append, List.cons.injEq] at e; obtain ⟨rfl, rfl⟩ := e; exact Or.inl ⟨rfl, h⟩
        | cons x xs => simp only [List.cons_append, List.cons.injEq] at e; obtain ⟨rfl, rfl⟩ := e; exact Or.inr ⟨xs, u, rfl, h⟩
  have hrest : ∀ t, rest t = true ↔ (AtEnd t ∨ ∃ o u, t = '[' :: o ++ ']' :: u ∧ AtEnd u) := by
    intro t
    unfold rest
    rw [Bool.or_eq_true, hend]
    apply or_congr Iff.rfl
    cases t with
    | nil => simp
    | cons c cs =>
      simp only [Bool.and_eq_true, decide_eq_true_eq, hcl, List.cons_append, List.cons.injEq]
      constructor
      · rintro ⟨h1, o, u, h2, h3⟩; exact ⟨o, u, ⟨h1, h2⟩, h3⟩
      · rintro ⟨o, u, ⟨h1, h2⟩, h3⟩; exact ⟨h1, o, u, h2, h3⟩
  have hnot : ∀ t, (AtEnd t ∨ ∃ o u, t = '[' :: o ++ ']' :: u ∧ AtEnd u) → t.takeWhile (nameChar cc) = [] ∧ t.dropWhile (nameChar cc) = t := by
    have h1 : nameChar cc '\n' = false := by simp [nameChar, hn]
    have h2 : nameChar cc '[' = false := by simp [nameChar, hb]
    rintro t ((rfl | ⟨u, rfl⟩) | ⟨o, u, rfl, -⟩)
    · simp
    · simp [h1]
    · simp [h2]
  have hat : ∀ t, looksAt cc t = true ↔ ∃ n r, t = n ++ r ∧ n ≠ [] ∧ (∀ c ∈ n, nameChar cc c = true) ∧ (AtEnd r ∨ ∃ o u, r = '[' :: o ++ ']' :: u ∧ AtEnd u) := by
    intro t
    unfold looksAt
    rw [Bool.and_eq_true, hrest]
    constructor
    · rintro ⟨h1, h2⟩
      exact ⟨_, _, List.takeWhile_append_dropWhile.symm, by simpa using h1, fun c hc => List.all_eq_true.1 List.all_takeWhile c hc, h2⟩
    · rintro ⟨n, r, rfl, h1, h2, h3⟩
      obtain ⟨h4, h5⟩ := hnot r h3
      rw [tw_append h2, dw_append h2, h4, h5]
      exact ⟨by simpa using h1, h3⟩
  have hbelow : ∀ t, looksBelow cc t = true ↔ ∃ a b, t = a ++ '\n' :: b ∧ looksAt cc b = true := by
    intro t
    induction t with
    | nil => simp [looksBelow]
    | cons c cs ih =>
      simp only [looksBelow, Bool.or_eq_true, Bool.and_eq_true, decide_eq_true_eq, ih]
      constructor
      · rintro (⟨rfl, h⟩ | ⟨o, u, rfl, h⟩)
        · exact ⟨[], cs, rfl, h⟩
        · exact ⟨c :: o, u, rfl, h⟩
      · rintro ⟨o, u, e, h⟩
        cases o with
        | nil => simp only [List.nil_append, List.cons.injEq] at e; obtain ⟨rfl, rfl⟩ := e; exact Or.inl ⟨rfl, h⟩
        | cons x xs => simp only [List.cons_append, List.cons.injEq] at e; obtain ⟨rfl, rfl⟩ := e; exact Or.inr ⟨xs, u, rfl, h⟩
  unfold looks
  rw [Bool.or_eq_true, hbelow]
  constructor
  · rintro (h | ⟨a, b, rfl, h⟩)
    · obtain ⟨n, r, e, h1, h2, h3⟩ := (hat _).1 h
      exact ⟨[], n, r, by simpa using e, Or.inl rfl, h1, fun c hc => (hname c).1 (h2 c hc), h3⟩
    · obtain ⟨n, r, e, h1, h2, h3⟩ := (hat _).1 h
      exact ⟨a ++ ['\n'], n, r, by simp [e], Or.inr ⟨a, rfl⟩, h1, fun c hc => (hname c).1 (h2 c hc), h3⟩
  · rintro ⟨a, n, r, e, h0, h1, h2, h3⟩
    have hl : looksAt cc (n ++ r) = true := (hat _).2 ⟨n, r, rfl, h1, fun c hc => (hname c).2 (h2 c hc), h3⟩
    rcases h0 with rfl | ⟨t, rfl⟩
    · exact Or.inl (by rw [e]; simpa using hl)
    · exact Or.inr ⟨t, n ++ r, by rw [e]; simp, hl⟩

private theorem find_path {env : Env} {d : Str} (hd : Dir d) (hne : d ≠ filterD) (ts : List Str) (ht : ∀ t ∈ ts, '/' ∉ t) (b : Str) :
    find env b (ts.map (fun t => d ++ '/' :: t)) =
      ((ts.map (fun t => d ++ '/' :: t)).find? env.isFile, if ts = [] then b else d) := by
  induction ts generalizing b with
  | nil => rfl
  | cons t ts ih =>
    have h := ht t (by simp)
    have ih := ih (fun u hu => ht u (by simp [hu])) d
    have hdn : dirname (d ++ '/' :: t) = d := dirname_slash hd h
    have hc : (d ++ '/' :: t).contains '/' = true := by simp
    rw [List.map_cons, find]
    simp only [hdn, hne, if_false, hc, Bool.not_true, Bool.false_eq_true, List.find?_cons]
    by_cases hi : env.isFile (d ++ '/' :: t) = true
    · simp [hi]
    · simp only [hi, Bool.false_eq_true, if_false, ih]
      simp

private theorem find_rel {env : Env} (hc : Dir env.config) (ts : List Str) (ht : ∀ t ∈ ts, '/' ∉ t) :
    find env env.config (ts.map (fun t => filterD ++ '/' :: t)) =
      ((ts.find? (fun t => env.isFile (inFilterD env.config t))).map (inFilterD env.config), env.config) := by
  induction ts with
  | nil => rfl
  | cons t ts ih =>
    have h := ht t (by simp)
    have ih := ih (fun u hu => ht u (by simp [hu]))
    have hdn : dirname (filterD ++ '/' :: t) = filterD := dirname_slash dir_filterD h
    have hj : join env.config (filterD ++ '/' :: t) = inFilterD env.config t := by
      rw [join_dir hc (filterD_head _), inFilterD_eq]
    rw [List.map_cons, find]
    simp only [hdn, if_true, hj, List.find?_cons]
    by_cases hi : env.isFile (inFilterD env.config t) = true
    · simp [hi]
    · simp [hi, ih]

/-- Names below a directory -/
private def below (d t : Str) : List Str :=
  if dotted (d ++ '/' :: t) then [t] else [t, t ++ ".conf".toList, t ++ ".local".toList]

private theorem tryNames_below (d t : Str) : tryNames (d ++ '/' :: t) = (below d t).map (fun u => d ++ '/' :: u) := by
  unfold tryNames below
  split <;> simp

private theorem below_slash {d t : Str} (h : '/' ∉ t) : ∀ u ∈ below d t, '/' ∉ u := by
  have h1 : '/' ∉ ".conf".toList := by decide
  have h2 : '/' ∉ ".local".toList := by decide
  intro u hu
  unfold below at hu
  split at hu
  · simp only [List.mem_singleton] at hu; rw [hu]; exact h
  · simp only [List.mem_cons, List.not_mem_nil, or_false] at hu
    rcases hu with rfl | rfl | rfl
    · exact h
    · simp only [List.mem_append, h, h1, or_self, not_false_eq_true]
    · simp only [List.mem_append, h, h2, or_self, not_false_eq_true]

private theorem below_ne (d t : Str) : below d t ≠ [] := by unfold below; split <;> simp

private theorem noJail_iff (n : Str) : noJail n = true ↔ ('/' ∈ n ∨ ∃ a e t, n = a ++ e ++ t ∧ e ∈ [".conf".toList, ".local".toList] ∧ AtEnd t) := by
  have hend : ∀ t, lineEnd t = true ↔ AtEnd t := by
    intro t; cases t <;> simp [lineEnd, AtEnd]
  have hat : ∀ s, extAt s = true ↔ ∃ e t, s = e ++ t ∧ e ∈ [".conf".toList, ".local".toList] ∧ AtEnd t := by
    intro s
    unfold extAt
    simp only [Bool.or_eq_true, Bool.and_eq_true, List.isPrefixOf_iff_prefix, hend, List.mem_cons, List.not_mem_nil, or_false]
    have l1 : ".conf".toList.length = 5 := by decide
    have l2 : ".local".toList.length = 6 := by decide
    constructor
    · rintro (⟨⟨t, rfl⟩, h⟩ | ⟨⟨t, rfl⟩, h⟩)
      · rw [List.drop_append_of_le_length (by omega), List.drop_eq_nil_of_le (by omega)] at h
        exact ⟨_, t, rfl, Or.inl rfl, h⟩
      · rw [List.drop_append_of_le_length (by omega), List.drop_eq_nil_of_le (by omega)] at h
        exact ⟨_, t, rfl, Or.inr rfl, h⟩
    · rintro ⟨e, t, rfl, rfl | rfl, h⟩
      · refine Or.inl ⟨⟨t, rfl⟩, ?_⟩
        rw [List.drop_append_of_le_length (by omega), List.drop_eq_nil_of_le (by omega)]; exact h
      · refine Or.inr ⟨⟨t, rfl⟩, ?_⟩
        rw [List.drop_append_of_le_length (by omega), List.drop_eq_nil_of_le (by omega)]; exact h
  have hh : ∀ s, hasExt s = true ↔ ∃ a e t, s = a ++ e ++ t ∧ e ∈ [".conf".toList, ".local".toList] ∧ AtEnd t := by
    intro s
    induction s with
    | nil =>
      simp only [hasExt, Bool.false_eq_true, false_iff]
      rintro ⟨a, e, t, h1, h2, -⟩
      have h1 := h1.symm
      rw [List.append_eq_nil_iff, List.append_eq_nil_iff] at h1
      rw [h1.1.2] at h2
      revert h2; decide
    | cons c cs ih =>
      simp only [hasExt, Bool.or_eq_true, hat, ih]
      constructor
      · rintro (⟨e, t, h1, h2⟩ | ⟨a, e, t, h1, h2⟩)
        · exact ⟨[], e, t, by rw [h1]; rfl, h2⟩
        · exact ⟨c :: a, e, t, by rw [h1]; rfl, h2⟩
      · rintro ⟨a, e, t, h1, h2⟩
        cases a with
        | nil => exact Or.inl ⟨e, t, by rw [h1]; rfl, h2⟩
        | cons x xs =>
          simp only [List.cons_append, List.cons.injEq] at h1
          exact Or.inr ⟨xs, e, t, h1.2, h2⟩
  unfold noJail
  rw [Bool.or_eq_true, hh, List.contains_iff_mem]

/-- A jail is taken before a filter, but only for a name without path and extension -/
theorem C119_jail {env : Env} {v n : Str} {opts : Dict Str Str} (hl : looks env.cc v = true) (he : extractOptions env.cc v = some (n, opts)) :
    (resolve env v = .jail n opts ↔
      ('/' ∉ n ∧ (¬∃ a e t, n = a ++ e ++ t ∧ e ∈ [".conf".toList, ".local".toList] ∧ AtEnd t)) ∧ env.jail n = some true) := by
  have hj := noJail_iff n
  have hf : filterOf env n opts ≠ .jail n opts := by
    unfold filterOf
    split
    · simp
    · split <;> simp
  unfold resolve
  rw [if_pos hl, he]
  dsimp only
  by_cases hnj : noJail n = true
  · rw [if_pos hnj]
    constructor
    · exact fun h => absurd h hf
    · rintro ⟨⟨h1, h2⟩, -⟩
      rcases hj.1 hnj with h | h
      · exact absurd h h1
      · exact absurd h h2
  · rw [if_neg hnj]
    have h1 : '/' ∉ n := fun h => hnj (hj.2 (Or.inl h))
    have h2 : ¬∃ a e t, n = a ++ e ++ t ∧ e ∈ [".conf".toList, ".local".toList] ∧ AtEnd t := fun h => hnj (hj.2 (Or.inr h))
    constructor
    · intro h
      refine ⟨⟨h1, h2⟩, ?_⟩
      split at h
      · simp at h
      · assumption
      · exact absurd h hf
    · rintro ⟨-, h⟩
      rw [h]

/-- The name is none of a jail -/
def NoJail (env : Env) (n : Str) : Prop :=
  ('/' ∈ n ∨ ∃ a e t, n = a ++ e ++ t ∧ e ∈ [".conf".toList, ".local".toList] ∧ AtEnd t) ∨ env.jail n = some false

private theorem resolve_filter {env : Env} {v n : Str} {opts : Dict Str Str} (hl : looks env.cc v = true) (he : extractOptions env.cc v = some (n, opts))
    (hn : NoJail env n) : resolve env v = filterOf env n opts := by
  unfold resolve
  rw [if_pos hl, he]
  dsimp only
  rcases hn with h | h
  · rw [if_pos ((noJail_iff n).2 h)]
  · rw [h]; simp

private theorem find_tried {n : Str} {g : Str → Bool} : ((tryNames n).find? g).isSome = true ↔ ∃ f, Tried n f ∧ g f = true := by
  rw [List.find?_isSome]
  constructor
  · rintro ⟨f, h1, h2⟩; exact ⟨f, (mem_tryNames n f).1 h1, h2⟩
  · rintro ⟨f, h1, h2⟩; exact ⟨f, (mem_tryNames n f).2 h1, h2⟩

/-- A name without path is that of a filter in the directory of configuration, if there is such a file, else it is an expression -/
theorem C119_plain {env : Env} {v n : Str} {opts : Dict Str Str} (hl : looks env.cc v = true) (he : extractOptions env.cc v = some (n, opts))
    (hn : NoJail env n) (hs : '/' ∉ n) (hc : Dir env.config) (hf : NotFilterD env.config) :
    ((∃ f, Tried n f ∧ env.isFile (inFilterD env.config f) = true) → resolve env v = .standard env.config (stem n) opts) ∧
    ((¬∃ f, Tried n f ∧ env.isFile (inFilterD env.config f) = true) → resolve env v = .regex) := by
  have hx := find_plain hc hf (tryNames n) (fun f h => fun h' => hs ((tried_slash ((mem_tryNames n f).1 h)).1 h'))
  have hb : ¬basename env.config = filterD := fun e => basename_filterD.1 e hf
  rw [resolve_filter hl he hn]
  unfold filterOf
  rw [hx, ← find_tried]
  cases hq : (tryNames n).find? (fun f => env.isFile (inFilterD env.config f)) with
  | none => simp
  | some f => simp [hb, basename_none hs]

/-- The same for a name in `filter.d`, which is that of the configuration, not one of the working directory -/
theorem C119_relative {env : Env} {v t : Str} {opts : Dict Str Str} (hl : looks env.cc v = true)
    (he : extractOptions env.cc v = some ("filter.d/".toList ++ t, opts)) (hs : '/' ∉ t) (hc : Dir env.config) (hf : NotFilterD env.config) :
    ((∃ f, Tried ("filter.d/".toList ++ t) ("filter.d/".toList ++ f) ∧ env.isFile (inFilterD env.config f) = true) →
      resolve env v = .standard env.config (stem t) opts) ∧
    ((¬∃ f, Tried ("filter.d/".toList ++ t) ("filter.d/".toList ++ f) ∧ env.isFile (inFilterD env.config f) = true) → resolve env v = .regex) := by
  have e0 : ∀ u : Str, "filter.d/".toList ++ u = filterD ++ '/' :: u := by intro u; rfl
  simp only [e0] at he ⊢
  have hx := find_rel hc (below filterD t) (below_slash hs)
  rw [← tryNames_below] at hx
  have hb : ¬basename env.config = filterD := fun e => basename_filterD.1 e hf
  have hm : (∃ f, Tried (filterD ++ '/' :: t) (filterD ++ '/' :: f) ∧ env.isFile (inFilterD env.config f) = true) ↔
      ((below filterD t).find? (fun f => env.isFile (inFilterD env.config f))).isSome = true := by
    rw [List.find?_isSome]
    constructor
    · rintro ⟨f, h1, h2⟩
      rw [← mem_tryNames, tryNames_below, List.mem_map] at h1
      obtain ⟨u, h3, h4⟩ := h1
      have : u = f := by simpa using h4
      exact ⟨f, this ▸ h3, h2⟩
    · rintro ⟨f, h1, h2⟩
      refine ⟨f, ?_, h2⟩
      rw [← mem_tryNames, tryNames_below, List.mem_map]
      exact ⟨f, h1, rfl⟩
  rw [resolve_filter hl he (Or.inl (Or.inl (by simp)))]
  unfold filterOf
  rw [hx, hm]
  cases hq : (below filterD t).find? (fun f => env.isFile (inFilterD env.config f)) with
  | none => simp
  | some f => simp [hb, basename_slash hs]

/-- A file of another directory: that of a directory `filter.d` is a filter of this configuration, one next to `jail.conf` is taken as one of `filter.d` there, and another file
is read as it is named -/
theorem C119_path {env : Env} {v d t : Str} {opts : Dict Str Str} (hl : looks env.cc v = true) (he : extractOptions env.cc v = some (d ++ '/' :: t, opts))
    (hs : '/' ∉ t) (hd : Dir d) (hne : d ≠ "filter.d".toList) (hf : NotFilterD env.config) :
    ((∃ f, Tried (d ++ '/' :: t) f ∧ env.isFile f = true) →
      (∀ a, Dir a → d = a ++ "/filter.d".toList → resolve env v = .standard a (stem t) opts) ∧
      (d = env.config → resolve env v = .standard env.config (stem t) opts) ∧
      (d ≠ env.config → NotFilterD d →
        resolve env v = .explicit (if d.head? = some '/' then d ++ '/' :: t else env.abspath (d ++ '/' :: t)) opts)) ∧
    ((¬∃ f, Tried (d ++ '/' :: t) f ∧ env.isFile f = true) → resolve env v = .regex) := by
  have hx := find_path (env := env) hd hne (below d t) (below_slash hs) env.config
  rw [← tryNames_below, if_neg (below_ne d t)] at hx
  rw [resolve_filter hl he (Or.inl (Or.inl (by simp)))]
  unfold filterOf
  rw [hx, ← find_tried]
  have hhead : (d ++ '/' :: t).head? = d.head? := by
    cases d with
    | nil => exact absurd rfl hd.nonempty
    | cons c cs => rfl
  cases hq : (tryNames (d ++ '/' :: t)).find? env.isFile with
  | none => simp
  | some f =>
    refine ⟨fun _ => ⟨?_, ?_, ?_⟩, fun h => absurd rfl h⟩
    · intro a ha hda
      have hb : basename d = filterD := by rw [hda]; exact basename_slash (d := a) (t := filterD) (by decide)
      have hdd : dirname d = a := by rw [hda]; exact dirname_slash (t := filterD) ha (by decide)
      simp [hb, hdd, basename_slash hs]
    · intro hda
      have hb : ¬basename env.config = filterD := fun e => basename_filterD.1 e hf
      simp [hda, hb, basename_slash hs]
    · intro h1 h2
      have hb : ¬basename d = filterD := fun e => basename_filterD.1 e h2
      simp [h1, hb, hhead]

/-- The files that are read for a filter -/
theorem C119_read {env : Env} {b n : Str} {opts : Dict Str Str} (hb : Dir b) (hn : '/' ∉ n) (f : Str) :
    (f ∈ files env (.standard b n opts) ↔ env.isFile f = true ∧
      (f = inFilterD b n ++ ".conf".toList ∨ f = inFilterD b n ++ ".local".toList ∨
        f ∈ env.glob (inFilterD b n ++ ".d".toList) ".conf".toList ∨ f ∈ env.glob (inFilterD b n ++ ".d".toList) ".local".toList)) := by
  have h1 : join filterD n = filterD ++ '/' :: n := join_dir dir_filterD (head_ne hn)
  have h2 : join (rstrip b) (join filterD n) = inFilterD b n := by
    rw [rstrip_dir hb, h1, join_dir hb (filterD_head _), inFilterD_eq]
  unfold files
  dsimp only
  rw [h2, List.mem_filter]
  simp only [List.mem_append, List.mem_singleton]
  constructor
  · rintro ⟨((h | h) | h) | h, hi⟩
    · exact ⟨hi, Or.inl h⟩
    · exact ⟨hi, Or.inr (Or.inr (Or.inl h))⟩
    · exact ⟨hi, Or.inr (Or.inl h)⟩
    · exact ⟨hi, Or.inr (Or.inr (Or.inr h))⟩
  · rintro ⟨hi, h | h | h | h⟩
    · exact ⟨Or.inl (Or.inl (Or.inl h)), hi⟩
    · exact ⟨Or.inl (Or.inr h), hi⟩
    · exact ⟨Or.inl (Or.inl (Or.inr h)), hi⟩
    · exact ⟨Or.inr h, hi⟩

/-- … in this order: what is in a later one overrides -/
theorem C119_order {env : Env} {b n : Str} {opts : Dict Str Str} (hb : Dir b) (hn : '/' ∉ n) :
    files env (.standard b n opts) =
      ([inFilterD b n ++ ".conf".toList].filter env.isFile) ++ (env.glob (inFilterD b n ++ ".d".toList) ".conf".toList).filter env.isFile ++
      ([inFilterD b n ++ ".local".toList].filter env.isFile) ++ (env.glob (inFilterD b n ++ ".d".toList) ".local".toList).filter env.isFile := by
  have h1 : join filterD n = filterD ++ '/' :: n := join_dir dir_filterD (head_ne hn)
  have h2 : join (rstrip b) (join filterD n) = inFilterD b n := by
    rw [rstrip_dir hb, h1, join_dir hb (filterD_head _), inFilterD_eq]
  unfold files
  dsimp only
  rw [h2, List.filter_append, List.filter_append, List.filter_append]

/-- A file outside of a configuration and its `.local` -/
theorem C119_foreign {env : Env} {d n e : Str} {opts : Dict Str Str} (hn : Stem n) (he : Ext e) :
    files env (.explicit (d ++ '/' :: (n ++ '.' :: e)) opts) =
      [d ++ '/' :: (n ++ '.' :: e)].filter env.isFile ++
        (if e = "local".toList then [] else [d ++ '/' :: (n ++ ".local".toList)].filter env.isFile) := by
  have hs : '/' ∉ n ++ '.' :: e := by
    simp only [List.mem_append, List.mem_cons, hn.noSlash, he.noSlash, or_false, false_or]; decide
  have hl : ".local".toList = '.' :: "local".toList := by decide
  have hr : root (d ++ '/' :: (n ++ '.' :: e)) = d ++ '/' :: n := by
    rw [root, head_slash hs, basename_slash hs, stem_ext hn.visible he.noDot]; simp
  have hq : (root (d ++ '/' :: (n ++ '.' :: e)) ++ ".local".toList = d ++ '/' :: (n ++ '.' :: e)) ↔ e = "local".toList := by
    rw [hr, hl]
    simp only [List.append_assoc, List.cons_append, List.append_cancel_left_eq, List.cons.injEq, true_and]
    exact eq_comm
  unfold files
  dsimp only
  by_cases h : e = "local".toList
  · rw [if_pos (hq.2 h), if_pos h, List.filter_append]; rfl
  · rw [if_neg (fun x => h (hq.1 x)), if_neg h, List.filter_append, hr]; simp

/-- A file that is named with its extension `.conf` or `.local` is read, in each of the four ways to name it -/
theorem C119_same {env : Env} {v n e : Str} {opts : Dict Str Str} (hl : looks env.cc v = true) (hn : Stem n) (he : e = "conf".toList ∨ e = "local".toList)
    (hc : Dir env.config) (hf : NotFilterD env.config) :
    (extractOptions env.cc v = some (n ++ '.' :: e, opts) → env.isFile (inFilterD env.config (n ++ '.' :: e)) = true →
      inFilterD env.config (n ++ '.' :: e) ∈ files env (resolve env v)) ∧
    (extractOptions env.cc v = some ("filter.d/".toList ++ (n ++ '.' :: e), opts) → env.isFile (inFilterD env.config (n ++ '.' :: e)) = true →
      inFilterD env.config (n ++ '.' :: e) ∈ files env (resolve env v)) ∧
    (∀ a, Dir a → extractOptions env.cc v = some (inFilterD a (n ++ '.' :: e), opts) → env.isFile (inFilterD a (n ++ '.' :: e)) = true →
      inFilterD a (n ++ '.' :: e) ∈ files env (resolve env v)) ∧
    (∀ d, Dir d → NotFilterD d → d ≠ env.config → d.head? = some '/' → extractOptions env.cc v = some (d ++ '/' :: (n ++ '.' :: e), opts) →
      env.isFile (d ++ '/' :: (n ++ '.' :: e)) = true → d ++ '/' :: (n ++ '.' :: e) ∈ files env (resolve env v)) := by
  have hx : Ext e := by rcases he with rfl | rfl <;> exact ⟨by decide, by decide⟩
  have hs : '/' ∉ n ++ '.' :: e := by
    simp only [List.mem_append, List.mem_cons, hn.noSlash, hx.noSlash, or_false, false_or]; decide
  have hst := stem_ext hn.visible hx.noDot
  have hin : ∀ b, Dir b → env.isFile (inFilterD b (n ++ '.' :: e)) = true → inFilterD b (n ++ '.' :: e) ∈ files env (.standard b (stem (n ++ '.' :: e)) opts) := by
    intro b hb hi
    rw [hst, C119_read hb hn.noSlash]
    refine ⟨hi, ?_⟩
    have h1 : ".conf".toList = '.' :: "conf".toList := by decide
    have h2 : ".local".toList = '.' :: "local".toList := by decide
    rw [h1, h2]
    rcases he with rfl | rfl
    · left; simp [inFilterD]
    · right; left; simp [inFilterD]
  refine ⟨?_, ?_, ?_, ?_⟩
  · intro h1 h2
    have hnj : NoJail env (n ++ '.' :: e) := by
      refine Or.inl (Or.inr ⟨n, '.' :: e, [], by simp, ?_, Or.inl rfl⟩)
      rcases he with rfl | rfl <;> decide
    rw [(C119_plain hl h1 hnj hs hc hf).1 ⟨_, Or.inl rfl, h2⟩]
    exact hin _ hc h2
  · intro h1 h2
    rw [(C119_relative hl h1 hs hc hf).1 ⟨_, Or.inl rfl, h2⟩]
    exact hin _ hc h2
  · intro a ha h1 h2
    have e1 : inFilterD a (n ++ '.' :: e) = (a ++ '/' :: filterD) ++ '/' :: (n ++ '.' :: e) := by rw [inFilterD_eq]; simp
    have hne : a ++ '/' :: filterD ≠ "filter.d".toList := by
      intro x
      have := congrArg List.length x
      have l1 : filterD.length = 8 := by decide
      have l2 : "filter.d".toList.length = 8 := by decide
      simp only [List.length_append, List.length_cons, l1, l2] at this
      omega
    have h3 := h1
    rw [e1] at h3
    rw [((C119_path hl h3 hs (dir_append dir_filterD) hne hf).1 ⟨_, Or.inl rfl, by rw [← e1]; exact h2⟩).1 a ha (by rfl)]
    exact hin _ ha h2
  · intro d hd hnd hdc hh h1 h2
    have hne : d ≠ "filter.d".toList := hnd.1
    rw [((C119_path hl h1 hs hd hne hf).1 ⟨_, Or.inl rfl, h2⟩).2.2 hdc hnd, if_pos hh, C119_foreign hn hx]
    simp [h2]

/-- Options are passed on, and only errors of names and options are errors -/
theorem C119_options {env : Env} {v : Str} :
    (∀ n o, resolve env v = .jail n o → extractOptions env.cc v = some (n, o)) ∧
    (∀ b n o, resolve env v = .standard b n o → ∃ m, extractOptions env.cc v = some (m, o)) ∧
    (∀ f o, resolve env v = .explicit f o → ∃ m, extractOptions env.cc v = some (m, o)) ∧
    (resolve env v = .error ↔ looks env.cc v = true ∧
      (extractOptions env.cc v = none ∨ ∃ n o, extractOptions env.cc v = some (n, o) ∧ ¬('/' ∈ n ∨ ∃ a e t, n = a ++ e ++ t ∧ e ∈ [".conf".toList, ".local".toList] ∧ AtEnd t) ∧ env.jail n = none)) := by
  have hf : ∀ n opts, (∃ b m, filterOf env n opts = .standard b m opts) ∨ (∃ f, filterOf env n opts = .explicit f opts) ∨ filterOf env n opts = .regex := by
    intro n opts
    unfold filterOf
    split
    · exact Or.inr (Or.inr rfl)
    · split
      · exact Or.inl ⟨_, _, rfl⟩
      · exact Or.inr (Or.inl ⟨_, rfl⟩)
  unfold resolve
  by_cases hl : looks env.cc v = true
  · rw [if_pos hl]
    cases he : extractOptions env.cc v with
    | none => simp [hl]
    | some no =>
      obtain ⟨n, o⟩ := no
      have hj := noJail_iff n
      dsimp only
      have hh := hf n o
      by_cases hnj : noJail n = true
      · rw [if_pos hnj]
        have hj' := hj.1 hnj
        rcases hh with ⟨b, m, h⟩ | ⟨f, h⟩ | h <;> rw [h] <;> simp <;> grind
      · rw [if_neg hnj]
        have hj' := fun h => hnj (hj.2 h)
        cases hjl : env.jail n with
        | none => simp [hl]; grind
        | some x =>
          cases x with
          | true => simp; grind
          | false => rcases hh with ⟨b, m, h⟩ | ⟨f, h⟩ | h <;> dsimp only <;> rw [h] <;> simp <;> grind
  · rw [if_neg hl]; simp [hl]

/-! Where it is not as one expects -/

/-- Letters, digits and `_`, white space -/
def chars : Chars where
  space c := c = ' ' || c = '\t' || c = '\n' || c = '\r'
  word c := ('a' ≤ c && c ≤ 'z') || ('A' ≤ c && c ≤ 'Z') || ('0' ≤ c && c ≤ '9') || c = '_'

/-- A system with these files and a jail `sshd-jail` -/
def system (fs : List String) : Env where
  cc := chars
  config := "/etc/fail2ban".toList
  jail n := some (n == "sshd-jail".toList)
  isFile f := fs.any (fun g => f == g.toList)
  abspath p := "/root/".toList ++ p
  glob d e := if d == "/etc/fail2ban/filter.d/sshd.d".toList && e == ".conf".toList then ["/etc/fail2ban/filter.d/sshd.d/a.conf".toList] else []

/-- What is tested and what is read -/
def tested (fs : List String) (v : String) : Target × List String :=
  let t := resolve (system fs) v.toList
  (t, (files (system fs) t).map String.ofList)

/-- A copy of a filter is not tested, but the filter -/
theorem C119_refuted_copy : ∃ fs : List String, "/etc/fail2ban/filter.d/sshd.bak" ∈ fs ∧
    tested fs "/etc/fail2ban/filter.d/sshd.bak" = (.standard "/etc/fail2ban".toList "sshd".toList Dict.empty, ["/etc/fail2ban/filter.d/sshd.conf"]) :=
  ⟨["/etc/fail2ban/filter.d/sshd.conf", "/etc/fail2ban/filter.d/sshd.bak"], by decide +kernel, by decide +kernel⟩

/-- A filter with a dot in its name is another one, or an expression -/
theorem C119_refuted_dot : ∃ fs : List String,
    "/etc/fail2ban/filter.d/my.filter.conf" ∈ fs ∧ "/etc/fail2ban/filter.d/web.v2.conf" ∈ fs ∧
    tested fs "my.filter" = (.standard "/etc/fail2ban".toList "my".toList Dict.empty, ["/etc/fail2ban/filter.d/my.conf"]) ∧
    tested fs "web.v2" = (.regex, []) :=
  ⟨["/etc/fail2ban/filter.d/my.filter.conf", "/etc/fail2ban/filter.d/my.conf", "/etc/fail2ban/filter.d/web.v2.conf"],
    by decide +kernel, by decide +kernel, by decide +kernel, by decide +kernel⟩

/-- A short name is found alone, but not below `filter.d` -/
theorem C119_refuted_short : ∃ fs : List String,
    tested fs "nsd" = (.standard "/etc/fail2ban".toList "nsd".toList Dict.empty, ["/etc/fail2ban/filter.d/nsd.conf"]) ∧
    tested fs "filter.d/nsd" = (.regex, []) ∧
    tested fs "filter.d/sshd" = (.standard "/etc/fail2ban".toList "sshd".toList Dict.empty, ["/etc/fail2ban/filter.d/sshd.conf"]) :=
  ⟨["/etc/fail2ban/filter.d/nsd.conf", "/etc/fail2ban/filter.d/sshd.conf"], by decide +kernel, by decide +kernel, by decide +kernel⟩

/-- A file of another directory is found without its extension, but then not read -/
theorem C119_refuted_foreign : ∃ fs : List String,
    tested fs "/tmp/filter" = (.explicit "/tmp/filter".toList Dict.empty, []) ∧ loads (system fs) (resolve (system fs) "/tmp/filter".toList) = false ∧
    tested fs "/tmp/filter.conf" = (.explicit "/tmp/filter.conf".toList Dict.empty, ["/tmp/filter.conf"]) :=
  ⟨["/tmp/filter.conf"], by decide +kernel, by decide +kernel, by decide +kernel⟩

/-- A file next to `jail.conf` is not read, but one of the same name in `filter.d` -/
theorem C119_refuted_config : ∃ fs : List String, "/etc/fail2ban/test.conf" ∈ fs ∧
    tested fs "/etc/fail2ban/test.conf" = (.standard "/etc/fail2ban".toList "test".toList Dict.empty, ["/etc/fail2ban/filter.d/test.conf"]) :=
  ⟨["/etc/fail2ban/test.conf", "/etc/fail2ban/filter.d/test.conf"], by decide +kernel, by decide +kernel⟩

/-! Examples -/

/-- Files of the examples -/
def disk : List String :=
  ["/etc/fail2ban/filter.d/sshd.conf", "/etc/fail2ban/filter.d/sshd.local", "/etc/fail2ban/filter.d/sshd.d/a.conf", "/etc/fail2ban/filter.d/sshd-jail.conf", "/tmp/x.conf",
    "/tmp/x.local", "/srv/f2b/filter.d/own.conf", "/etc/fail2ban/filter.d/bare", "rel/y.conf", "/root/rel/y.conf", "/tmp/z.local", "/etc/fail2ban/filter.d/only.local"]

private def sshdFiles : List String := ["/etc/fail2ban/filter.d/sshd.conf", "/etc/fail2ban/filter.d/sshd.d/a.conf", "/etc/fail2ban/filter.d/sshd.local"]

example : tested disk "sshd" = (.standard "/etc/fail2ban".toList "sshd".toList Dict.empty, sshdFiles) ∧
    tested disk "sshd.conf" = tested disk "sshd" ∧ tested disk "filter.d/sshd.conf" = tested disk "sshd" ∧
    tested disk "/etc/fail2ban/filter.d/sshd.local" = tested disk "sshd" ∧
    tested disk "sshd[mode=extra, logtype=\"file\"]" =
      (.standard "/etc/fail2ban".toList "sshd".toList ((Dict.empty.insert "mode".toList "extra".toList).insert "logtype".toList "file".toList), sshdFiles) := by
  decide +kernel

example : tested disk "sshd-jail" = (.jail "sshd-jail".toList Dict.empty, []) ∧
    tested disk "sshd-jail.conf" = (.standard "/etc/fail2ban".toList "sshd-jail".toList Dict.empty, ["/etc/fail2ban/filter.d/sshd-jail.conf"]) ∧
    tested disk "sshd-jail[mode=x]" = (.jail "sshd-jail".toList (Dict.empty.insert "mode".toList "x".toList), []) ∧
    tested disk "sshd[mode]" = (.error, []) ∧
    resolve { system disk with jail := fun _ => none } "sshd".toList = .error ∧
    resolve { system disk with jail := fun _ => none } "sshd.conf".toList = .standard "/etc/fail2ban".toList "sshd".toList Dict.empty := by
  decide +kernel

example : tested disk "/tmp/x.conf" = (.explicit "/tmp/x.conf".toList Dict.empty, ["/tmp/x.conf", "/tmp/x.local"]) ∧
    tested disk "/tmp/x.local" = (.explicit "/tmp/x.local".toList Dict.empty, ["/tmp/x.local"]) ∧
    tested disk "/tmp/z" = (.explicit "/tmp/z".toList Dict.empty, ["/tmp/z.local"]) ∧
    tested disk "rel/y.conf" = (.explicit "/root/rel/y.conf".toList Dict.empty, ["/root/rel/y.conf"]) ∧
    tested disk "/srv/f2b/filter.d/own.conf" = (.standard "/srv/f2b".toList "own".toList Dict.empty, ["/srv/f2b/filter.d/own.conf"]) ∧
    tested disk "bare" = (.standard "/etc/fail2ban".toList "bare".toList Dict.empty, []) ∧
    tested disk "only" = (.standard "/etc/fail2ban".toList "only".toList Dict.empty, ["/etc/fail2ban/filter.d/only.local"]) := by
  decide +kernel

example : resolve { system disk with config := "/etc/fail2ban/filter.d".toList } "sshd".toList = .standard "/etc/fail2ban".toList "sshd".toList Dict.empty ∧
    resolve { system ["/filter.d/a.conf"] with config := [] } "a.conf".toList = .regex ∧
    resolve { system ["filter.d/a.conf"] with config := [] } "a.conf".toList = .standard [] "a".toList Dict.empty := by
  decide +kernel

example : tested disk "^sshd from <HOST>$" = (.regex, []) ∧ tested disk "nothing" = (.regex, []) ∧ tested disk "/tmp/nothing.conf" = (.regex, []) ∧
    looks chars "first line\nsshd".toList = true ∧ looks chars "first line".toList = false ∧ looks chars "sshd[a\nb]".toList = true ∧
    looks chars "sshd[a]b".toList = false ∧ looks chars "[sshd]".toList = false ∧ looks chars "sshd\nfrom <HOST>".toList = true ∧ looks chars [] = false := by
  decide +kernel

example : [dirname "/etc/x".toList, dirname "x".toList, dirname "/x".toList, dirname "a//x".toList, dirname "a/b/".toList] =
      ["/etc".toList, [], "/".toList, "a".toList, "a/b".toList] ∧
    [stem ".bashrc".toList, stem "a.b.c".toList, stem "..a".toList, root "/a.b/c".toList, root "/a.b/c.d".toList] =
      [".bashrc".toList, "a.b".toList, "..a".toList, "/a.b/c".toList, "/a.b/c".toList] ∧
    [join "a/".toList "b".toList, join "a".toList "/b".toList, join [] "b".toList, rstrip "a//".toList] = ["a/b".toList, "/b".toList, "b".toList, "a".toList] ∧
    dotted "a.bcdef".toList = true ∧ dotted "a.bcdefg".toList = false ∧ tryNames "sshd".toList = ["sshd".toList, "sshd.conf".toList, "sshd.local".toList] ∧
    noJail "a.conf\nb".toList = true ∧ noJail "a.confb".toList = false ∧ noJail "a.local".toList = true ∧ noJail "a.locals".toList = false := by
  decide +kernel

end Verif.RegexName
