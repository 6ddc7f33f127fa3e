import Verif.Lemmas.DurationText

/-! # Durations: the sum -/

namespace Verif.Duration

open DurationSpec

/-! ## Spaces between digits -/

theorem fini_step (c : Char) (cs : List Char) (h : ∀ d, cs[(cs.takeWhile isSpace).length]? = some d → isDigit c = false ∨ cs.takeWhile isSpace = [] ∨ isDigit d = false) :
    fini 0 (c :: cs) = c :: fini 0 cs := by
  have e : fini 0 (c :: cs) = match cs[(cs.takeWhile isSpace).length]? with
    | some d => if isDigit c && decide ((cs.takeWhile isSpace).length ≠ 0) && isDigit d then c :: '+' :: d :: fini ((cs.takeWhile isSpace).length + 1) cs else c :: fini 0 cs
    | none => c :: fini 0 cs := rfl
  rw [e]
  cases hd : cs[(cs.takeWhile isSpace).length]? with
  | none => rfl
  | some d =>
    simp only
    rw [if_neg]
    rcases h d hd with h | h | h <;> simp [h]

theorem fini_nodigit : ∀ (xs rest : List Char), (∀ c ∈ xs, isDigit c = false) → fini 0 (xs ++ rest) = xs ++ fini 0 rest := by
  intro xs
  induction xs with
  | nil => intro rest _; rfl
  | cons c xs ih =>
    intro rest h
    rw [List.cons_append, fini_step _ _ (fun d _ => .inl (h c (List.mem_cons_self ..))), ih rest (fun d hd => h d (List.mem_cons_of_mem _ hd))]
    rfl

theorem takeWhile_spaces {n : Nat} {x : Char} {r : List Char} (hx : isSpace x = false) : (List.replicate n ' ' ++ x :: r).takeWhile isSpace = List.replicate n ' ' := by
  induction n with
  | zero => simp [hx]
  | succ n ih =>
    rw [List.replicate_succ, List.cons_append, List.takeWhile_cons, ih]
    rfl

theorem at_spaces {n : Nat} {x : Char} {r : List Char} : (List.replicate n ' ' ++ x :: r)[n]? = some x := by
  rw [List.getElem?_append_right (by simp)]; simp

/-- Nothing is joined before something else than a digit. -/
theorem fini_run {n : Nat} {x : Char} {r : List Char} (hx : isSpace x = false) (hd : isDigit x = false) : ∀ xs : List Char, (∀ c ∈ xs, isSpace c = false) →
    fini 0 (xs ++ (List.replicate n ' ' ++ x :: r)) = xs ++ (List.replicate n ' ' ++ fini 0 (x :: r)) := by
  intro xs
  induction xs with
  | nil =>
    intro _
    exact fini_nodigit (List.replicate n ' ') _ (fun c hc => by rw [List.eq_of_mem_replicate hc]; decide)
  | cons c xs ih =>
    intro h
    rw [List.cons_append, fini_step, ih (fun d hd => h d (List.mem_cons_of_mem _ hd))]
    · rfl
    · intro d hd'
      cases xs with
      | nil =>
        rw [List.nil_append, takeWhile_spaces hx, List.length_replicate, at_spaces] at hd'
        cases hd'
        exact .inr (.inr hd)
      | cons y ys =>
        refine .inr (.inl ?_)
        rw [List.cons_append, List.takeWhile_cons, h y (by simp)]
        rfl

theorem fini_end : ∀ xs : List Char, (∀ c ∈ xs, isSpace c = false) → fini 0 xs = xs := by
  intro xs
  induction xs with
  | nil => intro _; rfl
  | cons c xs ih =>
    intro h
    rw [fini_step, ih (fun d hd => h d (List.mem_cons_of_mem _ hd))]
    intro d hd'
    refine .inr (.inl ?_)
    cases xs with
    | nil => rfl
    | cons y ys => rw [List.takeWhile_cons, h y (by simp)]; rfl

theorem fini_skip : ∀ (xs rest : List Char), fini xs.length (xs ++ rest) = fini 0 rest := by
  intro xs
  induction xs with
  | nil => intro rest; rfl
  | cons c xs ih => intro rest; exact ih rest

/-- Spaces between digits become `+`. -/
theorem fini_join {n : Nat} {d : Char} {r : List Char} (hd : isDigit d = true) : ∀ (xs : List Char) (l : Char), (∀ c ∈ xs, isSpace c = false) → xs.getLast? = some l → isDigit l = true →
    fini 0 (xs ++ (List.replicate (n + 1) ' ' ++ d :: r)) = xs ++ '+' :: d :: fini 0 r := by
  intro xs
  induction xs with
  | nil => intro l _ h; cases h
  | cons c xs ih =>
    intro l h hl hdl
    cases xs with
    | nil =>
      have : c = l := by simpa using hl
      subst this
      have e : fini 0 ([c] ++ (List.replicate (n + 1) ' ' ++ d :: r)) = match (List.replicate (n + 1) ' ' ++ d :: r)[((List.replicate (n + 1) ' ' ++ d :: r).takeWhile isSpace).length]? with
        | some d' => if isDigit c && decide (((List.replicate (n + 1) ' ' ++ d :: r).takeWhile isSpace).length ≠ 0) && isDigit d' then
            c :: '+' :: d' :: fini (((List.replicate (n + 1) ' ' ++ d :: r).takeWhile isSpace).length + 1) (List.replicate (n + 1) ' ' ++ d :: r) else c :: fini 0 (List.replicate (n + 1) ' ' ++ d :: r)
        | none => c :: fini 0 (List.replicate (n + 1) ' ' ++ d :: r) := rfl
      rw [e, takeWhile_spaces (digit_not_space hd), List.length_replicate, at_spaces]
      simp only [hdl, hd, Bool.and_true, Bool.true_and]
      rw [if_pos (by simp)]
      have := fini_skip (List.replicate (n + 1) ' ' ++ [d]) r
      rw [List.append_assoc] at this
      simp only [List.length_append, List.length_replicate, List.length_cons, List.length_nil, List.cons_append, List.nil_append] at this
      rw [show n + 1 + (0 + 1) = n + 1 + 1 from rfl] at this
      rw [this]; rfl
    | cons y ys =>
      rw [List.cons_append, fini_step, ih l (fun d hd => h d (List.mem_cons_of_mem _ hd)) (by rw [List.getLast?_cons_cons] at hl; exact hl) hdl]
      · rfl
      · intro d' _
        refine .inr (.inl ?_)
        rw [List.cons_append, List.takeWhile_cons, h y (by simp)]; rfl

/-- A separator in the end. -/
def finished : Sep → List Char
  | .spaces _ => ['+']
  | s => s.text

theorem product_nospace (u : TimeUnit) : ∀ c ∈ '*' :: (factor u).text, isSpace c = false := by
  intro c hc
  rcases List.mem_cons.mp hc with rfl | hc
  · decide
  · exact number_nospace (factor_valid u) c hc

theorem product_last (u : TimeUnit) : ∃ l, ('*' :: (factor u).text).getLast? = some l ∧ isDigit l = true := by
  obtain ⟨l, e, h⟩ := number_last (factor_valid u)
  exact ⟨l, by rw [List.getLast?_cons, e]; rfl, h⟩

theorem fini_items : ∀ (rest : List (Sep × Item)) (xs : List Char) (g : Nat) (u : TimeUnit), (∀ c ∈ xs, isSpace c = false) → (∀ x ∈ rest, x.2.Valid) → (∀ x ∈ rest, x.1.text ≠ []) →
    fini 0 (xs ++ (List.replicate g ' ' ++ ('*' :: (factor u).text ++ rest.flatMap (fun x => x.1.text ++ itemProduct x.2))))
      = xs ++ (List.replicate g ' ' ++ ('*' :: (factor u).text ++ rest.flatMap (fun x => finished x.1 ++ itemProduct x.2))) := by
  intro rest
  induction rest with
  | nil =>
    intro xs g u hx _ _
    rw [List.cons_append, fini_run (by decide) (by decide) xs hx, List.flatMap_nil, List.append_nil, fini_end _ (product_nospace u)]
    simp
  | cons x rest ih =>
    intro xs g u hx h2 h3
    have h2' := fun y hy => h2 y (List.mem_cons_of_mem x hy)
    have h3' := fun y hy => h3 y (List.mem_cons_of_mem x hy)
    obtain ⟨s, i⟩ := x
    have hi : i.Valid := h2 _ (List.mem_cons_self ..)
    have hs : s.text ≠ [] := h3 (s, i) (List.mem_cons_self ..)
    rw [List.cons_append, fini_run (by decide) (by decide) xs hx, ← List.cons_append]
    congr 2
    rw [List.flatMap_cons, List.flatMap_cons]
    have hn := number_nospace hi.number
    have E : ∀ R : List Char, itemProduct i ++ R = i.number.text ++ (List.replicate i.gap ' ' ++ ('*' :: (factor i.unit).text ++ R)) := by
      intro R; simp [itemProduct]
    have sgn : ∀ (n m : Nat) (c : Char), isSpace c = false → isDigit c = false →
        fini 0 ('*' :: (factor u).text ++ (List.replicate n ' ' ++ c :: List.replicate m ' ' ++ itemProduct i ++ rest.flatMap (fun x => x.1.text ++ itemProduct x.2)))
        = '*' :: (factor u).text ++ (List.replicate n ' ' ++ c :: List.replicate m ' ' ++ itemProduct i ++ rest.flatMap (fun x => finished x.1 ++ itemProduct x.2)) := by
      intro n m c hc1 hc2
      have e1 : ∀ R : List Char, List.replicate n ' ' ++ c :: List.replicate m ' ' ++ itemProduct i ++ R = List.replicate n ' ' ++ c :: (List.replicate m ' ' ++ (itemProduct i ++ R)) := by
        intro R; simp
      rw [e1, fini_run hc1 hc2 _ (product_nospace u)]
      have e2 : ∀ R, fini 0 (c :: (List.replicate m ' ' ++ R)) = c :: (List.replicate m ' ' ++ fini 0 R) := by
        intro R
        exact fini_nodigit (c :: List.replicate m ' ') R (fun d hd => by
          rcases List.mem_cons.mp hd with rfl | hd
          · exact hc2
          · rw [List.eq_of_mem_replicate hd]; decide)
      rw [e2, E, ih _ _ _ hn h2' h3', ← E]
      simp
    cases s with
    | spaces n =>
      cases n with
      | zero => exact absurd rfl hs
      | succ n =>
        obtain ⟨d, ds, e, hd⟩ := number_head hi.number
        obtain ⟨l, hl, hld⟩ := product_last u
        have e1 : Sep.text (.spaces (n + 1)) ++ itemProduct i ++ rest.flatMap (fun x => x.1.text ++ itemProduct x.2)
          = List.replicate (n + 1) ' ' ++ d :: (ds ++ (List.replicate i.gap ' ' ++ ('*' :: (factor i.unit).text ++ rest.flatMap (fun x => x.1.text ++ itemProduct x.2)))) := by
          unfold itemProduct; rw [e]; simp [Sep.text]
        rw [e1, fini_join hd _ l (product_nospace u) hl hld]
        rw [ih ds _ _ (fun c hc => hn c (by rw [e]; exact List.mem_cons_of_mem _ hc)) h2' h3']
        unfold finished
        rw [List.append_assoc, E, e]
        rfl
    | plus n m => exact sgn n m '+' (by decide) (by decide)
    | minus n m => exact sgn n m '-' (by decide) (by decide)

theorem fini_text {first : Item} {rest : List (Sep × Item)} (h1 : first.Valid) (h2 : ∀ x ∈ rest, x.2.Valid) (h3 : ∀ x ∈ rest, x.1.text ≠ []) :
    fini 0 (itemProduct first ++ rest.flatMap (fun x => x.1.text ++ itemProduct x.2)) = itemProduct first ++ rest.flatMap (fun x => finished x.1 ++ itemProduct x.2) := by
  have := fini_items rest first.number.text first.gap first.unit (number_nospace h1.number) h2 h3
  have E : ∀ R : List Char, itemProduct first ++ R = first.number.text ++ (List.replicate first.gap ' ' ++ ('*' :: (factor first.unit).text ++ R)) := by
    intro R; simp [itemProduct]
  rw [E, E]; exact this

/-! ## Tokens -/

theorem lex_skip : ∀ (xs rest : List Char), lex xs.length (xs ++ rest) = lex 0 rest := by
  intro xs
  induction xs with
  | nil => intro rest; rfl
  | cons c xs ih => intro rest; exact ih rest

theorem lex_spaces (n : Nat) (r : List Char) : lex 0 (List.replicate n ' ' ++ r) = lex 0 r := by
  induction n with
  | zero => rfl
  | succ n ih => exact ih

theorem takeWhile_digits {xs r : List Char} (h : xs.all isDigit = true) (hr : ∀ c, r.head? = some c → isDigit c = false) : (xs ++ r).takeWhile isDigit = xs := by
  induction xs with
  | nil =>
    cases r with
    | nil => rfl
    | cons c cs => simp [hr c rfl]
  | cons c xs ih =>
    simp only [List.all_cons, Bool.and_eq_true] at h
    rw [List.cons_append, List.takeWhile_cons, h.1, if_pos rfl, ih h.2]

theorem digit_branch {c : Char} (h : isDigit c = true) : isSpace c = false ∧ c ≠ '+' ∧ c ≠ '-' ∧ c ≠ '*' ∧ c ≠ '/' ∧ c ≠ '.' := by
  refine ⟨digit_not_space h, ?_, ?_, ?_, ?_, ?_⟩ <;> (rintro rfl; revert h; decide)

theorem lex_number {n : Number} (h : n.Valid) {r : List Char} (hr : ∀ c, r.head? = some c → isDigit c = false ∧ c ≠ '.') :
    lex 0 (n.text ++ r) = (lex 0 r).map (Tok.num n.value :: ·) := by
  obtain ⟨int, frac⟩ := n
  obtain ⟨⟨h0, h1⟩, h2, h3⟩ := h
  simp only at h0 h1 h2 h3
  cases int with
  | nil => exact absurd rfl h0
  | cons c cs =>
    have hc : isDigit c = true := by simp only [List.all_cons, Bool.and_eq_true] at h1; exact h1.1
    obtain ⟨b1, b2, b3, b4, b5, b6⟩ := digit_branch hc
    have step : ∀ t : List Char, lex 0 (c :: t) =
        if ((c :: t).drop ((c :: t).takeWhile isDigit).length).head? = some '.' then
          (lex (((c :: t).takeWhile isDigit).length + ((((c :: t).drop ((c :: t).takeWhile isDigit).length).drop 1).takeWhile isDigit).length) t).map
            (Tok.num ((digits ((c :: t).takeWhile isDigit) : Rat) + (digits ((((c :: t).drop ((c :: t).takeWhile isDigit).length).drop 1).takeWhile isDigit) : Rat) /
              ((10 ^ ((((c :: t).drop ((c :: t).takeWhile isDigit).length).drop 1).takeWhile isDigit).length : Nat) : Rat)) :: ·)
        else match integer ((c :: t).takeWhile isDigit) with
          | none => none
          | some v => (lex (((c :: t).takeWhile isDigit).length - 1) t).map (Tok.num v :: ·) := by
      intro t
      conv => lhs; unfold lex
      simp only [b1, b2, b3, b4, b5, hc, Bool.false_eq_true, if_false, if_true]
      rfl
    by_cases hf : frac = []
    · subst hf
      have et : (Number.mk (c :: cs) []).text = c :: cs := if_pos rfl
      have ew : (c :: (cs ++ r)).takeWhile isDigit = c :: cs := takeWhile_digits h1 (fun d hd => (hr d hd).1)
      rw [et, List.cons_append, step, ew]
      have ed : (c :: (cs ++ r)).drop (c :: cs).length = r := by simp
      rw [ed]
      have hno : ¬r.head? = some '.' := fun hh => (hr _ hh).2 rfl
      rw [if_neg hno]
      have ei : integer (c :: cs) = some (digits (c :: cs) : Rat) := by
        unfold integer
        rw [if_neg]
        rintro ⟨hl, hz, _⟩
        exact h3 rfl hl hz
      rw [ei]
      have el : (c :: cs).length - 1 = cs.length := rfl
      simp only [el, lex_skip]
      have ev : (Number.mk (c :: cs) []).value = (digits (c :: cs) : Rat) := by
        unfold Number.value
        rw [digits_eq]
        show _ + ((0 : Nat) : Rat) / ((10 ^ 0 : Nat) : Rat) = _
        rw [show ((0 : Nat) : Rat) / ((10 ^ 0 : Nat) : Rat) = 0 by decide +kernel]
        grind
      rw [ev]
    · have et : (Number.mk (c :: cs) frac).text = c :: cs ++ '.' :: frac := if_neg hf
      have ew : (c :: (cs ++ '.' :: frac ++ r)).takeWhile isDigit = c :: cs := by
        have := takeWhile_digits (r := '.' :: frac ++ r) h1 (fun d hd => by
          have : '.' = d := by simpa using hd
          subst this; decide)
        rw [← this]; simp
      rw [et, List.append_assoc, List.cons_append, ← List.append_assoc, step, ew]
      have ed : (c :: (cs ++ '.' :: frac ++ r)).drop (c :: cs).length = '.' :: (frac ++ r) := by simp
      rw [ed, if_pos (by rfl)]
      have ef : (('.' :: (frac ++ r)).drop 1).takeWhile isDigit = frac := takeWhile_digits h2 (fun d hd => (hr d hd).1)
      rw [ef]
      have e1 : (c :: cs).length + frac.length = (cs ++ '.' :: frac).length := by simp; omega
      rw [e1, lex_skip, digits_eq, digits_eq]
      rfl

theorem lex_char {c : Char} {t : Tok} (h : (c = '+' ∧ t = .plus) ∨ (c = '-' ∧ t = .minus) ∨ (c = '*' ∧ t = .times)) (r : List Char) : lex 0 (c :: r) = (lex 0 r).map (t :: ·) := by
  rcases h with ⟨rfl, rfl⟩ | ⟨rfl, rfl⟩ | ⟨rfl, rfl⟩ <;> rfl

/-- No digit and no point at the begin. -/
def After (r : List Char) : Prop := ∀ c, r.head? = some c → isDigit c = false ∧ c ≠ '.'

theorem lex_product {i : Item} (h : i.Valid) {r : List Char} (hr : After r) :
    lex 0 (itemProduct i ++ r) = (lex 0 r).map (fun l => Tok.num i.number.value :: Tok.times :: Tok.num i.unit.seconds :: l) := by
  have E : itemProduct i ++ r = i.number.text ++ (List.replicate i.gap ' ' ++ '*' :: ((factor i.unit).text ++ r)) := by simp [itemProduct]
  rw [E, lex_number h.number, lex_spaces, lex_char (.inr (.inr ⟨rfl, rfl⟩)), lex_number (factor_valid _) hr, factor_value, Option.map_map, Option.map_map]
  · rfl
  · intro c hc
    cases hg : i.gap with
    | zero =>
      rw [hg] at hc
      have : '*' = c := by simpa using hc
      subst this; decide
    | succ n =>
      rw [hg] at hc
      have : ' ' = c := by simpa [List.replicate_succ] using hc
      subst this; decide

def sepTok : Sep → Tok
  | .minus _ _ => .minus
  | _ => .plus

theorem lex_sep (s : Sep) (r : List Char) : lex 0 (finished s ++ r) = (lex 0 r).map (sepTok s :: ·) := by
  cases s with
  | spaces n => exact lex_char (.inl ⟨rfl, rfl⟩) r
  | plus n m =>
    have : finished (.plus n m) ++ r = List.replicate n ' ' ++ '+' :: (List.replicate m ' ' ++ r) := by simp [finished, Sep.text]
    rw [this, lex_spaces, lex_char (.inl ⟨rfl, rfl⟩), lex_spaces]; rfl
  | minus n m =>
    have : finished (.minus n m) ++ r = List.replicate n ' ' ++ '-' :: (List.replicate m ' ' ++ r) := by simp [finished, Sep.text]
    rw [this, lex_spaces, lex_char (.inr (.inl ⟨rfl, rfl⟩)), lex_spaces]; rfl

theorem finished_after (s : Sep) (r : List Char) : After (finished s ++ r) := by
  intro c hc
  have : c = ' ' ∨ c = '+' ∨ c = '-' := by
    cases s with
    | spaces n => right; left; simpa [finished, eq_comm] using hc
    | plus n m =>
      cases n with
      | zero => right; left; simpa [finished, Sep.text, eq_comm] using hc
      | succ n => left; simpa [finished, Sep.text, List.replicate_succ, eq_comm] using hc
    | minus n m =>
      cases n with
      | zero => right; right; simpa [finished, Sep.text, eq_comm] using hc
      | succ n => left; simpa [finished, Sep.text, List.replicate_succ, eq_comm] using hc
  rcases this with rfl | rfl | rfl <;> decide

def itemToks (i : Item) : List Tok := [.num i.number.value, .times, .num i.unit.seconds]

theorem lex_rest : ∀ rest : List (Sep × Item), (∀ x ∈ rest, x.2.Valid) →
    lex 0 (rest.flatMap (fun x => finished x.1 ++ itemProduct x.2)) = some (rest.flatMap (fun x => sepTok x.1 :: itemToks x.2)) ∧ After (rest.flatMap (fun x => finished x.1 ++ itemProduct x.2)) := by
  intro rest
  induction rest with
  | nil => intro _; exact ⟨rfl, fun c hc => by cases hc⟩
  | cons x rest ih =>
    intro h
    obtain ⟨ih1, ih2⟩ := ih (fun y hy => h y (List.mem_cons_of_mem _ hy))
    rw [List.flatMap_cons, List.append_assoc]
    refine ⟨?_, finished_after _ _⟩
    rw [lex_sep, lex_product (h x (List.mem_cons_self ..)) ih2, ih1]
    rfl

theorem lex_text {first : Item} {rest : List (Sep × Item)} (h1 : first.Valid) (h2 : ∀ x ∈ rest, x.2.Valid) :
    lex 0 (itemProduct first ++ rest.flatMap (fun x => finished x.1 ++ itemProduct x.2)) = some (itemToks first ++ rest.flatMap (fun x => sepTok x.1 :: itemToks x.2)) := by
  obtain ⟨a, b⟩ := lex_rest rest h2
  rw [lex_product h1 b, a]; rfl

/-! ## Value -/

theorem operator_rest : ∀ (rest : List (Sep × Item)) (sum cur v : Rat), sum + cur = v →
    operator sum cur (rest.flatMap (fun x => sepTok x.1 :: itemToks x.2)) = some (rest.foldl (fun v x => v + x.1.sign * x.2.value) v) := by
  intro rest
  induction rest with
  | nil =>
    intro sum cur v h
    rw [← h, List.flatMap_nil]
    unfold operator; rfl
  | cons x rest ih =>
    intro sum cur v h
    rw [List.flatMap_cons, List.foldl_cons]
    obtain ⟨s, i⟩ := x
    have step : ∀ sg : Rat, operand (sum + cur) none sg (itemToks i ++ rest.flatMap (fun x => sepTok x.1 :: itemToks x.2))
        = operator (sum + cur) (sg * i.number.value * (1 * i.unit.seconds)) (rest.flatMap (fun x => sepTok x.1 :: itemToks x.2)) := by
      intro sg
      unfold itemToks
      rw [List.cons_append, List.cons_append, List.cons_append, List.nil_append]
      rw [operand, operator, operand]
    cases s with
    | spaces n =>
      show operator sum cur (Tok.plus :: (itemToks i ++ _)) = _
      rw [operator, step]
      apply ih
      rw [h]; simp only [Sep.sign, Item.value]; grind
    | plus n m =>
      show operator sum cur (Tok.plus :: (itemToks i ++ _)) = _
      rw [operator, step]
      apply ih
      rw [h]; simp only [Sep.sign, Item.value]; grind
    | minus n m =>
      show operator sum cur (Tok.minus :: (itemToks i ++ _)) = _
      rw [operator, step]
      apply ih
      rw [h]; simp only [Sep.sign, Item.value]; grind

theorem str2seconds_text {first : Item} {rest : List (Sep × Item)} (h1 : first.Valid) (h2 : ∀ x ∈ rest, x.2.Valid) :
    str2seconds (text first rest) = some (total first rest) := by
  have h2' : ∀ x ∈ rest.map (fun x => (spaced x.1, x.2)), x.2.Valid := by
    intro x hx
    obtain ⟨y, hy, rfl⟩ := List.mem_map.mp hx
    exact h2 y hy
  have h3' : ∀ x ∈ rest.map (fun x => (spaced x.1, x.2)), x.1.text ≠ [] := by
    intro x hx
    obtain ⟨y, hy, rfl⟩ := List.mem_map.mp hx
    exact spaced_ne y.1
  unfold str2seconds
  rw [prep_text h1 h2, subst_text h1 h2' h3', fini_text h1 h2' h3']
  unfold eval
  rw [lex_text h1 h2']
  show operand 0 none 1 (Tok.num first.number.value :: Tok.times :: Tok.num first.unit.seconds :: _) = _
  rw [operand]
  show operator 0 (1 * first.number.value) (Tok.times :: Tok.num first.unit.seconds :: _) = _
  rw [operator, operand]
  show operator 0 (1 * first.number.value * (1 * first.unit.seconds)) _ = _
  have := operator_rest (rest.map (fun x => (spaced x.1, x.2))) 0 (1 * first.number.value * (1 * first.unit.seconds)) first.value (by simp only [Item.value]; grind)
  refine this.trans ?_
  unfold total
  rw [List.foldl_map]
  congr 2
  funext v x
  have : (spaced x.1).sign = x.1.sign := by
    rcases x.1 with n | ⟨n, m⟩ | ⟨n, m⟩
    · cases n <;> rfl
    · rfl
    · rfl
  simp only [this]

end Verif.Duration
