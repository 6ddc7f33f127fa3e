import Verif.Lemmas.DurationSum

/-! # Durations shown -/

namespace Verif.Duration

open DurationSpec

/-! ## Plain numbers -/

theorem subst_plain : ∀ (ps : List (List String × String)) (xs : List Char), (∀ p ∈ ps, Words p.1) → (∀ c ∈ xs, isLetter c = false) →
    ps.foldl (fun v p => subst p.1 p.2.toList 0 none v) xs = xs := by
  intro ps
  induction ps with
  | nil => intro xs _ _; rfl
  | cons p ps ih =>
    intro xs h hx
    have := subst_other (repl := p.2.toList) (h p (List.mem_cons_self ..)) xs none [] hx
    rw [List.append_nil] at this
    have e : subst p.1 p.2.toList 0 (xs.getLast?.or none) [] = [] := by unfold subst; rfl
    rw [e, List.append_nil] at this
    rw [List.foldl_cons, this]
    exact ih xs (fun q hq => h q (List.mem_cons_of_mem _ hq)) hx

theorem str2seconds_plain {xs : List Char} (h1 : ∀ c ∈ xs, isLetter c = false) (h2 : ∀ c ∈ xs, isSpace c = false) : str2seconds xs = eval xs := by
  unfold str2seconds
  have e := prep_noletter xs none [] rfl h1
  rw [List.append_nil] at e
  have e0 : prep (xs.getLast?.or none) [] = [] := by unfold prep; rfl
  rw [e0, List.append_nil] at e
  rw [e, subst_plain parts xs (fun p hp => (parts_ok p hp).1) h1, fini_end xs h2]

theorem eval_number {n : Number} (h : n.Valid) : eval n.text = some n.value ∧ eval ('-' :: n.text) = some (-n.value) := by
  have e := lex_number h (r := []) (fun c hc => by cases hc)
  rw [List.append_nil] at e
  have e0 : lex 0 [] = some [] := rfl
  unfold eval
  constructor
  · rw [e, e0]
    show operand 0 none 1 [Tok.num n.value] = _
    rw [operand]; show operator 0 (1 * n.value) [] = _
    rw [operator]; congr 1; grind
  · rw [lex_char (.inr (.inl ⟨rfl, rfl⟩)), e, e0]
    show operand 0 none 1 [Tok.minus, Tok.num n.value] = _
    rw [operand, operand]; show operator 0 (-1 * n.value) [] = _
    rw [operator]; congr 1; grind

/-! ## Decimal numbers -/

theorem natural_append (a b : List Char) : Number.natural (a ++ b) = Number.natural a * 10 ^ b.length + Number.natural b := by
  induction a with
  | nil => simp [Number.natural]
  | cons c a ih =>
    rw [List.cons_append, Number.natural, Number.natural, ih, List.length_append, Nat.pow_add, Nat.add_mul, Nat.mul_assoc, Nat.add_assoc]

theorem digitChar_digit {n : Nat} (h : n < 10) : isDigit (Nat.digitChar n) = true ∧ Number.digit (Nat.digitChar n) = n ∧ (Nat.digitChar n = '0' → n = 0) := by
  have : ∀ n : Fin 10, isDigit (Nat.digitChar n) = true ∧ Number.digit (Nat.digitChar n) = n ∧ (Nat.digitChar n = '0' → n.val = 0) := by decide
  exact this ⟨n, h⟩

theorem decimal_ok (n : Nat) : (Nat.toDigits 10 n).all isDigit = true ∧ Number.natural (Nat.toDigits 10 n) = n ∧ Nat.toDigits 10 n ≠ [] ∧
    ((Nat.toDigits 10 n).head? = some '0' → n = 0) := by
  induction n using Nat.strongRecOn with
  | _ n ih =>
    by_cases h : n < 10
    · rw [Nat.toDigits_of_lt_base h]
      obtain ⟨a, b, c⟩ := digitChar_digit h
      refine ⟨by simp [a], by simp [Number.natural, b], by simp, fun hh => c (by simpa using hh)⟩
    · rw [Nat.toDigits_of_base_le (by decide) (by omega)]
      obtain ⟨a, b, c, d⟩ := ih (n / 10) (by omega)
      obtain ⟨a', b', _⟩ := digitChar_digit (Nat.mod_lt n (by decide : 10 > 0))
      refine ⟨by simp only [List.all_append, a, Bool.true_and]; simp [a'], ?_, by simp, ?_⟩
      · rw [natural_append, b]
        simp only [Number.natural, b', List.length_cons, List.length_nil]
        omega
      · intro hh
        have : (Nat.toDigits 10 (n / 10)).head? = some '0' := by
          cases ht : Nat.toDigits 10 (n / 10) with
          | nil => exact absurd ht c
          | cons x xs => rw [ht] at hh; simpa using hh
        have := d this
        omega

/-- A decimal number. -/
def decimal (n : Nat) : Number := ⟨Nat.toDigits 10 n, []⟩

theorem decimal_valid (n : Nat) : (decimal n).Valid := by
  obtain ⟨a, b, c, d⟩ := decimal_ok n
  refine ⟨⟨c, a⟩, rfl, fun _ hl hz => ?_⟩
  have := d hz
  subst this
  have hl' : 1 < (Nat.toDigits 10 0).length := hl
  revert hl'; decide

theorem decimal_value (n : Nat) : (decimal n).value = n := by
  obtain ⟨a, b, c, d⟩ := decimal_ok n
  unfold Number.value decimal
  simp only [b]
  show (n : Rat) + ((0 : Nat) : Rat) / ((10 ^ 0 : Nat) : Rat) = _
  rw [show ((0 : Nat) : Rat) / ((10 ^ 0 : Nat) : Rat) = 0 by decide +kernel]
  grind

theorem decimal_text (n : Nat) : (decimal n).text = Nat.toDigits 10 n := if_pos rfl

/-! ## Groups read again -/

def groupItem (g : Nat × TimeUnit) : Item := { number := decimal g.1, word := g.2.name.toList.take 1, unit := g.2 }

theorem groupItem_valid {g : Nat × TimeUnit} (h : g.2 ≠ .month) : (groupItem g).Valid := by
  obtain ⟨n, u⟩ := g
  refine ⟨decimal_valid n, ?_, ?_⟩
  · show (u.name.toList.take 1).all isLetter = true
    cases u <;> decide
  · show u.Spelled ((u.name.toList.take 1).map Char.toLower)
    cases u <;> first | exact absurd rfl h | exact .inr (.inr (.inl ⟨by decide, by decide⟩))

theorem groupItem_text (g : Nat × TimeUnit) : (groupItem g).text = shortItem g := by
  unfold groupItem Item.text shortItem
  simp [decimal_text]

theorem spacedItems_text : ∀ (gs : List (Nat × TimeUnit)) (g : Nat × TimeUnit), spacedItems (g :: gs) = text (groupItem g) (gs.map (fun g => (.spaces 1, groupItem g))) := by
  intro gs
  induction gs with
  | nil => intro g; unfold text; rw [groupItem_text]; simp [spacedItems]
  | cons h gs ih =>
    intro g
    have e : spacedItems (g :: h :: gs) = shortItem g ++ ' ' :: spacedItems (h :: gs) := rfl
    rw [e, ih h]
    unfold text
    rw [groupItem_text, groupItem_text, List.map_cons, List.flatMap_cons, groupItem_text]
    simp [Sep.text]

/-- The seconds of groups. -/
def groupsValue (gs : List (Nat × TimeUnit)) : Rat := gs.foldr (fun g v => (g.1 : Rat) * g.2.seconds + v) 0

theorem total_groups : ∀ (gs : List (Nat × TimeUnit)) (v : Rat),
    (gs.map (fun g => ((.spaces 1 : Sep), groupItem g))).foldl (fun v x => v + x.1.sign * x.2.value) v = v + groupsValue gs := by
  intro gs
  induction gs with
  | nil => intro v; show v = v + 0; grind
  | cons g gs ih =>
    intro v
    rw [List.map_cons, List.foldl_cons, ih]
    show v + 1 * ((decimal g.1).value * g.2.seconds) + groupsValue gs = v + ((g.1 : Rat) * g.2.seconds + groupsValue gs)
    rw [decimal_value]; grind

theorem read_spaced {gs : List (Nat × TimeUnit)} (h0 : gs ≠ []) (h : ∀ g ∈ gs, g.2 ≠ .month) : str2seconds (spacedItems gs) = some (groupsValue gs) := by
  cases gs with
  | nil => exact absurd rfl h0
  | cons g gs =>
    rw [spacedItems_text, str2seconds_text (groupItem_valid (h g (List.mem_cons_self ..)))]
    · unfold total
      rw [total_groups]
      show some ((decimal g.1).value * g.2.seconds + groupsValue gs) = _
      rw [decimal_value]; rfl
    · intro x hx
      obtain ⟨y, hy, rfl⟩ := List.mem_map.mp hx
      exact groupItem_valid (h y (List.mem_cons_of_mem _ hy))

theorem groupsValue_filter (gs : List (Nat × TimeUnit)) : groupsValue (gs.filter (fun g => g.1 ≠ 0)) = groupsValue gs := by
  induction gs with
  | nil => rfl
  | cons g gs ih =>
    rw [List.filter_cons]
    split
    · show (g.1 : Rat) * g.2.seconds + groupsValue _ = (g.1 : Rat) * g.2.seconds + groupsValue gs
      rw [ih]
    · rename_i hz
      have : g.1 = 0 := by simpa using hz
      show groupsValue _ = (g.1 : Rat) * g.2.seconds + groupsValue gs
      rw [ih, this]
      show groupsValue gs = ((0 : Nat) : Rat) * g.2.seconds + groupsValue gs
      rw [show ((0 : Nat) : Rat) = 0 from rfl]; grind

theorem read_shown {gs : List (Nat × TimeUnit)} (h0 : ∃ g ∈ gs, g.1 ≠ 0) (h : ∀ g ∈ gs, g.2 ≠ .month) : str2seconds (shown gs) = some (groupsValue gs) := by
  unfold shown
  rw [read_spaced, groupsValue_filter]
  · obtain ⟨g, hg, hn⟩ := h0
    exact List.ne_nil_of_mem (List.mem_filter.mpr ⟨hg, by simpa using hn⟩)
  · intro g hg; exact h g (List.mem_filter.mp hg).1

/-! ## What is shown -/

theorem group_eq (n : Nat) (u : TimeUnit) (c : Char) (hc : u.name.toList.take 1 = [c]) : group n c = shortItem (n, u) ++ [' '] := by
  unfold group shortItem; rw [hc]; simp

theorem shown_three {a b c : Nat} {x y z : TimeUnit} (ha : a ≠ 0) :
    shown [(a, x), (b, y), (c, z)] = (shortItem (a, x) ++ [' '] ++ (if b ≠ 0 then shortItem (b, y) ++ [' '] else []) ++ (if c ≠ 0 then shortItem (c, z) ++ [' '] else [])).dropLast := by
  have dl : ∀ l : List Char, (l ++ [' ']).dropLast = l := fun l => List.dropLast_concat
  unfold shown
  by_cases hb : b = 0 <;> by_cases hc : c = 0 <;> simp only [List.filter_cons, List.filter_nil, ha, hb, hc, ne_eq, not_true_eq_false, not_false_eq_true, decide_true, decide_false, if_true, if_false, Bool.false_eq_true, spacedItems, List.append_nil]
  · rw [dl]
  · rw [← List.append_assoc, dl]; simp
  · rw [← List.append_assoc, dl]; simp
  · rw [← List.append_assoc, dl]; simp

theorem shown_two {a b : Nat} {x y : TimeUnit} (ha : a ≠ 0 ∨ b ≠ 0) :
    shown [(a, x), (b, y)] = ((if a ≠ 0 then shortItem (a, x) ++ [' '] else []) ++ (if b ≠ 0 then shortItem (b, y) ++ [' '] else [])).dropLast := by
  have dl : ∀ l : List Char, (l ++ [' ']).dropLast = l := fun l => List.dropLast_concat
  unfold shown
  by_cases ha' : a = 0 <;> by_cases hb : b = 0 <;> simp only [List.filter_cons, List.filter_nil, ha', hb, ne_eq, not_true_eq_false, not_false_eq_true, decide_true, decide_false, if_true, if_false, Bool.false_eq_true, spacedItems, List.append_nil, List.nil_append]
  · omega
  · rw [dl]
  · rw [dl]
  · rw [← List.append_assoc, dl]; simp

/-- The three groups of a branch. -/
theorem three_eq {s a b : Nat} {x y z : TimeUnit} {cx cy cz : Char} (hx : x.name.toList.take 1 = [cx]) (hy : y.name.toList.take 1 = [cy]) (hz : z.name.toList.take 1 = [cz])
    (hb : 0 < b) (ha : a ≤ s) (ha0 : 0 < a) :
    (let r := group (s / a) cx
     let s' := s % a
     let (r, s') := if b ≤ s' then (r ++ group (s' / b) cy, s' % b) else (r, s')
     (if s' ≠ 0 then r ++ group s' cz else r).dropLast) = shown [(s / a, x), (s % a / b, y), (s % a % b, z)] := by
  have h1 : s / a ≠ 0 := by
    have := Nat.div_pos ha ha0
    omega
  rw [shown_three h1, group_eq _ _ _ hx]
  simp only [group_eq _ _ _ hy, group_eq _ _ _ hz]
  by_cases hb' : b ≤ s % a
  · have h2 : s % a / b ≠ 0 := by have := Nat.div_pos hb' hb; omega
    rw [if_pos hb']
    simp only [h2, ne_eq, not_false_eq_true, if_true]
    split <;> simp
  · have h2 : s % a / b = 0 := Nat.div_eq_of_lt (by omega)
    have h3 : s % a % b = s % a := Nat.mod_eq_of_lt (by omega)
    rw [if_neg hb']
    simp only [h2, h3, ne_eq, not_true_eq_false, if_false, List.append_nil]
    split <;> simp

theorem rounded_ge {s d k n : Nat} (hd : 0 < d) (h : IsRounded s d n) (hk : k * d ≤ s) : k ≤ n := by
  obtain ⟨h1, h2, h3⟩ := h
  by_cases hlt : k ≤ n
  · exact hlt
  · have h4 : (n + 1) * d ≤ k * d := Nat.mul_le_mul_right d (by omega)
    rw [Nat.add_mul, Nat.one_mul] at h4
    have h5 : 2 * s ≤ 2 * (n * d) + d := h2
    omega

theorem shows_groups (s : Nat) (h0 : s ≠ 0) : ∃ gs, Shows s gs ∧ seconds2str s = shown gs := by
  by_cases h1 : 31536000 ≤ s
  · have hr := isRounded_roundHalfEven s 86400 (by decide)
    have hk := rounded_ge (k := 365) (by decide) hr (by omega)
    generalize hn : roundHalfEven s 86400 = n at hr hk
    refine ⟨_, .years n (n / 365) (n % 365 / 7) (n % 365 % 7) (by omega) hr (by omega) (by omega) (by omega), ?_⟩
    have := three_eq (s := n) (a := 365) (b := 7) (x := .year) (y := .week) (z := .day) (cx := 'y') (cy := 'w') (cz := 'd') (by decide) (by decide) (by decide) (by decide) hk (by decide)
    rw [← this, ← hn]
    unfold seconds2str
    rw [if_pos h1]
  · by_cases h2 : 604800 ≤ s
    · have hr := isRounded_roundHalfEven s 3600 (by decide)
      have hk := rounded_ge (k := 168) (by decide) hr (by omega)
      generalize hn : roundHalfEven s 3600 = n at hr hk
      refine ⟨_, .weeks n (n / 168) (n % 168 / 24) (n % 168 % 24) h2 (by omega) hr (by omega) (by omega) (by omega), ?_⟩
      have := three_eq (s := n) (a := 168) (b := 24) (x := .week) (y := .day) (z := .hour) (cx := 'w') (cy := 'd') (cz := 'h') (by decide) (by decide) (by decide) (by decide) hk (by decide)
      rw [← this, ← hn]
      unfold seconds2str
      rw [if_neg h1, if_pos h2]
    · by_cases h3 : 86400 ≤ s
      · have hr := isRounded_roundHalfEven s 60 (by decide)
        have hk := rounded_ge (k := 1440) (by decide) hr (by omega)
        generalize hn : roundHalfEven s 60 = n at hr hk
        refine ⟨_, .days n (n / 1440) (n % 1440 / 60) (n % 1440 % 60) h3 (by omega) hr (by omega) (by omega) (by omega), ?_⟩
        have := three_eq (s := n) (a := 1440) (b := 60) (x := .day) (y := .hour) (z := .minute) (cx := 'd') (cy := 'h') (cz := 'm') (by decide) (by decide) (by decide) (by decide) hk (by decide)
        rw [← this, ← hn]
        unfold seconds2str
        rw [if_neg h1, if_neg h2, if_pos h3]
      · by_cases h4 : 3595 ≤ s
        · have hr := isRounded_roundHalfEven s 10 (by decide)
          have hk : 360 ≤ roundHalfEven s 10 := by
            obtain ⟨r1, r2, r3⟩ := hr
            generalize roundHalfEven s 10 = n at *
            by_cases hq : n = 359
            · subst hq; have := r3 (by omega); omega
            · omega
          generalize hn : roundHalfEven s 10 = n at hr hk
          refine ⟨_, .hours n (n / 360) (n % 360 / 6) (n % 360 % 6) (by omega) (by omega) hr (by omega) (by omega) (by omega), ?_⟩
          rw [shown_two (by omega)]
          unfold seconds2str
          rw [if_neg h1, if_neg h2, if_neg h3, if_pos h4, hn]
          simp only [group_eq _ .hour 'h' (by decide), group_eq _ .minute 'm' (by decide)]
          rw [if_pos (by omega : n / 360 ≠ 0)]
          by_cases h6 : 6 ≤ n % 360
          · rw [if_pos h6, if_pos (by omega : n % 360 / 6 ≠ 0)]
          · rw [if_neg h6, if_neg (by omega : ¬n % 360 / 6 ≠ 0), List.append_nil]
        · refine ⟨_, .minutes (s / 60) (s % 60) (by omega) (by omega) (by omega), ?_⟩
          rw [shown_two (by omega)]
          unfold seconds2str
          rw [if_neg h1, if_neg h2, if_neg h3, if_neg h4]
          simp only [group_eq _ .minute 'm' (by decide), group_eq _ .second 's' (by decide)]
          by_cases h6 : 60 ≤ s
          · rw [if_pos h6, if_pos (by omega : s / 60 ≠ 0)]
            simp only [h0, if_false]
            split <;> simp
          · rw [if_neg h6, if_neg (by omega : ¬s / 60 ≠ 0), Nat.mod_eq_of_lt (by omega)]
            simp only [ne_eq, h0, not_false_eq_true, if_true]

end Verif.Duration
