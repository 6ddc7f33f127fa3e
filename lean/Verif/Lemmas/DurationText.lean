import Verif.Lemmas.Duration

/-! # Durations: from the text to its value -/

namespace Verif.Duration

open DurationSpec

/-! ## Numbers -/

theorem number_chars {n : Number} (h : n.Valid) : ∀ c ∈ n.text, isDigit c = true ∨ c = '.' := by
  intro c hc
  have h1 := List.all_eq_true.mp h.int.2
  have h2 := List.all_eq_true.mp h.frac
  unfold Number.text at hc
  split at hc
  · exact .inl (h1 c hc)
  · rcases List.mem_append.mp hc with hc | hc
    · exact .inl (h1 c hc)
    · rcases List.mem_cons.mp hc with rfl | hc
      · exact .inr rfl
      · exact .inl (h2 c hc)

theorem number_nospace {n : Number} (h : n.Valid) : ∀ c ∈ n.text, isSpace c = false := by
  intro c hc
  rcases number_chars h c hc with h | rfl
  · exact digit_not_space h
  · decide

theorem number_noletter {n : Number} (h : n.Valid) : ∀ c ∈ n.text, isLetter c = false := by
  intro c hc
  rcases number_chars h c hc with h | rfl
  · exact digit_not_letter h
  · decide

theorem number_head {n : Number} (h : n.Valid) : ∃ d ds, n.text = d :: ds ∧ isDigit d = true := by
  obtain ⟨h1, h2⟩ := h.int
  cases hi : n.int with
  | nil => exact absurd hi h1
  | cons d ds =>
    rw [hi] at h2
    simp only [List.all_cons, Bool.and_eq_true] at h2
    unfold Number.text
    split
    · exact ⟨d, ds, hi, h2.1⟩
    · exact ⟨d, ds ++ '.' :: n.frac, by rw [hi]; rfl, h2.1⟩

theorem number_last {n : Number} (h : n.Valid) : ∃ d, n.text.getLast? = some d ∧ isDigit d = true := by
  have key : ∀ l : List Char, l ≠ [] → l.all isDigit = true → ∃ d, l.getLast? = some d ∧ isDigit d = true := by
    intro l hl ha
    refine ⟨l.getLast hl, List.getLast?_eq_some_getLast hl, List.all_eq_true.mp ha _ (List.getLast_mem hl)⟩
  unfold Number.text
  split
  · exact key _ h.int.1 h.int.2
  · rename_i hf
    obtain ⟨d, e, hd⟩ := key _ hf h.frac
    refine ⟨d, ?_, hd⟩
    rw [List.getLast?_append, List.getLast?_cons, e]; rfl

theorem digits_foldl : ∀ (l : List Char) (v : Nat), l.foldl (fun v c => 10 * v + (c.toNat - '0'.toNat)) v = v * 10 ^ l.length + Number.natural l := by
  intro l
  induction l with
  | nil => intro v; simp [Number.natural]
  | cons c l ih =>
    intro v
    rw [List.foldl_cons, ih]
    have : '0'.toNat = 48 := rfl
    simp only [Number.natural, Number.digit, List.length_cons, Nat.pow_succ, this]
    rw [Nat.add_mul, Nat.add_assoc]
    congr 1
    rw [Nat.mul_comm 10 v, Nat.mul_assoc, Nat.mul_comm 10]

theorem digits_eq (l : List Char) : digits l = Number.natural l := by
  unfold digits; rw [digits_foldl]; simp

/-! ## Space -/

theorem item_prep {i : Item} (h : i.Valid) {prev : Option Char} (hp : prev.any isLetter = false) (rest : List Char) (h0 : i.word ≠ []) :
    prep prev (i.text ++ rest) = i.text ++ prep i.word.getLast? rest := by
  unfold Item.text
  rw [List.append_assoc, prep_noletter _ _ _ hp, prep_nodigit]
  · rw [List.append_assoc (_ ++ _)]
    congr 2
    have : ∃ x, i.word.getLast? = some x := ⟨_, List.getLast?_eq_some_getLast h0⟩
    obtain ⟨x, hx⟩ := this
    rw [hx]; rfl
  · intro c hc; exact letter_not_digit (List.all_eq_true.mp h.letters c hc)
  · intro c hc
    rcases List.mem_append.mp hc with hc | hc
    · exact number_noletter h.number c hc
    · rw [List.eq_of_mem_replicate hc]; decide

theorem sep_chars (s : Sep) : ∀ c ∈ s.text, c = ' ' ∨ c = '+' ∨ c = '-' := by
  intro c hc
  cases s with
  | spaces n => exact .inl (List.eq_of_mem_replicate hc)
  | plus n m =>
    rcases List.mem_append.mp hc with hc | hc
    · exact .inl (List.eq_of_mem_replicate hc)
    · rcases List.mem_cons.mp hc with rfl | hc
      · exact .inr (.inl rfl)
      · exact .inl (List.eq_of_mem_replicate hc)
  | minus n m =>
    rcases List.mem_append.mp hc with hc | hc
    · exact .inl (List.eq_of_mem_replicate hc)
    · rcases List.mem_cons.mp hc with rfl | hc
      · exact .inr (.inr rfl)
      · exact .inl (List.eq_of_mem_replicate hc)

/-- At least a space. -/
def spaced : Sep → Sep
  | .spaces 0 => .spaces 1
  | s => s

theorem word_ne {i : Item} (h : i.Valid) : i.word ≠ [] := by
  intro h0
  have := h.word
  rw [h0] at this
  revert this
  cases i.unit <;> (unfold TimeUnit.Spelled; decide)

theorem spaced_ne (s : Sep) : (spaced s).text ≠ [] := by
  rcases s with n | ⟨n, m⟩ | ⟨n, m⟩
  · cases n <;> simp [spaced, Sep.text, List.replicate_succ]
  · simp [spaced, Sep.text]
  · simp [spaced, Sep.text]

theorem prep_rest : ∀ (rest : List (Sep × Item)) (p : Char), isLetter p = true → (∀ x ∈ rest, x.2.Valid) →
    prep (some p) (rest.flatMap (fun x => x.1.text ++ x.2.text)) = rest.flatMap (fun x => (spaced x.1).text ++ x.2.text) := by
  intro rest
  induction rest with
  | nil => intro p _ _; rfl
  | cons x rest ih =>
    intro p hp h
    obtain ⟨s, i⟩ := x
    have hi : i.Valid := h _ (List.mem_cons_self ..)
    have hw := word_ne hi
    have hl := List.getLast?_eq_some_getLast hw
    have ih' := ih (i.word.getLast hw) (List.all_eq_true.mp hi.letters _ (List.getLast_mem hw)) (fun y hy => h y (List.mem_cons_of_mem _ hy))
    rw [← hl] at ih'
    simp only [List.flatMap_cons, List.append_assoc]
    have key : s.text ≠ [] → prep (some p) (s.text ++ (i.text ++ rest.flatMap (fun x => x.1.text ++ x.2.text)))
        = s.text ++ (i.text ++ rest.flatMap (fun x => (spaced x.1).text ++ x.2.text)) := by
      intro hs
      rw [prep_nodigit]
      · have e := List.getLast?_eq_some_getLast hs
        rw [e, item_prep hi ?_ _ hw, ih']
        simp only [Option.some_or, Option.any_some]
        rcases sep_chars s _ (List.getLast_mem hs) with e | e | e <;> rw [e] <;> decide
      · intro c hc
        rcases sep_chars s c hc with rfl | rfl | rfl <;> decide
    by_cases hs : s.text = []
    · have : s = .spaces 0 := by
        rcases s with n | ⟨n, m⟩ | ⟨n, m⟩
        · cases n with
          | zero => rfl
          | succ n => simp [Sep.text, List.replicate_succ] at hs
        · simp [Sep.text] at hs
        · simp [Sep.text] at hs
      subst this
      obtain ⟨d, ds, e, hd⟩ := number_head hi.number
      have e2 : i.text ++ rest.flatMap (fun x => x.1.text ++ x.2.text) = d :: (ds ++ List.replicate i.gap ' ' ++ i.word ++ rest.flatMap (fun x => x.1.text ++ x.2.text)) := by
        unfold Item.text; rw [e]; simp
      have e3 : Sep.text (.spaces 0) ++ (i.text ++ rest.flatMap (fun x => x.1.text ++ x.2.text)) = i.text ++ rest.flatMap (fun x => x.1.text ++ x.2.text) := rfl
      have e4 : (spaced (.spaces 0)).text = [' '] := rfl
      rw [e3, e2, prep_join hp hd, ← e2, item_prep hi rfl _ hw, ih', e4]
      rfl
    · have : spaced s = s := by
        rcases s with n | ⟨n, m⟩ | ⟨n, m⟩
        · cases n with
          | zero => exact absurd rfl hs
          | succ n => rfl
        · rfl
        · rfl
      rw [this]; exact key hs

theorem prep_text {first : Item} {rest : List (Sep × Item)} (h1 : first.Valid) (h2 : ∀ x ∈ rest, x.2.Valid) :
    prep none (text first rest) = text first (rest.map (fun x => (spaced x.1, x.2))) := by
  have hw := word_ne h1
  unfold text
  rw [item_prep h1 rfl _ hw, List.getLast?_eq_some_getLast hw, prep_rest rest _ (List.all_eq_true.mp h1.letters _ (List.getLast_mem hw)) h2, List.flatMap_map]

/-! ## Units -/

/-- A unit as factor. -/
def factor : TimeUnit → Number
  | .second => ⟨['1'], []⟩
  | .minute => ⟨['6', '0'], []⟩
  | .hour => ⟨['3', '6', '0', '0'], []⟩
  | .day => ⟨['8', '6', '4', '0', '0'], []⟩
  | .week => ⟨['6', '0', '4', '8', '0', '0'], []⟩
  | .month => ⟨['2', '6', '2', '9', '8', '0', '0'], ['0']⟩
  | .year => ⟨['3', '1', '5', '5', '7', '6', '0', '0'], ['0']⟩

theorem factor_valid (u : TimeUnit) : (factor u).Valid := by
  cases u <;> exact ⟨by decide, by decide, by decide⟩

theorem factor_value (u : TimeUnit) : (factor u).value = u.seconds := by
  cases u <;> decide +kernel

theorem parts_ok : ∀ p ∈ parts, Words p.1 ∧ ∀ c ∈ p.2.toList, isLetter c = false := by
  have key : ∀ p ∈ parts, (∀ w ∈ p.1, w.toList.head?.any isLetter = true) ∧ ∀ c ∈ p.2.toList, isLetter c = false := by decide +kernel
  intro p hp
  obtain ⟨h1, h2⟩ := key p hp
  refine ⟨fun w hw => ?_, h2⟩
  have := h1 w hw
  cases e : w.toList with
  | nil => rw [e] at this; cases this
  | cons c cs => rw [e] at this; exact ⟨c, cs, rfl, by simpa using this⟩

theorem fold_stable : ∀ (ps : List (List String × String)) (t : List Char), (∀ p ∈ ps, Words p.1) → (∀ c ∈ t, isLetter c = false) →
    ps.foldl (fun t p => newTail p.1 p.2.toList t) t = t := by
  intro ps
  induction ps with
  | nil => intro t _ _; rfl
  | cons p ps ih =>
    intro t h ht
    have e : newTail p.1 p.2.toList t = t := if_neg (not_mem_words (h p (List.mem_cons_self ..)) ht)
    rw [List.foldl_cons, e]
    exact ih t (fun q hq => h q (List.mem_cons_of_mem _ hq)) ht

theorem fold_find : ∀ (ps : List (List String × String)) (w : List Char) (p : List String × String), (∀ p ∈ ps, Words p.1 ∧ ∀ c ∈ p.2.toList, isLetter c = false) →
    ps.find? (fun p => decide (String.ofList (w.map Char.toLower) ∈ p.1)) = some p → ps.foldl (fun t p => newTail p.1 p.2.toList t) w = p.2.toList := by
  intro ps
  induction ps with
  | nil => intro w p _ h; cases h
  | cons q ps ih =>
    intro w p h hf
    have hq := h q (List.mem_cons_self ..)
    have h' := fun x hx => h x (List.mem_cons_of_mem q hx)
    rw [List.foldl_cons]
    by_cases hm : String.ofList (w.map Char.toLower) ∈ q.1
    · rw [List.find?_cons, decide_eq_true hm] at hf
      cases hf
      have e : newTail q.1 q.2.toList w = q.2.toList := if_pos hm
      rw [e]
      exact fold_stable ps _ (fun x hx => (h' x hx).1) hq.2
    · rw [List.find?_cons, decide_eq_false hm] at hf
      have e : newTail q.1 q.2.toList w = w := if_neg hm
      rw [e]
      exact ih w p h' hf

theorem fold_newTail {w : List Char} {u : TimeUnit} (h : u.Spelled (w.map Char.toLower)) :
    parts.foldl (fun t p => newTail p.1 p.2.toList t) w = '*' :: (factor u).text := by
  have key : (parts.find? (fun p => decide (String.ofList (w.map Char.toLower) ∈ p.1))).map (·.2.toList) = some ('*' :: (factor u).text) := by
    generalize w.map Char.toLower = l at h
    unfold TimeUnit.Spelled at h
    cases u <;> rcases h with h | h | h | h | h | h <;> first
      | (subst h; decide +kernel)
      | (obtain ⟨h, hn⟩ := h; first | exact absurd rfl hn | (subst h; decide +kernel))
  cases hf : parts.find? (fun p => decide (String.ofList (w.map Char.toLower) ∈ p.1)) with
  | none => rw [hf] at key; cases key
  | some p =>
    rw [hf] at key
    rw [fold_find parts w p parts_ok hf]
    simpa using key

/-! ## All units replaced -/

theorem subst_parts : ∀ (ps : List (List String × String)) (segs : List Seg), (∀ p ∈ ps, Words p.1 ∧ ∀ c ∈ p.2.toList, isLetter c = false) →
    (∀ s ∈ segs, s.Ok) → (∀ s ∈ segs.drop 1, Ends s.pre) →
    ps.foldl (fun v p => subst p.1 p.2.toList 0 none v) (segs.flatMap Seg.text)
      = segs.flatMap (fun s => s.pre ++ ps.foldl (fun t p => newTail p.1 p.2.toList t) s.tail) := by
  intro ps
  induction ps with
  | nil => intro segs _ _ _; rfl
  | cons p ps ih =>
    intro segs hp h1 h2
    obtain ⟨hw, hr⟩ := hp p (List.mem_cons_self ..)
    rw [List.foldl_cons, subst_segs hw segs none h1 h2]
    have e : segs.flatMap (fun s => s.pre ++ newTail p.1 p.2.toList s.tail) = (segs.map (fun s => Seg.mk s.pre (newTail p.1 p.2.toList s.tail))).flatMap Seg.text := by
      rw [List.flatMap_map]; rfl
    rw [e, ih _ (fun x hx => hp x (List.mem_cons_of_mem _ hx)), List.flatMap_map]
    · rfl
    · intro s hs
      obtain ⟨s', hs', rfl⟩ := List.mem_map.mp hs
      have o := h1 s' hs'
      refine ⟨o.pre, o.last, ?_⟩
      show (newTail p.1 p.2.toList s'.tail ≠ [] ∧ _) ∨ ∀ c ∈ newTail p.1 p.2.toList s'.tail, isLetter c = false
      unfold newTail
      split
      · exact .inr hr
      · exact o.tail
    · intro s hs
      rw [← List.map_drop] at hs
      obtain ⟨s', hs', rfl⟩ := List.mem_map.mp hs
      exact h2 s' hs'

/-- An item with the unit as factor. -/
def itemProduct (i : Item) : List Char := i.number.text ++ (List.replicate i.gap ' ' ++ '*' :: (factor i.unit).text)

theorem seg_ok {i : Item} (h : i.Valid) {s : List Char} (hs : ∀ c ∈ s, c = ' ' ∨ c = '+' ∨ c = '-') : (Seg.mk (s ++ (i.number.text ++ List.replicate i.gap ' ')) i.word).Ok := by
  refine ⟨?_, ?_, .inl ⟨word_ne h, List.all_eq_true.mp h.letters⟩⟩
  · intro c hc
    rcases List.mem_append.mp hc with hc | hc
    · rcases hs c hc with rfl | rfl | rfl <;> decide
    · rcases List.mem_append.mp hc with hc | hc
      · exact number_noletter h.number c hc
      · rw [List.eq_of_mem_replicate hc]; decide
  · obtain ⟨d, e, hd⟩ := number_last h.number
    show ∃ p, (s ++ (i.number.text ++ List.replicate i.gap ' ')).getLast? = some p ∧ _
    rw [List.getLast?_append, List.getLast?_append, e]
    cases hg : i.gap with
    | zero => exact ⟨d, rfl, by simp [hd]⟩
    | succ n => exact ⟨' ', by simp [List.getLast?_replicate], by decide⟩

theorem subst_text {first : Item} {rest : List (Sep × Item)} (h1 : first.Valid) (h2 : ∀ x ∈ rest, x.2.Valid) (h3 : ∀ x ∈ rest, x.1.text ≠ []) :
    parts.foldl (fun v p => subst p.1 p.2.toList 0 none v) (text first rest) = itemProduct first ++ rest.flatMap (fun x => x.1.text ++ itemProduct x.2) := by
  have e : text first rest = (Seg.mk ([] ++ (first.number.text ++ List.replicate first.gap ' ')) first.word ::
      rest.map (fun x => Seg.mk (x.1.text ++ (x.2.number.text ++ List.replicate x.2.gap ' ')) x.2.word)).flatMap Seg.text := by
    rw [List.flatMap_cons, List.flatMap_map]
    unfold text
    congr 1
    congr 1
    funext x
    simp [Seg.text, Item.text]
  rw [e, subst_parts parts _ parts_ok]
  · rw [List.flatMap_cons, List.flatMap_map]
    congr 1
    · unfold itemProduct
      rw [← fold_newTail h1.word]
      simp
    · clear e h3
      induction rest with
      | nil => rfl
      | cons x rest ih =>
        rw [List.flatMap_cons, List.flatMap_cons, ih (fun y hy => h2 y (List.mem_cons_of_mem _ hy))]
        congr 1
        unfold itemProduct
        rw [← fold_newTail (h2 x (List.mem_cons_self ..)).word]
        simp
  · intro s hs
    rcases List.mem_cons.mp hs with rfl | hs
    · exact seg_ok h1 (fun c hc => by cases hc)
    · obtain ⟨x, hx, rfl⟩ := List.mem_map.mp hs
      exact seg_ok (h2 x hx) (sep_chars x.1)
  · intro s hs
    simp only [List.drop_succ_cons, List.drop_zero] at hs
    obtain ⟨x, hx, rfl⟩ := List.mem_map.mp hs
    intro c hc
    have hne := h3 x hx
    cases ht : x.1.text with
    | nil => exact absurd ht hne
    | cons a as =>
      rw [ht] at hc
      have : a = c := by simpa using hc
      subst this
      rcases sep_chars x.1 a (by rw [ht]; exact List.mem_cons_self ..) with rfl | rfl | rfl <;> decide

end Verif.Duration
