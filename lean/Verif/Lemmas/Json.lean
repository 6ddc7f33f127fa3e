import Verif.Spec.Json

set_option linter.unusedSimpArgs false

namespace Verif.Json

/-- Every ASCII character can be encoded -/
def Ascii (can : Char → Bool) : Prop := ∀ c : Char, c.toNat < 128 → can c = true

theorem coded_append (can) (a b : Text) : coded can (a ++ b) = coded can a ++ coded can b := by simp [coded]

theorem coded_cons (can) (c : Char) (b : Text) : coded can (c :: b) = (if can c then c else '?') :: coded can b := by simp [coded]

theorem coded_eq (can) (t : Text) : coded can t = shown can t := by
  induction t with
  | nil => rfl
  | cons c t ih => simp [coded_cons, shown, ih]

theorem coded_id (can) {t : Text} (h : ∀ c ∈ t, can c = true) : coded can t = t := by
  induction t with
  | nil => rfl
  | cons c t ih =>
    rw [coded_cons, ih (fun c hc => h c (by simp [hc])), if_pos (h c (by simp))]

theorem coded_ascii {can} (ha : Ascii can) {t : Text} (h : ∀ c ∈ t, c.toNat < 128) : coded can t = t :=
  coded_id can (fun c hc => ha c (h c hc))

theorem coded_length (can) (t : Text) : (coded can t).length = t.length := by simp [coded]

/-! ### Strings -/

theorem char_eq {a b : Char} (h : a.toNat = b.toNat) : a = b := Char.ext (UInt32.toNat_inj.1 h)

theorem low_char : ∀ n : Fin 32, (escape (Char.ofNat n.val)).all (fun c => decide (c.toNat < 128)) = true := by decide +kernel

theorem ofNat_toNat (c : Char) : Char.ofNat c.toNat = c := Char.ofNat_toNat c

theorem escape_plain {c : Char} (h1 : c ≠ '"') (h2 : c ≠ '\\') (h3 : ¬ c.toNat < 32) : escape c = [c] := by
  unfold escape
  rw [if_neg h1, if_neg h2, if_neg (by rintro rfl; exact h3 (by decide)), if_neg (by rintro rfl; exact h3 (by decide)),
    if_neg (by rintro rfl; exact h3 (by decide)), if_neg (by omega), if_neg (by omega), if_neg h3]

theorem uni_low : ∀ n : Fin 32, uni '0' '0' (Nat.digitChar (n.val / 16)) (Nat.digitChar (n.val % 16)) = some (Char.ofNat n.val) := by decide +kernel

theorem scanStr_u (a b c d : Char) (r : Text) : scanStr ('\\' :: 'u' :: a :: b :: c :: d :: r) = more (uni a b c d) (scanStr r) := by
  rw [scanStr]

theorem scanStr_esc {e : Char} (he : e ≠ 'u') (r : Text) : scanStr ('\\' :: e :: r) = more (backslash e) (scanStr r) := by
  rw [scanStr]
  intro a b c d r' h
  exact absurd h he

theorem scanStr_char {c : Char} (h1 : c ≠ '"') (h2 : c ≠ '\\') (h3 : ¬ c.toNat < 32) (r : Text) :
    scanStr (c :: r) = more (some c) (scanStr r) := by
  rw [scanStr, if_neg h3]
  · exact h1
  · intro a b d e f h; exact absurd h h2
  · intro a b h; exact absurd h h2

theorem scanStr_escape {can} (ha : Ascii can) (c : Char) (r : Text) :
    scanStr (coded can (escape c) ++ r) = more (some (if can c then c else '?')) (scanStr r) := by
  by_cases hc : c = '"' ∨ c = '\\' ∨ c.toNat < 32
  · have hcan : can c = true := by
      rcases hc with rfl | rfl | h
      · exact ha _ (by decide)
      · exact ha _ (by decide)
      · exact ha _ (by omega)
    have hasc : ∀ x ∈ escape c, x.toNat < 128 := by
      rcases hc with rfl | rfl | h
      · decide
      · decide
      · have := low_char ⟨c.toNat, h⟩
        simp only [ofNat_toNat, List.all_eq_true, decide_eq_true_eq] at this
        exact this
    rw [coded_ascii ha hasc, hcan, if_pos rfl]
    unfold escape
    by_cases h1 : c = '"'
    · subst h1; exact scanStr_esc (by decide) _
    rw [if_neg h1]
    by_cases h2 : c = '\\'
    · subst h2; exact scanStr_esc (by decide) _
    rw [if_neg h2]
    by_cases h3 : c = '\n'
    · subst h3; exact scanStr_esc (by decide) _
    rw [if_neg h3]
    by_cases h4 : c = '\r'
    · subst h4; exact scanStr_esc (by decide) _
    rw [if_neg h4]
    by_cases h5 : c = '\t'
    · subst h5; exact scanStr_esc (by decide) _
    rw [if_neg h5]
    by_cases h6 : c.toNat = 8
    · rw [if_pos h6]
      have : c = Char.ofNat 8 := by rw [← h6, ofNat_toNat]
      subst this; exact scanStr_esc (by decide) _
    rw [if_neg h6]
    by_cases h7 : c.toNat = 12
    · rw [if_pos h7]
      have : c = Char.ofNat 12 := by rw [← h7, ofNat_toNat]
      subst this; exact scanStr_esc (by decide) _
    rw [if_neg h7]
    have h8 : c.toNat < 32 := by
      rcases hc with h | h | h
      · exact absurd h h1
      · exact absurd h h2
      · exact h
    rw [if_pos h8]
    unfold hex2
    refine (scanStr_u ..).trans ?_
    have := uni_low ⟨c.toNat, h8⟩
    simp only [ofNat_toNat] at this
    rw [this]
    rfl
  · have h1 : c ≠ '"' := fun h => hc (.inl h)
    have h2 : c ≠ '\\' := fun h => hc (.inr (.inl h))
    have h3 : ¬ c.toNat < 32 := fun h => hc (.inr (.inr h))
    rw [escape_plain h1 h2 h3, coded_cons]
    show scanStr (_ :: r) = _
    by_cases hcan : can c = true
    · rw [if_pos hcan]
      exact scanStr_char h1 h2 h3 r
    · rw [if_neg hcan]
      exact scanStr_char (by decide) (by decide) (by decide) r

theorem scanStr_quote {can} (ha : Ascii can) (s r : Text) :
    scanStr (coded can (s.flatMap escape ++ ['"']) ++ r) = some (shown can s, r) := by
  induction s with
  | nil =>
    have : coded can ['"'] = ['"'] := coded_ascii ha (by decide)
    simp only [List.flatMap_nil, List.nil_append, this]
    rfl
  | cons c s ih =>
    rw [List.flatMap_cons, List.append_assoc, coded_append, List.append_assoc, scanStr_escape ha, ih]
    rfl

theorem coded_quote {can} (ha : Ascii can) (s : Text) : coded can (quote s) = '"' :: coded can (s.flatMap escape ++ ['"']) := by
  rw [quote, coded_cons, if_pos (ha _ (by decide))]

/-! ### Numbers -/

/-- What may follow a value -/
def Ends (r : Text) : Prop := r = [] ∨ ∃ c t, r = c :: t ∧ (c = ',' ∨ c = ']' ∨ c = '}')

theorem takeWhile_append_ends {s r : Text} (hs : ∀ c ∈ s, c.isDigit = true) (hr : Ends r) :
    (s ++ r).takeWhile Char.isDigit = s ∧ (s ++ r).dropWhile Char.isDigit = r := by
  induction s with
  | nil =>
    rcases hr with rfl | ⟨c, t, rfl, h⟩
    · exact ⟨rfl, rfl⟩
    · rcases h with rfl | rfl | rfl <;> exact ⟨rfl, rfl⟩
  | cons c s ih =>
    obtain ⟨a, b⟩ := ih (fun c hc => hs c (by simp [hc]))
    have hc : c.isDigit = true := hs c (by simp)
    simp [List.takeWhile_cons, List.dropWhile_cons, hc, a, b]

theorem digits_all (n : Nat) : ∀ c ∈ Nat.toDigits 10 n, c.isDigit = true := by
  intro c hc
  exact Nat.isDigit_of_mem_toDigits (b := 10) (by decide) (by decide) hc

theorem digit_lt {c : Char} (h : c.isDigit = true) : c.toNat < 128 := by
  simp [Char.isDigit] at h
  have := h.2
  have : c.val.toNat ≤ 57 := by simpa using UInt32.le_iff_toNat_le.1 h.2
  show c.val.toNat < 128
  omega

theorem digit_ne {c : Char} (h : c.isDigit = true) {d : Char} (hd : d.isDigit = false) : c ≠ d := by
  rintro rfl; rw [h] at hd; cases hd

theorem zero_head (n : Nat) : (Nat.toDigits 10 n).head? = some '0' → n = 0 := by
  induction n using Nat.strongRecOn with
  | _ n ih =>
    by_cases h : n < 10
    · rw [Nat.toDigits_of_lt_base h]
      intro hh
      have : ∀ m : Fin 10, [Nat.digitChar m.val].head? = some '0' → m.val = 0 := by decide
      exact this ⟨n, h⟩ hh
    · rw [Nat.toDigits_of_base_le (by decide) (by omega)]
      intro hh
      have h0 : Nat.toDigits 10 (n / 10) ≠ [] := by
        intro h
        have := Nat.length_toDigits_pos (b := 10) (n := n / 10)
        simp [h] at this
      have : (Nat.toDigits 10 (n / 10)).head? = some '0' := by
        cases hd : Nat.toDigits 10 (n / 10) with
        | nil => exact absurd hd h0
        | cons a b => rw [hd] at hh; simpa using hh
      have := ih (n / 10) (by omega) this
      omega

theorem digits_ne (n : Nat) : Nat.toDigits 10 n ≠ [] := by
  intro h
  have := Nat.length_toDigits_pos (b := 10) (n := n)
  simp [h] at this

theorem scanNat_digits (n : Nat) {r : Text} (hr : Ends r) : scanNat (Nat.toDigits 10 n ++ r) = some (n, r) := by
  obtain ⟨ht, hd⟩ := takeWhile_append_ends (digits_all n) hr
  have hv : Nat.ofDigitChars 10 (Nat.toDigits 10 n) 0 = n := Nat.ofDigitChars_ten_toDigits
  cases hn : Nat.toDigits 10 n with
  | nil => exact absurd hn (digits_ne n)
  | cons c s =>
    rw [hn] at ht hd hv
    show scanNat (c :: (s ++ r)) = _
    unfold scanNat
    by_cases hc : c = '0'
    · have : n = 0 := zero_head n (by rw [hn, hc]; rfl)
      subst this
      have : s = [] := by
        have : Nat.toDigits 10 0 = ['0'] := rfl
        rw [this] at hn
        simpa using (List.cons.inj hn).2.symm
      subst this
      subst hc
      simp only [List.nil_append, if_true]
      rw [if_neg (by simp)]
      rcases hr with rfl | ⟨c, t, rfl, h⟩
      · rfl
      · rcases h with rfl | rfl | rfl <;> rfl
    · simp only [if_neg hc]
      have e1 : (c :: (s ++ r)).takeWhile Char.isDigit = c :: s := ht
      have e2 : (c :: (s ++ r)).dropWhile Char.isDigit = r := hd
      rw [e1, e2, if_neg (by simp), hv]
      rcases hr with rfl | ⟨c, t, rfl, h⟩
      · rfl
      · rcases h with rfl | rfl | rfl <;> rfl

theorem scanNum_int (i : Int) {r : Text} (hr : Ends r) : scanNum (intText i ++ r) = some (i, r) := by
  cases i with
  | ofNat n =>
    have h := scanNat_digits n hr
    show scanNum (Nat.toDigits 10 n ++ r) = _
    cases hn : Nat.toDigits 10 n with
    | nil => exact absurd hn (digits_ne n)
    | cons c s =>
      rw [hn] at h
      have hc : c ≠ '-' := digit_ne (digits_all n c (by rw [hn]; simp)) (by decide)
      unfold scanNum
      split
      · rename_i r' heq
        exact absurd (List.cons.inj heq).1 hc
      · rw [h]; rfl
  | negSucc n =>
    have h := scanNat_digits (n + 1) hr
    show scanNum ('-' :: (Nat.toDigits 10 (n + 1) ++ r)) = _
    simp only [scanNum, h]
    rfl

theorem int_ascii (i : Int) : ∀ c ∈ intText i, c.toNat < 128 := by
  cases i with
  | ofNat n => exact fun c hc => digit_lt (digits_all n c hc)
  | negSucc n =>
    intro c hc
    rcases List.mem_cons.1 hc with rfl | hc
    · decide
    · exact digit_lt (digits_all _ c hc)

theorem int_start (i : Int) : ∃ c t, intText i = c :: t ∧ (c = '-' ∨ c.isDigit = true) := by
  cases i with
  | ofNat n =>
    cases hn : Nat.toDigits 10 n with
    | nil => exact absurd hn (digits_ne n)
    | cons c s => exact ⟨c, s, hn, .inr (digits_all n c (by rw [hn]; simp))⟩
  | negSucc n => exact ⟨_, _, rfl, .inl rfl⟩

theorem scan_num {c : Char} (hc : c = '-' ∨ c.isDigit = true) (n : Nat) (t : Text) :
    scan (n + 1) (c :: t) = (match scanNum (c :: t) with
      | some (i, r) => some (.int i, r)
      | none => none) := by
  have hne : ∀ d : Char, d.isDigit = false → d ≠ '-' → c ≠ d := by
    intro d hd hm
    rcases hc with rfl | h
    · exact fun h => hm h.symm
    · exact digit_ne h hd
  rw [scan]
  · rfl
  all_goals (intro r h; exact hne _ (by decide) (by decide) (List.cons.inj h).1)

/-! ### Values -/

mutual
  /-- Fuel a value needs -/
  def cost : Val → Nat
    | .arr l => 1 + costArr l
    | .obj d => 1 + costObj d
    | _ => 1
  def costArr : Arr → Nat
    | .nil => 0
    | .cons v l => 1 + cost v + costArr l
  def costObj : Obj → Nat
    | .nil => 0
    | .cons _ v d => 1 + cost v + costObj d
end

theorem quote_length (s : Text) : 2 ≤ (quote s).length := by simp [quote]

theorem int_length (i : Int) : 1 ≤ (intText i).length := by
  obtain ⟨c, t, h, _⟩ := int_start i
  simp [h]

theorem dumpArr_some {v l t} (h : dumpArr (.cons v l) = some t) :
    ∃ a b, dump v = some a ∧ dumpArr l = some b ∧ t = a ++ (l.sep ++ b) := by
  rw [dumpArr] at h
  cases ha : dump v with
  | none => rw [ha] at h; cases h
  | some a =>
    cases hb : dumpArr l with
    | none => rw [ha, hb] at h; cases h
    | some b =>
      rw [ha, hb] at h
      exact ⟨a, b, rfl, rfl, (Option.some.inj h).symm⟩

theorem dumpObj_some {k v d t} (h : dumpObj (.cons k v d) = some t) :
    ∃ x a b, keyText k = some x ∧ dump v = some a ∧ dumpObj d = some b ∧
      t = quote x ++ (':' :: ' ' :: a ++ (d.sep ++ b)) := by
  rw [dumpObj] at h
  cases hx : keyText k with
  | none => rw [hx] at h; cases h
  | some x =>
    cases ha : dump v with
    | none => rw [hx, ha] at h; cases h
    | some a =>
      cases hb : dumpObj d with
      | none => rw [hx, ha, hb] at h; cases h
      | some b =>
        rw [hx, ha, hb] at h
        exact ⟨x, a, b, rfl, rfl, rfl, (Option.some.inj h).symm⟩

theorem dump_arr {l t} (h : dump (.arr l) = some t) : ∃ b, dumpArr l = some b ∧ t = '[' :: b := by
  rw [dump] at h
  cases hb : dumpArr l with
  | none => rw [hb] at h; cases h
  | some b => rw [hb] at h; exact ⟨b, rfl, (Option.some.inj h).symm⟩

theorem dump_obj {d t} (h : dump (.obj d) = some t) : ∃ b, dumpObj d = some b ∧ t = '{' :: b := by
  rw [dump] at h
  cases hb : dumpObj d with
  | none => rw [hb] at h; cases h
  | some b => rw [hb] at h; exact ⟨b, rfl, (Option.some.inj h).symm⟩

mutual
  theorem cost_le : ∀ (v : Val) (t : Text), dump v = some t → cost v ≤ t.length
    | .none, t, h => by simp [dump] at h; subst h; simp [cost]
    | .bool b, t, h => by cases b <;> (simp [dump] at h; subst h; simp [cost])
    | .int i, t, h => by simp [dump] at h; subst h; exact int_length i
    | .str s, t, h => by simp [dump] at h; subst h; have := quote_length s; simp only [cost]; omega
    | .other s, t, h => by simp [dump] at h; subst h; have := quote_length s; simp only [cost]; omega
    | .arr l, t, h => by
      obtain ⟨b, hb, rfl⟩ := dump_arr h
      have := costArr_le l b hb
      simp only [cost, List.length_cons]; omega
    | .obj d, t, h => by
      obtain ⟨b, hb, rfl⟩ := dump_obj h
      have := costObj_le d b hb
      simp only [cost, List.length_cons]; omega
  theorem costArr_le : ∀ (l : Arr) (t : Text), dumpArr l = some t → costArr l ≤ t.length
    | .nil, t, h => by simp [costArr]
    | .cons v l, t, h => by
      obtain ⟨a, b, ha, hb, rfl⟩ := dumpArr_some h
      have h1 := cost_le v a ha
      have h2 := costArr_le l b hb
      cases l with
      | nil => simp [dumpArr] at hb; subst hb; simp only [costArr, Arr.sep, List.length_append, List.length_cons, List.length_nil]; omega
      | cons w l => simp only [costArr, Arr.sep, List.length_append, List.length_cons, List.length_nil] at *; omega
  theorem costObj_le : ∀ (d : Obj) (t : Text), dumpObj d = some t → costObj d ≤ t.length
    | .nil, t, h => by simp [costObj]
    | .cons k v d, t, h => by
      obtain ⟨x, a, b, hx, ha, hb, rfl⟩ := dumpObj_some h
      have h1 := cost_le v a ha
      have h2 := costObj_le d b hb
      cases d with
      | nil => simp only [costObj, Obj.sep, List.length_append, List.length_cons, List.length_nil]; omega
      | cons k w d => simp only [costObj, Obj.sep, List.length_append, List.length_cons, List.length_nil] at *; omega
end

theorem keyText_name {k : Key} {x : Text} (h : keyText k = some x) : x = keyName k := by
  cases k with
  | str s => exact (Option.some.inj h).symm
  | int i =>
    have := (Option.some.inj h).symm
    subst this
    cases i with
    | ofNat n => simp [keyName, intText, Int.repr, Nat.repr]
    | negSucc n => simp [keyName, intText, Int.repr, Nat.repr, Nat.succ_eq_add_one]
  | bool b => cases b <;> exact (Option.some.inj h).symm
  | none => exact (Option.some.inj h).symm
  | other => cases h

/-! ### Dictionaries -/

theorem get_set_same (d : Obj) (k : Text) (v : Val) : (d.set k v).get k = some v := by
  cases d with
  | nil => simp [Obj.set, Obj.get]
  | cons k' v' d =>
    rw [Obj.set]
    by_cases h : k' = .str k
    · rw [if_pos h, Obj.get, if_pos h]
    · rw [if_neg h, Obj.get, if_neg h]; exact get_set_same d k v

theorem get_set_other (d : Obj) {k x : Text} (v : Val) (hx : x ≠ k) : (d.set k v).get x = d.get x := by
  cases d with
  | nil => simp only [Obj.set, Obj.get]; rw [if_neg (by intro h; exact hx (by simpa using h.symm))]
  | cons k' v' d =>
    rw [Obj.set]
    by_cases h : k' = .str k
    · have : ¬ (k' = .str x) := by rw [h]; intro hh; exact hx (by simpa using hh.symm)
      rw [if_pos h, Obj.get, Obj.get, if_neg this, if_neg this]
    · rw [if_neg h, Obj.get, Obj.get, get_set_other d v hx]

theorem without_set_same (d : Obj) (k : Text) (v : Val) : (d.set k v).without k = d.without k := by
  cases d with
  | nil => simp [Obj.set, Obj.without]
  | cons k' v' d =>
    rw [Obj.set]
    by_cases h : k' = .str k
    · rw [if_pos h, Obj.without, Obj.without, if_pos h, if_pos h]
    · rw [if_neg h, Obj.without, Obj.without, if_neg h, without_set_same d k v, if_neg h]

theorem without_set_other (d : Obj) {k x : Text} (v : Val) (hx : x ≠ k) : (d.set x v).without k = (d.without k).set x v := by
  cases d with
  | nil => simp [Obj.set, Obj.without, hx]
  | cons k' v' d =>
    rw [Obj.set]
    by_cases h : k' = .str x
    · have : ¬ (k' = .str k) := by rw [h]; intro hh; exact hx (by simpa using hh)
      rw [if_pos h, Obj.without, Obj.without, if_neg this, if_neg this, Obj.set, if_pos h]
    · rw [if_neg h, Obj.without, Obj.without, without_set_other d v hx]
      by_cases hk : k' = .str k
      · rw [if_pos hk, if_pos hk]
      · rw [if_neg hk, if_neg hk, Obj.set, if_neg h]

theorem front_set (d : Obj) (k : Text) (v : Val) (x : Text) (w : Val) : (d.front k v).set x w = (d.set x w).front k v := by
  unfold Obj.front
  rw [Obj.set]
  by_cases h : x = k
  · subst h
    rw [if_pos rfl, get_set_same, without_set_same]; rfl
  · rw [if_neg (by intro hh; exact h (by simpa using hh.symm)), get_set_other d w (fun hh => h hh.symm), without_set_other d w h]

theorem foldl_front (l : List (Text × Val)) (d : Obj) (k : Text) (v : Val) :
    l.foldl (fun d p => d.set p.1 p.2) (d.front k v) = (l.foldl (fun d p => d.set p.1 p.2) d).front k v := by
  induction l generalizing d with
  | nil => rfl
  | cons p l ih => rw [List.foldl_cons, List.foldl_cons, front_set, ih]

theorem ofPairs_cons (k : Text) (v : Val) (l : List (Text × Val)) : ofPairs ((k, v) :: l) = (ofPairs l).front k v := by
  unfold ofPairs
  rw [List.foldl_cons]
  exact foldl_front l .nil k v

/-- Pairs that come back of a dictionary -/
def backPairs (can : Char → Bool) : Obj → List (Text × Val)
  | .nil => []
  | .cons k v d => (shown can (keyName k), back can v) :: backPairs can d

theorem ofPairs_back (can) : ∀ d : Obj, ofPairs (backPairs can d) = backObj can d
  | .nil => by simp [backPairs, backObj, ofPairs]
  | .cons k v d => by rw [backPairs, ofPairs_cons, ofPairs_back can d, backObj]

/-! ### Reading what was written -/

theorem ends_cons {c : Char} (t : Text) (h : c = ',' ∨ c = ']' ∨ c = '}') : Ends (c :: t) := .inr ⟨c, t, rfl, h⟩

theorem skip_cons {c : Char} (h : isWs c = false) (t : Text) : skip (c :: t) = c :: t := by simp [skip, List.dropWhile_cons, h]

theorem skip_space (t : Text) : skip (' ' :: t) = skip t := by simp [skip, List.dropWhile_cons, isWs]

/-- A written value begins with a character that is neither white space nor a bracket that closes -/
theorem dump_start {v : Val} {t : Text} (h : dump v = some t) : ∃ c r, t = c :: r ∧ isWs c = false ∧ c ≠ ']' ∧ c.toNat < 128 := by
  cases v with
  | none => simp [dump] at h; exact ⟨_, _, h.symm, by decide⟩
  | bool b => cases b <;> (simp [dump] at h; exact ⟨_, _, h.symm, by decide⟩)
  | str s => simp [dump, quote] at h; exact ⟨_, _, h.symm, by decide⟩
  | other s => simp [dump, quote] at h; exact ⟨_, _, h.symm, by decide⟩
  | int i =>
    simp [dump] at h
    obtain ⟨c, r, hi, hc⟩ := int_start i
    refine ⟨c, r, by rw [← h, hi], ?_⟩
    rcases hc with rfl | hc
    · decide
    · refine ⟨?_, digit_ne hc (by decide), digit_lt hc⟩
      simp [isWs, digit_ne hc (show ' '.isDigit = false by decide), digit_ne hc (show '\t'.isDigit = false by decide),
        digit_ne hc (show '\n'.isDigit = false by decide), digit_ne hc (show '\r'.isDigit = false by decide)]
  | arr l => obtain ⟨b, _, rfl⟩ := dump_arr h; exact ⟨_, _, rfl, by decide⟩
  | obj d => obtain ⟨b, _, rfl⟩ := dump_obj h; exact ⟨_, _, rfl, by decide⟩

theorem coded_start {can} (ha : Ascii can) {v : Val} {t : Text} (h : dump v = some t) :
    ∃ c r, coded can t = c :: r ∧ isWs c = false ∧ c ≠ ']' := by
  obtain ⟨c, r, rfl, h1, h2, h3⟩ := dump_start h
  exact ⟨c, coded can r, by rw [coded_cons, if_pos (ha c h3)], h1, h2⟩

theorem skip_dump {can} (ha : Ascii can) {v : Val} {t : Text} (h : dump v = some t) (r : Text) : skip (coded can t ++ r) = coded can t ++ r := by
  obtain ⟨c, u, e, h1, _⟩ := coded_start ha h
  rw [e]; exact skip_cons h1 _

theorem scan_quote {can} (ha : Ascii can) (s r : Text) (n : Nat) : scan (n + 1) (coded can (quote s) ++ r) = some (.str (shown can s), r) := by
  rw [coded_quote ha, List.cons_append]
  rw [scan, scanStr_quote ha]

mutual
  theorem scan_dump {can} (ha : Ascii can) : ∀ (v : Val) (t : Text), dump v = some t → ∀ n r, cost v ≤ n → Ends r →
      scan n (coded can t ++ r) = some (back can v, r)
    | v, t, h, 0, r, hn, _ => by cases v <;> simp [cost] at hn
    | .none, t, h, n + 1, r, hn, hr => by
      simp [dump] at h; subst h
      rw [coded_ascii ha (by decide)]; rfl
    | .bool b, t, h, n + 1, r, hn, hr => by
      cases b <;> (simp [dump] at h; subst h; rw [coded_ascii ha (by decide)]; rfl)
    | .int i, t, h, n + 1, r, hn, hr => by
      simp [dump] at h; subst h
      rw [coded_ascii ha (int_ascii i)]
      have hs := scanNum_int i hr
      obtain ⟨c, u, e, hc⟩ := int_start i
      rw [e] at hs ⊢
      rw [List.cons_append] at hs ⊢
      rw [scan_num hc, hs]; rfl
    | .str s, t, h, n + 1, r, hn, hr => by
      simp [dump] at h; subst h; exact scan_quote ha s r n
    | .other s, t, h, n + 1, r, hn, hr => by
      simp [dump] at h; subst h; exact scan_quote ha s r n
    | .arr .nil, t, h, n + 1, r, hn, hr => by
      simp [dump, dumpArr] at h; subst h
      rw [coded_ascii ha (by decide)]; rfl
    | .arr (.cons v l), t, h, n + 1, r, hn, hr => by
      obtain ⟨b, hb, rfl⟩ := dump_arr h
      have ih := scanArr_dump ha v l b hb n r (by simp only [cost] at hn; omega)
      rw [coded_cons, if_pos (ha _ (by decide)), List.cons_append]
      obtain ⟨a, b', h1, h2, e⟩ := dumpArr_some hb
      have hst : ∃ c u, coded can b ++ r = c :: u ∧ isWs c = false ∧ c ≠ ']' := by
        obtain ⟨c, u, e', h3, h4⟩ := coded_start ha h1
        exact ⟨c, _, by rw [e, coded_append, e']; rfl, h3, h4⟩
      obtain ⟨c, u, e', h3, h4⟩ := hst
      rw [e'] at ih ⊢
      rw [scan, skip_cons h3]
      split
      · rename_i heq; exact absurd (List.cons.inj heq).1 h4
      · rw [ih]; rfl
    | .obj .nil, t, h, n + 1, r, hn, hr => by
      simp [dump, dumpObj] at h; subst h
      rw [coded_ascii ha (by decide)]; rfl
    | .obj (.cons k v d), t, h, n + 1, r, hn, hr => by
      obtain ⟨b, hb, rfl⟩ := dump_obj h
      obtain ⟨u, e, ih⟩ := scanObj_dump ha k v d b hb n r (by simp only [cost] at hn; omega)
      rw [coded_cons, if_pos (ha _ (by decide)), List.cons_append, e]
      rw [scan, List.cons_append, skip_cons (by decide)]
      simp only [ih]
      rw [ofPairs_back, back]
  theorem scanArr_dump {can} (ha : Ascii can) : ∀ (v : Val) (l : Arr) (t : Text), dumpArr (.cons v l) = some t → ∀ n r, costArr (.cons v l) ≤ n →
      scanArr n (coded can t ++ r) = some (backArr can (.cons v l), r)
    | v, l, t, h, 0, r, hn => by simp [costArr] at hn
    | v, l, t, h, n + 1, r, hn => by
      obtain ⟨a, b, h1, h2, rfl⟩ := dumpArr_some h
      simp only [costArr] at hn
      rw [scanArr, coded_append, List.append_assoc]
      cases l with
      | nil =>
        simp [dumpArr] at h2; subst h2
        rw [scan_dump ha v a h1 n _ (by omega) ?_]
        · rw [coded_ascii ha (by decide)]; rfl
        · rw [coded_ascii ha (by decide)]; exact ends_cons _ (by simp)
      | cons w l =>
        have hc : coded can (Arr.sep (.cons w l) ++ b) = ',' :: ' ' :: coded can b := by
          show coded can (',' :: ' ' :: b) = _
          rw [coded_cons, coded_cons, if_pos (ha _ (by decide)), if_pos (ha _ (by decide))]
        simp only [hc, List.cons_append]
        rw [scan_dump ha v a h1 n _ (by omega) (ends_cons _ (by simp))]
        simp only
        rw [skip_cons (by decide)]
        simp only
        have hs : skip (' ' :: (coded can b ++ r)) = coded can b ++ r := by
          obtain ⟨a', b', h3, h4, e⟩ := dumpArr_some h2
          rw [skip_space, e, coded_append, List.append_assoc, skip_dump ha h3]
        rw [hs, scanArr_dump ha w l b h2 n r (by simp only [costArr] at *; omega)]
        rfl
  theorem scanObj_dump {can} (ha : Ascii can) : ∀ (k : Key) (v : Val) (d : Obj) (t : Text), dumpObj (.cons k v d) = some t →
      ∀ n r, costObj (.cons k v d) ≤ n →
      ∃ u, coded can t = '"' :: u ∧ scanObj n (u ++ r) = some (backPairs can (.cons k v d), r)
    | k, v, d, t, h, 0, r, hn => by simp [costObj] at hn
    | k, v, d, t, h, n + 1, r, hn => by
      obtain ⟨x, a, b, hx, h1, h2, rfl⟩ := dumpObj_some h
      simp only [costObj] at hn
      have hk := keyText_name hx
      subst hk
      refine ⟨_, by rw [coded_append, coded_quote ha, List.cons_append], ?_⟩
      rw [scanObj, List.append_assoc, scanStr_quote ha]
      simp only
      rw [List.cons_append, List.cons_append, coded_cons, coded_cons, if_pos (ha _ (by decide)), if_pos (ha _ (by decide)), List.cons_append,
        List.cons_append, skip_cons (by decide)]
      simp only
      rw [skip_space, coded_append, List.append_assoc, skip_dump ha h1]
      cases d with
      | nil =>
        simp [dumpObj] at h2; subst h2
        rw [scan_dump ha v a h1 n _ (by omega) ?_]
        · rw [coded_ascii ha (by decide)]; rfl
        · rw [coded_ascii ha (by decide)]; exact ends_cons _ (by simp)
      | cons k' w d =>
        have hc : coded can (Obj.sep (.cons k' w d) ++ b) = ',' :: ' ' :: coded can b := by
          show coded can (',' :: ' ' :: b) = _
          rw [coded_cons, coded_cons, if_pos (ha _ (by decide)), if_pos (ha _ (by decide))]
        simp only [hc, List.cons_append]
        rw [scan_dump ha v a h1 n _ (by omega) (ends_cons _ (by simp))]
        simp only
        rw [skip_cons (by decide)]
        simp only
        obtain ⟨u, e, ih⟩ := scanObj_dump ha k' w d b h2 n r (by simp only [costObj] at *; omega)
        rw [skip_space, e, List.cons_append, skip_cons (by decide)]
        simp only [ih]
        rfl
end

/-! ### More text behind -/

theorem skip_append {r r' : Text} {c : Char} (h : skip r = c :: r') (x : Text) : skip (r ++ x) = c :: (r' ++ x) := by
  unfold skip at *
  induction r with
  | nil => cases h
  | cons a r ih =>
    rw [List.cons_append, List.dropWhile_cons]
    rw [List.dropWhile_cons] at h
    by_cases ha : isWs a = true
    · rw [if_pos ha] at h ⊢; exact ih h
    · rw [if_neg ha] at h ⊢
      obtain ⟨rfl, rfl⟩ := List.cons.inj h
      rfl

theorem more_some {c r a b} (h : more c r = some (a, b)) : ∃ c' a', c = some c' ∧ r = some (a', b) ∧ a = c' :: a' := by
  cases c with
  | none => cases h
  | some c =>
    cases r with
    | none => cases h
    | some r =>
      obtain ⟨a', b'⟩ := r
      simp [more] at h
      obtain ⟨rfl, rfl⟩ := h
      exact ⟨c, a', rfl, rfl, rfl⟩

theorem scanStr_append (x : Text) : ∀ (s a b : Text), scanStr s = some (a, b) → scanStr (s ++ x) = some (a, b ++ x) := by
  intro s
  induction s using scanStr.induct with
  | case1 => intro a b h; cases h
  | case2 r =>
    intro a b h
    rw [scanStr] at h
    simp at h
    obtain ⟨rfl, rfl⟩ := h
    rfl
  | case3 a b c d r ih =>
    intro p q h
    rw [scanStr_u] at h
    obtain ⟨e, a', h1, h2, rfl⟩ := more_some h
    show scanStr ('\\' :: 'u' :: a :: b :: c :: d :: (r ++ x)) = _
    rw [scanStr_u, h1, ih _ _ h2]; rfl
  | case4 e r hn ih =>
    intro p q h
    rw [scanStr] at h
    · obtain ⟨c, a', h1, h2, rfl⟩ := more_some h
      have he : e ≠ 'u' := by rintro rfl; cases h1
      show scanStr ('\\' :: e :: (r ++ x)) = _
      rw [scanStr_esc he, h1, ih _ _ h2]; rfl
    · exact hn
  | case5 c r h1 h2 h3 h4 =>
    intro p q h
    rw [scanStr, if_pos h4] at h
    · cases h
    · exact h1
    · exact h2
    · exact h3
  | case6 c r h1 h2 h3 h4 ih =>
    intro p q h
    rw [scanStr, if_neg h4] at h
    · obtain ⟨c', a', e1, e2, rfl⟩ := more_some h
      cases e1
      have hb : c ≠ '\\' := by
        rintro rfl
        cases r with
        | nil => cases e2
        | cons y r => exact h3 y r rfl rfl
      show scanStr (c :: (r ++ x)) = _
      rw [scanStr_char h1 hb h4, ih _ _ e2]; rfl
    · exact h1
    · exact h2
    · exact h3

theorem digits_append {s r : Text} (h : s.dropWhile Char.isDigit = r) (hr : r ≠ []) (x : Text) :
    (s ++ x).dropWhile Char.isDigit = r ++ x ∧ (s ++ x).takeWhile Char.isDigit = s.takeWhile Char.isDigit := by
  induction s with
  | nil => exact absurd h.symm hr
  | cons a s ih =>
    rw [List.cons_append, List.dropWhile_cons, List.takeWhile_cons, List.takeWhile_cons]
    rw [List.dropWhile_cons] at h
    by_cases ha : a.isDigit = true
    · rw [if_pos ha] at h
      obtain ⟨h1, h2⟩ := ih h
      simp [ha, h1, h2]
    · rw [if_neg ha] at h
      subst h
      simp [ha]

/-- The end of a number -/
def fin (d r : Text) : Option (Nat × Text) :=
  if d = [] then none
  else match r with
    | '.' :: _ => none
    | 'e' :: _ => none
    | 'E' :: _ => none
    | r' => some (Nat.ofDigitChars 10 d 0, r')

theorem scanNat_zero (t : Text) : scanNat ('0' :: t) = fin ['0'] t := rfl

theorem scanNat_other {c : Char} (h : c ≠ '0') (t : Text) :
    scanNat (c :: t) = fin ((c :: t).takeWhile Char.isDigit) ((c :: t).dropWhile Char.isDigit) := by
  unfold scanNat fin
  simp only [if_neg h]
  rfl

theorem fin_some {d r n r'} (h : fin d r = some (n, r')) : r' = r := by
  unfold fin at h
  split at h
  · cases h
  · split at h
    · cases h
    · cases h
    · cases h
    · simp at h; exact h.2.symm

theorem fin_append {d r n r'} (h : fin d r = some (n, r')) (hr : r ≠ []) (x : Text) : fin d (r ++ x) = some (n, r' ++ x) := by
  cases r with
  | nil => exact absurd rfl hr
  | cons c r =>
    have e := fin_some h
    subst e
    unfold fin at h ⊢
    by_cases hd : d = []
    · rw [if_pos hd] at h; cases h
    · rw [if_neg hd] at h ⊢
      split at h
      · cases h
      · cases h
      · cases h
      · rename_i r' h1 h2 h3
        have e1 : c ≠ '.' := by rintro rfl; exact h1 r rfl
        have e2 : c ≠ 'e' := by rintro rfl; exact h2 r rfl
        have e3 : c ≠ 'E' := by rintro rfl; exact h3 r rfl
        simp at h
        simp [e1, e2, e3, h]

theorem scanNat_append {s r : Text} {n : Nat} (h : scanNat s = some (n, r)) (hr : r ≠ []) (x : Text) : scanNat (s ++ x) = some (n, r ++ x) := by
  cases s with
  | nil => cases h
  | cons c s =>
    by_cases hc : c = '0'
    · subst hc
      rw [scanNat_zero] at h
      have e := fin_some h
      subst e
      exact fin_append h hr x
    · rw [scanNat_other hc] at h
      have e := fin_some h
      obtain ⟨h1, h2⟩ := digits_append e.symm hr x
      rw [List.cons_append, scanNat_other hc, ← List.cons_append, h1, h2]
      rw [← e] at h
      exact fin_append h hr x

theorem scanNat_start {s r : Text} {n : Nat} (h : scanNat s = some (n, r)) : ∃ c t, s = c :: t ∧ c.isDigit = true := by
  cases s with
  | nil => cases h
  | cons c s =>
    refine ⟨c, s, rfl, ?_⟩
    by_cases hc : c = '0'
    · subst hc; decide
    · rw [scanNat_other hc, List.takeWhile_cons] at h
      by_cases hd : c.isDigit = true
      · exact hd
      · rw [if_neg hd] at h; cases h

theorem scanNum_neg (t : Text) : scanNum ('-' :: t) = (scanNat t).map (fun p => (-(p.1 : Int), p.2)) := by
  simp only [scanNum]
  cases scanNat t <;> rfl

theorem scanNum_pos {s : Text} (h : s.head? ≠ some '-') : scanNum s = (scanNat s).map (fun p => ((p.1 : Int), p.2)) := by
  unfold scanNum
  split
  · exact absurd rfl h
  · cases scanNat s <;> rfl

theorem scanNum_append {s r : Text} {i : Int} (h : scanNum s = some (i, r)) (hr : r ≠ []) (x : Text) :
    scanNum (s ++ x) = some (i, r ++ x) ∧ ∃ c t, s = c :: t ∧ (c = '-' ∨ c.isDigit = true) := by
  by_cases hs : s.head? = some '-'
  · cases s with
    | nil => cases hs
    | cons c s =>
      cases hs
      rw [scanNum_neg] at h
      cases hn : scanNat s with
      | none => rw [hn] at h; cases h
      | some p =>
        rw [hn] at h
        simp at h
        obtain ⟨h1, h2⟩ := h
        have := scanNat_append (s := s) (r := r) (n := p.1) (by rw [hn, ← h2]) hr x
        refine ⟨?_, _, _, rfl, .inl rfl⟩
        rw [List.cons_append, scanNum_neg, this]
        simp [h1]
  · rw [scanNum_pos hs] at h
    cases hn : scanNat s with
    | none => rw [hn] at h; cases h
    | some p =>
      rw [hn] at h
      simp at h
      obtain ⟨h1, h2⟩ := h
      have ha := scanNat_append (s := s) (r := r) (n := p.1) (by rw [hn, ← h2]) hr x
      obtain ⟨c, t, rfl, hd⟩ := scanNat_start hn
      refine ⟨?_, c, t, rfl, .inr hd⟩
      rw [scanNum_pos (by simpa using hs), ha]
      simp [h1]

/-- The reader cannot go on with more text behind -/
def Closed (v : Val) (r : Text) : Prop := r ≠ [] ∨ ∀ i, v ≠ .int i

theorem scan_append (x : Text) : ∀ n,
    (∀ s v r, scan n s = some (v, r) → Closed v r → ∀ m, n ≤ m → scan m (s ++ x) = some (v, r ++ x)) ∧
    (∀ s v r, scanArr n s = some (v, r) → ∀ m, n ≤ m → scanArr m (s ++ x) = some (v, r ++ x)) ∧
    (∀ s v r, scanObj n s = some (v, r) → ∀ m, n ≤ m → scanObj m (s ++ x) = some (v, r ++ x)) := by
  intro n
  induction n with
  | zero =>
    refine ⟨?_, ?_, ?_⟩
    · intro s v r h; simp [scan] at h
    · intro s v r h; simp [scanArr] at h
    · intro s v r h; simp [scanObj] at h
  | succ n ih =>
    obtain ⟨i1, i2, i3⟩ := ih
    refine ⟨?_, ?_, ?_⟩
    · intro s v r h hcl m hm
      obtain ⟨m, rfl⟩ : ∃ k, m = k + 1 := ⟨m - 1, by omega⟩
      have hm' : n ≤ m := by omega
      unfold scan at h
      split at h
      · rename_i t
        cases hq : scanStr t with
        | none => rw [hq] at h; cases h
        | some p =>
          obtain ⟨a, b⟩ := p
          rw [hq] at h
          cases h
          rw [List.cons_append, scan, scanStr_append x _ _ _ hq]
      · rename_i t
        split at h
        · rename_i r' hq
          cases h
          rw [List.cons_append, scan, skip_append hq]
          rfl
        · rename_i r' hq
          cases ho : scanObj n r' with
          | none => rw [ho] at h; cases h
          | some p =>
            obtain ⟨a, b⟩ := p
            rw [ho] at h
            cases h
            rw [List.cons_append, scan, skip_append hq]
            simp only [i3 _ _ _ ho m hm']
        · cases h
      · rename_i t
        split at h
        · rename_i r' hq
          cases h
          rw [List.cons_append, scan, skip_append hq]
          rfl
        · rename_i r' hq
          cases ho : scanArr n (skip t) with
          | none => rw [ho] at h; cases h
          | some p =>
            obtain ⟨a, b⟩ := p
            rw [ho] at h
            cases h
            cases hk : skip t with
            | nil =>
              rw [hk] at ho
              exfalso
              cases n with
              | zero => simp [scanArr] at ho
              | succ n =>
                rw [scanArr] at ho
                cases n with
                | zero => simp [scan] at ho
                | succ n => simp [scan, scanNum, scanNat] at ho
            | cons c u =>
              have hc : c ≠ ']' := by rintro rfl; exact hq u hk
              rw [List.cons_append, scan, skip_append hk]
              have := i2 _ _ _ ho m hm'
              rw [hk] at this
              split
              · rename_i heq; exact absurd (List.cons.inj heq).1 hc
              · rw [← List.cons_append, this]
      · cases h; rfl
      · cases h; rfl
      · cases h; rfl
      · cases ho : scanNum s with
        | none => rw [ho] at h; cases h
        | some p =>
          obtain ⟨i, b⟩ := p
          rw [ho] at h
          cases h
          have hr : r ≠ [] := by
            rcases hcl with h | h
            · exact h
            · exact absurd rfl (h i)
          obtain ⟨h1, c, t, rfl, hc⟩ := scanNum_append ho hr x
          rw [List.cons_append] at h1 ⊢
          rw [scan_num hc, h1]
    · intro s v r h m hm
      obtain ⟨m, rfl⟩ : ∃ k, m = k + 1 := ⟨m - 1, by omega⟩
      have hm' : n ≤ m := by omega
      rw [scanArr] at h
      split at h
      · cases h
      · rename_i w r' hw
        split at h
        · rename_i r2 hq
          cases h
          have := i1 _ _ _ hw (.inl (by rintro rfl; cases hq)) m hm'
          rw [scanArr, this]
          simp only [skip_append hq]
        · rename_i r2 hq
          have := i1 _ _ _ hw (.inl (by rintro rfl; cases hq)) m hm'
          cases ho : scanArr n (skip r2) with
          | none => rw [ho] at h; cases h
          | some p =>
            obtain ⟨a, b⟩ := p
            rw [ho] at h
            cases h
            rw [scanArr, this]
            simp only [skip_append hq]
            cases hk : skip r2 with
            | nil =>
              rw [hk] at ho
              exfalso
              cases n with
              | zero => simp [scanArr] at ho
              | succ n =>
                rw [scanArr] at ho
                cases n with
                | zero => simp [scan] at ho
                | succ n => simp [scan, scanNum, scanNat] at ho
            | cons c u =>
              have := i2 _ _ _ ho m hm'
              rw [hk] at this
              rw [skip_append hk, ← List.cons_append, this]
        · cases h
    · intro s v r h m hm
      obtain ⟨m, rfl⟩ : ∃ k, m = k + 1 := ⟨m - 1, by omega⟩
      have hm' : n ≤ m := by omega
      rw [scanObj] at h
      split at h
      · cases h
      · rename_i k r1 hs
        split at h
        · rename_i r2 hq
          split at h
          · cases h
          · rename_i w r3 hw
            have hw' : ∃ c u, skip r2 = c :: u := by
              cases hk : skip r2 with
              | nil =>
                rw [hk] at hw
                exfalso
                cases n with
                | zero => simp [scan] at hw
                | succ n => simp [scan, scanNum, scanNat] at hw
              | cons c u => exact ⟨c, u, rfl⟩
            obtain ⟨c, u, hk⟩ := hw'
            split at h
            · rename_i r4 hq2
              cases h
              have := i1 _ _ _ hw (.inl (by rintro rfl; cases hq2)) m hm'
              rw [hk] at this
              rw [scanObj, scanStr_append x _ _ _ hs]
              simp only [skip_append hq]
              rw [skip_append hk, ← List.cons_append, this]
              simp only [skip_append hq2]
            · rename_i r4 hq2
              have := i1 _ _ _ hw (.inl (by rintro rfl; cases hq2)) m hm'
              rw [hk] at this
              split at h
              · rename_i r5 hq3
                cases ho : scanObj n r5 with
                | none => rw [ho] at h; cases h
                | some p =>
                  obtain ⟨a, b⟩ := p
                  rw [ho] at h
                  cases h
                  rw [scanObj, scanStr_append x _ _ _ hs]
                  simp only [skip_append hq]
                  rw [skip_append hk, ← List.cons_append, this]
                  simp only [skip_append hq2, skip_append hq3]
                  rw [i3 _ _ _ ho m hm']
              · cases h
            · cases h
        · cases h

/-! ### Storable data -/

mutual
  theorem dump_storable : ∀ v : Val, (∃ t, dump v = some t) ↔ Storable v
    | .none => by simp [dump, Storable]
    | .bool b => by cases b <;> simp [dump, Storable]
    | .int i => by simp [dump, Storable]
    | .str s => by simp [dump, Storable]
    | .other s => by simp [dump, Storable]
    | .arr l => by
      rw [Storable, ← dumpArr_storable l, dump]
      cases dumpArr l <;> simp
    | .obj d => by
      rw [Storable, ← dumpObj_storable d, dump]
      cases dumpObj d <;> simp
  theorem dumpArr_storable : ∀ l : Arr, (∃ t, dumpArr l = some t) ↔ StorableArr l
    | .nil => by simp [dumpArr, StorableArr]
    | .cons v l => by
      rw [StorableArr, ← dump_storable v, ← dumpArr_storable l, dumpArr]
      cases dump v <;> cases dumpArr l <;> simp
  theorem dumpObj_storable : ∀ d : Obj, (∃ t, dumpObj d = some t) ↔ StorableObj d
    | .nil => by simp [dumpObj, StorableObj]
    | .cons k v d => by
      have hk : (∃ t, keyText k = some t) ↔ k ≠ .other := by
        cases k with
        | bool b => cases b <;> simp [keyText]
        | _ => simp [keyText]
      rw [StorableObj, ← dump_storable v, ← dumpObj_storable d, ← hk, dumpObj]
      cases keyText k <;> cases dump v <;> cases dumpObj d <;> simp
end

theorem shown_id {can} {t : Text} (h : ∀ c ∈ t, can c = true) : shown can t = t := by rw [← coded_eq, coded_id can h]

theorem fresh_get {k : Text} : ∀ {d : Obj}, d.Fresh k → d.get k = none ∧ d.without k = d
  | .nil, _ => ⟨rfl, rfl⟩
  | .cons k' v d, h => by
    obtain ⟨a, b⟩ := fresh_get h.2
    simp [Obj.get, Obj.without, h.1, a, b]

mutual
  theorem plain_back {can} : ∀ v : Val, Plain can v → back can v = v ∧ Storable v
    | .none, _ => ⟨rfl, trivial⟩
    | .bool b, _ => ⟨rfl, trivial⟩
    | .int i, _ => ⟨rfl, trivial⟩
    | .str s, h => ⟨by rw [back, shown_id h], trivial⟩
    | .other s, h => h.elim
    | .arr l, h => by
      obtain ⟨a, b⟩ := plainArr_back l h
      exact ⟨by rw [back, a], b⟩
    | .obj d, h => by
      obtain ⟨a, b⟩ := plainObj_back d h
      exact ⟨by rw [back, a], b⟩
  theorem plainArr_back {can} : ∀ l : Arr, PlainArr can l → backArr can l = l ∧ StorableArr l
    | .nil, _ => ⟨rfl, trivial⟩
    | .cons v l, h => by
      obtain ⟨a, b⟩ := plain_back v h.1
      obtain ⟨c, d⟩ := plainArr_back l h.2
      exact ⟨by rw [backArr, a, c], b, d⟩
  theorem plainObj_back {can} : ∀ d : Obj, PlainObj can d → backObj can d = d ∧ StorableObj d
    | .nil, _ => ⟨rfl, trivial⟩
    | .cons k v d, h => by
      obtain ⟨⟨s, rfl, hs, hf⟩, hv, hd⟩ := h
      obtain ⟨a, b⟩ := plain_back v hv
      obtain ⟨c, e⟩ := plainObj_back d hd
      obtain ⟨f, g⟩ := fresh_get hf
      refine ⟨?_, by simp, b, e⟩
      rw [backObj, a, c, Obj.front, keyName, shown_id hs, f, g]
      rfl
end

theorem get_without (d : Obj) (k x : Text) (h : x ≠ k) : (d.without k).get x = d.get x := by
  cases d with
  | nil => rfl
  | cons k' v d =>
    rw [Obj.without]
    by_cases hk : k' = .str k
    · rw [if_pos hk, get_without d k x h, Obj.get, if_neg]
      rw [hk]; intro hh; exact h (by simpa using hh.symm)
    · rw [if_neg hk, Obj.get, Obj.get, get_without d k x h]

theorem get_front (d : Obj) (k x : Text) (v : Val) :
    (d.front k v).get x = (match d.get x with | some w => some w | none => if k = x then some v else none) := by
  unfold Obj.front
  rw [Obj.get]
  by_cases h : k = x
  · subst h
    rw [if_pos rfl]
    cases d.get k <;> simp
  · rw [if_neg (by simpa using h), get_without _ _ _ (fun e => h e.symm)]
    cases d.get x <;> simp [h]

theorem get_back (can) : ∀ (d : Obj) (x : Text), (backObj can d).get x = (d.lastNamed can x).map (back can)
  | .nil, x => rfl
  | .cons k v d, x => by
    rw [backObj, get_front, get_back can d x, Obj.lastNamed]
    cases d.lastNamed can x with
    | some w => rfl
    | none =>
      show (if shown can (keyName k) = x then some (back can v) else none) = _
      by_cases h : shown can (keyName k) = x <;> simp [h]

theorem loads_dump {can} (ha : Ascii can) {v : Val} {t : Text} (h : dump v = some t) : loads (coded can t) = some (back can v) := by
  unfold loads
  obtain ⟨c, r, e, h1, h2, h3⟩ := dump_start h
  rw [if_neg]
  · have hs : skip (coded can t) = coded can t := by simpa using skip_dump ha h []
    have hc := cost_le v t h
    have := scan_dump ha v t h ((coded can t).length + 1) [] (by rw [coded_length]; omega) (.inl rfl)
    rw [List.append_nil] at this
    rw [hs, this]
    rfl
  · rw [e, coded_cons, if_pos (ha c h3)]
    intro hh
    simp at hh
    rw [hh] at h3
    exact absurd h3 (by decide)

end Verif.Json
