import Verif.Spec.LogFile

/-! # Concrete encodings: ISO 8859-1, ASCII and UTF-8 have ASCII line ends

These show that the assumption `AsciiEnds` is met by the usual encodings. Decoding follows Python: an invalid sequence is replaced by U+FFFD
per maximal valid part of a sequence, the error of strict decoding covers the first such part. -/

namespace Verif

open Spec.LogFile

theorem charOfNat_ne {n m : Nat} (hm : m < 128) (hv : 0 < m) (hn : n ≠ m) : Char.ofNat n ≠ Char.ofNat m := by
  intro h
  have hm' : (Char.ofNat m).toNat = m := by
    have : m.isValidChar := .inl (by omega)
    simp [Char.ofNat, this, Char.toNat, Char.ofNatAux]
  have := congrArg Char.toNat h
  rw [hm'] at this
  by_cases hvn : n.isValidChar
  · have e : (Char.ofNat n).toNat = n := by simp [Char.ofNat, hvn, Char.toNat, Char.ofNatAux]
    omega
  · have e : (Char.ofNat n).toNat = 0 := by simp [Char.ofNat, hvn, Char.toNat]
    omega

theorem lf_eq : ('\n' : Char) = Char.ofNat 10 := rfl
theorem cr_eq : ('\r' : Char) = Char.ofNat 13 := rfl

theorem ofNat_lf (b : UInt8) : Char.ofNat b.toNat = '\n' ↔ b = 10 := by
  constructor
  · intro h
    apply Classical.byContradiction
    intro hb
    exact charOfNat_ne (n := b.toNat) (m := 10) (by omega) (by omega) (fun e => hb (UInt8.toNat_inj.1 e)) h
  · intro h; rw [h]; rfl

theorem ofNat_cr (b : UInt8) : Char.ofNat b.toNat = '\r' ↔ b = 13 := by
  constructor
  · intro h
    apply Classical.byContradiction
    intro hb
    exact charOfNat_ne (n := b.toNat) (m := 13) (by omega) (by omega) (fun e => hb (UInt8.toNat_inj.1 e)) h
  · intro h; rw [h]; rfl

/-- ISO 8859-1 -/
def latin1 : Codec where
  strict := fun b => .ok (b.map (fun x => Char.ofNat x.toNat))
  replace := fun b => b.map (fun x => Char.ofNat x.toNat)
  encode := fun r => r.map (fun ch => if ch.toNat < 256 then UInt8.ofNat ch.toNat else 63)

theorem map_ends (b : Bytes) : ((b.map (fun x => Char.ofNat x.toNat)).getLast? = some '\n' ↔ b.getLast? = some 10) ∧
    ((b.map (fun x => Char.ofNat x.toNat)).getLast? = some '\r' ↔ b.getLast? = some 13) := by
  rw [List.getLast?_map]
  cases b.getLast? with
  | none => simp
  | some x => simp [ofNat_lf, ofNat_cr]

theorem latin1_ends : AsciiEnds latin1 where
  strict_ends := by
    intro b r h
    have : b.map (fun x => Char.ofNat x.toNat) = r := by simpa [latin1] using h
    rw [← this]
    exact map_ends b
  replace_ends := map_ends
  strict_error := by intro b i j h; simp [latin1] at h

/-- One step of decoding UTF-8: the character (`none` if invalid) and the number of bytes. -/
def utf8Step : Bytes → Option Char × Nat
  | [] => (none, 1)
  | b0 :: r =>
    let n0 := b0.toNat
    if n0 < 0x80 then (some (Char.ofNat n0), 1)
    else if n0 < 0xC2 then (none, 1)
    else
      match r with
      | [] => (none, 1)
      | b1 :: r =>
        let n1 := b1.toNat
        if n0 < 0xE0 then
          if 0x80 ≤ n1 ∧ n1 < 0xC0 then (some (Char.ofNat ((n0 - 0xC0) * 64 + (n1 - 0x80))), 2) else (none, 1)
        else if n0 < 0xF0 then
          if 0x80 ≤ n1 ∧ n1 < 0xC0 ∧ (n0 = 0xE0 → 0xA0 ≤ n1) ∧ (n0 = 0xED → n1 < 0xA0) then
            match r with
            | [] => (none, 2)
            | b2 :: _ =>
              if 0x80 ≤ b2.toNat ∧ b2.toNat < 0xC0 then
                (some (Char.ofNat ((n0 - 0xE0) * 4096 + (n1 - 0x80) * 64 + (b2.toNat - 0x80))), 3)
              else (none, 2)
          else (none, 1)
        else if n0 < 0xF5 then
          if 0x80 ≤ n1 ∧ n1 < 0xC0 ∧ (n0 = 0xF0 → 0x90 ≤ n1) ∧ (n0 = 0xF4 → n1 < 0x90) then
            match r with
            | [] => (none, 2)
            | b2 :: r =>
              if 0x80 ≤ b2.toNat ∧ b2.toNat < 0xC0 then
                match r with
                | [] => (none, 3)
                | b3 :: _ =>
                  if 0x80 ≤ b3.toNat ∧ b3.toNat < 0xC0 then
                    (some (Char.ofNat ((n0 - 0xF0) * 262144 + (n1 - 0x80) * 4096 + (b2.toNat - 0x80) * 64 + (b3.toNat - 0x80))), 4)
                  else (none, 3)
              else (none, 2)
          else (none, 1)
        else (none, 1)

/-- The characters of a text with the number of bytes of each. -/
def utf8Chars : Nat → Bytes → List (Option Char × Nat)
  | 0, _ => []
  | _, [] => []
  | fuel + 1, b :: r => utf8Step (b :: r) :: utf8Chars fuel ((b :: r).drop (utf8Step (b :: r)).2)

/-- first invalid sequence: start and end -/
def utf8Error : Nat → List (Option Char × Nat) → Option (Nat × Nat)
  | _, [] => none
  | i, (none, n) :: _ => some (i, i + n)
  | i, (some _, n) :: l => utf8Error (i + n) l

/-- bytes of a character -/
def utf8Bytes (ch : Char) : Bytes :=
  let n := ch.toNat
  if n < 0x80 then [UInt8.ofNat n]
  else if n < 0x800 then [UInt8.ofNat (0xC0 + n / 64), UInt8.ofNat (0x80 + n % 64)]
  else if n < 0x10000 then [UInt8.ofNat (0xE0 + n / 4096), UInt8.ofNat (0x80 + n / 64 % 64), UInt8.ofNat (0x80 + n % 64)]
  else [UInt8.ofNat (0xF0 + n / 262144), UInt8.ofNat (0x80 + n / 4096 % 64), UInt8.ofNat (0x80 + n / 64 % 64), UInt8.ofNat (0x80 + n % 64)]

/-- UTF-8 -/
def utf8 : Codec where
  strict := fun b =>
    match utf8Error 0 (utf8Chars b.length b) with
    | some e => .error e
    | none => .ok ((utf8Chars b.length b).map (fun x => x.1.getD '�'))
  replace := fun b => (utf8Chars b.length b).map (fun x => x.1.getD '�')
  encode := fun r => r.flatMap utf8Bytes

/-- The bytes of a step: one ASCII byte, or no ASCII byte at all. -/
theorem utf8Step_spec (b : UInt8) (r : Bytes) :
    (b.toNat < 0x80 ∧ utf8Step (b :: r) = (some (Char.ofNat b.toNat), 1)) ∨
    0 < (utf8Step (b :: r)).2 ∧ (∀ x ∈ (b :: r).take (utf8Step (b :: r)).2, 0x80 ≤ x.toNat) ∧ (utf8Step (b :: r)).2 ≤ (b :: r).length ∧
      (utf8Step (b :: r)).1.getD '�' ≠ '\n' ∧ (utf8Step (b :: r)).1.getD '�' ≠ '\r' := by
  by_cases h0 : b.toNat < 0x80
  · left; exact ⟨h0, by simp [utf8Step, h0]⟩
  right
  have big : ∀ n, 128 ≤ n → Char.ofNat n ≠ '\n' ∧ Char.ofNat n ≠ '\r' := fun n hn =>
    ⟨charOfNat_ne (n := n) (m := 10) (by omega) (by omega) (by omega), charOfNat_ne (n := n) (m := 13) (by omega) (by omega) (by omega)⟩
  have bigD : ∀ n, 128 ≤ n → (some (Char.ofNat n)).getD '�' ≠ '\n' ∧ (some (Char.ofNat n)).getD '�' ≠ '\r' := fun n hn => by
    rw [Option.getD_some]; exact big n hn
  have rep : ('�' : Char) ≠ '\n' ∧ ('�' : Char) ≠ '\r' := by decide
  unfold utf8Step
  dsimp only
  rw [if_neg h0]
  have one : ∀ r : Bytes, 0 < (1 : Nat) ∧ (∀ x ∈ (b :: r).take 1, 0x80 ≤ x.toNat) ∧ 1 ≤ (b :: r).length ∧
      (none : Option Char).getD '�' ≠ '\n' ∧ (none : Option Char).getD '�' ≠ '\r' :=
    fun r => ⟨by omega, by simp; omega, by simp, rep⟩
  by_cases h1 : b.toNat < 0xC2
  · rw [if_pos h1]; exact one r
  rw [if_neg h1]
  cases r with
  | nil => exact one []
  | cons b1 r =>
    dsimp only
    by_cases h2 : b.toNat < 0xE0
    · rw [if_pos h2]
      split
      · rename_i hc
        refine ⟨by simp, by simp; omega, by simp, ?_⟩
        generalize hk : (b.toNat - 0xC0) * 64 + (b1.toNat - 0x80) = k
        exact bigD k (by omega)
      · exact one _
    rw [if_neg h2]
    by_cases h3 : b.toNat < 0xF0
    · rw [if_pos h3]
      split
      · rename_i hc
        have two : ∀ r : Bytes, 0 < (2 : Nat) ∧ (∀ x ∈ (b :: b1 :: r).take 2, 0x80 ≤ x.toNat) ∧ 2 ≤ (b :: b1 :: r).length ∧
            (none : Option Char).getD '�' ≠ '\n' ∧ (none : Option Char).getD '�' ≠ '\r' :=
          fun r => ⟨by omega, by simp; omega, by simp, rep⟩
        cases r with
        | nil => exact two []
        | cons b2 r =>
          dsimp only
          split
          · rename_i hd
            refine ⟨by simp, by simp; omega, by simp, ?_⟩
            generalize hk : (b.toNat - 0xE0) * 4096 + (b1.toNat - 0x80) * 64 + (b2.toNat - 0x80) = k
            refine bigD k ?_
            by_cases he : b.toNat = 0xE0
            · have := hc.2.2.1 he; omega
            · omega
          · exact two _
      · exact one _
    rw [if_neg h3]
    by_cases h4 : b.toNat < 0xF5
    · rw [if_pos h4]
      split
      · rename_i hc
        have two : ∀ r : Bytes, 0 < (2 : Nat) ∧ (∀ x ∈ (b :: b1 :: r).take 2, 0x80 ≤ x.toNat) ∧ 2 ≤ (b :: b1 :: r).length ∧
            (none : Option Char).getD '�' ≠ '\n' ∧ (none : Option Char).getD '�' ≠ '\r' :=
          fun r => ⟨by omega, by simp; omega, by simp, rep⟩
        cases r with
        | nil => exact two []
        | cons b2 r =>
          dsimp only
          split
          · rename_i hd
            have three : ∀ r : Bytes, 0 < (3 : Nat) ∧ (∀ x ∈ (b :: b1 :: b2 :: r).take 3, 0x80 ≤ x.toNat) ∧ 3 ≤ (b :: b1 :: b2 :: r).length ∧
                (none : Option Char).getD '�' ≠ '\n' ∧ (none : Option Char).getD '�' ≠ '\r' :=
              fun r => ⟨by omega, by simp; omega, by simp, rep⟩
            cases r with
            | nil => exact three []
            | cons b3 r =>
              dsimp only
              split
              · rename_i hf
                refine ⟨by simp, by simp; omega, by simp, ?_⟩
                generalize hk : (b.toNat - 0xF0) * 262144 + (b1.toNat - 0x80) * 4096 + (b2.toNat - 0x80) * 64 + (b3.toNat - 0x80) = k
                refine bigD k ?_
                by_cases he : b.toNat = 0xF0
                · have := hc.2.2.1 he; omega
                · omega
              · exact three _
          · exact two _
      · exact one _
    · rw [if_neg h4]; exact one _

theorem toNat_big {x : UInt8} (h : 0x80 ≤ x.toNat) : x ≠ 10 ∧ x ≠ 13 := by
  constructor
  · intro e; rw [e] at h; simp at h
  · intro e; rw [e] at h; simp at h

theorem getLast?_drop_of_lt {α : Type} (l : List α) (n : Nat) (h : n < l.length) : (l.drop n).getLast? = l.getLast? := by
  rw [List.getLast?_drop, if_neg (by omega)]

theorem utf8Chars_nil (n : Nat) : utf8Chars n [] = [] := by cases n <;> rfl

theorem utf8Chars_ne_nil (n : Nat) (b : Bytes) (h : b ≠ []) (hn : b.length ≤ n) : utf8Chars n b ≠ [] := by
  cases b with
  | nil => exact absurd rfl h
  | cons x b =>
    cases n with
    | zero => simp at hn
    | succ n => unfold utf8Chars; simp

/-- The last character is a line end exactly if the last byte is. -/
theorem utf8Chars_ends (n : Nat) (b : Bytes) (hn : b.length ≤ n) :
    (((utf8Chars n b).map (fun x => x.1.getD '�')).getLast? = some '\n' ↔ b.getLast? = some 10) ∧
    (((utf8Chars n b).map (fun x => x.1.getD '�')).getLast? = some '\r' ↔ b.getLast? = some 13) := by
  induction n generalizing b with
  | zero =>
    have : b = [] := List.eq_nil_of_length_eq_zero (by omega)
    subst this
    simp [utf8Chars]
  | succ n ih =>
    cases b with
    | nil => simp [utf8Chars]
    | cons x r =>
      unfold utf8Chars
      have hpos : 0 < (utf8Step (x :: r)).2 := by
        rcases utf8Step_spec x r with ⟨_, h2⟩ | ⟨h2, _⟩
        · rw [h2]; exact Nat.one_pos
        · exact h2
      have hdl : ((x :: r).drop (utf8Step (x :: r)).2).length ≤ n := by
        rw [List.length_drop]
        simp only [List.length_cons] at hn ⊢
        omega
      have hi := ih _ hdl
      rw [List.map_cons]
      by_cases hend : (utf8Step (x :: r)).2 < (x :: r).length
      · -- more follows
        have hne : (x :: r).drop (utf8Step (x :: r)).2 ≠ [] := by
          intro e
          have := congrArg List.length e
          rw [List.length_drop] at this
          simp only [List.length_nil] at this
          omega
        rw [getLast?_drop_of_lt _ _ hend] at hi
        have hcn := utf8Chars_ne_nil n _ hne hdl
        generalize utf8Chars n ((x :: r).drop (utf8Step (x :: r)).2) = L at *
        have : ∀ y, (y :: L.map (fun x => x.1.getD '�')).getLast? = (L.map (fun x => x.1.getD '�')).getLast? := by
          intro y
          cases L with
          | nil => exact absurd rfl hcn
          | cons a L => simp [List.getLast?_cons]
        rw [this]
        exact hi
      · -- last character
        have hnil : (x :: r).drop (utf8Step (x :: r)).2 = [] := List.drop_eq_nil_of_le (by omega)
        rw [hnil, utf8Chars_nil]
        simp only [List.map_nil, List.getLast?_singleton, Option.some.injEq]
        rcases utf8Step_spec x r with ⟨h1, h2⟩ | ⟨_, h2, h3, h4, h5⟩
        · rw [h2] at hend ⊢
          have : r = [] := by
            cases r with
            | nil => rfl
            | cons a r => simp at hend
          subst this
          simp [ofNat_lf, ofNat_cr]
        · have hl : ∀ y, (x :: r).getLast? = some y → 0x80 ≤ y.toNat := by
            intro y hy
            apply h2
            rw [List.take_of_length_le (by omega)]
            exact List.mem_of_getLast? hy
          constructor
          · exact ⟨fun h => absurd h h4, fun h => absurd rfl (toNat_big (hl 10 h)).1⟩
          · exact ⟨fun h => absurd h h5, fun h => absurd rfl (toNat_big (hl 13 h)).2⟩

/-- Strict decoding fails at a byte that is no line end. -/
theorem utf8Error_spec (n : Nat) (pre b : Bytes) (hn : b.length ≤ n) (i j : Nat) (h : utf8Error pre.length (utf8Chars n b) = some (i, j)) :
    (pre ++ b)[i]? ≠ some 10 ∧ (pre ++ b)[i]? ≠ some 13 := by
  induction n generalizing b pre with
  | zero =>
    have : b = [] := List.eq_nil_of_length_eq_zero (by omega)
    subst this
    simp [utf8Chars, utf8Error] at h
  | succ n ih =>
    cases b with
    | nil => simp [utf8Chars, utf8Error] at h
    | cons x r =>
      unfold utf8Chars at h
      rcases hs : utf8Step (x :: r) with ⟨o, k⟩
      rw [hs] at h
      have spec := utf8Step_spec x r
      rw [hs] at spec
      cases o with
      | none =>
        rcases spec with ⟨_, h2⟩ | ⟨h1, h2, _⟩
        · simp at h2
        · have e : pre.length = i := by
            simp only [utf8Error, Option.some.injEq, Prod.mk.injEq] at h
            exact h.1
          rw [← e]
          have hx : (pre ++ x :: r)[pre.length]? = some x := by simp
          rw [hx]
          have := toNat_big (h2 x (by
            obtain ⟨m, hm⟩ := Nat.exists_eq_succ_of_ne_zero (Nat.ne_of_gt h1)
            rw [hm]; simp))
          exact ⟨fun h => this.1 (by simpa using h), fun h => this.2 (by simpa using h)⟩
      | some ch =>
        have hk : 0 < k ∧ k ≤ (x :: r).length := by
          rcases spec with ⟨_, h2⟩ | ⟨h1, _, h3, _⟩
          · simp at h2; rw [h2.2]; simp
          · exact ⟨h1, h3⟩
        simp only [utf8Error] at h
        have := ih (pre ++ (x :: r).take k) ((x :: r).drop k) (by
            rw [List.length_drop]
            simp only [List.length_cons] at hn ⊢
            omega) (by
            rw [List.length_append, List.length_take, Nat.min_eq_left hk.2]
            exact h)
        rw [List.append_assoc, List.take_append_drop] at this
        exact this

theorem utf8_ends : AsciiEnds utf8 where
  strict_ends := by
    intro b r h
    unfold utf8 at h
    dsimp only at h
    split at h
    · cases h
    · injection h with h
      rw [← h]
      exact utf8Chars_ends _ _ (Nat.le_refl _)
  replace_ends := fun b => utf8Chars_ends _ _ (Nat.le_refl _)
  strict_error := by
    intro b i j h
    unfold utf8 at h
    dsimp only at h
    split at h
    · rename_i e he
      injection h with h
      subst h
      exact utf8Error_spec _ [] b (Nat.le_refl _) i j he
    · cases h

-- "aä€😀" and an invalid byte before the line feed
example : utf8.replace [0x61, 0xC3, 0xA4, 0xE2, 0x82, 0xAC, 0xF0, 0x9F, 0x98, 0x80, 0xE2, 0x82, 10] = ['a', 'ä', '€', '😀', '�', '\n'] := by
  decide +kernel
example : utf8Error 0 (utf8Chars 4 [0x61, 0xE2, 0x82, 10]) = some (1, 3) := by decide +kernel

end Verif
