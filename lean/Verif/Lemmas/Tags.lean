import Verif.Model.Tags
import Verif.Spec.Tags

/-! # Lemmas on tags -/

namespace Verif

namespace Tags
open Spec.Tags

/-- text of a list of pieces -/
def texts (ps : List Piece) : Text := ps.flatMap pieceText

@[simp] theorem texts_nil : texts [] = [] := rfl
@[simp] theorem texts_append (a b : List Piece) : texts (a ++ b) = texts a ++ texts b := by simp [texts]
@[simp] theorem texts_chr (c : Char) (ps : List Piece) : texts (.chr c :: ps) = c :: texts ps := by simp [texts, pieceText]
@[simp] theorem texts_tag (n : Text) (ps : List Piece) : texts (.tag n :: ps) = '<' :: (n ++ '>' :: texts ps) := by simp [texts, pieceText]
@[simp] theorem texts_map_chr (n : Text) : texts (n.map .chr) = n := by
  induction n with
  | nil => rfl
  | cons c n ih => simp [ih]

@[simp] theorem texts_map_chr_rev (n : Text) : texts (n.map .chr).reverse = n.reverse := by
  rw [← List.map_reverse, texts_map_chr]

theorem nameChar_iff (c : Char) : nameChar c = true ↔ c ≠ ' ' ∧ c ≠ '<' ∧ c ≠ '>' := by
  simp [nameChar, and_assoc]

theorem texts_go (s : Text) : (∀ n, texts (go (some n) s) = '<' :: (n.reverse ++ s)) ∧ texts (go none s) = s := by
  induction s with
  | nil => simp [go]
  | cons c r ih =>
    obtain ⟨ih1, ih2⟩ := ih
    constructor
    · intro n
      rw [go]
      split
      · rename_i h; subst h; simp [ih1]
      · split
        · rename_i h; simp [ih2, h.1]
        · split
          · simp [ih1]
          · simp [ih2]
    · rw [go]
      split
      · rename_i h; subst h; simp [ih1]
      · simp [ih2]

theorem texts_pieces (s : Text) : texts (pieces s) = s := (texts_go s).2

/-- scanning the name of a tag -/
theorem go_name (n m b : Text) (hn : ∀ c ∈ n, c ≠ ' ' ∧ c ≠ '<' ∧ c ≠ '>') (h0 : m.reverse ++ n ≠ []) :
    go (some m) (n ++ '>' :: b) = .tag (m.reverse ++ n) :: go none b := by
  induction n generalizing m with
  | nil =>
    have hm : m ≠ [] := by intro e; subst e; simp at h0
    simp [go, hm]
  | cons c n ih =>
    have hc := hn c (by simp)
    simp only [List.cons_append]
    rw [go, if_neg hc.2.1, if_neg (fun e => hc.2.2 e.1), if_pos ((nameChar_iff c).2 hc)]
    rw [ih (c :: m) (fun d hd => hn d (by simp [hd])) (by simp)]
    simp

theorem go_tag (n b : Text) (hn : Name n) (s : Text) :
    (∀ m, ∃ a, go (some m) (s ++ '<' :: (n ++ '>' :: b)) = a ++ .tag n :: go none b ∧ go (some m) s = a) ∧
    go none (s ++ '<' :: (n ++ '>' :: b)) = go none s ++ .tag n :: go none b := by
  induction s with
  | nil =>
    constructor
    · intro m
      refine ⟨_, ?_, rfl⟩
      simp only [List.nil_append, go, if_true]
      rw [go_name n [] b hn.2 (by simpa using hn.1)]
      simp
    · simp only [List.nil_append, go, if_true]
      rw [go_name n [] b hn.2 (by simpa using hn.1)]
      simp
  | cons c s ih =>
    obtain ⟨ih1, ih2⟩ := ih
    have ih1' : ∀ m, go (some m) (s ++ '<' :: (n ++ '>' :: b)) = go (some m) s ++ .tag n :: go none b := by
      intro m; obtain ⟨a, h1, h2⟩ := ih1 m; rw [h1, h2]
    constructor
    · intro m
      refine ⟨_, ?_, rfl⟩
      simp only [List.cons_append]
      rw [go, go]
      split
      · simp [ih1']
      · split
        · simp [ih2]
        · split
          · exact ih1' _
          · simp [ih2]
    · simp only [List.cons_append]
      rw [go, go]
      split
      · exact ih1' _
      · simp [ih2]

theorem pieces_tag (a n b : Text) (hn : Name n) :
    pieces (a ++ '<' :: (n ++ '>' :: b)) = pieces a ++ .tag n :: pieces b := (go_tag n b hn a).2

theorem go_names (s : Text) : (∀ m, (∀ c ∈ m, c ≠ ' ' ∧ c ≠ '<' ∧ c ≠ '>') → ∀ n, .tag n ∈ go (some m) s → Name n) ∧
    ∀ n, .tag n ∈ go none s → Name n := by
  induction s with
  | nil => simp [go]
  | cons c s ih =>
    obtain ⟨ih1, ih2⟩ := ih
    constructor
    · intro m hm n h
      rw [go] at h
      split at h
      · simp at h; exact ih1 [] (by simp) n h
      · split at h
        · rename_i h2
          simp at h
          rcases h with h | h
          · subst h
            exact ⟨by simpa using h2.2, fun d hd => hm d (by simpa using hd)⟩
          · exact ih2 n h
        · split at h
          · rename_i h3
            refine ih1 (c :: m) ?_ n h
            intro d hd
            rcases List.mem_cons.1 hd with e | e
            · rw [e]; exact (nameChar_iff c).1 h3
            · exact hm d e
          · simp at h; exact ih2 n h
    · intro n h
      rw [go] at h
      split at h
      · exact ih1 [] (by simp) n h
      · simp at h; exact ih2 n h

theorem pieces_name {s n : Text} (h : .tag n ∈ pieces s) : Name n := (go_names s).2 n h

theorem mem_pieces_iff (n s : Text) : .tag n ∈ pieces s ↔ Occurs n s := by
  constructor
  · intro h
    refine ⟨pieces_name h, ?_⟩
    obtain ⟨A, B, hAB⟩ := List.append_of_mem h
    refine ⟨texts A, texts B, ?_⟩
    have := texts_pieces s
    rw [hAB] at this
    simpa using this.symm
  · rintro ⟨hn, a, b, rfl⟩
    rw [pieces_tag a n b hn]
    simp

/-! ### plain texts -/

/-- no `<` outside of tags -/
def Clean (s : Text) : Prop := Piece.chr '<' ∉ pieces s

theorem go_clean_append (s b : Text) : (∀ m, Piece.chr '<' ∉ go (some m) s → go (some m) (s ++ b) = go (some m) s ++ go none b) ∧
    (Piece.chr '<' ∉ go none s → go none (s ++ b) = go none s ++ go none b) := by
  induction s with
  | nil => simp [go]
  | cons c s ih =>
    obtain ⟨ih1, ih2⟩ := ih
    constructor
    · intro m h
      rw [List.cons_append, go, go] at *
      split
      · rename_i hc; rw [if_pos hc] at h; simp at h
      · rename_i hc
        rw [if_neg hc] at h
        split
        · rename_i h2; rw [if_pos h2] at h; simp at h; simp [ih2 h]
        · rename_i h2
          rw [if_neg h2] at h
          split
          · rename_i h3; rw [if_pos h3] at h; exact ih1 _ h
          · rename_i h3; rw [if_neg h3] at h; simp at h
    · intro h
      rw [List.cons_append, go, go] at *
      split
      · rename_i hc; rw [if_pos hc] at h; exact ih1 _ h
      · rename_i hc; rw [if_neg hc] at h; simp at h; simp [ih2 h.2]

theorem pieces_append {s : Text} (h : Clean s) (b : Text) : pieces (s ++ b) = pieces s ++ pieces b := (go_clean_append s b).2 h

/-- pieces as they come from a clean text -/
def Good (ps : List Piece) : Prop := Piece.chr '<' ∉ ps ∧ ∀ n, .tag n ∈ ps → Name n

theorem good_pieces {s : Text} (h : Clean s) : Good (pieces s) := ⟨h, fun _ hn => pieces_name hn⟩

theorem pieces_texts {ps : List Piece} (h : Good ps) : pieces (texts ps) = ps := by
  induction ps with
  | nil => rfl
  | cons p ps ih =>
    have h' : Good ps := ⟨fun e => h.1 (by simp [e]), fun n hn => h.2 n (by simp [hn])⟩
    cases p with
    | chr c =>
      have hc : c ≠ '<' := fun e => h.1 (by simp [e])
      rw [texts_chr]
      show go none _ = _
      rw [go, if_neg hc]
      rw [show go none (texts ps) = pieces (texts ps) from rfl, ih h']
    | tag n =>
      rw [texts_tag]
      have := pieces_tag [] n (texts ps) (h.2 n (by simp))
      rw [List.nil_append] at this
      rw [this, ih h']
      rfl

theorem Good.append {a b : List Piece} (ha : Good a) (hb : Good b) : Good (a ++ b) := by
  refine ⟨fun h => ?_, fun n h => ?_⟩
  · rcases List.mem_append.1 h with h | h
    · exact ha.1 h
    · exact hb.1 h
  · rcases List.mem_append.1 h with h | h
    · exact ha.2 n h
    · exact hb.2 n h

theorem Good.left {a b : List Piece} (h : Good (a ++ b)) : Good a :=
  ⟨fun e => h.1 (by simp [e]), fun n hn => h.2 n (by simp [hn])⟩
theorem Good.right {a b : List Piece} (h : Good (a ++ b)) : Good b :=
  ⟨fun e => h.1 (by simp [e]), fun n hn => h.2 n (by simp [hn])⟩

theorem clean_texts {ps : List Piece} (h : Good ps) : Clean (texts ps) := by
  unfold Clean; rw [pieces_texts h]; exact h.1

theorem clean_iff_plain (s : Text) : Clean s ↔ Plain s := by
  constructor
  · intro h a b hs
    -- the pieces around this `<`
    have key : ∀ (ps : List Piece), Good ps → ∀ a b, texts ps = a ++ '<' :: b → ∃ n b', Name n ∧ b = n ++ '>' :: b' := by
      intro ps
      induction ps with
      | nil => intro _ a b e; simp at e
      | cons p ps ih =>
        intro hg a b e
        have hg' : Good ps := Good.right (a := [p]) hg
        cases p with
        | chr c =>
          have hc : c ≠ '<' := fun e => hg.1 (by simp [e])
          rw [texts_chr] at e
          cases a with
          | nil => simp at e; exact absurd e.1 hc
          | cons a0 a => simp at e; exact ih hg' a b e.2
        | tag n =>
          have hn := hg.2 n (by simp)
          rw [texts_tag] at e
          cases a with
          | nil => simp at e; exact ⟨n, texts ps, hn, e.symm⟩
          | cons a0 a =>
            simp at e
            -- the `<` is behind the name
            have e2 := e.2
            have : ∀ (n a : Text), (∀ c ∈ n, c ≠ '<') → n ++ '>' :: texts ps = a ++ '<' :: b → ∃ a', texts ps = a' ++ '<' :: b := by
              intro n
              induction n with
              | nil =>
                intro a _ h2
                cases a with
                | nil => simp at h2
                | cons x a => simp at h2; exact ⟨a, h2.2⟩
              | cons d n ihn =>
                intro a hd h2
                cases a with
                | nil => simp at h2; exact absurd h2.1 (hd d (by simp))
                | cons x a => simp at h2; exact ihn a (fun c hc => hd c (by simp [hc])) h2.2
            obtain ⟨a', ha'⟩ := this n a (fun c hc => (hn.2 c hc).2.1) e2
            exact ih hg' a' b ha'
    exact key (pieces s) (good_pieces h) a b (by rw [texts_pieces]; exact hs)
  · intro h hm
    have key : ∀ (k : Nat) (s : Text), s.length ≤ k → Plain s → Clean s := by
      intro k
      induction k with
      | zero => intro s hl _; have : s = [] := List.length_eq_zero_iff.1 (by omega); subst this; simp [Clean, pieces, go]
      | succ k ih =>
        intro s hl hp
        cases s with
        | nil => simp [Clean, pieces, go]
        | cons c s =>
          by_cases hc : c = '<'
          · subst hc
            obtain ⟨n, b', hn, rfl⟩ := hp [] s rfl
            have h2 : Plain b' := by
              intro a b e
              exact hp ('<' :: (n ++ '>' :: a)) b (by simp [e])
            have h3 := ih b' (by simp at hl; omega) h2
            have := pieces_tag [] n b' hn
            unfold Clean
            rw [List.nil_append] at this
            rw [this]
            intro e
            simp [pieces, go] at e
            exact h3 e
          · have h2 : Plain s := by
              intro a b e
              exact hp (c :: a) b (by simp [e])
            have h3 := ih s (by simp at hl; omega) h2
            intro e
            unfold pieces at e
            rw [go, if_neg hc] at e
            simp at e
            rcases e with e | e
            · exact hc e.symm
            · exact h3 e
    exact key s.length s (Nat.le_refl _) h hm

/-! ### substitution and search on pieces -/

/-- replacement of the tags of a list of pieces -/
def subPieces (f : Text → Option Text) (ps : List Piece) : List Piece :=
  ps.flatMap (fun p =>
    match p with
    | .chr c => [.chr c]
    | .tag n =>
      match f n with
      | some r => pieces r
      | none => [.tag n])

theorem sub_eq (f : Text → Option Text) (s : Text) : sub f s = texts (subPieces f (pieces s)) := by
  unfold sub subPieces
  generalize pieces s = ps
  induction ps with
  | nil => rfl
  | cons p ps ih =>
    rw [List.flatMap_cons, List.flatMap_cons, ih, texts_append]
    congr 1
    cases p with
    | chr c => simp
    | tag n => dsimp only; cases f n <;> simp [texts_pieces]

theorem subPieces_append (f : Text → Option Text) (a b : List Piece) : subPieces f (a ++ b) = subPieces f a ++ subPieces f b := by
  simp [subPieces]

theorem subPieces_id (f : Text → Option Text) (a : List Piece) (h : ∀ n, .tag n ∈ a → f n = none) : subPieces f a = a := by
  induction a with
  | nil => rfl
  | cons p a ih =>
    have ih' := ih (fun n hn => h n (by simp [hn]))
    have : subPieces f (p :: a) = subPieces f [p] ++ subPieces f a := subPieces_append f [p] a
    rw [this, ih']
    cases p with
    | chr c => rfl
    | tag n => simp [subPieces, h n (by simp)]

theorem good_subPieces (f : Text → Option Text) (hf : ∀ n r, f n = some r → Clean r) (ps : List Piece) (h : Good ps) :
    Good (subPieces f ps) := by
  induction ps with
  | nil => exact h
  | cons p ps ih =>
    have ih' := ih (Good.right (a := [p]) h)
    rw [show subPieces f (p :: ps) = subPieces f [p] ++ subPieces f ps from subPieces_append f [p] ps]
    refine Good.append ?_ ih'
    cases p with
    | chr c =>
      have : Good [Piece.chr c] := Good.left (b := ps) h
      simpa [subPieces] using this
    | tag n =>
      have h1 : Good [Piece.tag n] := Good.left (b := ps) h
      cases hfn : f n with
      | none => simpa [subPieces, hfn] using h1
      | some r => simpa [subPieces, hfn] using good_pieces (hf n r hfn)

theorem firstTag_none (i : Nat) (ps : List Piece) : firstTag i ps = none ↔ ∀ n, Piece.tag n ∉ ps := by
  induction ps generalizing i with
  | nil => simp [firstTag]
  | cons p ps ih =>
    cases p with
    | chr c => simp [firstTag, ih]
    | tag n =>
      refine ⟨fun h => by simp [firstTag] at h, fun h => absurd (List.mem_cons_self) (h n)⟩

theorem firstTag_some {i j : Nat} {ps : List Piece} {n : Text} (h : firstTag i ps = some (j, n)) :
    ∃ A B, ps = A ++ .tag n :: B ∧ (∀ m, Piece.tag m ∉ A) ∧ j = i + (texts A).length := by
  induction ps generalizing i with
  | nil => simp [firstTag] at h
  | cons p ps ih =>
    cases p with
    | chr c =>
      obtain ⟨A, B, h1, h2, h3⟩ := ih h
      refine ⟨.chr c :: A, B, by simp [h1], ?_, ?_⟩
      · intro m hm
        simp at hm
        exact h2 m hm
      · simp; omega
    | tag m =>
      simp [firstTag] at h
      exact ⟨[], ps, by simp [h.2], by simp, by simp [h.1]⟩

/-- Pieces behind a tag are the pieces of the text behind it. -/
theorem pieces_split {s : Text} {A B : List Piece} {n : Text} (h : pieces s = A ++ .tag n :: B) :
    pieces (texts A) = A ∧ pieces (texts B) = B := by
  have hn : Name n := pieces_name (s := s) (by simp [h])
  have hs : s = texts A ++ '<' :: (n ++ '>' :: texts B) := by
    rw [← texts_pieces s, h]; simp
  have h2 := pieces_tag (texts A) n (texts B) hn
  rw [← hs, h] at h2
  -- the two splits have the same text before, so they are the same
  have key : ∀ (A A' B B' : List Piece), A ++ .tag n :: B = A' ++ .tag n :: B' → texts A' = texts A → A' = A ∧ B' = B := by
    intro A
    induction A with
    | nil =>
      intro A' B B' e et
      cases A' with
      | nil => simp at e; exact ⟨rfl, e.symm⟩
      | cons p A' =>
        cases p <;> simp at et
    | cons p A ih =>
      intro A' B B' e et
      cases A' with
      | nil => cases p <;> simp at et
      | cons q A' =>
        simp at e
        obtain ⟨e1, e2⟩ := e
        subst e1
        have et' : texts A' = texts A := by
          cases p with
          | chr c => simpa using et
          | tag m => simpa using et
        obtain ⟨h1, h2⟩ := ih A' B B' e2 et'
        exact ⟨by rw [h1], h2⟩
  have := key A (pieces (texts A)) B (pieces (texts B)) h2 (texts_pieces _)
  exact this

theorem search_none (v : Text) (pos : Nat) : search v pos = none ↔ ∀ n, Piece.tag n ∉ pieces (v.drop pos) := firstTag_none _ _

theorem search_some {v n : Text} {pos start : Nat} (h : search v pos = some (start, n)) :
    ∃ a b, v.drop pos = a ++ '<' :: (n ++ '>' :: b) ∧ Name n ∧ start = pos + a.length ∧ v.drop (start + n.length + 2) = b ∧
      (∀ m, Piece.tag m ∉ pieces a) ∧ pieces (v.drop pos) = pieces a ++ .tag n :: pieces b ∧ start + n.length + 2 ≤ v.length := by
  obtain ⟨A, B, h1, h2, h3⟩ := firstTag_some h
  obtain ⟨hA, hB⟩ := pieces_split h1
  have hd : v.drop pos = texts A ++ '<' :: (n ++ '>' :: texts B) := by
    rw [← texts_pieces (v.drop pos), h1]; simp
  refine ⟨texts A, texts B, hd, pieces_name (s := v.drop pos) (by simp [h1]), h3, ?_, by rw [hA]; exact h2, by rw [hA, hB]; exact h1, ?_⟩
  · have : v.drop (start + n.length + 2) = (v.drop pos).drop ((texts A).length + (n.length + 2)) := by
      rw [List.drop_drop]; congr 1; omega
    rw [this, hd, ← List.drop_drop, List.drop_left]
    have e : '<' :: (n ++ '>' :: texts B) = ('<' :: (n ++ ['>'])) ++ texts B := by simp
    rw [e]
    have : n.length + 2 = ('<' :: (n ++ ['>'])).length := by simp
    rw [this, List.drop_left]
  · have := congrArg List.length hd
    simp at this
    omega

/-! ### expansion -/

theorem name_unique {n n' x y : Text} (hn : Name n) (hn' : Name n') (h : n ++ '>' :: x = n' ++ '>' :: y) : n = n' ∧ x = y := by
  have key : ∀ (n n' : Text), (∀ c ∈ n, c ≠ '>') → (∀ c ∈ n', c ≠ '>') → n ++ '>' :: x = n' ++ '>' :: y → n = n' ∧ x = y := by
    intro n
    induction n with
    | nil =>
      intro n' _ h2 e
      cases n' with
      | nil => simp at e; exact ⟨rfl, e⟩
      | cons d n' => simp at e; exact absurd e.1.symm (h2 d (by simp))
    | cons c n ih =>
      intro n' h1 h2 e
      cases n' with
      | nil => simp at e; exact absurd e.1 (h1 c (by simp))
      | cons d n' =>
        simp at e
        obtain ⟨a, b⟩ := ih n' (fun c hc => h1 c (by simp [hc])) (fun c hc => h2 c (by simp [hc])) e.2
        exact ⟨by rw [e.1, a], b⟩
  exact key n n' (fun c hc => (hn.2 c hc).2.2) (fun c hc => (hn'.2 c hc).2.2) h

theorem expands_chr {f : Text → Option Text} {c : Char} {v w : Text} (hc : c ≠ '<') (h : Expands f (c :: v) w) :
    ∃ w', w = c :: w' ∧ Expands f v w' := by
  cases h with
  | chr _ _ h => exact ⟨_, rfl, h⟩
  | keep => exact absurd rfl hc
  | repl => exact absurd rfl hc

theorem expands_tag {f : Text → Option Text} {n v w : Text} (hn : Name n) (h : Expands f ('<' :: (n ++ '>' :: v)) w) :
    (f n = none ∧ ∃ w', w = '<' :: (n ++ '>' :: w') ∧ Expands f v w') ∨
    (∃ r x w', f n = some r ∧ w = x ++ w' ∧ Expands f r x ∧ Expands f v w') := by
  generalize hu : '<' :: (n ++ '>' :: v) = u at h
  cases h with
  | nil => simp at hu
  | chr c hc h => simp at hu; exact absurd hu.1.symm hc
  | keep m hm h1 h2 =>
    simp at hu
    obtain ⟨e1, e2⟩ := name_unique hn hm hu
    subst e1; subst e2
    exact Or.inl ⟨h1, _, rfl, h2⟩
  | repl m hm h1 h2 h3 =>
    simp at hu
    obtain ⟨e1, e2⟩ := name_unique hn hm hu
    subst e1; subst e2
    exact Or.inr ⟨_, _, _, h1, rfl, h2, h3⟩

theorem expands_unique {f : Text → Option Text} {v w w' : Text} (h : Expands f v w) (h' : Expands f v w') : w = w' := by
  induction h generalizing w' with
  | nil => cases h'; rfl
  | chr c hc _ ih =>
    obtain ⟨x, rfl, hx⟩ := expands_chr hc h'
    rw [ih hx]
  | keep n hn hf _ ih =>
    rcases expands_tag hn h' with ⟨_, x, rfl, hx⟩ | ⟨r, x, y, h1, _⟩
    · rw [ih hx]
    · rw [hf] at h1; cases h1
  | repl n hn hf _ _ ih1 ih2 =>
    rcases expands_tag hn h' with ⟨h1, _⟩ | ⟨r, x, y, h1, rfl, h2, h3⟩
    · rw [hf] at h1; cases h1
    · rw [hf] at h1; cases h1
      rw [ih1 h2, ih2 h3]

theorem expands_split {f : Text → Option Text} (ps : List Piece) (hg : Good ps) {v w : Text} (h : Expands f (texts ps ++ v) w) :
    ∃ w1 w2, w = w1 ++ w2 ∧ Expands f (texts ps) w1 ∧ Expands f v w2 := by
  induction ps generalizing w with
  | nil => exact ⟨[], w, rfl, .nil, h⟩
  | cons p ps ih =>
    have hg' : Good ps := Good.right (a := [p]) hg
    cases p with
    | chr c =>
      have hc : c ≠ '<' := fun e => hg.1 (by simp [e])
      rw [texts_chr, List.cons_append] at h
      obtain ⟨w', rfl, h'⟩ := expands_chr hc h
      obtain ⟨w1, w2, rfl, h1, h2⟩ := ih hg' h'
      exact ⟨c :: w1, w2, rfl, by rw [texts_chr]; exact .chr c hc h1, h2⟩
    | tag n =>
      have hn := hg.2 n (by simp)
      rw [texts_tag, List.cons_append, List.append_assoc, List.cons_append] at h
      rw [texts_tag]
      rcases expands_tag hn h with ⟨hf, w', rfl, h'⟩ | ⟨r, x, w', hf, rfl, hx, h'⟩
      · obtain ⟨w1, w2, rfl, h1, h2⟩ := ih hg' h'
        exact ⟨'<' :: (n ++ '>' :: w1), w2, by simp, .keep n hn hf h1, h2⟩
      · obtain ⟨w1, w2, rfl, h1, h2⟩ := ih hg' h'
        exact ⟨x ++ w1, w2, by simp, .repl n hn hf hx h1, h2⟩

/-- `r` has no other expansion than `r0` -/
def Refines (f : Text → Option Text) (r r0 : Text) : Prop := ∀ w, Expands f r w → Expands f r0 w

theorem expands_subPieces {f : Text → Option Text} (g : Text → Option Text) (ps : List Piece) (hg : Good ps)
    (h : ∀ n r, g n = some r → Clean r ∧ ∃ r0, f n = some r0 ∧ Refines f r r0) :
    Refines f (texts (subPieces g ps)) (texts ps) := by
  induction ps with
  | nil => intro w hw; exact hw
  | cons p ps ih =>
    have ih := ih (Good.right (a := [p]) hg)
    intro w hw
    rw [show subPieces g (p :: ps) = subPieces g [p] ++ subPieces g ps from subPieces_append g [p] ps] at hw
    cases p with
    | chr c =>
      have hc : c ≠ '<' := fun e => hg.1 (by simp [e])
      simp only [subPieces, List.flatMap_cons, List.flatMap_nil, List.append_nil, List.cons_append, List.nil_append, texts_chr] at hw
      obtain ⟨w', rfl, h'⟩ := expands_chr hc hw
      rw [texts_chr]
      exact .chr c hc (ih _ h')
    | tag n =>
      have hn := hg.2 n (by simp)
      rw [texts_tag]
      cases hgn : g n with
      | none =>
        have e : subPieces g [Piece.tag n] = [.tag n] := by simp [subPieces, hgn]
        rw [e, List.cons_append, List.nil_append, texts_tag] at hw
        rcases expands_tag hn hw with ⟨hf, w', rfl, h'⟩ | ⟨r, x, w', hf, rfl, hx, h'⟩
        · exact .keep n hn hf (ih _ h')
        · exact .repl n hn hf hx (ih _ h')
      | some r =>
        have e : subPieces g [Piece.tag n] = pieces r := by simp [subPieces, hgn]
        obtain ⟨hr, r0, hf, href⟩ := h n r hgn
        rw [e, texts_append] at hw
        obtain ⟨w1, w2, rfl, h1, h2⟩ := expands_split (pieces r) (good_pieces hr) hw
        rw [texts_pieces] at h1
        exact .repl n hn hf (href _ h1) (ih _ h2)

theorem expands_self {f : Text → Option Text} (ps : List Piece) (hg : Good ps) (h : ∀ n, .tag n ∈ ps → f n = none) :
    Expands f (texts ps) (texts ps) := by
  induction ps with
  | nil => exact .nil
  | cons p ps ih =>
    have ih := ih (Good.right (a := [p]) hg) (fun n hn => h n (by simp [hn]))
    cases p with
    | chr c => rw [texts_chr]; exact .chr c (fun e => hg.1 (by simp [e])) ih
    | tag n => rw [texts_tag]; exact .keep n (hg.2 n (by simp)) (h n (by simp)) ih

/-! ### the inner loop -/

variable {ignore : Text → Bool} {tags : Defs} {conditional : Text} {addrepl : Text → Option Text} {tag : Text}

theorem meaning_eq (n : Text) : meaning ignore tags conditional addrepl n = if ignore n then none else repl tags conditional addrepl n := by
  unfold meaning repl
  split
  · rfl
  · by_cases hc : conditional = []
    · subst hc
      simp only [ne_eq, not_true_eq_false, if_false, if_true, Option.none_or]
      cases tags.get? n <;> rfl
    · simp only [ne_eq, hc, not_false_eq_true, if_true, if_false]
      cases tags.get? (n ++ '?' :: conditional) with
      | some r => rfl
      | none => simp only [Option.none_or]; cases tags.get? n <;> rfl

theorem replaceLoop_mono (fuel : Nat) : ∀ (v : Text) (rplc : Dict Text Nat) (pos : Nat) (k : Nat),
    replaceLoop ignore tags conditional addrepl tag fuel v rplc pos ≠ .fuel →
    replaceLoop ignore tags conditional addrepl tag (fuel + k) v rplc pos = replaceLoop ignore tags conditional addrepl tag fuel v rplc pos := by
  induction fuel with
  | zero => intro v rplc pos k h; exact absurd rfl h
  | succ fuel ih =>
    intro v rplc pos k h
    rw [show fuel + 1 + k = (fuel + k) + 1 by omega]
    rw [replaceLoop] at h
    rw [replaceLoop, replaceLoop]
    cases hs : search v pos with
    | none => rfl
    | some x =>
      obtain ⟨start, rtag⟩ := x
      simp only [hs] at h ⊢
      by_cases h1 : ignore rtag = true
      · rw [if_pos h1] at h ⊢; rw [if_pos h1]; exact ih _ _ _ _ h
      · rw [if_neg h1] at h ⊢; rw [if_neg h1]
        by_cases h2 : rtag = tag ∨ maxReplace < (rplc.get? rtag).getD 1
        · rw [if_pos h2, if_pos h2]
        · rw [if_neg h2] at h ⊢; rw [if_neg h2]
          cases hr : repl tags conditional addrepl rtag with
          | none => simp only [hr] at h ⊢; exact ih _ _ _ _ h
          | some r => simp only [hr] at h ⊢; exact ih _ _ _ _ h

/-- how often a tag may still be replaced -/
def budget (K : List Text) (rplc : Dict Text Nat) : Nat := (K.map (fun n => 26 - (rplc.get? n).getD 0)).sum

theorem sum_le {α : Type} (l : List α) (f g : α → Nat) (h : ∀ a ∈ l, f a ≤ g a) : (l.map f).sum ≤ (l.map g).sum := by
  induction l with
  | nil => simp
  | cons a l ih =>
    have := ih (fun b hb => h b (by simp [hb]))
    have := h a (by simp)
    simp; omega

theorem sum_lt {α : Type} (l : List α) (f g : α → Nat) (h : ∀ a ∈ l, f a ≤ g a) (a : α) (ha : a ∈ l) (hl : f a < g a) :
    (l.map f).sum < (l.map g).sum := by
  induction l with
  | nil => simp at ha
  | cons b l ih =>
    have hb := h b (by simp)
    have hrest := sum_le l f g (fun b hb => h b (by simp [hb]))
    rcases List.mem_cons.1 ha with e | e
    · subst e; simp; omega
    · have := ih (fun b hb => h b (by simp [hb])) e
      simp; omega

theorem budget_insert (K : List Text) (rplc : Dict Text Nat) (n : Text) (hn : n ∈ K) (hc : ¬ maxReplace < (rplc.get? n).getD 1) :
    budget K (rplc.insert n ((rplc.get? n).getD 0 + 1)) < budget K rplc := by
  have hlt : (rplc.get? n).getD 0 < 26 := by
    cases h : rplc.get? n with
    | none => simp
    | some x => rw [h] at hc; simp [maxReplace] at hc; simp; omega
  refine sum_lt K _ _ ?_ n hn ?_
  · intro m _
    by_cases e : m = n
    · subst e; rw [Dict.get?_insert_self]; simp only [Option.getD_some]; omega
    · rw [Dict.get?_insert_ne _ e]; exact Nat.le_refl _
  · rw [Dict.get?_insert_self]; simp only [Option.getD_some]; omega

theorem replaceLoop_terminates (K : List Text) (hK : ∀ n, repl tags conditional addrepl n ≠ none → n ∈ K) :
    ∀ (b : Nat) (l : Nat) (v : Text) (rplc : Dict Text Nat) (pos : Nat), budget K rplc ≤ b → v.length - pos ≤ l →
    ∃ fuel, replaceLoop ignore tags conditional addrepl tag fuel v rplc pos ≠ .fuel := by
  intro b
  induction b using Nat.strongRecOn with
  | _ b ihb =>
  intro l
  induction l using Nat.strongRecOn with
  | _ l ihl =>
  intro v rplc pos hb hl
  cases hs : search v pos with
  | none => exact ⟨1, by rw [replaceLoop]; simp [hs]⟩
  | some x =>
    obtain ⟨start, rtag⟩ := x
    obtain ⟨a, bb, h1, h2, h3, h4, h5, h6, h7⟩ := search_some hs
    have skip : ∃ fuel, replaceLoop ignore tags conditional addrepl tag fuel v rplc (start + rtag.length + 2) ≠ .fuel :=
      ihl (v.length - (start + rtag.length + 2)) (by omega) v rplc _ hb (Nat.le_refl _)
    by_cases hi : ignore rtag = true
    · obtain ⟨fuel, hf⟩ := skip
      refine ⟨fuel + 1, ?_⟩
      rw [replaceLoop]
      simp only [hs]
      rw [if_pos hi]
      exact hf
    · by_cases h2 : rtag = tag ∨ maxReplace < (rplc.get? rtag).getD 1
      · refine ⟨1, ?_⟩
        rw [replaceLoop]
        simp only [hs]
        rw [if_neg hi, if_pos h2]
        simp
      · cases hr : repl tags conditional addrepl rtag with
        | none =>
          obtain ⟨fuel, hf⟩ := skip
          refine ⟨fuel + 1, ?_⟩
          rw [replaceLoop]
          simp only [hs]
          rw [if_neg hi, if_neg h2]
          simp only [hr]
          exact hf
        | some r =>
          have hin : rtag ∈ K := hK rtag (by rw [hr]; simp)
          have hlt := budget_insert K rplc rtag hin (fun e => h2 (Or.inr e))
          obtain ⟨fuel, hf⟩ := ihb _ (Nat.lt_of_lt_of_le hlt hb) _ (replaceAll rtag r v) _ start (Nat.le_refl _) (Nat.le_refl _)
          refine ⟨fuel + 1, ?_⟩
          rw [replaceLoop]
          simp only [hs]
          rw [if_neg hi, if_neg h2]
          simp only [hr]
          exact hf

/-- nothing left to replace, or something was replaced -/
theorem replaceLoop_general (K : List Text) (hK : ∀ n, repl tags conditional addrepl n ≠ none → n ∈ K) (fuel : Nat) :
    ∀ (v : Text) (rplc : Dict Text Nat) (pos : Nat) (v' : Text) (rplc' : Dict Text Nat),
    replaceLoop ignore tags conditional addrepl tag fuel v rplc pos = .ok (v', rplc') →
    (v' = v ∧ rplc' = rplc ∧ ∀ n, .tag n ∈ pieces (v.drop pos) → meaning ignore tags conditional addrepl n = none) ∨
    (budget K rplc' < budget K rplc) := by
  induction fuel with
  | zero => intro v rplc pos v' rplc' h; cases h
  | succ fuel ih =>
    intro v rplc pos v' rplc' h
    rw [replaceLoop] at h
    cases hs : search v pos with
    | none =>
      simp only [hs] at h
      cases h
      exact Or.inl ⟨rfl, rfl, fun n hn => absurd hn ((search_none v pos).1 hs n)⟩
    | some x =>
      obtain ⟨start, rtag⟩ := x
      obtain ⟨a, bb, h1, h2, h3, h4, h5, h6, h7⟩ := search_some hs
      simp only [hs] at h
      have skip : meaning ignore tags conditional addrepl rtag = none →
          replaceLoop ignore tags conditional addrepl tag fuel v rplc (start + rtag.length + 2) = .ok (v', rplc') →
          (v' = v ∧ rplc' = rplc ∧ ∀ n, .tag n ∈ pieces (v.drop pos) → meaning ignore tags conditional addrepl n = none) ∨
          (budget K rplc' < budget K rplc) := by
        intro hm he
        rcases ih _ _ _ _ _ he with ⟨e1, e2, e3⟩ | e
        · refine Or.inl ⟨e1, e2, fun n hn => ?_⟩
          rw [h6] at hn
          rcases List.mem_append.1 hn with hn | hn
          · exact absurd hn (h5 n)
          · rcases List.mem_cons.1 hn with hn | hn
            · cases hn; exact hm
            · exact e3 n (by rw [h4]; exact hn)
        · exact Or.inr e
      by_cases hi : ignore rtag = true
      · rw [if_pos hi] at h
        exact skip (by rw [meaning_eq, if_pos hi]) h
      · rw [if_neg hi] at h
        by_cases h2 : rtag = tag ∨ maxReplace < (rplc.get? rtag).getD 1
        · rw [if_pos h2] at h; cases h
        · rw [if_neg h2] at h
          cases hr : repl tags conditional addrepl rtag with
          | none =>
            simp only [hr] at h
            exact skip (by rw [meaning_eq, if_neg hi, hr]) h
          | some r =>
            simp only [hr] at h
            have hin : rtag ∈ K := hK rtag (by rw [hr]; simp)
            have hlt := budget_insert K rplc rtag hin (fun e => h2 (Or.inr e))
            rcases ih _ _ _ _ _ h with ⟨_, e2, _⟩ | e
            · rw [e2]; exact Or.inr hlt
            · exact Or.inr (Nat.lt_trans e hlt)

/-- the inner loop on plain texts -/
theorem replaceLoop_plain {f : Text → Option Text} (hnone : ∀ n, meaning ignore tags conditional addrepl n = none → f n = none)
    (hsome : ∀ n r, meaning ignore tags conditional addrepl n = some r → Clean r ∧ ∃ r0, f n = some r0 ∧ Refines f r r0) (fuel : Nat) :
    ∀ (A B : List Piece) (rplc : Dict Text Nat) (v' : Text) (rplc' : Dict Text Nat), Good (A ++ B) → (∀ n, .tag n ∈ A → f n = none) →
    replaceLoop ignore tags conditional addrepl tag fuel (texts (A ++ B)) rplc (texts A).length = .ok (v', rplc') →
    Clean v' ∧ (∀ n, .tag n ∈ pieces v' → f n = none) ∧ Refines f v' (texts (A ++ B)) := by
  induction fuel with
  | zero => intro A B rplc v' rplc' _ _ h; cases h
  | succ fuel ih =>
    intro A B rplc v' rplc' hg hA h
    have hB := hg.right
    have hdrop : (texts (A ++ B)).drop (texts A).length = texts B := by rw [texts_append, List.drop_left]
    rw [replaceLoop] at h
    cases hs : search (texts (A ++ B)) (texts A).length with
    | none =>
      simp only [hs] at h
      cases h
      refine ⟨clean_texts hg, ?_, fun w hw => hw⟩
      intro n hn
      rw [pieces_texts hg] at hn
      rcases List.mem_append.1 hn with hn | hn
      · exact hA n hn
      · have := (search_none _ _).1 hs n
        rw [hdrop, pieces_texts hB] at this
        exact absurd hn this
    | some x =>
      obtain ⟨start, rtag⟩ := x
      simp only [hs] at h
      have hs' : firstTag (texts A).length B = some (start, rtag) := by
        have := hs
        unfold search at this
        rw [hdrop, pieces_texts hB] at this
        exact this
      obtain ⟨C, B', hB', hC, hst⟩ := firstTag_some hs'
      have hname : Name rtag := hB.2 rtag (by rw [hB']; simp)
      have skip : f rtag = none →
          replaceLoop ignore tags conditional addrepl tag fuel (texts (A ++ B)) rplc (start + rtag.length + 2) = .ok (v', rplc') →
          Clean v' ∧ (∀ n, .tag n ∈ pieces v' → f n = none) ∧ Refines f v' (texts (A ++ B)) := by
        intro hf he
        have e : A ++ B = (A ++ C ++ [.tag rtag]) ++ B' := by rw [hB']; simp
        rw [e] at he hg ⊢
        have hl : start + rtag.length + 2 = (texts (A ++ C ++ [.tag rtag])).length := by simp; omega
        rw [hl] at he
        refine ih _ _ _ _ _ hg ?_ he
        intro n hn
        simp only [List.mem_append, List.mem_singleton, Piece.tag.injEq] at hn
        rcases hn with (hn | hn) | hn
        · exact hA n hn
        · exact absurd hn (hC n)
        · rw [hn]; exact hf
      by_cases hi : ignore rtag = true
      · rw [if_pos hi] at h
        exact skip (hnone _ (by rw [meaning_eq, if_pos hi])) h
      · rw [if_neg hi] at h
        by_cases h2 : rtag = tag ∨ maxReplace < (rplc.get? rtag).getD 1
        · rw [if_pos h2] at h; cases h
        · rw [if_neg h2] at h
          cases hr : repl tags conditional addrepl rtag with
          | none =>
            simp only [hr] at h
            exact skip (hnone _ (by rw [meaning_eq, if_neg hi, hr])) h
          | some r =>
            simp only [hr] at h
            obtain ⟨hcr, r0, hf0, href⟩ := hsome rtag r (by rw [meaning_eq, if_neg hi, hr])
            let g : Text → Option Text := fun m => if m = rtag then some r else none
            have hgs : ∀ n x, g n = some x → n = rtag ∧ x = r := by
              intro n x hx
              by_cases e : n = rtag
              · simp [g, e] at hx; exact ⟨e, hx.symm⟩
              · simp [g, e] at hx
            have hAC : subPieces g (A ++ C) = A ++ C := by
              refine subPieces_id g _ ?_
              intro n hn
              have : n ≠ rtag := by
                intro e
                subst e
                rcases List.mem_append.1 hn with hn | hn
                · have := hA n hn; rw [hf0] at this; cases this
                · exact hC n hn
              simp [g, this]
            have hval : replaceAll rtag r (texts (A ++ B)) = texts ((A ++ C) ++ subPieces g (.tag rtag :: B')) := by
              show sub g _ = _
              rw [sub_eq, pieces_texts hg, show A ++ B = (A ++ C) ++ (.tag rtag :: B') by rw [hB']; simp, subPieces_append, hAC]
            have hsub : (A ++ C) ++ subPieces g (.tag rtag :: B') = subPieces g (A ++ B) := by
              rw [show A ++ B = (A ++ C) ++ (.tag rtag :: B') by rw [hB']; simp, subPieces_append, hAC]
            have hg2 : Good ((A ++ C) ++ subPieces g (.tag rtag :: B')) := by
              rw [hsub]
              refine good_subPieces g ?_ _ hg
              intro n x hx
              rw [(hgs n x hx).2]; exact hcr
            rw [hval] at h
            have hl : start = (texts (A ++ C)).length := by simp; omega
            rw [hl] at h
            obtain ⟨r1, r2, r3⟩ := ih _ _ _ _ _ hg2 (by
              intro n hn
              rcases List.mem_append.1 hn with hn | hn
              · exact hA n hn
              · exact absurd hn (hC n)) h
            refine ⟨r1, r2, fun w hw => ?_⟩
            have h3 := r3 w hw
            rw [hsub] at h3
            refine expands_subPieces g _ hg ?_ w h3
            intro n x hx
            obtain ⟨e1, e2⟩ := hgs n x hx
            rw [e1, e2]
            exact ⟨hcr, r0, hf0, href⟩

end Tags

end Verif
