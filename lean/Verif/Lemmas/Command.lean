import Verif.Model.Command
import Verif.Spec.Shell
import Verif.Lemmas.Tags

/-! # Lemmas on commands of actions -/

namespace Verif

namespace Command
open Tags Spec.Tags Spec.Shell

theorem special_iff (c : Char) : special c = true ↔ Special c := by
  have h : specialChars = "\\#&;`|*?~<>^()[]{}$'\"\n\r".toList := by decide +kernel
  unfold special Special
  rw [h, decide_eq_true_iff]

theorem hasSpecial_iff (v : Text) : hasSpecial v = true ↔ Dangerous v := by
  unfold hasSpecial Dangerous
  rw [List.any_eq_true]
  simp only [special_iff]

/-- names of the tags in pieces -/
def tagsOf (ps : List Piece) : List Text := ps.filterMap (fun p => match p with | .tag n => some n | .chr _ => none)

theorem mem_tagsOf (ps : List Piece) (n : Text) : n ∈ tagsOf ps ↔ Piece.tag n ∈ ps := by
  unfold tagsOf
  rw [List.mem_filterMap]
  constructor
  · rintro ⟨p, hp, h⟩
    cases p with
    | chr c => cases h
    | tag m => cases h; exact hp
  · intro h; exact ⟨_, h, rfl⟩

/-- text with each tag replaced -/
def fillPieces (sh : Text → Text) (ps : List Piece) : Text := ps.flatMap (fun p => match p with | .chr c => [c] | .tag n => sh n)

/-- variables of a list of pairs -/
def addVars (l : List (Text × Text)) (d : Dict Text Text) : Dict Text Text := l.foldl (fun d p => d.insert p.1 p.2) d

theorem addVars_append (a b : List (Text × Text)) (d : Dict Text Text) : addVars (a ++ b) d = addVars b (addVars a d) := by
  simp [addVars]

theorem subVars_eq (f : Dict Text Text → Text → Text × Dict Text Text) (sh : Text → Text) (e : Text → Option (Text × Text))
    (hf : ∀ vars n, f vars n = (sh n, addVars (e n).toList vars)) (ps : List Piece) :
    ∀ vars, subVars f ps vars = (fillPieces sh ps, addVars ((tagsOf ps).filterMap e) vars) := by
  induction ps with
  | nil => intro vars; rfl
  | cons p ps ih =>
    intro vars
    cases p with
    | chr c =>
      rw [subVars, ih]
      rfl
    | tag n =>
      rw [subVars, hf]
      dsimp only
      rw [ih]
      have e1 : tagsOf (.tag n :: ps) = n :: tagsOf ps := rfl
      rw [e1]
      refine Prod.ext rfl ?_
      dsimp only
      cases he : e n with
      | none => simp [he, addVars]
      | some p => simp [he, addVars]

variable (word : Char → Bool) (h : Hosts) (info : Info)

/-- what `escapeVal` shows and keeps -/
def shownVal (k v : Text) : Text := if hasSpecial v then '$' :: varName word k else v
def keptVal (k v : Text) : Option (Text × Text) := if hasSpecial v then some (varName word k, v) else none

theorem escapeVal_eq (vars : Dict Text Text) (k v : Text) :
    escapeVal word vars k v = (shownVal word k v, addVars (keptVal word k v).toList vars) := by
  unfold escapeVal shownVal keptVal
  split <;> rfl

def shown1 (n : Text) : Text :=
  match info.get n with
  | some v => shownVal word n v
  | none => (addRepl h n).getD ('<' :: (n ++ ['>']))

def kept1 (n : Text) : Option (Text × Text) := (info.get n).bind (keptVal word n)

def shown2 (n : Text) : Text :=
  match fTag n with
  | none => '<' :: (n ++ ['>'])
  | some m =>
    match info.data (mapTag2Opt m) with
    | some v => shownVal word ('F' :: '_' :: mapTag2Opt m) v
    | none => []

def kept2 (n : Text) : Option (Text × Text) :=
  (fTag n).bind (fun m => (info.data (mapTag2Opt m)).bind (keptVal word ('F' :: '_' :: mapTag2Opt m)))

theorem dynTag_eq (vars : Dict Text Text) (n : Text) :
    dynTag word h info vars n = (shown1 word h info n, addVars (kept1 word info n).toList vars) := by
  unfold dynTag shown1 kept1
  cases info.get n with
  | some v => exact escapeVal_eq word vars n v
  | none => rfl

theorem fCusTag_eq (vars : Dict Text Text) (n : Text) :
    fCusTag word info vars n = (shown2 word info n, addVars (kept2 word info n).toList vars) := by
  unfold fCusTag shown2 kept2
  cases fTag n with
  | none => rfl
  | some m =>
    dsimp only
    simp only [Option.bind_some]
    cases info.data (mapTag2Opt m) with
    | some v => exact escapeVal_eq word vars _ v
    | none => rfl

theorem pieces_of_no_lt {s : Text} (hs : '<' ∉ s) : pieces s = s.map .chr := by
  induction s with
  | nil => rfl
  | cons c s ih =>
    simp at hs
    unfold pieces
    rw [go, if_neg (fun e => hs.1 e.symm)]
    have := ih hs.2
    unfold pieces at this
    rw [this]
    rfl

theorem fillPieces_chr (sh : Text → Text) (s : Text) : fillPieces sh (s.map .chr) = s := by
  induction s with
  | nil => rfl
  | cons c s ih => exact congrArg (c :: ·) ih

theorem tagsOf_chr (s : Text) : tagsOf (s.map .chr) = [] := by
  induction s with
  | nil => rfl
  | cons c s ih => exact ih

/-- text after the first substitution -/
def text1 (t : Text) : Text := fillPieces (shown1 word h info) (pieces t)

theorem dynText_eq (t : Text) : dynText word h t info =
    (fillPieces (shown2 word info) (pieces (text1 word h info t)),
     addVars ((tagsOf (pieces t)).filterMap (kept1 word info) ++ (tagsOf (pieces (text1 word h info t))).filterMap (kept2 word info)) Dict.empty) := by
  unfold dynText
  rw [subVars_eq _ _ _ (dynTag_eq word h info)]
  dsimp only
  split
  · rw [subVars_eq _ _ _ (fCusTag_eq word info), addVars_append]
    rfl
  · rename_i hlt
    have : pieces (text1 word h info t) = (text1 word h info t).map .chr := pieces_of_no_lt hlt
    rw [this, fillPieces_chr, tagsOf_chr, List.filterMap_nil, List.append_nil]
    rfl

/-! ### keys of the variables -/

theorem keys_insert (d : Dict Text Text) (k v : Text) : (d.insert k v).keys = if k ∈ d.keys then d.keys else d.keys ++ [k] := by
  have := Dict.keys_put k v d.items
  by_cases hk : k ∈ d.keys
  · rw [if_pos hk]; rw [if_pos (show k ∈ d.items.map Prod.fst from hk)] at this; exact this
  · rw [if_neg hk]; rw [if_neg (show ¬ k ∈ d.items.map Prod.fst from hk)] at this; exact this

theorem addVars_keys (l l' : List (Text × Text)) (hl : l.map Prod.fst = l'.map Prod.fst) : ∀ (d d' : Dict Text Text), d.keys = d'.keys →
    (addVars l d).keys = (addVars l' d').keys := by
  induction l generalizing l' with
  | nil =>
    intro d d' hd
    cases l' with
    | nil => exact hd
    | cons p l' => simp at hl
  | cons p l ih =>
    intro d d' hd
    cases l' with
    | nil => simp at hl
    | cons p' l' =>
      simp at hl
      refine ih l' hl.2 _ _ ?_
      show (d.insert p.1 p.2).keys = (d'.insert p'.1 p'.2).keys
      rw [keys_insert, keys_insert, hd, hl.1]

theorem addVars_get? (l : List (Text × Text)) : ∀ (d : Dict Text Text) (x v : Text), (addVars l d).get? x = some v → (x, v) ∈ l ∨ d.get? x = some v := by
  induction l with
  | nil => intro d x v h; exact Or.inr h
  | cons p l ih =>
    intro d x v h
    rcases ih (d.insert p.1 p.2) x v h with h | h
    · exact Or.inl (by simp [h])
    · by_cases e : x = p.1
      · subst e
        rw [Dict.get?_insert_self] at h
        cases h
        exact Or.inl (by simp)
      · rw [Dict.get?_insert_ne _ e] at h
        exact Or.inr h

theorem addVars_isSome (l : List (Text × Text)) : ∀ (d : Dict Text Text) (x : Text), (x ∈ l.map Prod.fst ∨ (d.get? x).isSome) →
    ((addVars l d).get? x).isSome := by
  induction l with
  | nil => intro d x h; rcases h with h | h
           · simp at h
           · exact h
  | cons p l ih =>
    intro d x h
    refine ih _ x ?_
    by_cases e : x = p.1
    · subst e; right; rw [Dict.get?_insert_self]; rfl
    · rcases h with h | h
      · left
        simp only [List.map_cons, List.mem_cons] at h
        rcases h with h | h
        · exact absurd h e
        · exact h
      · right; rw [Dict.get?_insert_ne _ e]; exact h

/-! ### characters of names -/

/-- `\w` in the ASCII range: letters, digits, underscore -/
def AsciiWord (word : Char → Bool) : Prop := ∀ c, word c = true → c.toNat < 128 → ident c = true

theorem ident_not_special {c : Char} (hc : ident c = true) : ¬ Special c := by
  intro hs
  have : ∀ c ∈ "\\#&;`|*?~<>^()[]{}$'\"\n\r".toList, ident c = false := by decide +kernel
  rw [this c hs] at hc
  cases hc

theorem special_ascii {c : Char} (hs : Special c) : c.toNat < 128 := by
  have : ∀ c ∈ "\\#&;`|*?~<>^()[]{}$'\"\n\r".toList, c.toNat < 128 := by decide +kernel
  exact this c hs

theorem word_not_special {word : Char → Bool} (hw : AsciiWord word) {c : Char} (hc : word c = true) : ¬ Special c :=
  fun hs => ident_not_special (hw c hc (special_ascii hs)) hs

theorem varName_not_special {word : Char → Bool} (hw : AsciiWord word) (k : Text) : ∀ c ∈ varName word k, ¬ Special c := by
  intro c hc
  unfold varName at hc
  rcases List.mem_append.1 hc with hc | hc
  · have : ∀ c ∈ "f2bV_".toList, ¬ Special c := by decide +kernel
    exact this c hc
  · obtain ⟨d, hd, rfl⟩ := List.mem_map.1 hc
    split
    · rename_i e; exact word_not_special hw e
    · decide +kernel

theorem varName_ident {word : Char → Bool} (hw : AsciiWord word) (k : Text) (hk : ∀ c ∈ k, c.toNat < 128) : ∀ c ∈ varName word k, ident c = true := by
  intro c hc
  unfold varName at hc
  rcases List.mem_append.1 hc with hc | hc
  · have : ∀ c ∈ "f2bV_".toList, ident c = true := by decide +kernel
    exact this c hc
  · obtain ⟨d, hd, rfl⟩ := List.mem_map.1 hc
    split
    · rename_i e; exact hw d e (hk d hd)
    · decide +kernel

theorem varName_ne (word : Char → Bool) (k : Text) : varName word k ≠ [] := by
  intro e
  have := congrArg List.length e
  simp [varName] at this

theorem digits_digit (i : Nat) : ∀ c ∈ digits i, c.isDigit = true := by
  intro c hc
  unfold digits at hc
  have : (toString i).toList = Nat.toDigits 10 i := by
    show (Nat.repr i).toList = _
    simp [Nat.repr]
  rw [this] at hc
  exact Nat.isDigit_of_mem_toDigits (by decide) (by decide) hc

theorem isDigit_not_special {c : Char} (hc : c.isDigit = true) : ¬ Special c := by
  intro hs
  have : ∀ c ∈ "\\#&;`|*?~<>^()[]{}$'\"\n\r".toList, c.isDigit = false := by decide +kernel
  rw [this c hs] at hc
  cases hc

/-! ### the shell -/

theorem digits_small (i : Nat) (hi : i < 10) : ∃ c, digits i = [c] ∧ digit c = some i := by
  have : ∀ i : Fin 10, ∃ c ∈ "0123456789".toList, digits i = [c] ∧ digit c = some i.val := by decide +kernel
  obtain ⟨c, _, h⟩ := this ⟨i, hi⟩
  exact ⟨c, h⟩

theorem assign_name (args : List Text) (k : Text) (hk : ∀ c ∈ k, c ≠ ' ' ∧ c ≠ '=') : ∀ (nm r : Text),
    assign args (.name nm) (k ++ '=' :: r) = assign args (.value (nm ++ k) []) r := by
  induction k with
  | nil => intro nm r; simp [assign]
  | cons c k ih =>
    intro nm r
    have hc := hk c (by simp)
    rw [List.cons_append, assign, if_neg hc.1, if_neg hc.2, ih (fun c hc => hk c (by simp [hc]))]
    simp

theorem assign_header (args : List Text) (ks : List Text) : ∀ (i : Nat), i + ks.length ≤ 10 → (∀ k ∈ ks, ∀ c ∈ k, c ≠ ' ' ∧ c ≠ '=') →
    assign args (.name []) (varsStat i ks) = ks.zip ((List.range' i ks.length).map (fun j => args.getD j [])) := by
  induction ks with
  | nil => intro i _ _; rfl
  | cons k ks ih =>
    intro i hi hk
    rw [varsStat, assign_name args k (hk k (by simp))]
    obtain ⟨c, hc, hd⟩ := digits_small i (by simp at hi; omega)
    rw [hc]
    simp only [List.nil_append, List.cons_append]
    rw [assign, if_neg (by decide), if_pos rfl, assign, hd]
    dsimp only
    rw [assign, if_pos rfl]
    rw [ih (i + 1) (by simp at hi; omega) (fun k hk' => hk k (by simp [hk']))]
    simp [List.range'_succ]

theorem range'_getD (args : List Text) : (List.range' 0 args.length).map (fun j => args.getD j []) = args := by
  apply List.ext_getElem
  · simp
  · intro i h1 h2
    simp
    rw [List.getElem?_eq_getElem h2]
    rfl

theorem envOf_zip (ks vs : List Text) (d : Dict Text Text) (hd : d.items = ks.zip vs) (k v : Text)
    (hk : d.get? k = some v) : envOf (ks.zip vs) k = v := by
  rw [Dict.get?_eq_some_iff, hd] at hk
  unfold envOf
  have hmem : (k, v) ∈ (ks.zip vs).reverse := by simp [hk]
  have hu : ∀ p ∈ (ks.zip vs).reverse, p.1 = k → p = (k, v) := by
    intro p hp e
    have hp' : p ∈ d.items := by rw [hd]; simpa using hp
    have hk' : (k, v) ∈ d.items := by rw [hd]; exact hk
    have h1 := (Dict.get?_eq_some_iff d p.1 p.2).2 hp'
    have h2 := (Dict.get?_eq_some_iff d k v).2 hk'
    rw [e, h2] at h1
    cases p
    simp at e h1
    rw [e, h1]
  cases hf : (ks.zip vs).reverse.find? (fun p => p.1 = k) with
  | none =>
    have := List.find?_eq_none.1 hf (k, v) hmem
    simp at this
  | some p =>
    have h1 := List.mem_of_find?_eq_some hf
    have h2 := List.find?_some hf
    rw [hu p h1 (by simpa using h2)]
    rfl

theorem expand_plain (env : Text → Text) (v r : Text) (hv : '$' ∉ v) : expand env none (v ++ r) = v ++ expand env none r := by
  induction v with
  | nil => rfl
  | cons c v ih =>
    simp at hv
    rw [List.cons_append, expand, if_neg (fun e => hv.1 e.symm), ih hv.2]
    rfl

theorem expand_name (env : Text → Text) (nm r : Text) (hn : ∀ c ∈ nm, ident c = true) (hr : ∀ c r', r = c :: r' → ident c = false) :
    ∀ m, (m ≠ [] ∨ nm ≠ []) → expand env (some m) (nm ++ r) = env (m.reverse ++ nm) ++ expand env none r := by
  induction nm with
  | nil =>
    intro m hm
    have hm : m ≠ [] := by
      rcases hm with hm | hm
      · exact hm
      · exact absurd rfl hm
    have hrev : m.reverse ≠ [] := by simpa using hm
    cases r with
    | nil => simp [expand, refer, hm]
    | cons c r =>
      have hc := hr c r rfl
      have hc' : ¬ ident c = true := by rw [hc]; simp
      rw [List.nil_append, List.append_nil]
      have e1 : expand env (some m) (c :: r) = if ident c then expand env (some (c :: m)) r
        else if c = '$' then refer env m.reverse ++ expand env (some []) r else refer env m.reverse ++ c :: expand env none r := rfl
      have e2 : expand env none (c :: r) = if c = '$' then expand env (some []) r else c :: expand env none r := rfl
      rw [e1, e2, if_neg hc']
      by_cases e : c = '$'
      · rw [if_pos e, if_pos e, refer, if_neg hrev]
      · rw [if_neg e, if_neg e, refer, if_neg hrev]
  | cons c nm ih =>
    intro m _
    rw [List.cons_append, expand, if_pos (hn c (by simp)), ih (fun c hc => hn c (by simp [hc])) (c :: m) (Or.inl (by simp))]
    simp

theorem expand_var (env : Text → Text) (nm r : Text) (hn : ∀ c ∈ nm, ident c = true) (h0 : nm ≠ []) (hr : ∀ c r', r = c :: r' → ident c = false) :
    expand env none ('$' :: (nm ++ r)) = env nm ++ expand env none r := by
  rw [expand, if_pos rfl, expand_name env nm r hn hr [] (Or.inr h0)]
  rfl

end Command

end Verif
