import Verif.Lemmas.Command

/-!
# C40 — values of a ban in the commands of an action

Values come from log lines, i.e. from an attacker. `Spec.Shell` says which characters are special and what a shell makes of a command as
far as variables are concerned.
-/

namespace Verif

open Tags Command Spec.Tags Spec.Shell

/-- The same value, or two values that both have special characters. -/
def Spec.Shell.Alike (a b : Option Text) : Prop :=
  a = b ∨ ∃ v v', a = some v ∧ b = some v' ∧ Dangerous v ∧ Dangerous v'

namespace Command

variable {word : Char → Bool} {h : Hosts} {info info' : Info}

theorem shownVal_alike {a b : Option Text} (hab : Alike a b) (k : Text) (f : Option Text → Option Text)
    (hf : ∀ o, f o = o.map (shownVal word k)) : f a = f b := by
  rw [hf, hf]
  rcases hab with e | ⟨v, v', rfl, rfl, h1, h2⟩
  · rw [e]
  · simp [shownVal, (hasSpecial_iff v).2 h1, (hasSpecial_iff v').2 h2]

theorem keptVal_alike {a b : Option Text} (hab : Alike a b) (k : Text) :
    (a.bind (keptVal word k)).map Prod.fst = (b.bind (keptVal word k)).map Prod.fst := by
  rcases hab with e | ⟨v, v', rfl, rfl, h1, h2⟩
  · rw [e]
  · simp [keptVal, (hasSpecial_iff v).2 h1, (hasSpecial_iff v').2 h2]

theorem shown1_alike (hg : ∀ n, Alike (info.get n) (info'.get n)) : shown1 word h info = shown1 word h info' := by
  funext n
  have := shownVal_alike (word := word) (hg n) n (fun o => o.map (shownVal word n)) (fun _ => rfl)
  unfold shown1
  cases h1 : info.get n <;> cases h2 : info'.get n <;> simp [h1, h2] at this ⊢
  exact this

theorem shown2_alike (hd : ∀ n, Alike (info.data n) (info'.data n)) : shown2 word info = shown2 word info' := by
  funext n
  unfold shown2
  cases fTag n with
  | none => rfl
  | some m =>
    dsimp only
    have := shownVal_alike (word := word) (hd (mapTag2Opt m)) ('F' :: '_' :: mapTag2Opt m) (fun o => o.map (shownVal word ('F' :: '_' :: mapTag2Opt m))) (fun _ => rfl)
    cases h1 : info.data (mapTag2Opt m) <;> cases h2 : info'.data (mapTag2Opt m) <;> simp [h1, h2] at this ⊢
    exact this

theorem filterMap_fst (l : List Text) (e e' : Text → Option (Text × Text)) (hee : ∀ n, (e n).map Prod.fst = (e' n).map Prod.fst) :
    (l.filterMap e).map Prod.fst = (l.filterMap e').map Prod.fst := by
  induction l with
  | nil => rfl
  | cons n l ih =>
    have := hee n
    cases h1 : e n <;> cases h2 : e' n <;> simp [h1, h2] at this ⊢
    · exact ih
    · exact ⟨this, ih⟩

end Command

variable {word : Char → Bool} {h : Hosts}

/-- C40: the text of a command does not depend on values with special characters: if these are replaced by other ones with special
characters, the text is the same, as is the number of arguments. For all templates, values and further text. -/
theorem C40_noninterference (template : Text) (info info' : Info) (hg : ∀ n, Alike (info.get n) (info'.get n))
    (hd : ∀ n, Alike (info.data n) (info'.data n)) :
    (replaceDynamicTags word h template info').text = (replaceDynamicTags word h template info).text ∧
    (replaceDynamicTags word h template info').args.length = (replaceDynamicTags word h template info).args.length := by
  have e1 := shown1_alike (word := word) (h := h) hg
  have e2 := shown2_alike (word := word) hd
  have et : text1 word h info template = text1 word h info' template := by unfold text1; rw [e1]
  have ek1 : ∀ n, (kept1 word info n).map Prod.fst = (kept1 word info' n).map Prod.fst := fun n => keptVal_alike (hg n) n
  have ek2 : ∀ n, (kept2 word info n).map Prod.fst = (kept2 word info' n).map Prod.fst := by
    intro n
    unfold kept2
    cases fTag n with
    | none => rfl
    | some m => exact keptVal_alike (hd (mapTag2Opt m)) _
  have t1 : (dynText word h template info).1 = (dynText word h template info').1 := by
    rw [dynText_eq, dynText_eq]
    dsimp only
    rw [et, e2]
  have t2 : (dynText word h template info).2.keys = (dynText word h template info').2.keys := by
    rw [dynText_eq, dynText_eq]
    dsimp only
    refine addVars_keys _ _ ?_ _ _ rfl
    rw [List.map_append, List.map_append, et, filterMap_fst _ _ _ ek1, filterMap_fst _ _ _ ek2]
  have hs : (dynText word h template info).2.size = (dynText word h template info').2.size := by
    rw [Dict.size_eq_keys_length, Dict.size_eq_keys_length, t2]
  unfold replaceDynamicTags
  dsimp only
  rw [← t1, ← hs]
  split
  · exact ⟨rfl, rfl⟩
  · refine ⟨by simp only [buildShellCmd, t2], ?_⟩
    simp only [buildShellCmd, Dict.values, List.length_map]
    exact hs.symm

/-! ### no special characters from values -/

namespace Command

theorem count_zero {c : Char} {v : Text} (hv : ∀ d ∈ v, d ≠ c) : v.count c = 0 := by
  rw [List.count_eq_zero]
  intro hm
  exact hv c hm rfl

theorem shownVal_count {word : Char → Bool} (hw : AsciiWord word) {c : Char} (hc : Special c) (h1 : c ≠ '$') (k v : Text) :
    (shownVal word k v).count c = 0 := by
  unfold shownVal
  split
  · refine count_zero ?_
    intro d hd e
    subst e
    rcases List.mem_cons.1 hd with e | e
    · exact h1 e
    · exact varName_not_special hw k d e hc
  · rename_i hns
    refine count_zero ?_
    intro d hd e
    subst e
    exact hns ((hasSpecial_iff v).2 ⟨d, hd, hc⟩)

theorem fill_count {c : Char} (sh : Text → Text) (ps : List Piece) (hsh : ∀ n, (sh n).count c ≤ ('<' :: (n ++ ['>'])).count c) :
    (fillPieces sh ps).count c ≤ (texts ps).count c := by
  induction ps with
  | nil => exact Nat.le_refl _
  | cons p ps ih =>
    cases p with
    | chr d =>
      rw [texts_chr]
      show (d :: fillPieces sh ps).count c ≤ _
      rw [List.count_cons, List.count_cons]
      omega
    | tag n =>
      have e : texts (.tag n :: ps) = ('<' :: (n ++ ['>'])) ++ texts ps := by simp
      rw [e, List.count_append]
      show (sh n ++ fillPieces sh ps).count c ≤ _
      rw [List.count_append]
      have := hsh n
      omega

theorem varsStat_count {c : Char} (hc : Special c) (h1 : c ≠ '$') (ks : List Text) (hk : ∀ k ∈ ks, ∀ d ∈ k, ¬ Special d) :
    ∀ i, (varsStat i ks).count c = 0 := by
  induction ks with
  | nil => intro i; rfl
  | cons k ks ih =>
    intro i
    rw [varsStat, List.count_append, List.count_cons, List.count_cons, List.count_append, List.count_cons, ih (fun k hk' => hk k (by simp [hk']))]
    have e1 : k.count c = 0 := count_zero (fun d hd e => hk k (by simp) d hd (by rw [e]; exact hc))
    have e2 : (digits i).count c = 0 := count_zero (fun d hd e => isDigit_not_special (digits_digit i d hd) (by rw [e]; exact hc))
    have n1 : ('=' == c) = false := by
      rw [beq_eq_false_iff_ne]; intro e; subst e; revert hc; decide
    have n2 : ('$' == c) = false := by
      rw [beq_eq_false_iff_ne]; intro e; exact h1 e.symm
    have n3 : (' ' == c) = false := by
      rw [beq_eq_false_iff_ne]; intro e; subst e; revert hc; decide
    simp [e1, e2, n1, n2, n3]

end Command

/-- C40: no value brings a special character into the text of a command: apart from `$` (of variables) and line ends (one behind the
assignments, and of `<br>`), each special character occurs at most as often as in the template. -/
theorem C40_no_new_special (hw : AsciiWord word) (template : Text) (info : Info) (c : Char) (hc : Special c) (h1 : c ≠ '$') (h2 : c ≠ '\n')
    (hfq : c ∉ h.fq) (hsh : c ∉ h.sh) : (replaceDynamicTags word h template info).text.count c ≤ template.count c := by
  have s1 : ∀ n, (shown1 word h info n).count c ≤ ('<' :: (n ++ ['>'])).count c := by
    intro n
    unfold shown1
    cases info.get n with
    | some v => rw [shownVal_count hw hc h1]; omega
    | none =>
      dsimp only
      unfold addRepl
      have hsp : (' ' == c) = false := by rw [beq_eq_false_iff_ne]; intro e; subst e; revert hc; decide
      have hnl : ('\n' == c) = false := by rw [beq_eq_false_iff_ne]; exact fun e => h2 e.symm
      split
      · simp [hnl, List.count_cons]
      · split
        · simp [hsp, List.count_cons]
        · split
          · simp [List.count_eq_zero.2 hfq]
          · split
            · simp [List.count_eq_zero.2 hsh]
            · exact Nat.le_refl _
  have s2 : ∀ n, (shown2 word info n).count c ≤ ('<' :: (n ++ ['>'])).count c := by
    intro n
    unfold shown2
    cases fTag n with
    | none => exact Nat.le_refl _
    | some m =>
      dsimp only
      cases info.data (mapTag2Opt m) with
      | some v => dsimp only; rw [shownVal_count hw hc h1]; omega
      | none => simp
  have ht : (dynText word h template info).1.count c ≤ template.count c := by
    rw [dynText_eq]
    have a := fill_count (c := c) _ (pieces (text1 word h info template)) s2
    have b := fill_count (c := c) _ (pieces template) s1
    rw [texts_pieces] at a b
    exact Nat.le_trans a b
  have hk : ∀ k ∈ (dynText word h template info).2.keys, ∀ d ∈ k, ¬ Special d := by
    intro k hk
    obtain ⟨v, hv⟩ := (Dict.mem_keys_iff _ _).1 hk
    rw [dynText_eq] at hv
    have kv : ∀ x k v w, keptVal word x w = some (k, v) → ∀ d ∈ k, ¬ Special d := by
      intro x k v w e
      unfold keptVal at e
      split at e
      · cases e; exact varName_not_special hw x
      · cases e
    rcases addVars_get? _ _ _ _ hv with hm | hm
    · rcases List.mem_append.1 hm with hm | hm
      · obtain ⟨n, _, hn⟩ := List.mem_filterMap.1 hm
        unfold kept1 at hn
        cases hg : info.get n with
        | none => rw [hg] at hn; cases hn
        | some w => rw [hg] at hn; exact kv n k v w hn
      · obtain ⟨n, _, hn⟩ := List.mem_filterMap.1 hm
        unfold kept2 at hn
        cases hf : fTag n with
        | none => rw [hf] at hn; cases hn
        | some m =>
          rw [hf] at hn
          simp only [Option.bind_some] at hn
          cases hg : info.data (mapTag2Opt m) with
          | none => rw [hg] at hn; cases hn
          | some w => rw [hg] at hn; exact kv _ k v w hn
    · cases hm
  unfold replaceDynamicTags
  dsimp only
  split
  · exact ht
  · simp only [buildShellCmd]
    rw [List.count_append, varsStat_count hc h1 _ hk, List.count_cons]
    have : ('\n' == c) = false := by rw [beq_eq_false_iff_ne]; exact fun e => h2 e.symm
    simp [this]
    exact ht

/-- C40: `escapeTag` puts a backslash before each special character, and nothing is lost. -/
theorem C40_escape (v : Text) : unescape (escapeTag v) = some v := by
  induction v with
  | nil => rfl
  | cons c v ih =>
    show unescape (escapeChar c ++ escapeTag v) = _
    unfold escapeChar
    by_cases hs : special c = true
    · rw [if_pos hs]
      by_cases h1 : c = '\n'
      · subst h1; simp [unescape, ih]
      · by_cases h2 : c = '\r'
        · subst h2; simp [unescape, ih]
        · have hn : c ≠ 'n' := by intro e; subst e; revert hs; decide
          have hr : c ≠ 'r' := by intro e; subst e; revert hs; decide
          simp only [if_neg h1, if_neg h2, List.cons_append, List.nil_append]
          rw [unescape]
          · rw [if_pos ⟨(special_iff c).1 hs, h1, h2⟩, ih]; rfl
          · intro e; exact hn e
          · intro e; exact hr e
    · rw [if_neg hs]
      have hs' : ¬ Special c := fun e => hs ((special_iff c).2 e)
      have hb : c ≠ '\\' := by intro e; subst e; exact hs (by decide)
      rw [List.cons_append, List.nil_append, unescape]
      · rw [if_neg hs', ih]; rfl
      · intro r e; exact absurd e hb
      · intro r e; exact absurd e hb
      · intro d r e; exact absurd e hb

/-! ### what the shell makes of it -/

/-- The value a tag is replaced by: of the ban, else a fixed one, else what the filter captured (`<F-NAME>`, empty if it did not), else
the tag itself. -/
def Spec.Shell.valueOf (h : Hosts) (info : Info) (n : Text) : Text :=
  match info.get n with
  | some v => v
  | none =>
    match addRepl h n with
    | some x => x
    | none =>
      match fTag n with
      | some m => (info.data (mapTag2Opt m)).getD []
      | none => '<' :: (n ++ ['>'])

/-- Name (for its variable) and value of a tag with a value of the ban or the filter. -/
def Spec.Shell.dynamic (h : Hosts) (info : Info) (n : Text) : Option (Text × Text) :=
  match info.get n with
  | some v => some (n, v)
  | none =>
    if (addRepl h n).isSome then none
    else
      match fTag n with
      | some m => (info.data (mapTag2Opt m)).map (fun v => ('F' :: '_' :: mapTag2Opt m, v))
      | none => none

namespace Command

variable (word : Char → Bool) (h : Hosts) (info : Info)

/-- the tag is kept by the first substitution -/
def keptTag (n : Text) : Bool := (info.get n).isNone && (addRepl h n).isNone

/-- pieces after the first substitution -/
def pieces1 (ps : List Piece) : List Piece :=
  ps.flatMap (fun p =>
    match p with
    | .chr c => [.chr c]
    | .tag n => if keptTag h info n then [.tag n] else (shown1 word h info n).map .chr)

theorem pieces1_cons_chr (c : Char) (ps : List Piece) : pieces1 word h info (.chr c :: ps) = .chr c :: pieces1 word h info ps := rfl
theorem pieces1_cons_tag (n : Text) (ps : List Piece) : pieces1 word h info (.tag n :: ps) =
    (if keptTag h info n then [.tag n] else (shown1 word h info n).map .chr) ++ pieces1 word h info ps := rfl

theorem shown1_kept {n : Text} (hk : keptTag h info n = true) : shown1 word h info n = '<' :: (n ++ ['>']) := by
  unfold keptTag at hk
  rw [Bool.and_eq_true] at hk
  unfold shown1
  cases h1 : info.get n with
  | some v => rw [h1] at hk; simp at hk
  | none =>
    cases h2 : addRepl h n with
    | some v => rw [h2] at hk; simp at hk
    | none => rfl

theorem texts_pieces1 (ps : List Piece) : texts (pieces1 word h info ps) = fillPieces (shown1 word h info) ps := by
  induction ps with
  | nil => rfl
  | cons p ps ih =>
    cases p with
    | chr c => rw [pieces1_cons_chr, texts_chr, ih]; rfl
    | tag n =>
      rw [pieces1_cons_tag, texts_append, ih]
      show _ = shown1 word h info n ++ fillPieces (shown1 word h info) ps
      congr 1
      split
      · rename_i hk; rw [shown1_kept word h info hk]; simp
      · simp

theorem addRepl_no (c : Char) (h0 : c ≠ '\n' ∧ c ≠ ' ') (hfq : c ∉ h.fq) (hsh : c ∉ h.sh) (n x : Text) (hx : addRepl h n = some x) : c ∉ x := by
  unfold addRepl at hx
  split at hx
  · cases hx; simp [h0.1]
  · split at hx
    · cases hx; simp [h0.2]
    · split at hx
      · cases hx; exact hfq
      · split at hx
        · cases hx; exact hsh
        · cases hx

theorem shownVal_no_lt {word : Char → Bool} (hw : AsciiWord word) (k v : Text) : '<' ∉ shownVal word k v := by
  have := shownVal_count hw (c := '<') (by decide) (by decide) k v
  exact List.count_eq_zero.1 this

theorem shown1_no_lt (hw : AsciiWord word) (hfq : '<' ∉ h.fq) (hsh : '<' ∉ h.sh) {n : Text} (hk : keptTag h info n = false) :
    '<' ∉ shown1 word h info n := by
  unfold shown1
  cases h1 : info.get n with
  | some v => exact shownVal_no_lt hw n v
  | none =>
    cases h2 : addRepl h n with
    | some x => exact addRepl_no h '<' (by decide) hfq hsh n x h2
    | none => simp [keptTag, h1, h2] at hk

theorem good_pieces1 (hw : AsciiWord word) (hfq : '<' ∉ h.fq) (hsh : '<' ∉ h.sh) (ps : List Piece) (hg : Good ps) : Good (pieces1 word h info ps) := by
  induction ps with
  | nil => exact hg
  | cons p ps ih =>
    have ih := ih (Good.right (a := [p]) hg)
    cases p with
    | chr c =>
      rw [pieces1_cons_chr]
      exact Good.append (a := [Piece.chr c]) (Good.left (b := ps) hg) ih
    | tag n =>
      rw [pieces1_cons_tag]
      refine Good.append ?_ ih
      split
      · exact Good.left (b := ps) hg
      · rename_i hk
        have := shown1_no_lt word h info hw hfq hsh (n := n) (by simpa using hk)
        refine ⟨fun hm => ?_, fun m hm => ?_⟩
        · obtain ⟨d, hd, e⟩ := List.mem_map.1 hm
          cases e
          exact this hd
        · obtain ⟨d, _, e⟩ := List.mem_map.1 hm
          cases e

/-- what is shown for a tag in the end -/
def shownAll (n : Text) : Text := if keptTag h info n then shown2 word info n else shown1 word h info n

theorem fill_pieces1 (ps : List Piece) : fillPieces (shown2 word info) (pieces1 word h info ps) = fillPieces (shownAll word h info) ps := by
  induction ps with
  | nil => rfl
  | cons p ps ih =>
    have happ : ∀ a b, fillPieces (shown2 word info) (a ++ b) = fillPieces (shown2 word info) a ++ fillPieces (shown2 word info) b := by
      intro a b; simp [fillPieces]
    cases p with
    | chr c => rw [pieces1_cons_chr]; exact congrArg (c :: ·) ih
    | tag n =>
      rw [pieces1_cons_tag, happ, ih]
      show _ = shownAll word h info n ++ fillPieces (shownAll word h info) ps
      congr 1
      unfold shownAll
      split
      · simp [fillPieces]
      · exact fillPieces_chr _ _

theorem mem_pieces1 (ps : List Piece) (n : Text) : .tag n ∈ pieces1 word h info ps ↔ .tag n ∈ ps ∧ keptTag h info n = true := by
  unfold pieces1
  rw [List.mem_flatMap]
  constructor
  · rintro ⟨p, hp, hm⟩
    cases p with
    | chr c => simp at hm
    | tag m =>
      dsimp only at hm
      split at hm
      · rename_i hk
        simp at hm
        subst hm
        exact ⟨hp, hk⟩
      · simp at hm
  · rintro ⟨hp, hk⟩
    exact ⟨_, hp, by dsimp only; rw [if_pos hk]; simp⟩

theorem addVars_size (l : List (Text × Text)) : ∀ (d : Dict Text Text), (addVars l d).size ≤ d.size + l.length := by
  induction l with
  | nil => intro d; exact Nat.le_refl _
  | cons p l ih =>
    intro d
    have h1 := ih (d.insert p.1 p.2)
    have h2 : (d.insert p.1 p.2).size ≤ d.size + 1 := by
      rw [Dict.size_eq_keys_length, Dict.size_eq_keys_length, keys_insert]
      split
      · omega
      · simp
    show (addVars l (d.insert p.1 p.2)).size ≤ _
    simp only [List.length_cons]
    omega

theorem vars_le (ps : List Piece) : ((tagsOf ps).filterMap (kept1 word info)).length + ((tagsOf (pieces1 word h info ps)).filterMap (kept2 word info)).length
    ≤ (tagsOf ps).length := by
  induction ps with
  | nil => exact Nat.le_refl _
  | cons p ps ih =>
    have happ : ∀ a b, tagsOf (a ++ b) = tagsOf a ++ tagsOf b := by intro a b; simp [tagsOf]
    cases p with
    | chr c => exact ih
    | tag n =>
      rw [pieces1_cons_tag, happ, List.filterMap_append, List.length_append]
      have e : tagsOf (.tag n :: ps) = n :: tagsOf ps := rfl
      rw [e, List.length_cons]
      split
      · rename_i hk
        have hn : kept1 word info n = none := by
          unfold keptTag at hk
          rw [Bool.and_eq_true, Option.isNone_iff_eq_none] at hk
          unfold kept1
          rw [hk.1]
          rfl
        rw [List.filterMap_cons_none hn]
        have : ((tagsOf [Piece.tag n]).filterMap (kept2 word info)).length ≤ 1 := by
          have := List.length_filterMap_le (kept2 word info) (tagsOf [Piece.tag n])
          exact this
        omega
      · rw [tagsOf_chr]
        have : ((n :: tagsOf ps).filterMap (kept1 word info)).length ≤ ((tagsOf ps).filterMap (kept1 word info)).length + 1 := by
          rw [List.filterMap_cons]
          split
          · omega
          · simp
        simp only [List.filterMap_nil, List.length_nil]
        omega

theorem tags_le_count (ps : List Piece) (t : Text) (ht : texts ps = t) : (tagsOf ps).length ≤ t.count '<' := by
  subst ht
  induction ps with
  | nil => exact Nat.le_refl _
  | cons p ps ih =>
    cases p with
    | chr c =>
      rw [texts_chr, List.count_cons]
      have : tagsOf (.chr c :: ps) = tagsOf ps := rfl
      rw [this]
      omega
    | tag n =>
      have : tagsOf (.tag n :: ps) = n :: tagsOf ps := rfl
      rw [texts_tag, List.count_cons, List.count_append, List.count_cons, this, List.length_cons]
      simp
      omega

theorem filled_of_good (val : Text → Text) (ps : List Piece) (hg : Good ps) : Filled val (texts ps) (fillPieces val ps) := by
  induction ps with
  | nil => exact .nil
  | cons p ps ih =>
    have ih := ih (Good.right (a := [p]) hg)
    cases p with
    | chr c => rw [texts_chr]; exact .chr c (fun e => hg.1 (by simp [e])) ih
    | tag n => rw [texts_tag]; exact .tag n (hg.2 n (by simp)) ih

theorem fChar_ascii (c : Char) (hc : fChar c = true) : c.toNat < 128 := by
  unfold fChar at hc
  simp only [Bool.or_eq_true, Bool.and_eq_true, decide_eq_true_eq, beq_iff_eq] at hc
  rcases hc with ((⟨_, h⟩ | ⟨_, h⟩) | h) | h
  · have : c.toNat ≤ 'Z'.toNat := h
    exact Nat.lt_of_le_of_lt this (by decide)
  · have : c.toNat ≤ '9'.toNat := h
    exact Nat.lt_of_le_of_lt this (by decide)
  · subst h; decide
  · subst h; decide

theorem lower_ascii (n : Text) (hn : ∀ c ∈ n, c.toNat < 128) : ∀ c ∈ lower n, c.toNat < 128 := by
  intro c hc
  obtain ⟨d, hd, rfl⟩ := List.mem_map.1 hc
  split
  · rename_i hz
    simp only [Bool.and_eq_true, decide_eq_true_eq] at hz
    have : d.toNat ≤ 'Z'.toNat := hz.2
    have h90 : d.toNat ≤ 90 := this
    have key : ∀ k : Fin 91, (Char.ofNat (k.val + 32)).toNat < 128 := by decide +kernel
    exact key ⟨d.toNat, by omega⟩
  · exact hn d hd

theorem mapTag2Opt_ascii (n m : Text) (hm : fTag n = some m) : ∀ c ∈ mapTag2Opt m, c.toNat < 128 := by
  have hall : ∀ c ∈ m, c.toNat < 128 := by
    unfold fTag at hm
    split at hm
    · split at hm
      · rename_i hx
        cases hm
        intro c hc
        exact fChar_ascii c (List.all_eq_true.1 hx.2 c hc)
      · cases hm
    · cases hm
  unfold mapTag2Opt
  split
  · decide +kernel
  · split
    · decide +kernel
    · exact lower_ascii m hall

theorem expand_fill (env : Text → Text) (sh val : Text → Text) (ps : List Piece) (hd : Piece.chr '$' ∉ ps)
    (hf : ∀ A n p B, ps = A ++ .tag n :: p :: B → ∃ c, p = .chr c ∧ ident c = false)
    (hsh : ∀ n, .tag n ∈ ps → (sh n = val n ∧ '$' ∉ val n) ∨
      ∃ nm, sh n = '$' :: nm ∧ nm ≠ [] ∧ (∀ c ∈ nm, ident c = true) ∧ env nm = val n) :
    expand env none (fillPieces sh ps) = fillPieces val ps := by
  induction ps with
  | nil => rfl
  | cons p ps ih =>
    have ih := ih (fun e => hd (by simp [e])) (fun A n q B e => hf (p :: A) n q B (by rw [e]; rfl)) (fun n hn => hsh n (by simp [hn]))
    cases p with
    | chr c =>
      have hc : c ≠ '$' := fun e => hd (by simp [e])
      show expand env none (c :: fillPieces sh ps) = c :: fillPieces val ps
      rw [expand, if_neg hc, ih]
    | tag n =>
      show expand env none (sh n ++ fillPieces sh ps) = val n ++ fillPieces val ps
      rcases hsh n (by simp) with ⟨e1, e2⟩ | ⟨nm, e1, e2, e3, e4⟩
      · rw [e1, expand_plain env _ _ e2, ih]
      · rw [e1, List.cons_append, expand_var env nm _ e3 e2 ?_, e4, ih]
        intro c r hr
        cases ps with
        | nil => cases hr
        | cons q ps =>
          obtain ⟨d, rfl, hdi⟩ := hf [] n q ps rfl
          cases hr
          exact hdi

end Command

/-- C40: there are at most as many arguments as tags in the template. -/
theorem C40_arguments (hw : AsciiWord word) (t : Text) (info : Info) (hp : Plain t) (hfq : '<' ∉ h.fq) (hsh : '<' ∉ h.sh) :
    (replaceDynamicTags word h t info).args.length ≤ t.count '<' := by
  refine Nat.le_trans ?_ (tags_le_count (pieces t) t (texts_pieces t))
  have hgood1 := good_pieces1 word h info hw hfq hsh (pieces t) (good_pieces ((clean_iff_plain t).2 hp))
  have ht1 : pieces (text1 word h info t) = pieces1 word h info (pieces t) := by
    unfold text1
    rw [← texts_pieces1, pieces_texts hgood1]
  have hle := vars_le word h info (pieces t)
  have hsz : (dynText word h t info).2.size ≤ (tagsOf (pieces t)).length := by
    rw [dynText_eq, ht1]
    refine Nat.le_trans (addVars_size _ _) ?_
    rw [List.length_append]
    have : (Dict.empty : Dict Text Text).size = 0 := rfl
    omega
  unfold replaceDynamicTags
  dsimp only
  split
  · exact Nat.zero_le _
  · simpa [buildShellCmd, Dict.values, Dict.size] using hsz

/-- C40: what a shell makes of the command is the template with the values filled in once, whatever they are: values are not
expanded for tags or variables. Assumptions: each `<` of the template begins a tag, there is no `$`, tags are followed by the end or a
character that cannot continue a name, names are ASCII, at most ten variables, and tags with the same variable have the same value.
These assumptions are needed: `C40_refuted_ten`, `C40_refuted_join`, `C40_refuted_names`, `C40_refuted_nested`. Not part of it: quoting
and the splitting of values into words (`C40_refuted_words`). -/
theorem C40_run_partial (hw : AsciiWord word) (t : Text) (info : Info) (hp : Plain t) (hdol : '$' ∉ t)
    (hfq : '<' ∉ h.fq ∧ '$' ∉ h.fq) (hsh : '<' ∉ h.sh ∧ '$' ∉ h.sh)
    (hfollow : ∀ a n c b, t = a ++ '<' :: (n ++ '>' :: c :: b) → Name n → ident c = false ∧ c ≠ '<')
    (hascii : ∀ n, Occurs n t → ∀ c ∈ n, c.toNat < 128)
    (hcons : ∀ n n' k k' v v', Occurs n t → Occurs n' t → dynamic h info n = some (k, v) → dynamic h info n' = some (k', v') →
      varName word k = varName word k' → Dangerous v → Dangerous v' → v = v')
    (hten : (replaceDynamicTags word h t info).args.length ≤ 10) :
    Filled (valueOf h info) t (run (replaceDynamicTags word h t info).text (replaceDynamicTags word h t info).args) := by
  have hclean : Clean t := (clean_iff_plain t).2 hp
  have hgood := good_pieces hclean
  have hgood1 := good_pieces1 word h info hw hfq.1 hsh.1 (pieces t) hgood
  have ht1 : pieces (text1 word h info t) = pieces1 word h info (pieces t) := by
    unfold text1
    rw [← texts_pieces1, pieces_texts hgood1]
  have hdt := dynText_eq word h info t
  rw [ht1, fill_pieces1] at hdt
  have hfilled := filled_of_good (valueOf h info) (pieces t) hgood
  rw [texts_pieces] at hfilled
  -- pieces of the template
  have hpd : Piece.chr '$' ∉ pieces t := by
    intro hm
    apply hdol
    rw [← texts_pieces t]
    unfold texts
    rw [List.mem_flatMap]
    exact ⟨_, hm, by simp [pieceText]⟩
  have hpf : ∀ A n p B, pieces t = A ++ .tag n :: p :: B → ∃ c, p = .chr c ∧ ident c = false := by
    intro A n p B e
    have hn : Name n := pieces_name (s := t) (by rw [e]; simp)
    have ht : t = texts A ++ '<' :: (n ++ '>' :: texts (p :: B)) := by
      rw [← texts_pieces t, e]; simp
    cases p with
    | chr c => rw [texts_chr] at ht; exact ⟨c, rfl, (hfollow _ _ _ _ ht hn).1⟩
    | tag m => rw [texts_tag] at ht; exact absurd rfl (hfollow _ _ _ _ ht hn).2
  -- the variables
  generalize hvd : (dynText word h t info).2 = vars at *
  have hvars : vars = addVars ((tagsOf (pieces t)).filterMap (kept1 word info) ++ (tagsOf (pieces1 word h info (pieces t))).filterMap (kept2 word info)) Dict.empty := by
    rw [← hvd, hdt]
  have hkv : ∀ k v w x, keptVal word k w = some (x, v) → x = varName word k ∧ v = w ∧ Dangerous w := by
    intro k v w x e
    unfold keptVal at e
    split at e
    · rename_i hs; cases e; exact ⟨rfl, rfl, (hasSpecial_iff _).1 hs⟩
    · cases e
  have hfrom : ∀ x v, vars.get? x = some v → ∃ n k, Occurs n t ∧ dynamic h info n = some (k, v) ∧ x = varName word k ∧ Dangerous v := by
    intro x v hx
    rw [hvars] at hx
    rcases addVars_get? _ _ _ _ hx with hm | hm
    · rcases List.mem_append.1 hm with hm | hm
      · obtain ⟨n, hn, he⟩ := List.mem_filterMap.1 hm
        rw [mem_tagsOf, mem_pieces_iff] at hn
        unfold kept1 at he
        cases hg : info.get n with
        | none => rw [hg] at he; cases he
        | some w =>
          rw [hg] at he
          obtain ⟨e1, e2, e3⟩ := hkv n v w x he
          exact ⟨n, n, hn, by simp [dynamic, hg, e2], e1, by rw [e2]; exact e3⟩
      · obtain ⟨n, hn, he⟩ := List.mem_filterMap.1 hm
        rw [mem_tagsOf, mem_pieces1] at hn
        obtain ⟨hn, hk⟩ := hn
        rw [mem_pieces_iff] at hn
        unfold keptTag at hk
        rw [Bool.and_eq_true, Option.isNone_iff_eq_none, Option.isNone_iff_eq_none] at hk
        unfold kept2 at he
        cases hf : fTag n with
        | none => rw [hf] at he; cases he
        | some m =>
          rw [hf] at he
          simp only [Option.bind_some] at he
          cases hg : info.data (mapTag2Opt m) with
          | none => rw [hg] at he; cases he
          | some w =>
            rw [hg] at he
            obtain ⟨e1, e2, e3⟩ := hkv _ v w x he
            exact ⟨n, _, hn, by simp [dynamic, hk.1, hk.2, hf, hg, e2], e1, by rw [e2]; exact e3⟩
    · cases hm
  have hto : ∀ n k v, Occurs n t → dynamic h info n = some (k, v) → Dangerous v → vars.get? (varName word k) = some v := by
    intro n k v hn hdyn hv
    have hex : (vars.get? (varName word k)).isSome := by
      rw [hvars]
      refine addVars_isSome _ _ _ (Or.inl ?_)
      rw [List.map_append, List.mem_append]
      have hkept : ∀ y, keptVal word y v = some (varName word y, v) := by
        intro y; unfold keptVal; rw [if_pos ((hasSpecial_iff v).2 hv)]
      cases hg : info.get n with
      | some w =>
        simp [dynamic, hg] at hdyn
        obtain ⟨rfl, rfl⟩ := hdyn
        left
        rw [List.mem_map]
        refine ⟨(varName word n, w), List.mem_filterMap.2 ⟨n, (mem_tagsOf _ _).2 ((mem_pieces_iff _ _).2 hn), ?_⟩, rfl⟩
        unfold kept1; rw [hg]; exact hkept n
      | none =>
        cases ha : addRepl h n with
        | some x => simp [dynamic, hg, ha] at hdyn
        | none =>
          cases hf : fTag n with
          | none => simp [dynamic, hg, ha, hf] at hdyn
          | some m =>
            simp only [dynamic, hg, ha, hf, Option.isSome_none, Bool.false_eq_true, if_false, Option.map_eq_some_iff] at hdyn
            obtain ⟨w, hw', e⟩ := hdyn
            cases e
            right
            rw [List.mem_map]
            refine ⟨(varName word ('F' :: '_' :: mapTag2Opt m), v), List.mem_filterMap.2 ⟨n, (mem_tagsOf _ _).2 ((mem_pieces1 word h info _ _).2
              ⟨(mem_pieces_iff _ _).2 hn, by simp [keptTag, hg, ha]⟩), ?_⟩, rfl⟩
            unfold kept2; rw [hf]; simp only [Option.bind_some, hw']; exact hkept _
    cases hx : vars.get? (varName word k) with
    | none => rw [hx] at hex; cases hex
    | some v' =>
      obtain ⟨n', k', hn', hd', he', hv'⟩ := hfrom _ _ hx
      rw [hcons n n' k k' v v' hn hn' hdyn hd' he' hv hv']
  -- what is shown
  have hident : ∀ n k v, Occurs n t → dynamic h info n = some (k, v) → ∀ c ∈ varName word k, ident c = true := by
    intro n k v hn hdyn
    refine varName_ident hw k ?_
    cases hg : info.get n with
    | some w => simp [dynamic, hg] at hdyn; rw [← hdyn.1]; exact hascii n hn
    | none =>
      cases ha : addRepl h n with
      | some x => simp [dynamic, hg, ha] at hdyn
      | none =>
        cases hf : fTag n with
        | none => simp [dynamic, hg, ha, hf] at hdyn
        | some m =>
          simp only [dynamic, hg, ha, hf, Option.isSome_none, Bool.false_eq_true, if_false, Option.map_eq_some_iff] at hdyn
          obtain ⟨w, _, e⟩ := hdyn
          cases e
          intro c hc
          rcases List.mem_cons.1 hc with e | hc
          · subst e; decide
          · rcases List.mem_cons.1 hc with e | hc
            · subst e; decide
            · exact mapTag2Opt_ascii n m hf c hc
  have hnodollar : ∀ v, ¬ Dangerous v → '$' ∉ v := fun v hv hm => hv ⟨'$', hm, by decide⟩
  have hshow : ∀ (env : Text → Text), (∀ x v, vars.get? x = some v → env x = v) → ∀ n, .tag n ∈ pieces t →
      (shownAll word h info n = valueOf h info n ∧ '$' ∉ valueOf h info n) ∨
      ∃ nm, shownAll word h info n = '$' :: nm ∧ nm ≠ [] ∧ (∀ c ∈ nm, ident c = true) ∧ env nm = valueOf h info n := by
    intro env henv n hn
    rw [mem_pieces_iff] at hn
    have hval : ∀ k v, dynamic h info n = some (k, v) → valueOf h info n = v →
        shownAll word h info n = shownVal word k v →
        (shownAll word h info n = valueOf h info n ∧ '$' ∉ valueOf h info n) ∨
        ∃ nm, shownAll word h info n = '$' :: nm ∧ nm ≠ [] ∧ (∀ c ∈ nm, ident c = true) ∧ env nm = valueOf h info n := by
      intro k v hdyn hv hs
      by_cases hd : Dangerous v
      · refine Or.inr ⟨varName word k, ?_, varName_ne word k, hident n k v hn hdyn, ?_⟩
        · rw [hs, shownVal, if_pos ((hasSpecial_iff v).2 hd)]
        · rw [hv]; exact henv _ _ (hto n k v hn hdyn hd)
      · refine Or.inl ⟨?_, by rw [hv]; exact hnodollar v hd⟩
        rw [hs, hv, shownVal, if_neg (fun e => hd ((hasSpecial_iff v).1 e))]
    cases hg : info.get n with
    | some v =>
      refine hval n v (by simp [dynamic, hg]) (by simp [valueOf, hg]) ?_
      simp [shownAll, keptTag, hg, shown1]
    | none =>
      cases ha : addRepl h n with
      | some x =>
        refine Or.inl ⟨by simp [shownAll, keptTag, hg, ha, shown1, valueOf], ?_⟩
        have e : valueOf h info n = x := by simp [valueOf, hg, ha]
        rw [e]
        exact addRepl_no h '$' (by decide) hfq.2 hsh.2 n x ha
      | none =>
        cases hf : fTag n with
        | none =>
          refine Or.inl ⟨by simp [shownAll, keptTag, hg, ha, shown2, hf, valueOf], ?_⟩
          have e : valueOf h info n = '<' :: (n ++ ['>']) := by simp [valueOf, hg, ha, hf]
          rw [e]
          intro hm
          obtain ⟨_, a, b, e'⟩ := hn
          apply hdol
          rw [e']
          simp at hm
          simp [hm]
        | some m =>
          cases hdm : info.data (mapTag2Opt m) with
          | none => exact Or.inl ⟨by simp [shownAll, keptTag, hg, ha, shown2, hf, hdm, valueOf], by simp [valueOf, hg, ha, hf, hdm]⟩
          | some v =>
            refine hval ('F' :: '_' :: mapTag2Opt m) v (by simp [dynamic, hg, ha, hf, hdm]) (by simp [valueOf, hg, ha, hf, hdm]) ?_
            simp [shownAll, keptTag, hg, ha, shown2, hf, hdm]
  -- the command
  have hcmd : replaceDynamicTags word h t info =
      if vars.size = 0 then ⟨fillPieces (shownAll word h info) (pieces t), []⟩
      else buildShellCmd (fillPieces (shownAll word h info) (pieces t)) vars := by
    unfold replaceDynamicTags
    dsimp only
    rw [hvd, hdt]
  by_cases hsz : vars.size = 0
  · rw [if_pos hsz] at hcmd
    rw [hcmd]
    have hitems : vars.items = [] := List.length_eq_zero_iff.1 hsz
    have hempty : ∀ x v, vars.get? x = some v → (fun _ => ([] : Text)) x = v := by
      intro x v hx
      rw [Dict.get?_eq_some_iff, hitems] at hx
      cases hx
    show Filled _ t (run (fillPieces (shownAll word h info) (pieces t)) [])
    unfold run
    rw [if_pos rfl, expand_fill _ _ (valueOf h info) (pieces t) hpd hpf (hshow _ hempty)]
    exact hfilled
  · rw [if_neg hsz] at hcmd
    rw [hcmd] at hten ⊢
    have hvl : vars.values.length = vars.keys.length := by simp [Dict.values, Dict.keys]
    have hzip : vars.items = vars.keys.zip vars.values := by
      simp only [Dict.keys, Dict.values]
      generalize vars.items = l
      induction l with
      | nil => rfl
      | cons a l ih => simp; exact ih
    have hkeys : ∀ k ∈ vars.keys, ∀ c ∈ k, ident c = true := by
      intro k hk
      obtain ⟨v, hv⟩ := (Dict.mem_keys_iff _ _).1 hk
      obtain ⟨n, k', hn, hdyn, e, _⟩ := hfrom k v hv
      rw [e]; exact hident n k' v hn hdyn
    have hargs : vars.values ≠ [] := by
      intro e
      have := congrArg List.length e
      simp [Dict.values] at this
      exact hsz (by simp [Dict.size, this])
    have hno : '\n' ∉ varsStat 0 vars.keys :=
      List.count_eq_zero.1 (varsStat_count (c := '\n') (by decide) (by decide) vars.keys (fun k hk d hd => ident_not_special (hkeys k hk d hd)) 0)
    show Filled _ t (run (varsStat 0 vars.keys ++ '\n' :: fillPieces (shownAll word h info) (pieces t)) vars.values)
    unfold run
    rw [if_neg hargs]
    dsimp only
    have htw : (varsStat 0 vars.keys ++ '\n' :: fillPieces (shownAll word h info) (pieces t)).takeWhile (fun x => decide (x ≠ '\n')) = varsStat 0 vars.keys := by
      rw [List.takeWhile_append_of_pos]
      · simp
      · intro c hc
        simp only [decide_eq_true_eq]
        intro e
        subst e
        exact hno hc
    rw [htw]
    have hdrop : (varsStat 0 vars.keys ++ '\n' :: fillPieces (shownAll word h info) (pieces t)).drop ((varsStat 0 vars.keys).length + 1)
        = fillPieces (shownAll word h info) (pieces t) := by
      rw [← List.drop_drop, List.drop_left]; rfl
    rw [hdrop]
    have hsp : ∀ c, ident c = true → c ≠ ' ' ∧ c ≠ '=' := by
      intro c hc
      refine ⟨fun e => ?_, fun e => ?_⟩
      · subst e; revert hc; decide
      · subst e; revert hc; decide
    rw [assign_header vars.values vars.keys 0 (by simp only [buildShellCmd] at hten; omega) (fun k hk c hc => hsp c (hkeys k hk c hc)), ← hvl, range'_getD]
    rw [expand_fill _ _ (valueOf h info) (pieces t) hpd hpf (hshow _ ?_)]
    · exact hfilled
    · intro x v hx
      exact envOf_zip vars.keys vars.values vars hzip x v hx

/-! ### examples and refutations -/

namespace CommandExample

/-- host names -/
def hosts : Hosts := ⟨"host.example.org".toList, "host".toList⟩

/-- dynamic information from texts -/
def info (l d : List (String × String)) : Info :=
  ⟨fun n => ((l.find? (fun p => p.1.toList = n)).map (fun p => p.2.toList)), fun n => ((d.find? (fun p => p.1.toList = n)).map (fun p => p.2.toList))⟩

/-- the command: text and arguments -/
def cmd (t : String) (l d : List (String × String)) : String × List String :=
  let c := replaceDynamicTags ident hosts t.toList (info l d)
  (String.ofList c.text, c.args.map String.ofList)

/-- what the shell makes of it -/
def sh (t : String) (l d : List (String × String)) : String :=
  let c := replaceDynamicTags ident hosts t.toList (info l d)
  String.ofList (run c.text c.args)

theorem asciiWord : AsciiWord ident := fun _ h _ => h

theorem filled_unique {val : Text → Text} {v w w' : Text} (h : Filled val v w) (h' : Filled val v w') : w = w' := by
  induction h generalizing w' with
  | nil => cases h'; rfl
  | chr c hc _ ih =>
    cases h' with
    | chr _ _ h2 => rw [ih h2]
    | tag n hn h2 => exact absurd rfl hc
  | tag n hn _ ih =>
    rename_i v w _
    generalize hu : '<' :: (n ++ '>' :: v) = u at h'
    cases h' with
    | nil => cases hu
    | chr c hc h2 => simp at hu; exact absurd hu.1.symm hc
    | tag m hm h2 =>
      simp at hu
      obtain ⟨e1, e2⟩ := name_unique hn hm hu
      subst e1; subst e2
      rw [ih h2]

/-- To be shown for a refutation: the shell makes something else of it than the template filled with values. -/
theorem not_filled {t : Text} {i : Info} {w : Text} (hc : Piece.chr '<' ∉ pieces t) (hne : w ≠ fillPieces (valueOf hosts i) (pieces t)) :
    ¬ Filled (valueOf hosts i) t w := by
  intro hf
  have := filled_of_good (valueOf hosts i) (pieces t) (good_pieces (s := t) hc)
  rw [texts_pieces] at this
  exact hne (filled_unique hf this)

end CommandExample

open CommandExample

/-- A value with special characters becomes an argument, others are part of the text; fixed tags, captured values (present and missing)
and unknown tags. -/
example : cmd "add <ip> <matches><br><F-USER> <F-ID> [<F-NONE>] <sh-hostname> <STDIN>" [("ip", "192.0.2.1"), ("matches", "a; rm -rf / `x`")]
      [("user", "$(id)"), ("fid", "x1")]
    = ("f2bV_matches=$0 f2bV_F_user=$1 \nadd 192.0.2.1 $f2bV_matches\n$f2bV_F_user x1 [] host <STDIN>", ["a; rm -rf / `x`", "$(id)"]) := by decide +kernel

example : sh "add <ip> <matches><br><F-USER> <F-ID>" [("ip", "192.0.2.1"), ("matches", "a; <ip> $f2bV_F_user")] [("user", "$(id)"), ("fid", "x1")]
    = "add 192.0.2.1 a; <ip> $f2bV_F_user\n$(id) x1" := by decide +kernel

example : cmd "ban <ip>" [("ip", "192.0.2.1")] [] = ("ban 192.0.2.1", []) := by decide +kernel

example : String.ofList (escapeTag "it's $(x)\n\\n".toList) = "it\\'s \\$\\(x\\)\\n\\\\n" := by decide +kernel

/-- `C40_run_partial` can be applied, for arbitrary values. -/
example (ip : Text) : Filled (valueOf hosts ⟨fun n => if n = "ip".toList then some ip else none, fun _ => none⟩) "ban <ip>".toList
    (run (replaceDynamicTags ident hosts "ban <ip>".toList ⟨fun n => if n = "ip".toList then some ip else none, fun _ => none⟩).text
      (replaceDynamicTags ident hosts "ban <ip>".toList ⟨fun n => if n = "ip".toList then some ip else none, fun _ => none⟩).args) := by
  have hpc : Clean "ban <ip>".toList := by unfold Clean; decide +kernel
  have hocc : ∀ n, Occurs n "ban <ip>".toList → n = "ip".toList := by
    intro n hn
    have hp : pieces "ban <ip>".toList = [.chr 'b', .chr 'a', .chr 'n', .chr ' ', .tag "ip".toList] := by decide +kernel
    have := (mem_pieces_iff _ _).2 hn
    rw [hp] at this
    simpa using this
  refine C40_run_partial asciiWord _ _ ((clean_iff_plain _).1 hpc) (by decide) (by decide +kernel) (by decide +kernel) ?_ ?_ ?_ ?_
  · intro a n c b ht _
    exfalso
    have h1 : '>' ∉ ("ban <ip>".toList).dropLast := by decide +kernel
    apply h1
    rw [ht]
    have : a ++ '<' :: (n ++ '>' :: c :: b) = (a ++ '<' :: n ++ ['>']) ++ (c :: b) := by simp
    rw [this, List.dropLast_append_of_ne_nil (by simp)]
    simp
  · intro n hn
    rw [hocc n hn]
    decide +kernel
  · intro n n' k k' v v' hn hn' hd hd' _ _ _
    rw [hocc n hn] at hd
    rw [hocc n' hn'] at hd'
    rw [hd] at hd'
    cases hd'
    rfl
  · refine Nat.le_trans (C40_arguments asciiWord _ _ ((clean_iff_plain _).1 hpc) (by decide +kernel) (by decide +kernel)) ?_
    decide +kernel

/-- C40, not so for more than ten values: `$10` is `$1` followed by `0`. -/
theorem C40_refuted_ten : ∃ (t : Text) (i : Info), Plain t ∧
    ¬ Filled (valueOf hosts i) t (run (replaceDynamicTags ident hosts t i).text (replaceDynamicTags ident hosts t i).args) := by
  refine ⟨"<a> <b> <c> <d> <e> <f> <g> <h> <i> <j> <k>".toList,
    info [("a", ";a"), ("b", ";b"), ("c", ";c"), ("d", ";d"), ("e", ";e"), ("f", ";f"), ("g", ";g"), ("h", ";h"), ("i", ";i"), ("j", ";j"), ("k", ";k")] [],
    (clean_iff_plain _).1 ?_, not_filled ?_ ?_⟩
  · unfold Clean; decide +kernel
  · decide +kernel
  · decide +kernel

/-- C40, not so if text that can be part of a name, or another value, follows a tag. -/
theorem C40_refuted_join : ∃ (t : Text) (i i' : Info), Plain t ∧
    ¬ Filled (valueOf hosts i) t (run (replaceDynamicTags ident hosts t i).text (replaceDynamicTags ident hosts t i).args) ∧
    ¬ Filled (valueOf hosts i') "<a><b>".toList (run (replaceDynamicTags ident hosts "<a><b>".toList i').text (replaceDynamicTags ident hosts "<a><b>".toList i').args) := by
  refine ⟨"mail <user>s".toList, info [("user", "a;b")] [], info [("a", ";"), ("b", "x")] [], (clean_iff_plain _).1 ?_, not_filled ?_ ?_, not_filled ?_ ?_⟩
  · unfold Clean; decide +kernel
  · decide +kernel
  · decide +kernel
  · decide +kernel
  · decide +kernel

/-- C40, not so for tags whose names differ only in characters that cannot be part of the name of a variable: both get the same value. -/
theorem C40_refuted_names : ∃ (t : Text) (i : Info), Plain t ∧
    ¬ Filled (valueOf hosts i) t (run (replaceDynamicTags ident hosts t i).text (replaceDynamicTags ident hosts t i).args) := by
  refine ⟨"<a-b> <a_b>".toList, info [("a-b", ";1"), ("a_b", ";2")] [], (clean_iff_plain _).1 ?_, not_filled ?_ ?_⟩
  · unfold Clean; decide +kernel
  · decide +kernel
  · decide +kernel

/-- C40, not so for composed tags: although there should be no interpolation of `<a<b>>`, a value can choose the captured value to be
inserted. -/
theorem C40_refuted_nested : cmd "<F-<x>>" [("x", "USER")] [("user", "bob"), ("pass", "secret")] = ("bob", []) ∧
    cmd "<F-<x>>" [("x", "PASS")] [("user", "bob"), ("pass", "secret")] = ("secret", []) := by decide +kernel

/-- C40: blanks are not among the special characters, so a value can add words to a command: options and arguments of the program. -/
theorem C40_refuted_words : cmd "notify <F-USER>" [] [("user", "bob --config=evil")] = cmd "notify <F-USER> --config=evil" [] [("user", "bob")] := by
  decide +kernel

end Verif
