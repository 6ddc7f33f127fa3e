import Verif.Spec.RegexOut
import Verif.Lemmas.Command

/-!
# C116: formatted output of `fail2ban-regex`
-/

namespace Verif

namespace RegexOut
open Tags Command Spec.RegexOut

/-! ### substitution of tags -/

theorem sub_eq (f : Text → Option Text) (t : Text) : sub f t = fillPieces (fun n => (f n).getD ('<' :: (n ++ ['>']))) (pieces t) := by
  unfold sub fillPieces
  congr 1

theorem go_open (v : Text) : ∀ m : Text, (∀ c ∈ m, c ≠ ' ' ∧ c ≠ '<' ∧ c ≠ '>') → ¬ Begins ('<' :: (m.reverse ++ v)) →
    go (some m) v = .chr '<' :: (m.reverse.map .chr ++ go none v) := by
  induction v with
  | nil => intro m _ _; simp [go]
  | cons c v ih =>
    intro m hm hb
    conv => lhs; rw [go]
    split
    · rename_i h; subst h; rw [show go none ('<' :: v) = go (some []) v by rw [go, if_pos rfl]]
    · rename_i hc
      have hn : go none (c :: v) = .chr c :: go none v := by rw [go, if_neg hc]
      split
      · rename_i h
        exact absurd ⟨m.reverse, v, ⟨by simpa using h.2, fun d hd => hm d (by simpa using hd)⟩, by rw [h.1]⟩ hb
      · split
        · rename_i h3
          rw [ih (c :: m) ?_ ?_, hn]
          · simp
          · intro d hd
            rcases List.mem_cons.1 hd with e | e
            · rw [e]; exact (nameChar_iff c).1 h3
            · exact hm d e
          · simpa using hb
        · rw [hn]

theorem pieces_chr (c : Char) (v : Text) (hb : ¬ Begins (c :: v)) : pieces (c :: v) = .chr c :: pieces v := by
  unfold pieces
  by_cases hc : c = '<'
  · subst hc
    rw [go, if_pos rfl, go_open v [] (by simp) (by simpa using hb)]
    simp
  · rw [go, if_neg hc]

theorem subst_pieces (val : Text → Text) (t : Text) : Subst val t (fillPieces val (pieces t)) := by
  have key : ∀ (k : Nat) (t : Text), t.length ≤ k → Subst val t (fillPieces val (pieces t)) := by
    intro k
    induction k with
    | zero =>
      intro t hl
      have : t = [] := List.length_eq_zero_iff.1 (by omega)
      subst this
      exact .nil
    | succ k ih =>
      intro t hl
      cases t with
      | nil => exact .nil
      | cons c v =>
        by_cases hb : Begins (c :: v)
        · obtain ⟨n, b, hn, e⟩ := hb
          rw [e] at hl ⊢
          have := pieces_tag [] n b hn
          rw [List.nil_append] at this
          rw [this]
          refine Subst.tag n hn (ih b ?_)
          simp at hl
          omega
        · rw [pieces_chr c v hb]
          exact Subst.chr c hb (ih v (by simp at hl; omega))
  exact key _ t (Nat.le_refl _)

theorem name_unique {n m a b : Text} (hn : Spec.Tags.Name n) (hm : Spec.Tags.Name m) (h : n ++ '>' :: a = m ++ '>' :: b) : n = m ∧ a = b := by
  have h1 := pieces_tag [] n a hn
  have h2 := pieces_tag [] m b hm
  rw [h, h2] at h1
  simp only [List.cons.injEq, List.append_cancel_left_eq, Piece.tag.injEq] at h1
  have e := h1.1.symm
  subst e
  simpa using h

theorem subst_unique {val : Text → Text} {v w w' : Text} (h : Subst val v w) (h' : Subst val v w') : w = w' := by
  induction h generalizing w' with
  | nil => cases h'; rfl
  | chr c hc _ ih =>
    rename_i v w _
    generalize hu : c :: v = u at h'
    cases h' with
    | nil => cases hu
    | chr d _ h2 => cases hu; rw [ih h2]
    | tag n hn h2 => exact absurd ⟨n, _, hn, hu⟩ hc
  | tag n hn _ ih =>
    rename_i v w _
    generalize hu : '<' :: (n ++ '>' :: v) = u at h'
    cases h' with
    | nil => cases hu
    | chr c hc h2 => exact absurd ⟨n, v, hn, hu.symm⟩ hc
    | tag m hm h2 =>
      simp only [List.cons.injEq, true_and] at hu
      obtain ⟨e1, e2⟩ := name_unique hn hm hu
      subst e1; subst e2
      rw [ih h2]

theorem subst_iff {val : Text → Text} {v w : Text} : Subst val v w ↔ w = fillPieces val (pieces v) :=
  ⟨fun h => subst_unique h (subst_pieces val v), fun h => h ▸ subst_pieces val v⟩

theorem replace_nul (v : Text) : replace ['\x00'] ['\\', 'x', '0', '0'] v = clean v := by
  unfold replace
  induction v with
  | nil => rfl
  | cons c v ih =>
    rw [replaceAt]
    by_cases hc : c = '\x00'
    · subst hc
      simp [clean] at ih ⊢
      exact ih
    · have : ¬ (['\x00'].isPrefixOf (c :: v) = true) := by simp [List.isPrefixOf]; exact fun e => hc e.symm
      rw [if_neg this, ih]
      simp [clean, hc]

theorem pass_id (val : Text → Text) (r : Text) (h : '<' ∉ r) : fillPieces val (pieces r) = r := by
  rw [pieces_of_no_lt h, fillPieces_chr]

/-- the information with a message -/
def asked (f : Fail) (m : Text) (n : Text) : Option Text := if n = "msg".toList then some m else f.tag n

theorem replaceTags_eq (h : Hosts) (fmt : Text) (f : Fail) (m : Text) : replaceTags h fmt (asked f m) f.data =
    fillPieces (captured f) (pieces (fillPieces (first h f m) (pieces fmt))) := by
  have h1 : sub (tagVal h (asked f m)) fmt = fillPieces (first h f m) (pieces fmt) := by
    rw [sub_eq]
    congr 1
    funext n
    unfold tagVal asked first
    by_cases hn : n = "msg".toList
    · simp [hn, escOut]
    · rw [if_neg hn, if_neg hn]
      cases f.tag n with
      | none => rfl
      | some v => simp only [Option.getD_some]; unfold escOut; rw [if_pos hn, replace_nul]
  have h2 : ∀ r, sub (capVal f.data) r = fillPieces (captured f) (pieces r) := by
    intro r
    rw [sub_eq]
    congr 1
    funext n
    unfold capVal captured
    cases fTag n with
    | none => rfl
    | some k =>
      simp only [Option.map_some, Option.getD_some]
      cases f.data (mapTag2Opt k) with
      | none => rfl
      | some v =>
        simp only [Option.map_some, Option.getD_some]
        unfold escOut
        rw [if_pos (by intro e; cases e), replace_nul]
  unfold replaceTags
  simp only [h1, h2]
  split
  · rfl
  · rename_i hlt; rw [pass_id _ _ hlt]

/-- **C116.** Exactly what is made of the format: first the tags with information on the failure and the fixed ones are replaced, then, in the
text that results, the tags captured by the filter. -/
theorem C116_filled (h : Hosts) (fmt : Text) (f : Fail) (m w : Text) : replaceTags h fmt (asked f m) f.data = w ↔
    ∃ u, Subst (first h f m) fmt u ∧ Subst (captured f) u w := by
  rw [replaceTags_eq]
  constructor
  · rintro rfl
    exact ⟨_, subst_pieces _ _, subst_pieces _ _⟩
  · rintro ⟨u, h1, h2⟩
    rw [subst_iff] at h1 h2
    rw [h2, h1]

/-! ### one pass suffices if there is no `<` in values -/

theorem clean_mem {c : Char} {v : Text} (h : c ∈ clean v) : c ≠ '\x00' ∧ (c ∈ v ∨ c = '\\' ∨ c = 'x' ∨ c = '0') := by
  unfold clean at h
  obtain ⟨d, hd, hc⟩ := List.mem_flatMap.1 h
  split at hc
  · simp at hc
    rcases hc with e | e | e <;> subst e <;> simp
  · rename_i hne
    simp at hc
    subst hc
    exact ⟨hne, .inl hd⟩

def keptTag (h : Hosts) (f : Fail) (n : Text) : Bool := decide (n ≠ "msg".toList) && (f.tag n).isNone && (addRepl h n).isNone

theorem first_kept {h : Hosts} {f : Fail} {n : Text} (m : Text) (hk : keptTag h f n = true) : first h f m n = '<' :: (n ++ ['>']) := by
  simp only [keptTag, Bool.and_eq_true, decide_eq_true_eq, Option.isNone_iff_eq_none] at hk
  unfold first
  rw [if_neg hk.1.1, hk.1.2, hk.2]
  rfl

theorem meaning_kept {h : Hosts} {f : Fail} {n : Text} (m : Text) (hk : keptTag h f n = true) : meaning h f m n = captured f n := by
  simp only [keptTag, Bool.and_eq_true, decide_eq_true_eq, Option.isNone_iff_eq_none] at hk
  unfold meaning captured
  rw [if_neg hk.1.1, hk.1.2, hk.2]

theorem meaning_first {h : Hosts} {f : Fail} {n : Text} (m : Text) (hk : keptTag h f n = false) : meaning h f m n = first h f m n := by
  unfold meaning first
  by_cases hn : n = "msg".toList
  · rw [if_pos hn, if_pos hn]
  · rw [if_neg hn, if_neg hn]
    cases h1 : f.tag n with
    | some v => rfl
    | none =>
      cases h2 : addRepl h n with
      | some x => rfl
      | none => simp [keptTag, h1, h2] at hk; exact absurd hk hn

theorem addRepl_no {h : Hosts} {c : Char} (h0 : c ≠ '\n' ∧ c ≠ ' ') (hfq : c ∉ h.fq) (hsh : c ∉ h.sh) {n x : Text} (hx : addRepl h n = some x) :
    c ∉ x := by
  unfold addRepl at hx
  split at hx
  · cases hx; simp [h0.1]
  · split at hx
    · cases hx; simp [h0.2]
    · split at hx
      · cases hx; exact hfq
      · split at hx
        · cases hx; exact hsh
        · cases hx

/-- pieces after the first substitution -/
def pieces1 (h : Hosts) (f : Fail) (m : Text) (ps : List Piece) : List Piece :=
  ps.flatMap (fun p =>
    match p with
    | .chr c => [.chr c]
    | .tag n => if keptTag h f n then [.tag n] else (first h f m n).map .chr)

theorem pieces1_chr (h : Hosts) (f : Fail) (m : Text) (c : Char) (ps : List Piece) :
    pieces1 h f m (.chr c :: ps) = .chr c :: pieces1 h f m ps := rfl
theorem pieces1_tag (h : Hosts) (f : Fail) (m : Text) (n : Text) (ps : List Piece) : pieces1 h f m (.tag n :: ps) =
    (if keptTag h f n then [.tag n] else (first h f m n).map .chr) ++ pieces1 h f m ps := rfl

theorem texts_pieces1 (h : Hosts) (f : Fail) (m : Text) (ps : List Piece) : texts (pieces1 h f m ps) = fillPieces (first h f m) ps := by
  induction ps with
  | nil => rfl
  | cons p ps ih =>
    cases p with
    | chr c => rw [pieces1_chr, texts_chr, ih]; rfl
    | tag n =>
      rw [pieces1_tag, texts_append, ih]
      show _ = first h f m n ++ fillPieces (first h f m) ps
      congr 1
      split
      · rename_i hk; rw [first_kept m hk]; simp
      · simp

theorem good_pieces1 (h : Hosts) (f : Fail) (m : Text) (ps : List Piece) (hg : Good ps)
    (hv : ∀ n, .tag n ∈ ps → keptTag h f n = false → '<' ∉ first h f m n) : Good (pieces1 h f m ps) := by
  induction ps with
  | nil => exact hg
  | cons p ps ih =>
    have ih := ih (Good.right (a := [p]) hg) (fun n hn => hv n (by simp [hn]))
    cases p with
    | chr c =>
      rw [pieces1_chr]
      exact Good.append (a := [Piece.chr c]) (Good.left (b := ps) hg) ih
    | tag n =>
      rw [pieces1_tag]
      refine Good.append ?_ ih
      split
      · exact Good.left (b := ps) hg
      · rename_i hk
        have := hv n (by simp) (by simpa using hk)
        refine ⟨fun hm => ?_, fun m hm => ?_⟩
        · obtain ⟨d, hd, e⟩ := List.mem_map.1 hm
          cases e
          exact this hd
        · obtain ⟨d, _, e⟩ := List.mem_map.1 hm
          cases e

theorem fill_pieces1 (h : Hosts) (f : Fail) (m : Text) (ps : List Piece) :
    fillPieces (captured f) (pieces1 h f m ps) = fillPieces (meaning h f m) ps := by
  induction ps with
  | nil => rfl
  | cons p ps ih =>
    have happ : ∀ a b, fillPieces (captured f) (a ++ b) = fillPieces (captured f) a ++ fillPieces (captured f) b := by
      intro a b; simp [fillPieces]
    cases p with
    | chr c => rw [pieces1_chr]; exact congrArg (c :: ·) ih
    | tag n =>
      rw [pieces1_tag, happ, ih]
      show _ = meaning h f m n ++ fillPieces (meaning h f m) ps
      congr 1
      split
      · rename_i hk; rw [meaning_kept m hk]; simp [fillPieces]
      · rename_i hk; rw [meaning_first m (by simpa using hk)]; exact fillPieces_chr _ _

theorem one_pass (h : Hosts) (fmt : Text) (f : Fail) (m : Text) (hp : Spec.Tags.Plain fmt) (hfq : '<' ∉ h.fq) (hsh : '<' ∉ h.sh)
    (hv : ∀ n v, Spec.Tags.Occurs n fmt → n ≠ "msg".toList → f.tag n = some v → '<' ∉ v)
    (hm : Spec.Tags.Occurs "msg".toList fmt → '<' ∉ m) :
    replaceTags h fmt (asked f m) f.data = fillPieces (meaning h f m) (pieces fmt) := by
  rw [replaceTags_eq, ← texts_pieces1, pieces_texts, fill_pieces1]
  refine good_pieces1 h f m _ (good_pieces ((clean_iff_plain fmt).2 hp)) ?_
  intro n hn hk
  have ho := (mem_pieces_iff n fmt).1 hn
  unfold first
  by_cases hne : n = "msg".toList
  · rw [if_pos hne]; exact hm (hne ▸ ho)
  · rw [if_neg hne]
    cases h1 : f.tag n with
    | some v =>
      intro hc
      rcases (clean_mem hc).2 with e | e | e | e
      · exact hv n v ho hne h1 e
      all_goals cases e
    | none =>
      cases h2 : addRepl h n with
      | some x => exact addRepl_no (by decide) hfq hsh h2
      | none => simp [keptTag, h1, h2] at hk; exact absurd hk hne

/-! ### the mark for a message -/

theorem replaceAt_skip (old new x y : Text) : replaceAt old new x.length (x ++ y) = replaceAt old new 0 y := by
  induction x with
  | nil => rfl
  | cons c x ih => exact ih

theorem replace_plain (new x y : Text) (hx : '\x00' ∉ x) : replace mark new (x ++ y) = x ++ replace mark new y := by
  unfold replace
  induction x with
  | nil => rfl
  | cons c x ih =>
    simp at hx
    rw [List.cons_append, replaceAt, if_neg, ih hx.2, List.cons_append]
    simp [mark, List.isPrefixOf, hx.1]

theorem replace_mark (new y : Text) : replace mark new (mark ++ y) = new ++ replace mark new y := by
  unfold replace
  rw [show mark ++ y = '\x00' :: (['m', 's', 'g', '\x00'] ++ y) from rfl, replaceAt, if_pos (by simp [mark, List.isPrefixOf])]
  exact congrArg (new ++ ·) <| replaceAt_skip mark new ['m', 's', 'g', '\x00'] y

theorem meaning_other (h : Hosts) (f : Fail) (m m' n : Text) (hn : n ≠ "msg".toList) : meaning h f m n = meaning h f m' n := by
  unfold meaning
  rw [if_neg hn, if_neg hn]

theorem captured_no_nul (f : Fail) (n : Text) (hn : '\x00' ∉ n) : '\x00' ∉ captured f n := by
  unfold captured
  cases fTag n with
  | none => simp [hn]
  | some k =>
    dsimp only
    cases f.data (mapTag2Opt k) with
    | none => simp
    | some v => exact fun hc => (clean_mem hc).1 rfl

theorem first_no_nul (h : Hosts) (f : Fail) (m n : Text) (hfq : '\x00' ∉ h.fq) (hsh : '\x00' ∉ h.sh) (hn : '\x00' ∉ n) (hne : n ≠ "msg".toList) :
    '\x00' ∉ first h f m n := by
  unfold first
  rw [if_neg hne]
  cases h1 : f.tag n with
  | some v => exact fun hc => (clean_mem hc).1 rfl
  | none =>
    cases h2 : addRepl h n with
    | some x => exact addRepl_no (by decide) hfq hsh h2
    | none => simp [hn]

theorem meaning_no_nul (h : Hosts) (f : Fail) (m n : Text) (hfq : '\x00' ∉ h.fq) (hsh : '\x00' ∉ h.sh) (hn : '\x00' ∉ n)
    (hne : n ≠ "msg".toList) : '\x00' ∉ meaning h f m n := by
  cases hk : keptTag h f n with
  | true => rw [meaning_kept m hk]; exact captured_no_nul f n hn
  | false => rw [meaning_first m hk]; exact first_no_nul h f m n hfq hsh hn hne

theorem replace_fill (h : Hosts) (f : Fail) (m : Text) (hfq : '\x00' ∉ h.fq) (hsh : '\x00' ∉ h.sh) (ps : List Piece) (hps : '\x00' ∉ texts ps) :
    replace mark m (fillPieces (meaning h f mark) ps) = fillPieces (meaning h f m) ps := by
  induction ps with
  | nil => rfl
  | cons p ps ih =>
    cases p with
    | chr c =>
      rw [texts_chr] at hps
      simp at hps
      exact (replace_plain m [c] _ (by simpa using hps.1)).trans (congrArg (c :: ·) (ih hps.2))
    | tag n =>
      rw [texts_tag] at hps
      simp at hps
      show replace mark m (meaning h f mark n ++ fillPieces (meaning h f mark) ps) = meaning h f m n ++ fillPieces (meaning h f m) ps
      by_cases hn : n = "msg".toList
      · have e1 : ∀ x, meaning h f x n = x := fun x => by unfold meaning; rw [if_pos hn]
        rw [e1, e1, replace_mark, ih hps.2]
      · rw [replace_plain m _ _ (meaning_no_nul h f mark n hfq hsh hps.1 hn), ih hps.2, meaning_other h f mark m n hn]

/-! ### the loops -/

theorem asks_iff (fmt : Text) : asksMsg fmt = true ↔ Spec.Tags.Occurs "msg".toList fmt := by
  unfold asksMsg
  rw [decide_eq_true_iff, mem_pieces_iff]

theorem loop_cons (h : Hosts) (fmt : Text) (nl : Bool) (f : Fail) (fs : List Fail) : loop h fmt nl (f :: fs) =
    (if (if asksMsg fmt then (getMsg f nl).2 else nl) then
      ((loop h fmt (if asksMsg fmt then (getMsg f nl).2 else nl) fs).1,
        (f, replaceTags h fmt (asked f (getMsg f nl).1) f.data) :: (loop h fmt (if asksMsg fmt then (getMsg f nl).2 else nl) fs).2)
    else (replaceTags h fmt (asked f (getMsg f nl).1) f.data :: (loop h fmt (if asksMsg fmt then (getMsg f nl).2 else nl) fs).1,
        (loop h fmt (if asksMsg fmt then (getMsg f nl).2 else nl) fs).2)) := by
  rw [loop]
  rfl

theorem loop_none (h : Hosts) (fmt : Text) (hm : asksMsg fmt = false) (fs : List Fail) : ∃ g : Fail → Text,
    loop h fmt false fs = (fs.map (fun f => replaceTags h fmt (asked f (g f)) f.data), []) := by
  refine ⟨fun f => (getMsg f false).1, ?_⟩
  induction fs with
  | nil => rfl
  | cons f fs ih => rw [loop_cons]; simp [hm, ih]

theorem loop_wrap (h : Hosts) (fmt : Text) (hm : asksMsg fmt = true) (fs : List Fail) :
    loop h fmt true fs = ([], fs.map (fun f => (f, replaceTags h fmt (asked f mark) f.data))) := by
  induction fs with
  | nil => rfl
  | cons f fs ih =>
    have e : getMsg f true = (mark, true) := by simp [getMsg]
    rw [loop_cons, e]; simp [hm, ih]

theorem loop_many (h : Hosts) (fmt : Text) (hm : asksMsg fmt = true) (f : Fail) (fs : List Fail) (hf : 1 < f.matches_.length) :
    loop h fmt false (f :: fs) = loop h fmt true (f :: fs) := by
  have e : getMsg f false = getMsg f true := by simp [getMsg]; omega
  rw [loop_cons, loop_cons, e]
  simp [hm]

theorem loop_single (h : Hosts) (fmt : Text) (f : Fail) (m : Line) (fs : List Fail) (hf : f.matches_ = [m]) :
    loop h fmt false (f :: fs) = (replaceTags h fmt (asked f m.text) f.data :: (loop h fmt false fs).1, (loop h fmt false fs).2) := by
  have e : getMsg f false = (m.text, false) := by simp [getMsg, hf, joinNl]
  rw [loop_cons, e]
  simp

/-- the lines of a failure with a message -/
theorem printed_each {h : Hosts} {fmt : Text} (f : Fail) {fs : List Fail} {ws : List Text} (ho : Spec.Tags.Occurs "msg".toList fmt)
    (hw : Printed h fmt fs ws) : Printed h fmt (f :: fs) (f.matches_.map (fun m => fillPieces (meaning h f m.text) (pieces fmt)) ++ ws) := by
  refine .each f ho (by simp) ?_ hw
  intro i m w hi hw'
  rw [List.getElem?_map, hi] at hw'
  simp at hw'
  rw [← hw']
  exact subst_pieces _ _

theorem wrapped_printed (h : Hosts) (fmt : Text) (hp : Spec.Tags.Plain fmt) (h0 : '\x00' ∉ fmt) (hfq : '<' ∉ h.fq ∧ '\x00' ∉ h.fq)
    (hsh : '<' ∉ h.sh ∧ '\x00' ∉ h.sh) (ho : Spec.Tags.Occurs "msg".toList fmt) (fs : List Fail) (hv : ∀ f ∈ fs, NoLess fmt f) :
    Printed h fmt fs (wrapped (fs.map (fun f => (f, replaceTags h fmt (asked f mark) f.data)))) := by
  induction fs with
  | nil => exact .nil
  | cons f fs ih =>
    have ih := ih (fun g hg => hv g (by simp [hg]))
    have hf := hv f (by simp)
    have e : wrapped ((f :: fs).map (fun f => (f, replaceTags h fmt (asked f mark) f.data))) =
        f.matches_.map (fun m => replace mark m.text (replaceTags h fmt (asked f mark) f.data)) ++
        wrapped (fs.map (fun f => (f, replaceTags h fmt (asked f mark) f.data))) := by simp [wrapped]
    have e2 : ∀ m, replace mark m (replaceTags h fmt (asked f mark) f.data) = fillPieces (meaning h f m) (pieces fmt) := by
      intro m
      rw [one_pass h fmt f mark hp hfq.1 hsh.1 hf.1 (fun _ => by decide)]
      exact replace_fill h f m hfq.2 hsh.2 _ (by rw [texts_pieces]; exact h0)
    rw [e]
    simp only [e2]
    exact printed_each f ho ih

/-- **C116.** For all failures, in order, the format is printed, each tag replaced by what it stands for: once for each matched line if the
message is asked for (the message then is this line, unchanged), else once. -/
theorem C116_printed (h : Hosts) (fmt : Text) (hp : Spec.Tags.Plain fmt) (h0 : '\x00' ∉ fmt) (hfq : '<' ∉ h.fq ∧ '\x00' ∉ h.fq)
    (hsh : '<' ∉ h.sh ∧ '\x00' ∉ h.sh) (fs : List Fail) (hv : ∀ f ∈ fs, NoLess fmt f) (hm : ∀ f ∈ fs, f.matches_ ≠ []) :
    Printed h fmt fs (outTags h fmt fs) := by
  unfold outTags
  cases ha : asksMsg fmt with
  | false =>
    have ho : ¬ Spec.Tags.Occurs "msg".toList fmt := fun e => by rw [(asks_iff fmt).2 e] at ha; cases ha
    obtain ⟨g, hg⟩ := loop_none h fmt ha fs
    rw [hg]
    simp only [wrapped, List.flatMap_nil, List.append_nil]
    clear hg hm
    induction fs with
    | nil => exact .nil
    | cons f fs ih =>
      refine .one f ho ?_ (ih (fun g hg => hv g (by simp [hg])))
      show Subst (meaning h f []) fmt (replaceTags h fmt (asked f (g f)) f.data)
      rw [one_pass h fmt f _ hp hfq.1 hsh.1 (hv f (by simp)).1 (fun e => absurd e ho), subst_iff]
      unfold fillPieces
      refine congrArg List.flatten (List.map_congr_left ?_)
      intro p hpm
      cases p with
      | chr c => rfl
      | tag n => exact meaning_other h f _ _ n (fun e => ho ((mem_pieces_iff _ fmt).1 (e ▸ hpm)))
  | true =>
    have ho := (asks_iff fmt).1 ha
    induction fs with
    | nil => exact .nil
    | cons f fs ih =>
      have ih := ih (fun g hg => hv g (by simp [hg])) (fun g hg => hm g (by simp [hg]))
      by_cases hf : 1 < f.matches_.length
      · rw [loop_many h fmt ha f fs hf, loop_wrap h fmt ha]
        simp only [List.nil_append]
        exact wrapped_printed h fmt hp h0 hfq hsh ho _ hv
      · have hne := hm f (by simp)
        obtain ⟨m, e⟩ : ∃ m, f.matches_ = [m] := by
          cases hl : f.matches_ with
          | nil => exact absurd hl hne
          | cons m l =>
            cases l with
            | nil => exact ⟨m, rfl⟩
            | cons _ _ => rw [hl] at hf; simp at hf
        have hN := hv f (by simp)
        rw [loop_single h fmt f m fs e]
        have := printed_each (h := h) f ho ih
        rw [e] at this
        rw [one_pass h fmt f m.text hp hfq.1 hsh.1 hN.1 (fun _ => hN.2 ho m e)]
        exact this

/-- **C116.** These lines are determined. -/
theorem C116_determined {h : Hosts} {fmt : Text} {fs : List Fail} {ws ws' : List Text} (hw : Printed h fmt fs ws) (hw' : Printed h fmt fs ws') :
    ws = ws' := by
  induction hw generalizing ws' with
  | nil => cases hw'; rfl
  | one f ho hs _ ih =>
    cases hw' with
    | one _ _ hs' hr => rw [subst_unique hs hs', ih hr]
    | each _ ho' _ _ _ => exact absurd ho' ho
  | each f ho hl hs _ ih =>
    cases hw' with
    | one _ ho' _ _ => exact absurd ho ho'
    | each _ _ hl' hs' hr =>
      rename_i us _ _ us' _
      rw [ih hr]
      congr 1
      refine List.ext_getElem (by rw [hl, hl']) ?_
      intro i h1 h2
      have hi : i < f.matches_.length := by omega
      exact subst_unique (hs i _ _ (List.getElem?_eq_getElem hi) (List.getElem?_eq_getElem h1))
        (hs' i _ _ (List.getElem?_eq_getElem hi) (List.getElem?_eq_getElem h2))

theorem fill_no_nul (val : Text → Text) (ps : List Piece) (hps : '\x00' ∉ texts ps) (hv : ∀ n, .tag n ∈ ps → '\x00' ∉ n → '\x00' ∉ val n) :
    '\x00' ∉ fillPieces val ps := by
  induction ps with
  | nil => simp [fillPieces]
  | cons p ps ih =>
    cases p with
    | chr c =>
      rw [texts_chr] at hps
      simp at hps
      show '\x00' ∉ c :: fillPieces val ps
      simp [hps.1, ih hps.2 (fun n hn => hv n (by simp [hn]))]
    | tag n =>
      rw [texts_tag] at hps
      simp at hps
      show '\x00' ∉ val n ++ fillPieces val ps
      simp [hv n (by simp) hps.1, ih hps.2 (fun n hn => hv n (by simp [hn]))]

/-- **C116.** Whatever the values are: unless messages are asked for no NUL is printed. -/
theorem C116_nul (h : Hosts) (fmt : Text) (h0 : '\x00' ∉ fmt) (hfq : '\x00' ∉ h.fq) (hsh : '\x00' ∉ h.sh)
    (ho : ¬ Spec.Tags.Occurs "msg".toList fmt) (fs : List Fail) : (outTags h fmt fs).length = fs.length ∧ ∀ w ∈ outTags h fmt fs, '\x00' ∉ w := by
  have ha : asksMsg fmt = false := by
    cases e : asksMsg fmt with
    | false => rfl
    | true => exact absurd ((asks_iff fmt).1 e) ho
  obtain ⟨g, hg⟩ := loop_none h fmt ha fs
  unfold outTags
  rw [hg]
  simp only [wrapped, List.flatMap_nil, List.append_nil, List.length_map, true_and]
  intro w hw
  obtain ⟨f, _, rfl⟩ := List.mem_map.1 hw
  rw [replaceTags_eq]
  refine fill_no_nul _ _ ?_ (fun n _ hn => captured_no_nul f n hn)
  rw [texts_pieces]
  refine fill_no_nul _ _ (by rw [texts_pieces]; exact h0) ?_
  intro n hn h0'
  exact first_no_nul h f _ n hfq hsh h0' (fun e => ho ((mem_pieces_iff _ fmt).1 (e ▸ hn)))

/-- **C116.** What is printed for a token instead of a format. -/
theorem C116_tokens (h : Hosts) (fmt : Text) (fs : List Fail) :
    (fmt = "id".toList ∨ fmt = "fid".toList → out h fmt fs = fs.map Fail.fid) ∧
    (fmt = "ip".toList → out h fmt fs = fs.map (fun f => match f.fail "ip".toList with | some a => a | none => f.fid)) ∧
    (fmt = "msg".toList → out h fmt fs = (fs.map (fun f => f.matches_.map Line.text)).flatten) ∧
    (fmt = "row".toList → out h fmt fs = fs.map Fail.row) ∧
    (fmt = "matches".toList → out h fmt fs = fs.map Fail.listed) ∧
    (fmt ∉ ["id".toList, "fid".toList, "ip".toList, "msg".toList, "row".toList, "matches".toList] → '<' ∉ fmt →
      out h fmt fs = fs.map (fun f => match f.fail fmt with | some a => a | none => "None".toList)) ∧
    ('<' ∈ fmt → out h fmt fs = outTags h fmt fs) := by
  refine ⟨?_, ?_, ?_, ?_, ?_, ?_, ?_⟩
  · rintro (rfl | rfl) <;> rfl
  · rintro rfl
    show fs.map Fail.ip = _
    refine List.map_congr_left (fun f _ => ?_)
    unfold Fail.ip
    cases f.fail "ip".toList <;> rfl
  · rintro rfl
    exact List.flatMap_def
  · rintro rfl; rfl
  · rintro rfl
    rfl
  · intro hn hlt
    simp only [List.mem_cons, List.not_mem_nil, or_false, not_or] at hn
    obtain ⟨h1, h2, h3, h4, h5, h6⟩ := hn
    unfold out
    rw [if_neg (by rintro (e | e); exact h1 e; exact h2 e), if_neg h3, if_neg h4, if_neg h5, if_pos hlt]
    refine List.map_congr_left (fun f _ => ?_)
    unfold Fail.get
    rw [if_neg h6]
    cases f.fail fmt <;> rfl
  · intro hlt
    have : ∀ t : Text, '<' ∉ t → fmt ≠ t := fun t ht e => ht (e ▸ hlt)
    unfold out
    rw [if_neg, if_neg (this _ (by decide)), if_neg (this _ (by decide)), if_neg (this _ (by decide)), if_neg (by simpa using hlt)]
    rintro (e | e)
    · exact this _ (by decide) e
    · exact this _ (by decide) e

/-- **C116.** The token `ip` and the format `<ip>` print the same addresses. -/
theorem C116_same (h : Hosts) (fs : List Fail) (hv : ∀ f ∈ fs, '<' ∉ f.ip ∧ '\x00' ∉ f.ip) :
    out h "<ip>".toList fs = out h "ip".toList fs := by
  rw [((C116_tokens h _ fs).2.2.2.2.2.2) (by decide)]
  show outTags h _ fs = fs.map Fail.ip
  have ha : asksMsg "<ip>".toList = false := by decide +kernel
  obtain ⟨g, hg⟩ := loop_none h _ ha fs
  unfold outTags
  rw [hg]
  simp only [wrapped, List.flatMap_nil, List.append_nil]
  refine List.map_congr_left (fun f hf => ?_)
  rw [replaceTags_eq, show pieces "<ip>".toList = [.tag "ip".toList] by decide +kernel]
  have hcl : ∀ v : Text, '\x00' ∉ v → clean v = v := by
    intro v
    induction v with
    | nil => intro _; rfl
    | cons c v ih =>
      intro hc
      simp at hc
      have := ih hc.2
      unfold clean at this ⊢
      rw [List.flatMap_cons, this, if_neg (fun e => hc.1 e.symm)]
      rfl
  have e : fillPieces (first h f (g f)) [.tag "ip".toList] = f.ip := by
    show first h f (g f) "ip".toList ++ [] = f.ip
    rw [List.append_nil]
    show clean f.ip = f.ip
    exact hcl _ (hv f hf).2
  rw [e, pass_id _ _ (hv f hf).1]

/-! ### the lines -/

theorem dropWhile_all {p : Char → Bool} (l : Text) (hl : ∀ c ∈ l, p c = true) (r : Text) : (l ++ r).dropWhile p = r.dropWhile p := by
  induction l with
  | nil => rfl
  | cons c l ih =>
    rw [List.cons_append, List.dropWhile_cons_of_pos (hl c (by simp)), ih (fun d hd => hl d (by simp [hd]))]

theorem rstrip_spec (s : Text) : ∃ t, s = rstrip s ++ t ∧ (∀ c ∈ t, c = '\r' ∨ c = '\n') ∧ ∀ r c, rstrip s = r ++ [c] → c ≠ '\r' ∧ c ≠ '\n' := by
  refine ⟨(s.reverse.takeWhile (fun c => c == '\r' || c == '\n')).reverse, ?_, ?_, ?_⟩
  · unfold rstrip
    rw [← List.reverse_append, List.takeWhile_append_dropWhile, List.reverse_reverse]
  · intro c hc
    rw [List.mem_reverse] at hc
    have := List.all_takeWhile (l := s.reverse) (p := fun c => c == '\r' || c == '\n')
    have := List.all_eq_true.1 this c hc
    simpa using this
  · intro r c hr
    unfold rstrip at hr
    have := congrArg List.reverse hr
    rw [List.reverse_reverse, List.reverse_append] at this
    have h2 := List.head?_dropWhile_not (fun c => c == '\r' || c == '\n') s.reverse
    rw [this] at h2
    simpa using h2

/-- **C116.** Comments and empty lines are skipped; of others the end of the line is cut, nothing else. Entries of a journal are all taken. -/
theorem C116_taken (s : Text) : (taken (.line s) = none ↔ Skipped s) ∧
    (¬ Skipped s → ∃ r t, taken (.line s) = some (.line r) ∧ s = r ++ t ∧ (∀ c ∈ t, c = '\r' ∨ c = '\n') ∧
      ∀ r' c, r = r' ++ [c] → c ≠ '\r' ∧ c ≠ '\n') ∧
    ∀ p, taken (.journal p) = some (.journal p) := by
  obtain ⟨t, h1, h2, h3⟩ := rstrip_spec s
  have key : ((rstrip s).head? = some '#' ∨ (rstrip s).isEmpty = true) ↔ Skipped s := by
    constructor
    · rintro (e | e)
      · left
        cases hr : rstrip s with
        | nil => rw [hr] at e; cases e
        | cons c r =>
          rw [hr] at e h1
          simp at e
          subst e
          exact ⟨r ++ t, by simpa using h1⟩
      · right
        have : rstrip s = [] := by simpa using e
        rw [this] at h1
        rw [h1]
        simpa using h2
    · rintro (⟨r, e⟩ | e)
      · left
        cases hr : rstrip s with
        | nil =>
          rw [hr, e] at h1
          have := h2 '#' (by rw [← (show '#' :: r = t by simpa using h1)]; simp)
          rcases this with h | h <;> cases h
        | cons c l =>
          rw [hr, e] at h1
          simp at h1
          simp [← h1.1]
      · right
        rcases List.eq_nil_or_concat (rstrip s) with hr | ⟨l, c, hr⟩
        · rw [hr]; rfl
        · rw [List.concat_eq_append] at hr
          exfalso
          have hc := h3 l c hr
          have := e c (by rw [h1, hr]; simp)
          rcases this with h | h
          · exact hc.1 h
          · exact hc.2 h
  have e1 : taken (.line s) = if ((rstrip s).head? = some '#' ∨ (rstrip s).isEmpty = true) then none else some (.line (rstrip s)) := by
    unfold taken
    simp
  refine ⟨?_, ?_, fun _ => rfl⟩
  · rw [e1, ← key]
    split
    · rename_i h; exact ⟨fun _ => h, fun _ => rfl⟩
    · rename_i h; exact ⟨(fun e => by cases e), fun e => absurd e h⟩
  · intro hs
    rw [e1, if_neg (fun e => hs (key.1 e))]
    exact ⟨_, t, rfl, h1, h2, h3⟩

theorem out_nil (h : Hosts) (fmt : Text) : out h fmt [] = [] := by
  unfold out
  repeat' split
  all_goals rfl

/-- **C116.** For each line that is not skipped, in order, exactly what is to be printed for the failures found in it, without those that are no
failures. -/
theorem C116_process (h : Hosts) (fmt : Text) (found : List Input → Input → List (Bool × Fail)) (is : List Input) :
    ∃ parts : List (List Text), process h fmt found [] is = parts.flatten ∧ parts.length = (is.filterMap taken).length ∧
      ∀ (k : Nat) i, (is.filterMap taken)[k]? = some i →
        ∃ ret, parts[k]? = some (out h fmt ret) ∧
          ret = ((found ((is.filterMap taken).take k) i).filterMap (fun p => if p.1 then none else some p.2)) := by
  have key : ∀ (is before : List Input), ∃ parts : List (List Text), process h fmt found before is = parts.flatten ∧
      parts.length = (is.filterMap taken).length ∧
      ∀ (k : Nat) i, (is.filterMap taken)[k]? = some i → parts[k]? = some (out h fmt
          ((found (before ++ (is.filterMap taken).take k) i).filterMap (fun p => if p.1 then none else some p.2))) := by
    intro is
    induction is with
    | nil => intro before; exact ⟨[], rfl, rfl, fun k i hk => by simp at hk⟩
    | cons j is ih =>
      intro before
      cases ht : taken j with
      | none =>
        obtain ⟨parts, h1, h2, h3⟩ := ih before
        refine ⟨parts, ?_, ?_, ?_⟩
        · rw [process, ht]; exact h1
        · rw [List.filterMap_cons_none ht]; exact h2
        · rw [List.filterMap_cons_none ht]; exact h3
      | some i =>
        obtain ⟨parts, h1, h2, h3⟩ := ih (before ++ [i])
        have hret : ∀ l : List (Bool × Fail), (l.filter (fun p => !p.1)).map Prod.snd = l.filterMap (fun p => if p.1 then none else some p.2) := by
          intro l
          induction l with
          | nil => rfl
          | cons p l ihl =>
            obtain ⟨b, f⟩ := p
            cases b
            · simp [ihl]
            · simp [ihl]
        refine ⟨out h fmt ((found before i).filterMap (fun p => if p.1 then none else some p.2)) :: parts, ?_, ?_, ?_⟩
        · rw [process, ht]
          dsimp only
          rw [h1, hret, List.flatten_cons]
          congr 1
          split
          · rfl
          · rename_i hz
            have : (found before i).filterMap (fun p => if p.1 then none else some p.2) = [] := List.length_eq_zero_iff.1 (by omega)
            rw [this, out_nil]
        · rw [List.filterMap_cons_some ht, List.length_cons, List.length_cons, h2]
        · rw [List.filterMap_cons_some ht]
          intro k i' hk
          cases k with
          | zero =>
            simp at hk
            subst hk
            simp
          | succ k =>
            simp at hk
            have := h3 k i' hk
            simpa using this
  obtain ⟨parts, h1, h2, h3⟩ := key is []
  exact ⟨parts, h1, h2, fun k i hk => ⟨_, by simpa using h3 k i hk, rfl⟩⟩

/-! ### examples -/

namespace RegexOutExample

def hosts : Hosts := ⟨"host.example.org".toList, "host".toList⟩

/-- a failure of an address with captured values and matched lines -/
def fail (ip : String) (d : List (String × String)) (ms : List String) : Fail where
  fid := ip.toList
  fail := fun k => (d.lookup (String.ofList k)).map String.toList
  matches_ := ms.map (fun m => .parts [[], m.toList])
  listed := "[..]".toList
  info := fun n => if n = "family".toList then some "inet4".toList else none
  row := "[..],".toList

def shown (fmt : String) (fs : List Fail) : List String := (out hosts fmt.toList fs).map String.ofList

example : shown "id" [fail "192.0.2.1" [("ip", "192.0.2.7")] ["a"]] = ["192.0.2.1"] := by decide +kernel
example : shown "ip" [fail "192.0.2.1" [("ip", "192.0.2.7")] ["a"], fail "192.0.2.2" [] ["a"]] = ["192.0.2.7", "192.0.2.2"] := by decide +kernel
example : shown "user" [fail "192.0.2.1" [("user", "bob")] ["a"], fail "192.0.2.2" [] ["a"]] = ["bob", "None"] := by decide +kernel
example : shown "<ip>, <F-USER>, <family><br>" [fail "192.0.2.1" [("user", "bob")] ["a"]] = ["192.0.2.1, bob, inet4\n"] := by decide +kernel
example : shown "<ip> <msg>" [fail "192.0.2.1" [] ["a"], fail "192.0.2.2" [] ["b", "c <F-USER>"], fail "192.0.2.3" [] ["d"]] =
    ["192.0.2.1 a", "192.0.2.2 b", "192.0.2.2 c <F-USER>", "192.0.2.3 d"] := by decide +kernel
example : shown "<F-USER> <msg>" [fail "192.0.2.1" [("user", "\x00msg\x00")] ["a", "\x00msg\x00"]] =
    ["\\x00msg\\x00 a", "\\x00msg\\x00 \x00msg\x00"] := by decide +kernel

example : shown "<fid>/<ip>: <matches> (<F-FAILURES>, <F-ID>, <F-MATCHES>)" [fail "192.0.2.1" [("ip", "192.0.2.7"), ("fid", "x")] ["a", "b", "c"]] =
    ["192.0.2.1/192.0.2.7: a\nb\nc (0, x, [..])"] := by decide +kernel
example : shown "failures" [fail "192.0.2.1" [] ["a"]] = ["None"] ∧ shown "matches" [fail "192.0.2.1" [] ["a"]] = ["[..]"] := by decide +kernel
example : (Line.parts ["a ".toList, "2024-01-01".toList, " b".toList]).text = "a 2024-01-01 b".toList := by decide +kernel

/-- not vacuous: a format and failures for `C116_printed` -/
example : Spec.Tags.Plain "<ip> <msg>".toList ∧ NoLess "<ip> <msg>".toList (fail "192.0.2.1" [] ["b <", "c <F-USER>"]) := by
  refine ⟨(clean_iff_plain _).1 (by unfold Clean; decide +kernel), ?_, ?_⟩
  · intro n v ho hn hv
    have := (mem_pieces_iff _ _).2 ho
    rw [show pieces "<ip> <msg>".toList = [.tag "ip".toList, .chr ' ', .tag "msg".toList] by decide +kernel] at this
    simp only [List.mem_cons, Piece.tag.injEq, reduceCtorEq, List.not_mem_nil, or_false, false_or] at this
    rcases this with e | e
    · subst e
      cases hv
      decide +kernel
    · exact absurd e hn
  · intro _ m hm
    cases hm

example : process hosts "id".toList (fun _ i => if i = .line "x".toList then [(false, fail "192.0.2.1" [] ["x"]), (true, fail "192.0.2.2" [] ["x"])] else [])
    [] [.line "#x".toList, .line "x\r\n".toList, .line "\n".toList, .line "y".toList] = ["192.0.2.1".toList] := by decide +kernel

end RegexOutExample

open RegexOutExample

/-- **C116 does not hold for lines with tags.** A matched line is printed with other text in place of `<F-USER>`, or with a part missing, though
`not recursive` is said in the code; the same line in a failure with several of them is printed as it is. -/
theorem C116_refuted_tag :
    shown "<msg>" [fail "192.0.2.1" [("user", "root")] ["login of <F-USER> failed <F-X>"]] = ["login of root failed "] ∧
    shown "msg" [fail "192.0.2.1" [("user", "root")] ["login of <F-USER> failed <F-X>"]] = ["login of <F-USER> failed <F-X>"] ∧
    shown "<msg>" [fail "192.0.2.1" [("user", "root")] ["login of <F-USER> failed <F-X>", "b"]] = ["login of <F-USER> failed <F-X>", "b"] := by
  decide +kernel

end RegexOut

end Verif
