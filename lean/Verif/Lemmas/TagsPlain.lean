import Verif.Lemmas.TagsLoop

/-! # Lemmas on tag interpolation with plain definitions -/

namespace Verif

open Tags Spec.Tags

namespace Tags

theorem reaches_trans {f : Text → Option Text} {v m r n : Text} (h : Reaches f v m) (hf : f m = some r) (h2 : Reaches f r n) : Reaches f v n := by
  induction h with
  | here ho => exact .through ho hf h2
  | through ho hf' _ ih => exact .through ho hf' (ih hf)

/-- tags of a text after a replacement -/
theorem mem_subPieces {g : Text → Option Text} {ps : List Piece} {n : Text} (h : .tag n ∈ subPieces g ps) :
    .tag n ∈ ps ∨ ∃ m r, .tag m ∈ ps ∧ g m = some r ∧ .tag n ∈ pieces r := by
  unfold subPieces at h
  rw [List.mem_flatMap] at h
  obtain ⟨p, hp, hn⟩ := h
  cases p with
  | chr c => simp at hn
  | tag m =>
    dsimp only at hn
    cases hg : g m with
    | none => rw [hg] at hn; simp at hn; rw [hn]; exact Or.inl hp
    | some r => rw [hg] at hn; exact Or.inr ⟨m, r, hp, hg, hn⟩

/-- tags that come up in the inner loop -/
theorem replaceLoop_tags {ignore : Text → Bool} {tags : Defs} {conditional : Text} {addrepl : Text → Option Text} {tag : Text}
    (Q : Text → Prop) (hclean : ∀ n r, meaning ignore tags conditional addrepl n = some r → Clean r)
    (hQ : ∀ m r n, Q m → meaning ignore tags conditional addrepl m = some r → .tag n ∈ pieces r → Q n) (fuel : Nat) :
    ∀ (v : Text) (rplc : Dict Text Nat) (pos : Nat), Clean v → (∀ n, .tag n ∈ pieces v → Q n) →
    (∀ v' rplc', replaceLoop ignore tags conditional addrepl tag fuel v rplc pos = .ok (v', rplc') → ∀ n, .tag n ∈ pieces v' → Q n) ∧
    (∀ a b, replaceLoop ignore tags conditional addrepl tag fuel v rplc pos = .selfRef a b → a = tag ∧ Q b) := by
  induction fuel with
  | zero => intro v rplc pos _ _; exact ⟨fun _ _ h => (by cases h), fun _ _ h => (by cases h)⟩
  | succ fuel ih =>
    intro v rplc pos hv hq
    rw [replaceLoop]
    cases hs : search v pos with
    | none =>
      refine ⟨fun v' rplc' h => ?_, fun a b h => by cases h⟩
      cases h
      exact hq
    | some x =>
      obtain ⟨start, rtag⟩ := x
      obtain ⟨a, bb, h1, h2, _⟩ := search_some hs
      have hmem : .tag rtag ∈ pieces v := by
        rw [mem_pieces_iff]
        refine ⟨h2, v.take pos ++ a, bb, ?_⟩
        rw [List.append_assoc, ← h1, List.take_append_drop]
      dsimp only
      by_cases hi : ignore rtag = true
      · rw [if_pos hi]; exact ih _ _ _ hv hq
      · rw [if_neg hi]
        by_cases h3 : rtag = tag ∨ maxReplace < (rplc.get? rtag).getD 1
        · rw [if_pos h3]
          refine ⟨fun v' rplc' h => (by cases h), fun a b h => ?_⟩
          cases h
          exact ⟨rfl, hq _ hmem⟩
        · rw [if_neg h3]
          cases hr : repl tags conditional addrepl rtag with
          | none => exact ih _ _ _ hv hq
          | some r =>
            have hm : meaning ignore tags conditional addrepl rtag = some r := by rw [meaning_eq, if_neg hi, hr]
            have hsub : pieces (replaceAll rtag r v) = subPieces (fun m => if m = rtag then some r else none) (pieces v) := by
              show pieces (sub _ v) = _
              rw [sub_eq]
              refine pieces_texts (good_subPieces _ ?_ _ (good_pieces hv))
              intro n x hx
              split at hx
              · cases hx; exact hclean _ _ hm
              · cases hx
            refine ih _ _ _ ?_ ?_
            · unfold Clean
              rw [hsub]
              refine (good_subPieces _ ?_ _ (good_pieces hv)).1
              intro n x hx
              split at hx
              · cases hx; exact hclean _ _ hm
              · cases hx
            · intro n hn
              rw [hsub] at hn
              rcases mem_subPieces hn with hn | ⟨m, x, hm', hx, hn⟩
              · exact hq n hn
              · split at hx
                · rename_i e
                  cases hx
                  rw [e] at hm'
                  exact hQ rtag r n (hq _ hmem) hm hn
                · cases hx

/-- an expansion uses no tag that uses itself -/
theorem expands_acyclic {f : Text → Option Text} {v w : Text} (h : Expands f v w) (n : Text) (hn : Occurs n v) : ¬ UsesTrans f n n := by
  have key : ∀ {v w : Text}, Expands f v w → ∀ n, .tag n ∈ pieces v → (f n).isSome → Acc (fun b a => Uses f a b) n := by
    intro v w h
    induction h with
    | nil => intro n hn; simp [pieces, go] at hn
    | chr c hc _ ih =>
      intro n hn hs
      unfold pieces at hn
      rw [go, if_neg hc] at hn
      simp at hn
      exact ih n hn hs
    | keep m hm hf _ ih =>
      rename_i v w _
      intro n hn hs
      have := pieces_tag [] m v hm
      rw [List.nil_append] at this
      rw [this] at hn
      simp [pieces, go] at hn
      rcases hn with hn | hn
      · rw [hn, hf] at hs; cases hs
      · exact ih n hn hs
    | repl m hm hf _ _ ih1 ih2 =>
      rename_i r x v w _ _
      intro n hn hs
      have := pieces_tag [] m v hm
      rw [List.nil_append] at this
      rw [this] at hn
      simp [pieces, go] at hn
      rcases hn with hn | hn
      · subst hn
        refine Acc.intro n ?_
        rintro b ⟨r', hr', ho, hb⟩
        rw [hf] at hr'
        cases hr'
        exact ih1 b ((mem_pieces_iff b _).2 ho) hb
      · exact ih2 n hn hs
  intro hu
  have hsome : (f n).isSome := by
    cases hu with
    | one h => obtain ⟨r, hr, _⟩ := h; rw [hr]; rfl
    | step h _ => obtain ⟨r, hr, _⟩ := h; rw [hr]; rfl
  have hacc := key h n ((mem_pieces_iff n v).2 hn) hsome
  have trans : ∀ {a b c : Text}, UsesTrans f a b → UsesTrans f b c → UsesTrans f a c := by
    intro a b c h1 h2
    induction h1 with
    | one h => exact .step h h2
    | step h _ ih => exact .step h (ih h2)
  have no : ∀ a, Acc (fun b a => Uses f a b) a → ¬ UsesTrans f a a := by
    intro a ha
    induction ha with
    | intro a _ ih =>
      intro hc
      cases hc with
      | one h => exact ih a h (.one h)
      | step h h2 => exact ih _ h (trans h2 (.one h))
  exact no n hacc hu

/-- tags left by an expansion stand for nothing -/
theorem expands_done {f : Text → Option Text} {v w : Text} (h : Expands f v w) : ∀ n, .tag n ∈ pieces w → f n = none := by
  have key : ∃ ps, Good ps ∧ texts ps = w ∧ ∀ n, .tag n ∈ ps → f n = none := by
    induction h with
    | nil => exact ⟨[], ⟨by simp, by simp⟩, rfl, by simp⟩
    | chr c hc _ ih =>
      obtain ⟨ps, hg, rfl, hn⟩ := ih
      refine ⟨.chr c :: ps, ⟨?_, ?_⟩, by simp, ?_⟩
      · intro hm
        rcases List.mem_cons.1 hm with e | e
        · cases e; exact hc rfl
        · exact hg.1 e
      · intro n hn
        rcases List.mem_cons.1 hn with e | e
        · cases e
        · exact hg.2 n e
      · intro n hm
        rcases List.mem_cons.1 hm with e | e
        · cases e
        · exact hn n e
    | keep n hn hf _ ih =>
      obtain ⟨ps, hg, rfl, hd⟩ := ih
      refine ⟨.tag n :: ps, ⟨?_, ?_⟩, by simp, ?_⟩
      · intro hm
        rcases List.mem_cons.1 hm with e | e
        · cases e
        · exact hg.1 e
      · intro m hm
        rcases List.mem_cons.1 hm with e | e
        · cases e; exact hn
        · exact hg.2 m e
      · intro m hm
        rcases List.mem_cons.1 hm with e | e
        · cases e; exact hf
        · exact hd m e
    | repl n hn hf _ _ ih1 ih2 =>
      obtain ⟨ps, hg, rfl, hp⟩ := ih1
      obtain ⟨qs, hq, rfl, hq'⟩ := ih2
      refine ⟨ps ++ qs, hg.append hq, by simp, ?_⟩
      intro m hm
      rcases List.mem_append.1 hm with e | e
      · exact hp m e
      · exact hq' m e
  obtain ⟨ps, hg, rfl, hd⟩ := key
  intro n hn
  rw [pieces_texts hg] at hn
  exact hd n hn

/-- counters only grow -/
theorem replaceLoop_counts {ignore : Text → Bool} {tags : Defs} {conditional : Text} {addrepl : Text → Option Text} {tag : Text} (fuel : Nat) :
    ∀ (v : Text) (rplc : Dict Text Nat) (pos : Nat) (v' : Text) (rplc' : Dict Text Nat),
    replaceLoop ignore tags conditional addrepl tag fuel v rplc pos = .ok (v', rplc') →
    (∀ m, (rplc.get? m).getD 0 ≤ (rplc'.get? m).getD 0) ∧
    ((∀ n, .tag n ∈ pieces (v.drop pos) → meaning ignore tags conditional addrepl n = none) ∨
      ∃ m, (rplc.get? m).getD 0 < (rplc'.get? m).getD 0) := by
  induction fuel with
  | zero => intro v rplc pos v' rplc' h; cases h
  | succ fuel ih =>
    intro v rplc pos v' rplc' h
    rw [replaceLoop] at h
    cases hs : search v pos with
    | none =>
      simp only [hs] at h
      cases h
      exact ⟨fun _ => Nat.le_refl _, Or.inl fun n hn => absurd hn ((search_none v pos).1 hs n)⟩
    | some x =>
      obtain ⟨start, rtag⟩ := x
      obtain ⟨a, bb, h1, h2, h3, h4, h5, h6, h7⟩ := search_some hs
      simp only [hs] at h
      have skip : meaning ignore tags conditional addrepl rtag = none →
          replaceLoop ignore tags conditional addrepl tag fuel v rplc (start + rtag.length + 2) = .ok (v', rplc') →
          (∀ m, (rplc.get? m).getD 0 ≤ (rplc'.get? m).getD 0) ∧
          ((∀ n, .tag n ∈ pieces (v.drop pos) → meaning ignore tags conditional addrepl n = none) ∨
          ∃ m, (rplc.get? m).getD 0 < (rplc'.get? m).getD 0) := by
        intro hm he
        obtain ⟨e1, e2⟩ := ih _ _ _ _ _ he
        refine ⟨e1, ?_⟩
        rcases e2 with e3 | e
        · refine Or.inl fun n hn => ?_
          rw [h6] at hn
          rcases List.mem_append.1 hn with hn | hn
          · exact absurd hn (h5 n)
          · rcases List.mem_cons.1 hn with hn | hn
            · cases hn; exact hm
            · exact e3 n (by rw [h4]; exact hn)
        · exact Or.inr e
      by_cases hi : ignore rtag = true
      · rw [if_pos hi] at h
        exact skip (by rw [meaning_eq, if_pos hi]) h
      · rw [if_neg hi] at h
        by_cases h2 : rtag = tag ∨ maxReplace < (rplc.get? rtag).getD 1
        · rw [if_pos h2] at h; cases h
        · rw [if_neg h2] at h
          cases hr : repl tags conditional addrepl rtag with
          | none =>
            simp only [hr] at h
            exact skip (by rw [meaning_eq, if_neg hi, hr]) h
          | some r =>
            simp only [hr] at h
            obtain ⟨e1, _⟩ := ih _ _ _ _ _ h
            refine ⟨fun m => ?_, Or.inr ⟨rtag, ?_⟩⟩
            · have := e1 m
              by_cases e : m = rtag
              · subst e; rw [Dict.get?_insert_self, Option.getD_some] at this; omega
              · rwa [Dict.get?_insert_ne _ e] at this
            · have := e1 rtag
              rw [Dict.get?_insert_self, Option.getD_some] at this
              omega

/-- if nothing was counted, nothing was replaced, and no tag with a meaning is there -/
theorem replaceLoop_none {ignore : Text → Bool} {tags : Defs} {conditional : Text} {addrepl : Text → Option Text} {tag : Text} (fuel : Nat)
    (v : Text) (rplc : Dict Text Nat) (pos : Nat) (v' : Text) (rplc' : Dict Text Nat)
    (h : replaceLoop ignore tags conditional addrepl tag fuel v rplc pos = .ok (v', rplc')) (he : rplc' = rplc) (n : Text)
    (hn : .tag n ∈ pieces (v.drop pos)) : meaning ignore tags conditional addrepl n = none := by
  rcases (replaceLoop_counts fuel v rplc pos v' rplc' h).2 with h1 | ⟨m, hm⟩
  · exact h1 n hn
  · rw [he] at hm; omega

/-- What holds at any time for plain definitions: values have the same expansion as at the beginning. -/
def Inv (ignore : Text → Bool) (conditional : Text) (addrepl : Text → Option Text) (d : Defs) (s : SubstState) : Prop :=
  s.tags.keys = d.keys ∧ (∀ k, ignore k = true → s.tags.get? k = d.get? k) ∧
  ∀ k v, s.tags.get? k = some v → Clean v ∧ ∃ v0, d.get? k = some v0 ∧ Refines (meaning ignore d conditional addrepl) v v0 ∧
    ∀ n, .tag n ∈ pieces v → Reaches (meaning ignore d conditional addrepl) v0 n

theorem get?_none_of_keys {a b : Defs} (h : a.keys = b.keys) (k : Text) : a.get? k = none ↔ b.get? k = none := by
  rw [Dict.get?_eq_none_iff, Dict.get?_eq_none_iff, h]

section
variable {ignore : Text → Bool} {conditional : Text} {addrepl : Text → Option Text} {d : Defs}

theorem meaning_none_of_keys {t : Defs} (h : t.keys = d.keys) (n : Text) :
    meaning ignore t conditional addrepl n = none ↔ meaning ignore d conditional addrepl n = none := by
  unfold meaning
  have e1 := get?_none_of_keys h n
  have e2 := get?_none_of_keys h (n ++ '?' :: conditional)
  split
  · exact Iff.rfl
  · simp only [Option.or_eq_none_iff]
    split
    · simp [e1]
    · simp [e1, e2]

/-- what a tag stands for now refines what it stood for in the beginning -/
theorem Inv.meaning {s : SubstState} (h : Inv ignore conditional addrepl d s) (hx : ∀ n r, addrepl n = some r → Clean r) (n r : Text)
    (hm : meaning ignore s.tags conditional addrepl n = some r) :
    Clean r ∧ ∃ r0, meaning ignore d conditional addrepl n = some r0 ∧ Refines (meaning ignore d conditional addrepl) r r0 ∧
      ∀ m, .tag m ∈ pieces r → Reaches (meaning ignore d conditional addrepl) r0 m := by
  have hi : ignore n = false := by
    cases hi : ignore n with
    | false => rfl
    | true => simp [Spec.Tags.meaning, hi] at hm
  have hval : ∀ k v, s.tags.get? k = some v → _ := h.2.2
  have key : ∀ (x : Text), (Spec.Tags.meaning ignore d conditional addrepl n = some x) →
      (Clean r ∧ Refines (Spec.Tags.meaning ignore d conditional addrepl) r x ∧
        ∀ m, .tag m ∈ pieces r → Reaches (Spec.Tags.meaning ignore d conditional addrepl) x m) →
      Clean r ∧ ∃ r0, Spec.Tags.meaning ignore d conditional addrepl n = some r0 ∧ Refines (Spec.Tags.meaning ignore d conditional addrepl) r r0 ∧
      ∀ m, .tag m ∈ pieces r → Reaches (Spec.Tags.meaning ignore d conditional addrepl) r0 m :=
    fun x hx h => ⟨h.1, x, hx, h.2⟩
  have hm' := hm
  unfold Spec.Tags.meaning at hm'
  simp only [hi, Bool.false_eq_true, if_false] at hm'
  by_cases hc : conditional = []
  · simp only [hc, if_true, Option.none_or] at hm'
    cases hg : s.tags.get? n with
    | some v =>
      simp only [hg, Option.some_or, Option.some.injEq] at hm'
      subst hm'
      obtain ⟨h1, v0, h2, h3, h4⟩ := hval n v hg
      exact key v0 (by simp [Spec.Tags.meaning, hi, hc, h2]) ⟨h1, h3, h4⟩
    | none =>
      simp only [hg, Option.none_or] at hm'
      have := (get?_none_of_keys h.1 n).1 hg
      exact key r (by simp [Spec.Tags.meaning, hi, hc, this, hm']) ⟨hx _ _ hm', fun w hw => hw, fun m hm => .here ((mem_pieces_iff m r).1 hm)⟩
  · simp only [hc, if_false] at hm'
    cases hgc : s.tags.get? (n ++ '?' :: conditional) with
    | some v =>
      simp only [hgc, Option.some_or, Option.some.injEq] at hm'
      subst hm'
      obtain ⟨h1, v0, h2, h3, h4⟩ := hval _ v hgc
      exact key v0 (by simp [Spec.Tags.meaning, hi, hc, h2]) ⟨h1, h3, h4⟩
    | none =>
      have hn0 := (get?_none_of_keys h.1 (n ++ '?' :: conditional)).1 hgc
      simp only [hgc, Option.none_or] at hm'
      cases hg : s.tags.get? n with
      | some v =>
        simp only [hg, Option.some_or, Option.some.injEq] at hm'
        subst hm'
        obtain ⟨h1, v0, h2, h3, h4⟩ := hval n v hg
        exact key v0 (by simp [Spec.Tags.meaning, hi, hc, hn0, h2]) ⟨h1, h3, h4⟩
      | none =>
        simp only [hg, Option.none_or] at hm'
        have := (get?_none_of_keys h.1 n).1 hg
        exact key r (by simp [Spec.Tags.meaning, hi, hc, hn0, this, hm']) ⟨hx _ _ hm', fun w hw => hw, fun m hm => .here ((mem_pieces_iff m r).1 hm)⟩

theorem Inv.init (hd : ∀ k v, d.get? k = some v → Clean v) : Inv ignore conditional addrepl d ⟨d, [], Dict.empty, false⟩ :=
  ⟨rfl, fun _ _ => rfl, fun k v h => ⟨hd k v h, v, h, fun _ hw => hw, fun n hn => .here ((mem_pieces_iff n v).1 hn)⟩⟩

/-- the loop for one tag, for plain definitions -/
theorem Inv.loop {s : SubstState} (h : Inv ignore conditional addrepl d s) (hx : ∀ n r, addrepl n = some r → Clean r) {fuel : Nat} {tag : Text}
    (ht : tag ∈ d.keys) {rplc rplc' : Dict Text Nat} {v' : Text}
    (hl : replaceLoop ignore s.tags conditional addrepl tag fuel ((s.tags.get? tag).getD []) rplc 0 = .ok (v', rplc')) :
    ∃ v0, d.get? tag = some v0 ∧ Clean v' ∧ Refines (Spec.Tags.meaning ignore d conditional addrepl) v' v0 ∧
      (∀ n, .tag n ∈ pieces v' → Reaches (Spec.Tags.meaning ignore d conditional addrepl) v0 n) ∧
      (∀ n, .tag n ∈ pieces v' → Spec.Tags.meaning ignore d conditional addrepl n = none) := by
  rw [← h.1] at ht
  obtain ⟨v, hv⟩ := (Dict.mem_keys_iff _ _).1 ht
  rw [hv, Option.getD_some] at hl
  obtain ⟨h1, v0, h2, h3, h4⟩ := h.2.2 tag v hv
  have hp := replaceLoop_plain (f := Spec.Tags.meaning ignore d conditional addrepl)
    (fun n hn => (meaning_none_of_keys h.1 n).1 hn)
    (fun n r hm => by obtain ⟨a, b, c, e, _⟩ := h.meaning hx n r hm; exact ⟨a, b, c, e⟩) fuel [] (pieces v) rplc v' rplc'
    (by rw [List.nil_append]; exact good_pieces h1) (fun n hn => by cases hn) (by rw [List.nil_append, texts_pieces]; exact hl)
  rw [List.nil_append, texts_pieces] at hp
  have ht' := (replaceLoop_tags (Q := fun n => Reaches (Spec.Tags.meaning ignore d conditional addrepl) v0 n)
    (fun n r hm => (h.meaning hx n r hm).1)
    (fun m r n hq hm hn => by
      obtain ⟨_, r0, c, _, e⟩ := h.meaning hx m r hm
      exact reaches_trans hq c (e n hn)) fuel v rplc 0 h1 h4).1 v' rplc' hl
  exact ⟨v0, h2, hp.1, fun w hw => h3 w (hp.2.2 w hw), ht', hp.2.1⟩

theorem Inv.step {s s' : SubstState} (h : Inv ignore conditional addrepl d s) (hx : ∀ n r, addrepl n = some r → Clean r) {fuel : Nat} {tag : Text}
    (ht : tag ∈ d.keys) (hs : substTag ignore conditional addrepl fuel s tag = .ok s') : Inv ignore conditional addrepl d s' := by
  rcases substTag_ok hs with ⟨rfl, _⟩ | ⟨hc, value, rplc, h1, h2, _⟩
  · exact h
  · refine ⟨by rw [substTag_keys (by rw [h.1]; exact ht) hs, h.1], ?_, ?_⟩
    · intro k hk
      have hne : k ≠ tag := fun e => hc (Or.inl (by rw [← e]; exact hk))
      rw [substTag_other hne hs, h.2.1 k hk]
    · intro k v hv
      by_cases hne : k = tag
      · subst hne
        obtain ⟨v0, e1, e2, e3, e4, _⟩ := h.loop hx ht h1
        have : v = value := by
          rw [h2] at hv
          split at hv
          · rw [Dict.get?_insert_self] at hv; cases hv; rfl
          · rename_i e
            rw [hv, Option.getD_some] at e
            exact Classical.not_not.1 e
        rw [this]
        exact ⟨e2, v0, e1, e3, e4⟩
      · rw [substTag_other hne hs] at hv
        exact h.2.2 k v hv

/-- what was done has no tag -/
theorem inv_step {s s' : SubstState} (hx : ∀ n r, addrepl n = some r → Clean r) {fuel : Nat} {tag : Text} (ht : tag ∈ d.keys)
    (hs : Inv ignore conditional addrepl d s ∧ ∀ t, t ∈ s.done → '<' ∉ (s.tags.get? t).getD [])
    (hst : substTag ignore conditional addrepl fuel s tag = .ok s') :
    Inv ignore conditional addrepl d s' ∧ ∀ t, t ∈ s'.done → '<' ∉ (s'.tags.get? t).getD [] := by
  refine ⟨hs.1.step hx ht hst, ?_⟩
  intro t htd
  rcases substTag_ok hst with ⟨rfl, _⟩ | ⟨hc, value, rplc, h1, h2, h3, _⟩
  · exact hs.2 t htd
  · by_cases hne : t = tag
    · subst hne
      have hval : (s'.tags.get? t).getD [] = value := by
        rw [h2]
        split
        · rw [Dict.get?_insert_self]; rfl
        · rename_i e; exact Classical.not_not.1 e
      rw [hval]
      rw [h3] at htd
      split at htd
      · exact absurd (Or.inr htd) hc
      · assumption
    · rw [substTag_other hne hst]
      refine hs.2 t ?_
      rw [h3] at htd
      split at htd
      · exact htd
      · rcases List.mem_cons.1 htd with e | e
        · exact absurd e hne
        · exact e

theorem done_step {s s' : SubstState} {fuel : Nat} {tag : Text} (ht : tag ∈ d.keys)
    (hs : s.tags.keys = d.keys ∧ ∀ t, t ∈ s.done → '<' ∉ (s.tags.get? t).getD [])
    (hst : substTag ignore conditional addrepl fuel s tag = .ok s') :
    s'.tags.keys = d.keys ∧ ∀ t, t ∈ s'.done → '<' ∉ (s'.tags.get? t).getD [] := by
  refine ⟨by rw [substTag_keys (by rw [hs.1]; exact ht) hst, hs.1], ?_⟩
  intro t htd
  rcases substTag_ok hst with ⟨rfl, _⟩ | ⟨hc, value, rplc, h1, h2, h3, _⟩
  · exact hs.2 t htd
  · by_cases hne : t = tag
    · subst hne
      have hval : (s'.tags.get? t).getD [] = value := by
        rw [h2]
        split
        · rw [Dict.get?_insert_self]; rfl
        · rename_i e; exact Classical.not_not.1 e
      rw [hval]
      rw [h3] at htd
      split at htd
      · exact absurd (Or.inr htd) hc
      · assumption
    · rw [substTag_other hne hst]
      refine hs.2 t ?_
      rw [h3] at htd
      split at htd
      · exact htd
      · rcases List.mem_cons.1 htd with e | e
        · exact absurd e hne
        · exact e

theorem Inv.selfRef {s : SubstState} (h : Inv ignore conditional addrepl d s) (hx : ∀ n r, addrepl n = some r → Clean r) {fuel : Nat} {tag a b : Text}
    (ht : tag ∈ d.keys) (hs : substTag ignore conditional addrepl fuel s tag = .selfRef a b) :
    ∃ v0, d.get? a = some v0 ∧ Reaches (Spec.Tags.meaning ignore d conditional addrepl) v0 b := by
  rw [← h.1] at ht
  obtain ⟨v, hv⟩ := (Dict.mem_keys_iff _ _).1 ht
  obtain ⟨h1, v0, h2, h3, h4⟩ := h.2.2 tag v hv
  have key := (replaceLoop_tags (tag := tag) (Q := fun n => Reaches (Spec.Tags.meaning ignore d conditional addrepl) v0 n)
    (fun n r hm => (h.meaning hx n r hm).1)
    (fun m r n hq hm hn => by
      obtain ⟨_, r0, c, _, e⟩ := h.meaning hx m r hm
      exact reaches_trans hq c (e n hn)) fuel v ((s.repCounts.get? tag).getD Dict.empty) 0 h1 h4).2 a b
  unfold substTag at hs
  split at hs
  · cases hs
  · dsimp only at hs
    rw [hv, Option.getD_some] at hs
    cases hr : replaceLoop ignore s.tags conditional addrepl tag fuel v ((s.repCounts.get? tag).getD Dict.empty) 0 with
    | fuel => rw [hr] at hs; cases hs
    | ok x => rw [hr] at hs; cases hs
    | selfRef x y =>
      rw [hr] at hs
      cases hs
      obtain ⟨e, hq⟩ := key hr
      rw [e]
      exact ⟨v0, h2, hq⟩

/-- the result for plain definitions -/
theorem result_plain {fuel passes : Nat} {r : Defs} (hd : ∀ k v, d.get? k = some v → Clean v) (hx : ∀ n r, addrepl n = some r → Clean r)
    (h : substituteRecursiveTags d conditional ignore addrepl fuel passes = .ok r) (k v : Text) (hv : r.get? k = some v) (hi : ignore k = false) :
    ∃ v0, d.get? k = some v0 ∧ Clean v ∧ Refines (Spec.Tags.meaning ignore d conditional addrepl) v v0 ∧
      (∀ n, .tag n ∈ pieces v → Spec.Tags.meaning ignore d conditional addrepl n = none) := by
  obtain ⟨s0, s1, hs0, hf0, hs1, hp, hf1, rfl⟩ := substLoop_last
    (fun s => Inv ignore conditional addrepl d s ∧ ∀ t, t ∈ s.done → '<' ∉ (s.tags.get? t).getD []) d.keys
    (fun s b hs => hs) (fun s hs => hs.1.1)
    (fun s tag s' ht hs hst => inv_step hx ht hs hst)
    passes _ r ⟨Inv.init hd, fun t ht => by cases ht⟩ h
  have hk : k ∈ d.keys := by rw [← hs1.1.1]; exact (Dict.mem_keys_iff _ _).2 ⟨v, hv⟩
  obtain ⟨x1, x2, hx1, hx2, hx3, _, hx5⟩ := substPass_visit
    (fun s => Inv ignore conditional addrepl d s ∧ ∀ t, t ∈ s.done → '<' ∉ (s.tags.get? t).getD []) d.keys
    (fun s tag s' ht hs hst => inv_step hx ht hs hst)
    d.keys (Dict.keys_nodup d) (fun _ h => h) s0 s1 hs0 hp k hk
  rcases substTag_ok hx2 with ⟨e, hor⟩ | ⟨hc, value, rplc, h1, h2, _⟩
  · subst e
    rcases hor with e | e
    · rw [hi] at e; cases e
    · have := hx1.2 k e
      rw [hx3, hv, Option.getD_some] at this
      obtain ⟨h1, v0, h2, h3, h4⟩ := hs1.1.2.2 k v hv
      refine ⟨v0, h2, h1, h3, fun n hn => ?_⟩
      obtain ⟨_, a, b, e⟩ := (mem_pieces_iff n v).1 hn
      exact absurd (by rw [e]; simp) this
  · obtain ⟨v0, e1, e2, e3, _, e5⟩ := hx1.1.loop hx hk h1
    have : v = value := by
      rw [← hx3, h2] at hv
      split at hv
      · rw [Dict.get?_insert_self] at hv; cases hv; rfl
      · rename_i e
        rw [hv, Option.getD_some] at e
        exact Classical.not_not.1 e
    rw [this]
    exact ⟨v0, e1, e2, e3, e5⟩

end

end Tags

end Verif
