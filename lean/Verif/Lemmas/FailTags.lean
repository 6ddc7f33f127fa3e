import Verif.Spec.FailTags

namespace Verif.FailTagsSpec

open Verif.FailTags

/-! ## The scan -/

theorem scan_skip (dns : Bool) (st : State) (a b : Str) : scan dns a.length st (a ++ b) = scan dns 0 st b := by
  induction a with
  | nil => rfl
  | cons c a ih => exact ih

theorem scan_char (dns : Bool) (st : State) (c : Char) (s : Str) (h : c ≠ '<' ∨ tagAt s = none) : scan dns 0 st (c :: s) = c :: scan dns 0 st s := by
  rw [scan]
  have : (if c = '<' then tagAt s else none) = none := by
    split
    · exact h.resolve_left (fun k => k ‹_›)
    · rfl
  rw [this]

theorem scan_text (dns : Bool) (st : State) (a b : Str) (h : '<' ∉ a) : scan dns 0 st (a ++ b) = a ++ scan dns 0 st b := by
  induction a with
  | nil => rfl
  | cons c a ih =>
    rw [List.cons_append, scan_char dns st c _ (Or.inl (fun k => h (by rw [k]; exact List.mem_cons_self ..))), ih (fun k => h (List.mem_cons_of_mem _ k))]
    rfl

theorem takeWhile_all {p : Char → Bool} (a : Str) (h : ∀ c ∈ a, p c = true) (d : Char) (hd : p d = false) (b : Str) : (a ++ d :: b).takeWhile p = a := by
  induction a with
  | nil => simp [hd]
  | cons c a ih =>
    rw [List.cons_append, List.takeWhile_cons_of_pos (h c (List.mem_cons_self ..)), ih (fun c k => h c (List.mem_cons_of_mem _ k))]

theorem dropWhile_all {p : Char → Bool} (a : Str) (h : ∀ c ∈ a, p c = true) (d : Char) (hd : p d = false) (b : Str) : (a ++ d :: b).dropWhile p = d :: b := by
  induction a with
  | nil => simp [hd]
  | cons c a ih =>
    rw [List.cons_append, List.dropWhile_cons_of_pos (h c (List.mem_cons_self ..)), ih (fun c k => h c (List.mem_cons_of_mem _ k))]

theorem dropWhile_nil_of {p : Char → Bool} {a : Str} (h : ∀ c ∈ a, p c = true) : a.dropWhile p = [] := by
  induction a with
  | nil => rfl
  | cons c a ih => rw [List.dropWhile_cons_of_pos (h c (List.mem_cons_self ..)), ih (fun c k => h c (List.mem_cons_of_mem _ k))]

theorem tagAt_some (t b : Str) (h : ∀ c ∈ t, inTag c = true) (ht : isTag t = true) : tagAt (t ++ '>' :: b) = some t := by
  unfold tagAt
  rw [dropWhile_all t h '>' (by decide) b, takeWhile_all t h '>' (by decide) b]
  simp [ht]

theorem tagAt_inv {s t : Str} (h : tagAt s = some t) : ∃ b, s = t ++ '>' :: b ∧ (∀ c ∈ t, inTag c = true) ∧ isTag t = true := by
  unfold tagAt at h
  split at h
  · rename_i b hb
    split at h
    · rename_i ht
      injection h with h
      refine ⟨b, ?_, ?_, by rw [← h]; exact ht⟩
      · rw [← h, ← hb]; exact (List.takeWhile_append_dropWhile ..).symm
      · intro c hc; rw [← h] at hc; exact List.all_eq_true.1 (List.all_takeWhile (p := inTag) (l := s)) c hc
    · cases h
  · cases h

theorem scan_tag (dns : Bool) (st : State) (t b : Str) (h : ∀ c ∈ t, inTag c = true) (ht : isTag t = true) :
    scan dns 0 st ('<' :: t ++ '>' :: b) = (subst dns st t).1 ++ scan dns 0 (subst dns st t).2 b := by
  rw [List.cons_append, scan]
  simp only [if_true, tagAt_some t b h ht]
  congr 1
  have := scan_skip dns (subst dns st t).2 (t ++ ['>']) b
  rw [List.length_append] at this
  rw [← this]
  simp

/-! ## Names -/

theorem inTag_of_custom {c : Char} (h : isCustom c = true) : inTag c = true := by
  unfold isCustom at h
  unfold inTag isName Char.isAlphanum Char.isAlpha
  simp only [Bool.or_eq_true, decide_eq_true_eq] at h ⊢
  rcases h with ((h | h) | h) | h
  · exact Or.inl (Or.inl (Or.inl (Or.inl (Or.inl h))))
  · exact Or.inl (Or.inl (Or.inl (Or.inr h)))
  · exact Or.inl (Or.inl (Or.inr h))
  · exact Or.inl (Or.inr h)

theorem name_of_custom {c : Char} (h : isCustom c = true) : isName c = true := by
  have := inTag_of_custom h
  unfold inTag at this
  simp only [Bool.or_eq_true, decide_eq_true_eq] at this
  rcases this with k | k
  · exact k
  · subst k; exact absurd h (by decide)

theorem cutHead_names (t : Str) (h : ∀ c ∈ t, isName c = true) : cutHead t = t := by
  unfold cutHead
  split
  · exact absurd (h '/' (List.mem_cons_self ..)) (by decide)
  · rfl

theorem cutLast_names (t : Str) (h : ∀ c ∈ t, isName c = true) : cutLast t = t := by
  unfold cutLast
  split
  · rename_i e; exact absurd (h _ (List.mem_of_getLast? e)) (by decide)
  · rfl

theorem isTag_of_names (t : Str) (hn : t ≠ []) (h : ∀ c ∈ t, isName c = true) : isTag t = true := by
  unfold isTag
  rw [cutHead_names t h, cutLast_names t h]
  simp only [Bool.and_eq_true, Bool.not_eq_true', List.isEmpty_eq_false_iff, List.all_eq_true]
  exact ⟨hn, h⟩

theorem isTag_slash (t : Str) (hn : t ≠ []) (h : ∀ c ∈ t, isName c = true) : isTag ('/' :: t) = true := by
  have e : cutHead ('/' :: t) = t := rfl
  unfold isTag
  rw [e, cutLast_names t h]
  simp only [Bool.and_eq_true, Bool.not_eq_true', List.isEmpty_eq_false_iff, List.all_eq_true]
  exact ⟨hn, h⟩

theorem lookup_none {l : List (Str × Str)} {t : Str} (h : ∀ kv ∈ l, kv.1 ≠ t) : l.lookup t = none := by
  induction l with
  | nil => rfl
  | cons kv l ih =>
    rw [List.lookup_cons]
    have : (t == kv.1) = false := by simpa using fun k => h kv (List.mem_cons_self ..) k.symm
    rw [this]
    exact ih (fun x k => h x (List.mem_cons_of_mem _ k))

theorem lookup_mem {l : List (Str × Str)} {t r : Str} (h : l.lookup t = some r) : (t, r) ∈ l := by
  induction l with
  | nil => cases h
  | cons kv l ih =>
    rw [List.lookup_cons] at h
    split at h
    · rename_i e
      injection h with h
      have : t = kv.1 := by simpa using e
      rw [this, ← h]
      exact List.mem_cons_self ..
    · exact List.mem_cons_of_mem _ (ih h)

theorem table_custom : ∀ kv ∈ table, kv.1.take 2 = "F-".toList → kv.1.getLast? = some '/' := by decide +kernel

theorem table_slash : ∀ kv ∈ table, kv.1.head? ≠ some '/' := by decide +kernel

theorem lookup_custom (n : Str) (hn : n ≠ []) (h : ∀ c ∈ n, isCustom c = true) : table.lookup ('F' :: '-' :: n) = none := by
  refine lookup_none (fun kv hk e => ?_)
  have := table_custom kv hk (by rw [e]; rfl)
  rw [e] at this
  have hm : '/' ∈ n := by
    rw [List.getLast?_cons, List.getLast?_cons] at this
    cases hl : n.getLast? with
    | none => exact absurd (List.getLast?_eq_none_iff.1 hl) hn
    | some x =>
      rw [hl] at this
      simp at this
      rw [← this]
      exact List.mem_of_getLast? hl
  exact absurd (h _ hm) (by decide)

theorem custom_some (n : Str) (hn : n ≠ []) (h : ∀ c ∈ n, isCustom c = true) : custom ('F' :: '-' :: n) = some n := by
  show (if !n.isEmpty && n.all isCustom then some n else none) = some n
  rw [if_pos]
  simp only [Bool.and_eq_true, Bool.not_eq_true', List.isEmpty_eq_false_iff, List.all_eq_true]
  exact ⟨hn, h⟩

theorem subst_open (dns : Bool) (st : State) (n : Str) (hn : n ≠ []) (h : ∀ c ∈ n, isCustom c = true) :
    subst dns st ('F' :: '-' :: n) = ("(?P<".toList ++ mapTag n ++ ">".toList, { st with opened := n :: st.opened }) := by
  unfold subst
  rw [if_neg (by intro e; injection e with e; exact absurd e (by decide)), if_neg (by intro e; injection e with e; exact absurd e (by decide)), lookup_custom n hn h]
  simp [custom_some n hn h]

theorem subst_close (dns : Bool) (st : State) (n : Str) (hn : n ≠ []) (h : ∀ c ∈ n, isCustom c = true) :
    subst dns st ('/' :: 'F' :: '-' :: n) = (if n ∈ st.opened then ")".toList else tagText ('/' :: 'F' :: '-' :: n), st) := by
  unfold subst
  rw [if_neg (by intro e; injection e with e; exact absurd e (by decide)), if_neg (by intro e; injection e with e; exact absurd e (by decide)),
    lookup_none (fun kv hk e => table_slash kv hk (by rw [e]; rfl))]
  simp [custom_some n hn h]

theorem isCustom_iff {c : Char} : isCustom c = true ↔ (c.isUpper = true ∨ c.isDigit = true ∨ c = '_' ∨ c = '-') := by
  unfold isCustom
  simp only [Bool.or_eq_true, decide_eq_true_eq, or_assoc]

theorem tag_eq (t b : Str) : tag t ++ b = '<' :: t ++ '>' :: b := by
  unfold tag
  show '<' :: (t ++ ['>']) ++ b = _
  simp

theorem fixed_name (f : Fixed) : (∀ c ∈ f.name, inTag c = true) ∧ isTag f.name = true ∧ (∀ c ∈ "F-".toList ++ f.name ++ "/".toList, inTag c = true) ∧
    isTag ("F-".toList ++ f.name ++ "/".toList) = true := by
  cases f <;> decide +kernel

theorem fixed_subst (dns : Bool) (st : State) (f : Fixed) (h : f ≠ .id ∧ f ≠ .port) : subst dns st f.name = (f.meaning, st) := by
  cases f
  case id => exact absurd rfl h.1
  case port => exact absurd rfl h.2
  all_goals rfl

theorem self_subst (dns : Bool) (st : State) (f : Fixed) : subst dns st ("F-".toList ++ f.name ++ "/".toList) = (f.meaning, st) := by
  cases f <;> rfl

theorem custom_inv {t n : Str} (h : custom t = some n) : t = 'F' :: '-' :: n ∧ n ≠ [] ∧ ∀ c ∈ n, isCustom c = true := by
  unfold custom at h
  split at h
  · split at h
    · rename_i k
      injection h with h
      subst h
      simp only [Bool.and_eq_true, Bool.not_eq_true', List.isEmpty_eq_false_iff, List.all_eq_true] at k
      exact ⟨rfl, k.1, k.2⟩
    · cases h
  · cases h

theorem table_meaning (t r : Str) (h : (t, r) ∈ table) : ∃ f : Fixed, r = f.meaning ∧ ((f ≠ .id ∧ f ≠ .port ∧ t = f.name) ∨ t = "F-".toList ++ f.name ++ "/".toList) := by
  simp only [table, List.mem_cons, Prod.mk.injEq, List.not_mem_nil, or_false] at h
  rcases h with ⟨k, h⟩ | ⟨k, h⟩ | ⟨k, h⟩ | ⟨k, h⟩ | ⟨k, h⟩ | ⟨k, h⟩ | ⟨k, h⟩ | ⟨k, h⟩ | ⟨k, h⟩ | ⟨k, h⟩ | ⟨k, h⟩ | ⟨k, h⟩ | ⟨k, h⟩ | ⟨k, h⟩
  · exact ⟨.ip4, by rw [h]; rfl, by rw [k]; decide +kernel⟩
  · exact ⟨.ip4, by rw [h]; rfl, by rw [k]; decide +kernel⟩
  · exact ⟨.ip6, by rw [h]; rfl, by rw [k]; decide +kernel⟩
  · exact ⟨.ip6, by rw [h]; rfl, by rw [k]; decide +kernel⟩
  · exact ⟨.addr, by rw [h]; rfl, by rw [k]; decide +kernel⟩
  · exact ⟨.addr, by rw [h]; rfl, by rw [k]; decide +kernel⟩
  · exact ⟨.cidr, by rw [h]; rfl, by rw [k]; decide +kernel⟩
  · exact ⟨.cidr, by rw [h]; rfl, by rw [k]; decide +kernel⟩
  · exact ⟨.subnet, by rw [h]; rfl, by rw [k]; decide +kernel⟩
  · exact ⟨.subnet, by rw [h]; rfl, by rw [k]; decide +kernel⟩
  · exact ⟨.dns, by rw [h]; rfl, by rw [k]; decide +kernel⟩
  · exact ⟨.dns, by rw [h]; rfl, by rw [k]; decide +kernel⟩
  · exact ⟨.id, by rw [h]; rfl, by rw [k]; decide +kernel⟩
  · exact ⟨.port, by rw [h]; rfl, by rw [k]; decide +kernel⟩

theorem subst_other (dns : Bool) (st : State) (t : Str) (h : ¬ Known t) : subst dns st t = (tagText t, st) := by
  have hc : ∀ t' n, custom t' = some n → t ≠ t' ∧ t ≠ '/' :: t' := by
    intro t' n e
    obtain ⟨e1, e2, e3⟩ := custom_inv e
    have hn : Name n := ⟨e2, fun c k => isCustom_iff.1 (e3 c k)⟩
    refine ⟨fun k => h (Or.inr (Or.inr (Or.inr (Or.inr ⟨n, hn, Or.inl (by rw [k, e1]; rfl)⟩)))), fun k => h (Or.inr (Or.inr (Or.inr (Or.inr ⟨n, hn, Or.inr (by rw [k, e1]; rfl)⟩))))⟩
  unfold subst
  rw [if_neg (fun k => h (Or.inl k)), if_neg (fun k => h (Or.inr (Or.inl k)))]
  cases hl : table.lookup t with
  | some r =>
    obtain ⟨f, _, k⟩ := table_meaning t r (lookup_mem hl)
    rcases k with k | k
    · exact absurd (Or.inr (Or.inr (Or.inl ⟨f, k⟩))) h
    · exact absurd (Or.inr (Or.inr (Or.inr (Or.inl ⟨f, k⟩)))) h
  | none =>
    dsimp only
    split
    · rename_i t'
      cases e : custom t' with
      | none => rfl
      | some n => exact absurd rfl (hc t' n e).2
    · cases e : custom t with
      | none => rfl
      | some n => exact absurd rfl (hc t n e).1

theorem isName_iff {c : Char} : isName c = true ↔ (c.isAlphanum = true ∨ c = '_' ∨ c = '-') := by
  unfold isName
  simp only [Bool.or_eq_true, decide_eq_true_eq, or_assoc]

theorem shape_in {t : Str} (h : Shape t) : ∀ c ∈ t, inTag c = true := by
  obtain ⟨n, _, hn, h⟩ := h
  intro c hc
  have hm : c ∈ n ∨ c = '/' := by
    rcases h with h | h | h | h
    · subst h; exact Or.inl hc
    · subst h; simp at hc; exact hc.symm
    · subst h; simp at hc; exact hc
    · subst h
      simp at hc
      rcases hc with k | k | k
      · exact Or.inr k
      · exact Or.inl k
      · exact Or.inr k
  rcases hm with k | k
  · unfold inTag; rw [isName_iff.2 (hn c k)]; rfl
  · subst k; decide

theorem shape_isTag {t : Str} (h : Shape t) : isTag t = true := by
  obtain ⟨n, h0, hn, h⟩ := h
  have hn' : ∀ c ∈ n, isName c = true := fun c k => isName_iff.2 (hn c k)
  have hl : cutLast (n ++ "/".toList) = n := by
    unfold cutLast
    have : (n ++ "/".toList).getLast? = some '/' := by simp
    rw [this]
    simp
  have hh : cutHead (n ++ "/".toList) = n ++ "/".toList := by
    unfold cutHead
    split
    · rename_i e
      cases n with
      | nil => exact absurd rfl h0
      | cons c n => injection e with e; have := hn' c (List.mem_cons_self ..); rw [e] at this; exact absurd this (by decide)
    · rfl
  have fin : (!n.isEmpty && n.all isName) = true := by
    simp only [Bool.and_eq_true, Bool.not_eq_true', List.isEmpty_eq_false_iff, List.all_eq_true]
    exact ⟨h0, hn'⟩
  rcases h with h | h | h | h
  · subst h; exact isTag_of_names _ h0 hn'
  · subst h; exact isTag_slash _ h0 hn'
  · subst h; unfold isTag; rw [hh, hl]; exact fin
  · subst h
    unfold isTag
    have : cutHead ("/".toList ++ n ++ "/".toList) = n ++ "/".toList := rfl
    rw [this, hl]
    exact fin

/-- Expressions as they are written get their meaning. -/
theorem scan_write (dns : Bool) (p : Pat) (hp : Good p) (op : List Str) (k : Nat) (b : Str) :
    ∃ op', (∀ n ∈ op, n ∈ op') ∧ scan dns 0 ⟨op, k⟩ (write p ++ b) = (meaning dns k p).1 ++ scan dns 0 ⟨op', k + (meaning dns k p).2⟩ b := by
  induction p generalizing op k b with
  | text s => exact ⟨op, fun _ h => h, scan_text dns _ s b hp⟩
  | host =>
    refine ⟨op, fun _ h => h, ?_⟩
    show scan dns 0 ⟨op, k⟩ (tag "HOST".toList ++ b) = _
    rw [tag_eq, scan_tag _ _ _ _ (by decide +kernel) (by decide +kernel)]
    cases dns <;> rfl
  | fixed f =>
    refine ⟨op, fun _ h => h, ?_⟩
    show scan dns 0 ⟨op, k⟩ (tag f.name ++ b) = _
    rw [tag_eq, scan_tag _ _ _ _ (fixed_name f).1 (fixed_name f).2.1, fixed_subst dns _ f hp]
    rfl
  | self f =>
    refine ⟨op, fun _ h => h, ?_⟩
    show scan dns 0 ⟨op, k⟩ (tag ("F-".toList ++ f.name ++ "/".toList) ++ b) = _
    rw [tag_eq, scan_tag _ _ _ _ (fixed_name f).2.2.1 (fixed_name f).2.2.2, self_subst dns _ f]
    rfl
  | lines =>
    refine ⟨op, fun _ h => h, ?_⟩
    show scan dns 0 ⟨op, k⟩ (tag "SKIPLINES".toList ++ b) = _
    rw [tag_eq, scan_tag _ _ _ _ (by decide +kernel) (by decide +kernel)]
    show ("\\n(?P<skiplines".toList ++ (toString k).toList ++ ">(?:(?:.*\\n)*?))".toList) ++ scan dns 0 ⟨op, k + 1⟩ b = _
    congr 1
    show _ = "\\n".toList ++ ("(?P<".toList ++ ("skiplines".toList ++ (toString k).toList) ++ ">".toList ++ "(?:(?:.*\\n)*?)".toList ++ ")".toList)
    have e1 : "\\n(?P<skiplines".toList = "\\n".toList ++ ("(?P<".toList ++ "skiplines".toList) := by decide +kernel
    have e2 : ">(?:(?:.*\\n)*?))".toList = ">".toList ++ ("(?:(?:.*\\n)*?)".toList ++ ")".toList) := by decide +kernel
    rw [e1, e2]
    simp only [List.append_assoc]
  | group n p ih =>
    obtain ⟨⟨hn, hc⟩, hb⟩ := hp
    have hc' : ∀ c ∈ n, isCustom c = true := fun c k => isCustom_iff.2 (hc c k)
    have hname : ∀ c ∈ 'F' :: '-' :: n, isName c = true := by
      intro c k
      rcases List.mem_cons.1 k with k | k
      · subst k; decide
      · rcases List.mem_cons.1 k with k | k
        · subst k; decide
        · exact name_of_custom (hc' c k)
    have htag : ∀ c ∈ 'F' :: '-' :: n, inTag c = true := fun c k => by unfold inTag; rw [hname c k]; rfl
    obtain ⟨op', h1, h2⟩ := ih hb (n :: op) k (tag ("/F-".toList ++ n) ++ b)
    refine ⟨op', fun x hx => h1 x (List.mem_cons_of_mem _ hx), ?_⟩
    show scan dns 0 ⟨op, k⟩ (tag ("F-".toList ++ n) ++ write p ++ tag ("/F-".toList ++ n) ++ b) = _
    rw [List.append_assoc, List.append_assoc, tag_eq]
    have e1 : "F-".toList ++ n = 'F' :: '-' :: n := rfl
    have e2 : "/F-".toList ++ n = '/' :: 'F' :: '-' :: n := rfl
    rw [e1, scan_tag _ _ _ _ htag (isTag_of_names _ (by simp) hname), subst_open _ _ _ hn hc']
    dsimp only
    rw [h2, tag_eq, e2, scan_tag _ _ _ _ (fun c k => by rcases List.mem_cons.1 k with k | k; (subst k; decide); exact htag c k) (isTag_slash _ (by simp) hname), subst_close _ _ _ hn hc']
    dsimp only
    rw [if_pos (h1 n (List.mem_cons_self ..))]
    show _ = ("(?P<".toList ++ groupName n ++ ">".toList ++ (meaning dns k p).1 ++ ")".toList) ++ scan dns 0 ⟨op', k + (meaning dns k p).2⟩ b
    have e3 : mapTag n = groupName n := rfl
    rw [e3]
    simp only [List.append_assoc]
  | other t =>
    refine ⟨op, fun _ h => h, ?_⟩
    show scan dns 0 ⟨op, k⟩ (tag t ++ b) = tag t ++ _
    rw [tag_eq, scan_tag _ _ _ _ (shape_in hp.1) (shape_isTag hp.1), subst_other dns _ t hp.2]
    rfl
  | seq a c iha ihc =>
    obtain ⟨op1, h1, e1⟩ := iha hp.1 op k (write c ++ b)
    obtain ⟨op2, h2, e2⟩ := ihc hp.2 op1 (k + (meaning dns k a).2) b
    refine ⟨op2, fun n hn => h2 n (h1 n hn), ?_⟩
    show scan dns 0 ⟨op, k⟩ (write a ++ write c ++ b) = ((meaning dns k a).1 ++ (meaning dns (k + (meaning dns k a).2) c).1) ++ _
    rw [List.append_assoc, e1, e2, List.append_assoc, Nat.add_assoc]
    rfl

/-! ## Once more -/

/-- A tag that is nothing special. -/
def Stays (t : Str) : Prop := ∀ dns, subst dns ⟨[], 0⟩ t = (tagText t, ⟨[], 0⟩)

theorem scan_stays (dns : Bool) (t b : Str) (h : ∀ c ∈ t, inTag c = true) (ht : isTag t = true) (hs : Stays t) :
    scan dns 0 ⟨[], 0⟩ (tagText t ++ b) = tagText t ++ scan dns 0 ⟨[], 0⟩ b := by
  have e : tagText t ++ b = '<' :: t ++ '>' :: b := by simp [tagText]
  rw [e, scan_tag dns _ t b h ht, hs dns]

/-- What a tag becomes stays as it is. -/
def Fixpoint (a : Str) : Prop := ∀ dns b, scan dns 0 ⟨[], 0⟩ (a ++ b) = a ++ scan dns 0 ⟨[], 0⟩ b

theorem fixpoint_text {a : Str} (h : '<' ∉ a) : Fixpoint a := fun dns b => scan_text dns _ a b h

theorem fixpoint_append {a b : Str} (ha : Fixpoint a) (hb : Fixpoint b) : Fixpoint (a ++ b) := by
  intro dns c
  rw [List.append_assoc, ha, hb, List.append_assoc]

theorem fixpoint_tag {t : Str} (h : ∀ c ∈ t, inTag c = true) (ht : isTag t = true) (hs : Stays t) : Fixpoint (tagText t) :=
  fun dns b => scan_stays dns t b h ht hs

theorem table_upper : ∀ kv ∈ table, ∃ c ∈ kv.1, c.isUpper = true := by
  have : ∀ kv ∈ table, kv.1.any Char.isUpper = true := by decide +kernel
  intro kv hk
  exact List.any_eq_true.1 (this kv hk)

/-- Names without capital letters are nothing special. -/
theorem stays_lower {t : Str} (h : ∀ c ∈ t, c.isUpper = false) (hs : t.head? ≠ some '/') : Stays t := by
  intro dns
  unfold subst
  rw [if_neg (by intro e; have := h 'H' (by rw [e]; decide); exact absurd this (by decide)), if_neg (by intro e; have := h 'S' (by rw [e]; decide); exact absurd this (by decide)),
    lookup_none (fun kv hk e => by obtain ⟨c, hc, hu⟩ := table_upper kv hk; rw [e] at hc; rw [h c hc] at hu; cases hu)]
  dsimp only
  have hcust : custom t = none := by
    unfold custom
    split
    · exact absurd (h 'F' (List.mem_cons_self ..)) (by decide)
    · rfl
  split
  · rename_i t'; exact absurd rfl hs
  · rw [hcust]

/-- A group whose name has no capital letters. -/
theorem fixpoint_open {n : Str} (hn : n ≠ []) (hc : ∀ c ∈ n, isName c = true) (hu : ∀ c ∈ n, c.isUpper = false) : Fixpoint ("(?P<".toList ++ n ++ ">".toList) := by
  have e : "(?P<".toList ++ n ++ ">".toList = "(?P".toList ++ tagText n := by
    have : "(?P<".toList = "(?P".toList ++ ['<'] := by decide +kernel
    rw [this]; simp [tagText]
  rw [e]
  refine fixpoint_append (fixpoint_text (by decide +kernel)) (fixpoint_tag (fun c k => by unfold inTag; rw [hc c k]; rfl) (isTag_of_names n hn hc) (stays_lower hu ?_))
  intro k
  cases n with
  | nil => cases k
  | cons c n => injection k with k; have := hc c (List.mem_cons_self ..); rw [k] at this; exact absurd this (by decide)

theorem fixpoint_re {n body : Str} (hn : n ≠ []) (hc : ∀ c ∈ n, isName c = true) (hu : ∀ c ∈ n, c.isUpper = false) (hb : Fixpoint body) : Fixpoint (re n body) := by
  unfold re
  exact fixpoint_append (fixpoint_append (fixpoint_open hn hc hu) hb) (fixpoint_text (by decide))

/-- A `<` that begins no tag, whatever follows later. -/
theorem fixpoint_less {a : Str} {d : Char} (hd : inTag d = false) (hd' : d ≠ '>') (ha : Fixpoint (d :: a)) : Fixpoint ('<' :: d :: a) := by
  intro dns b
  show scan dns 0 ⟨[], 0⟩ ('<' :: (d :: a ++ b)) = _
  have e : tagAt (d :: a ++ b) = none := by
    unfold tagAt
    have : (d :: a ++ b).dropWhile inTag = d :: (a ++ b) := by simp [hd]
    rw [this]
    split
    · rename_i k; injection k with k; exact absurd k hd'
    · rfl
  rw [scan_char dns _ _ _ (Or.inr e), ha]
  rfl

theorem fixpoint_v6 : Fixpoint v6 := by
  refine fixpoint_re (by decide) (by decide +kernel) (by decide +kernel) ?_
  have e : "(?:[0-9a-fA-F]{1,4}::?|:){1,7}(?:[0-9a-fA-F]{1,4}|(?<=:):)".toList = "(?:[0-9a-fA-F]{1,4}::?|:){1,7}(?:[0-9a-fA-F]{1,4}|(?".toList ++ '<' :: '=' :: ":):)".toList := by decide +kernel
  rw [e]
  exact fixpoint_append (fixpoint_text (by decide +kernel)) (fixpoint_less (by decide) (by decide) (fixpoint_text (by decide +kernel)))

theorem fixpoint_v4 : Fixpoint v4 :=
  fixpoint_append (fixpoint_text (by decide +kernel)) (fixpoint_re (by decide) (by decide +kernel) (by decide +kernel) (fixpoint_text (by decide +kernel)))

theorem fixpoint_length : Fixpoint length := fixpoint_re (by decide) (by decide +kernel) (by decide +kernel) (fixpoint_text (by decide +kernel))

theorem fixpoint_fixed (f : Fixed) : Fixpoint f.meaning := by
  cases f
  · exact fixpoint_v4
  · exact fixpoint_v6
  · exact fixpoint_append (fixpoint_append (fixpoint_append (fixpoint_append (fixpoint_text (by decide +kernel)) fixpoint_v4) (fixpoint_text (by decide +kernel))) fixpoint_v6) (fixpoint_text (by decide +kernel))
  · exact fixpoint_length
  · exact fixpoint_append (fixpoint_append (fixpoint_append (fixpoint_append (fixpoint_append (fixpoint_append (fixpoint_text (by decide +kernel)) fixpoint_v4) (fixpoint_text (by decide +kernel))) fixpoint_v6)
      (fixpoint_text (by decide +kernel))) fixpoint_length) (fixpoint_text (by decide +kernel))
  · exact fixpoint_re (by decide) (by decide +kernel) (by decide +kernel) (fixpoint_text (by decide +kernel))
  · exact fixpoint_re (by decide) (by decide +kernel) (by decide +kernel) (fixpoint_text (by decide +kernel))
  · exact fixpoint_re (by decide) (by decide +kernel) (by decide +kernel) (fixpoint_text (by decide +kernel))

theorem upper_range {c : Char} (h : c.isUpper = true) : 65 ≤ c.toNat ∧ c.toNat ≤ 90 := by
  unfold Char.isUpper at h
  simp only [decide_eq_true_eq] at h
  exact ⟨h.1, h.2⟩

/-- Names of tags in small letters. -/
theorem lower_custom {c : Char} (h : isCustom c = true) : isName c.toLower = true ∧ c.toLower.isUpper = false := by
  have key : ∀ n : Nat, n < 128 → isCustom (Char.ofNat n) = true → isName (Char.ofNat n).toLower = true ∧ (Char.ofNat n).toLower.isUpper = false := by decide +kernel
  have hc : c.toNat < 128 := by
    rcases isCustom_iff.1 h with k | k | k | k
    · have := upper_range k; omega
    · unfold Char.isDigit at k
      simp only [Bool.and_eq_true, decide_eq_true_eq] at k
      have : c.toNat ≤ 57 := k.2
      omega
    · subst k; decide
    · subst k; decide
  have := key c.toNat hc
  rw [Char.ofNat_toNat] at this
  exact this h

theorem mapTag_good {n : Str} (hn : n ≠ []) (h : ∀ c ∈ n, isCustom c = true) : mapTag n ≠ [] ∧ (∀ c ∈ mapTag n, isName c = true) ∧ ∀ c ∈ mapTag n, c.isUpper = false := by
  unfold mapTag
  dsimp only
  split
  · decide +kernel
  · split
    · decide +kernel
    · unfold lower
      refine ⟨by simpa using hn, ?_, ?_⟩
      · intro c hc
        obtain ⟨d, hd, rfl⟩ := List.mem_map.1 hc
        exact (lower_custom (h d hd)).1
      · intro c hc
        obtain ⟨d, hd, rfl⟩ := List.mem_map.1 hc
        exact (lower_custom (h d hd)).2

theorem digit_good {c : Char} (h : c.isDigit = true) : isName c = true ∧ c.isUpper = false := by
  refine ⟨by unfold isName Char.isAlphanum; rw [h]; simp, ?_⟩
  cases hu : c.isUpper with
  | false => rfl
  | true =>
    have := upper_range hu
    unfold Char.isDigit at h
    simp only [Bool.and_eq_true, decide_eq_true_eq] at h
    have : c.toNat ≤ 57 := h.2
    omega

theorem digits (k : Nat) : ∀ c ∈ (toString k).toList, c.isDigit = true := by
  intro c hc
  have : (toString k).toList = Nat.toDigits 10 k := by simp [toString, Nat.repr]
  rw [this] at hc
  exact Nat.isDigit_of_mem_toDigits (by decide) (by decide) hc

theorem skiplines_good (k : Nat) : Fixpoint ("\\n(?P<skiplines".toList ++ (toString k).toList ++ ">(?:(?:.*\\n)*?))".toList) := by
  have e1 : "\\n(?P<skiplines".toList = "\\n".toList ++ ("(?P<".toList ++ "skiplines".toList) := by decide +kernel
  have e2 : ">(?:(?:.*\\n)*?))".toList = ">".toList ++ "(?:(?:.*\\n)*?))".toList := by decide +kernel
  have e : "\\n(?P<skiplines".toList ++ (toString k).toList ++ ">(?:(?:.*\\n)*?))".toList =
      "\\n".toList ++ (("(?P<".toList ++ ("skiplines".toList ++ (toString k).toList) ++ ">".toList) ++ "(?:(?:.*\\n)*?))".toList) := by
    rw [e1, e2]; simp only [List.append_assoc]
  rw [e]
  refine fixpoint_append (fixpoint_text (by decide +kernel)) (fixpoint_append (fixpoint_open (by simp) ?_ ?_) (fixpoint_text (by decide +kernel)))
  · intro c hc
    rcases List.mem_append.1 hc with hc | hc
    · have : ∀ c ∈ "skiplines".toList, isName c = true := by decide +kernel
      exact this c hc
    · exact (digit_good (digits k c hc)).1
  · intro c hc
    rcases List.mem_append.1 hc with hc | hc
    · have : ∀ c ∈ "skiplines".toList, c.isUpper = false := by decide +kernel
      exact this c hc
    · exact (digit_good (digits k c hc)).2

/-- The first character of a text is none of a tag. -/
def Starts (s : Str) : Prop := ∃ c r, s = c :: r ∧ inTag c = false ∧ c ≠ '>'

theorem starts_tag (t : Str) : Starts (tagText t) := ⟨'<', t ++ ['>'], rfl, by decide, by decide⟩

theorem starts_fixed (f : Fixed) : Starts f.meaning := by
  cases f
  · exact ⟨'(', _, rfl, by decide, by decide⟩
  · exact ⟨'(', _, rfl, by decide, by decide⟩
  · exact ⟨'\\', _, rfl, by decide, by decide⟩
  · exact ⟨'(', _, rfl, by decide, by decide⟩
  · exact ⟨'\\', _, rfl, by decide, by decide⟩
  · exact ⟨'(', _, rfl, by decide, by decide⟩
  · exact ⟨'(', _, rfl, by decide, by decide⟩
  · exact ⟨'(', _, rfl, by decide, by decide⟩

theorem host_eq (dns : Bool) : (if dns then rHost else rAddr) = if dns then "(?:".toList ++ Fixed.addr.meaning ++ "|".toList ++ Fixed.dns.meaning ++ ")".toList else Fixed.addr.meaning := by
  cases dns <;> rfl

/-- What a tag becomes. -/
theorem subst_good (dns : Bool) (st : State) (t : Str) (h : ∀ c ∈ t, inTag c = true) (ht : isTag t = true) : Fixpoint (subst dns st t).1 ∧ Starts (subst dns st t).1 := by
  by_cases h1 : t = "HOST".toList
  · have e : (subst dns st t).1 = if dns then rHost else rAddr := by unfold subst; rw [if_pos h1]
    rw [e, host_eq]
    cases dns
    · exact ⟨fixpoint_fixed .addr, starts_fixed .addr⟩
    · exact ⟨fixpoint_append (fixpoint_append (fixpoint_append (fixpoint_append (fixpoint_text (by decide +kernel)) (fixpoint_fixed .addr)) (fixpoint_text (by decide)))
        (fixpoint_fixed .dns)) (fixpoint_text (by decide)), ⟨'(', _, rfl, by decide, by decide⟩⟩
  · by_cases h2 : t = "SKIPLINES".toList
    · have e : (subst dns st t).1 = "\\n(?P<skiplines".toList ++ (toString st.lines).toList ++ ">(?:(?:.*\\n)*?))".toList := by unfold subst; rw [if_neg h1, if_pos h2]
      rw [e]
      exact ⟨skiplines_good _, ⟨'\\', _, rfl, by decide, by decide⟩⟩
    · unfold subst
      rw [if_neg h1, if_neg h2]
      cases hl : table.lookup t with
      | some r =>
        obtain ⟨f, hf, _⟩ := table_meaning t r (lookup_mem hl)
        dsimp only
        rw [hf]
        exact ⟨fixpoint_fixed f, starts_fixed f⟩
      | none =>
        dsimp only
        split
        · rename_i t'
          have st' : Stays ('/' :: t') := by
            intro d
            unfold subst
            rw [if_neg h1, if_neg h2, hl]
            dsimp only
            cases hc : custom t' with
            | none => simp [hc]
            | some n => simp [hc]
          have fx : Fixpoint (tagText ('/' :: t')) := fixpoint_tag h ht st'
          cases hc : custom t' with
          | none => exact ⟨fx, starts_tag _⟩
          | some n =>
            dsimp only
            split
            · exact ⟨fixpoint_text (by decide), ⟨')', [], rfl, by decide, by decide⟩⟩
            · exact ⟨fx, starts_tag _⟩
        · rename_i hns
          cases hc : custom t with
          | none =>
            dsimp only
            refine ⟨fixpoint_tag h ht ?_, starts_tag _⟩
            intro d
            unfold subst
            rw [if_neg h1, if_neg h2, hl]
            dsimp only
            split
            · exact absurd rfl (hns _)
            · rw [hc]
          | some n =>
            dsimp only
            obtain ⟨_, hn, hcu⟩ := custom_inv hc
            obtain ⟨a, b, c⟩ := mapTag_good hn hcu
            exact ⟨fixpoint_open a b c, ⟨'(', _, rfl, by decide, by decide⟩⟩

theorem tagAt_scan (dns : Bool) (st : State) (s : Str) (h : tagAt s = none) : tagAt (scan dns 0 st s) = none := by
  have hs : s = s.takeWhile inTag ++ s.dropWhile inTag := (List.takeWhile_append_dropWhile ..).symm
  have hp : ∀ c ∈ s.takeWhile inTag, inTag c = true := fun c hc => List.all_eq_true.1 (List.all_takeWhile (p := inTag) (l := s)) c hc
  have hlt : '<' ∉ s.takeWhile inTag := fun k => absurd (hp _ k) (by decide)
  have hd0 : ∀ d r, s.dropWhile inTag = d :: r → inTag d = false := by
    intro d r e
    have := List.head?_dropWhile_not inTag s
    rw [e] at this
    simpa using this
  have none_of : ∀ (d : Char) (r : Str), inTag d = false → d ≠ '>' → tagAt (s.takeWhile inTag ++ d :: r) = none := by
    intro d r h1 h2
    unfold tagAt
    rw [dropWhile_all _ hp d h1 r]
    split
    · rename_i k; injection k with k; exact absurd k h2
    · rfl
  have base : tagAt (s.takeWhile inTag) = none := by
    unfold tagAt
    have : (s.takeWhile inTag).dropWhile inTag = [] := dropWhile_nil_of hp
    rw [this]
  have e : scan dns 0 st s = s.takeWhile inTag ++ scan dns 0 st (s.dropWhile inTag) := by
    conv => lhs; rw [hs]
    exact scan_text dns st _ _ hlt
  rw [e]
  cases hd : s.dropWhile inTag with
  | nil => simp only [scan, List.append_nil]; exact base
  | cons d r =>
    have hdt := hd0 d r hd
    by_cases hl : d = '<'
    · subst hl
      cases ht : tagAt r with
      | none => rw [scan_char dns st _ _ (Or.inr ht)]; exact none_of _ _ (by decide) (by decide)
      | some t =>
        obtain ⟨b, rfl, h1, h2⟩ := tagAt_inv ht
        have := scan_tag dns st t b h1 h2
        rw [List.cons_append] at this
        rw [this]
        obtain ⟨c, r', e', h3, h4⟩ := (subst_good dns st t h1 h2).2
        rw [e']
        exact none_of _ _ h3 h4
    · rw [scan_char dns st d r (Or.inl hl)]
      by_cases hg : d = '>'
      · subst hg
        have h' := h
        unfold tagAt at h' ⊢
        rw [hd] at h'
        rw [dropWhile_all _ hp '>' (by decide), takeWhile_all _ hp '>' (by decide)]
        exact h'
      · exact none_of _ _ hdt hg

theorem scan_again (dns dns' : Bool) (n : Nat) : ∀ (s : Str) (st : State), s.length ≤ n → scan dns' 0 ⟨[], 0⟩ (scan dns 0 st s) = scan dns 0 st s := by
  induction n with
  | zero => intro s st h; rw [List.length_eq_zero_iff.1 (Nat.le_zero.1 h)]; rfl
  | succ n ih =>
    intro s st h
    cases s with
    | nil => rfl
    | cons c s =>
      by_cases hk : c ≠ '<' ∨ tagAt s = none
      · rw [scan_char dns st c s hk, scan_char dns' _ c _ (hk.imp id (tagAt_scan dns st s)), ih s st (by simpa using h)]
      · have hc : c = '<' := Classical.byContradiction (fun k => hk (Or.inl k))
        subst hc
        cases ht : tagAt s with
        | none => exact absurd (Or.inr ht) hk
        | some t =>
          obtain ⟨b, rfl, h1, h2⟩ := tagAt_inv ht
          have e := scan_tag dns st t b h1 h2
          rw [List.cons_append] at e
          rw [e, (subst_good dns st t h1 h2).1, ih b _ (by simp at h; omega)]

end Verif.FailTagsSpec
