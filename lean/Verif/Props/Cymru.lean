import Verif.Spec.Cymru

/-!
# C125 — status with information on networks
-/

namespace Verif.Cymru

open CymruSpec

/-! ### Records -/

private theorem split_ne (s : List Char) : split s ≠ [] := by
  cases s with
  | nil => simp [split]
  | cons c s =>
    unfold split
    split
    · simp
    · split <;> simp

private theorem split_parts (s : List Char) : Parts s (split s) := by
  refine ⟨?_, split_ne s, ?_⟩
  · induction s with
    | nil => simp [split]
    | cons c s ih =>
      unfold split
      split
      · intro p hp
        rcases List.mem_cons.1 hp with rfl | hp
        · simp
        · exact ih p hp
      · rename_i hc
        cases h : split s with
        | nil => exact absurd h (split_ne s)
        | cons q qs =>
          rw [h] at ih
          intro p hp
          rcases List.mem_cons.1 hp with rfl | hp
          · intro hm
            rcases List.mem_cons.1 hm with e | hm
            · exact hc e.symm
            · exact ih q (by simp) hm
          · exact ih p (by simp [hp])
  · induction s with
    | nil => rfl
    | cons c s ih =>
      unfold split
      split
      · rename_i hc
        cases h : split s with
        | nil => exact absurd h (split_ne s)
        | cons q qs => rw [h] at ih; rw [List.intersperse_cons_cons, ih, hc]; rfl
      · cases h : split s with
        | nil => exact absurd h (split_ne s)
        | cons q qs =>
          rw [h] at ih
          dsimp only
          cases qs with
          | nil => simp at ih ⊢; exact ih
          | cons r rs => rw [List.intersperse_cons_cons] at ih ⊢; rw [ih]; rfl

private theorem split_bar (s : List Char) : split ('|' :: s) = [] :: split s := by conv => lhs; unfold split; rw [if_pos rfl]

private theorem split_other (c : Char) (s : List Char) (hc : c ≠ '|') (p : List Char) (ps : List (List Char)) (h : split s = p :: ps) :
    split (c :: s) = (c :: p) :: ps := by
  conv => lhs; unfold split
  rw [if_neg hc, h]

private theorem split_last (p : List Char) (hp : '|' ∉ p) : split p = [p] := by
  induction p with
  | nil => rfl
  | cons c p ih =>
    simp only [List.mem_cons, not_or] at hp
    exact split_other c p (fun e => hp.1 e.symm) p [] (ih hp.2)

private theorem split_more (p s : List Char) (hp : '|' ∉ p) : split (p ++ '|' :: s) = p :: split s := by
  induction p with
  | nil => exact split_bar s
  | cons c p ih =>
    simp only [List.mem_cons, not_or] at hp
    exact split_other c _ (fun e => hp.1 e.symm) p (split s) (ih hp.2)

private theorem parts_unique (s : List Char) (ps : List (List Char)) (h : Parts s ps) : split s = ps := by
  obtain ⟨h1, h2, h3⟩ := h
  induction ps generalizing s with
  | nil => exact absurd rfl h2
  | cons p ps ih =>
    cases ps with
    | nil =>
      have : s = p := by rw [h3]; simp
      rw [this]; exact split_last p (h1 p (by simp))
    | cons q qs =>
      have : s = p ++ '|' :: ((q :: qs).intersperse ['|']).flatten := by rw [h3, List.intersperse_cons_cons]; simp
      rw [this, split_more p _ (h1 p (by simp))]
      rw [ih _ (fun r hr => h1 r (by simp [hr])) (by simp) rfl]

private theorem edge_iff (c : Char) : edge c = true ↔ (c = '\'' ∨ c = '"' ∨ c = ' ') := by
  simp [edge, or_assoc]

private theorem dropWhile_split (s : List Char) : ∃ a, s = a ++ s.dropWhile edge ∧ ∀ c ∈ a, edge c = true :=
  ⟨s.takeWhile edge, (List.takeWhile_append_dropWhile).symm, fun c hc => by
    induction s with
    | nil => simp at hc
    | cons x s ih =>
      rw [List.takeWhile_cons] at hc
      split at hc
      · rename_i hx
        rcases List.mem_cons.1 hc with rfl | hc
        · exact hx
        · exact ih hc
      · simp at hc⟩

private theorem dropWhile_head (s : List Char) (c : Char) (h : (s.dropWhile edge).head? = some c) : edge c = false := by
  induction s with
  | nil => simp at h
  | cons x s ih =>
    rw [List.dropWhile_cons] at h
    split at h
    · exact ih h
    · rename_i hx; simp at h; subst h; simpa using hx

private theorem strip_value (p : List Char) : Value p (blank (String.ofList (strip p))) := by
  obtain ⟨a, ha, ha'⟩ := dropWhile_split p
  obtain ⟨b, hb, hb'⟩ := dropWhile_split (p.dropWhile edge).reverse
  have e : p = a ++ strip p ++ b.reverse := by
    have : p.dropWhile edge = strip p ++ b.reverse := by
      have := congrArg List.reverse hb
      rw [List.reverse_reverse, List.reverse_append] at this
      exact this
    rw [List.append_assoc, ← this]; exact ha
  refine ⟨a, strip p, b.reverse, e, ?_, ?_⟩
  · intro c hc
    rcases List.mem_append.1 hc with hc | hc
    · exact (edge_iff c).1 (ha' c hc)
    · exact (edge_iff c).1 (hb' c (by simpa using hc))
  · by_cases hm : strip p = []
    · left; refine ⟨hm, ?_⟩; rw [hm]; rfl
    · right
      refine ⟨hm, ?_, ?_, ?_⟩
      · unfold blank
        rw [if_neg]
        intro h
        apply hm
        have := congrArg String.toList h
        simpa using this
      · intro c hc
        have hc' : edge c = false := by
          have h1 : (p.dropWhile edge).head? = some c := by
            have : p.dropWhile edge = strip p ++ b.reverse := by
              have := congrArg List.reverse hb
              rw [List.reverse_reverse, List.reverse_append] at this
              exact this
            rw [this, List.head?_append]
            simp only [Option.mem_def] at hc
            rw [hc]; rfl
          exact dropWhile_head p c h1
        rw [← Bool.not_eq_true, edge_iff] at hc'
        simpa [not_or] using hc'
      · intro c hc
        have hc' : edge c = false := by
          apply dropWhile_head (p.dropWhile edge).reverse c
          unfold strip at hc
          simpa [List.getLast?_reverse] using hc
        rw [← Bool.not_eq_true, edge_iff] at hc'
        simpa [not_or] using hc'

/-- A record counts exactly if it has five parts between bars; the first, third and fourth are the values, without quotes
and blanks around them, `unknown` if nothing is left. -/
theorem C125_fields (row : List Char) :
    (∀ a c r, fields row = some (a, c, r) → ∃ pa pn pc pr pd, Parts row [pa, pn, pc, pr, pd] ∧ Value pa a ∧ Value pc c ∧ Value pr r) ∧
    (fields row = none ↔ ∀ ps, Parts row ps → ps.length ≠ 5) := by
  constructor
  · intro a c r h
    unfold fields at h
    have hp := split_parts row
    generalize split row = ps at h hp
    match ps with
    | [pa, pn, pc, pr, pd] =>
      simp only [List.map_cons, List.map_nil, Option.some.injEq, Prod.mk.injEq] at h
      obtain ⟨rfl, rfl, rfl⟩ := h
      exact ⟨pa, pn, pc, pr, pd, hp, strip_value pa, strip_value pc, strip_value pr⟩
    | [] => simp at h
    | [_] => simp at h
    | [_, _] => simp at h
    | [_, _, _] => simp at h
    | [_, _, _, _] => simp at h
    | _ :: _ :: _ :: _ :: _ :: _ :: _ => simp at h
  · constructor
    · intro h ps hps hl
      have := parts_unique row ps hps
      unfold fields at h
      rw [this] at h
      match ps, hl with
      | [pa, pn, pc, pr, pd], _ => simp at h
    · intro h
      have hl := h (split row) (split_parts row)
      unfold fields
      split
      · rename_i heq
        exfalso; apply hl
        have := congrArg List.length heq
        simpa using this
      · rfl

/-! ### Sets of values -/

private theorem mem_insert (x y : String) (l : List String) : y ∈ insert x l ↔ y = x ∨ y ∈ l := by
  induction l with
  | nil => simp [insert]
  | cons z l ih =>
    unfold insert
    split
    · rename_i h; subst h; simp
    · split
      · simp
      · simp only [List.mem_cons, ih]; constructor
        · rintro (h | h | h)
          · exact Or.inr (Or.inl h)
          · exact Or.inl h
          · exact Or.inr (Or.inr h)
        · rintro (h | h | h)
          · exact Or.inr (Or.inl h)
          · exact Or.inl h
          · exact Or.inr (Or.inr h)

private theorem insert_asc (x : String) (l : List String) (h : Ascending l) : Ascending (insert x l) := by
  induction l with
  | nil => simp [insert, Ascending]
  | cons y l ih =>
    obtain ⟨h1, h2⟩ := List.pairwise_cons.1 h
    unfold insert
    split
    · exact h
    · rename_i hne
      split
      · rename_i hlt
        refine List.pairwise_cons.2 ⟨?_, h⟩
        intro z hz
        rcases List.mem_cons.1 hz with rfl | hz
        · exact hlt
        · exact String.lt_trans hlt (h1 z hz)
      · rename_i hnlt
        refine List.pairwise_cons.2 ⟨?_, ih h2⟩
        intro z hz
        rcases (mem_insert x z l).1 hz with rfl | hz
        · have hle : y ≤ z := String.not_lt.1 hnlt
          rcases Decidable.em (y < z) with h | h
          · exact h
          · exact absurd (String.le_antisymm (String.not_lt.1 h) hle) hne
        · exact h1 z hz

private theorem sorted_asc (l : List String) : Ascending (l.foldr insert []) ∧ ∀ y, y ∈ l.foldr insert [] ↔ y ∈ l := by
  induction l with
  | nil => exact ⟨List.Pairwise.nil, fun y => Iff.rfl⟩
  | cons x l ih =>
    refine ⟨insert_asc x _ ih.1, fun y => ?_⟩
    rw [List.foldr_cons, mem_insert, ih.2, List.mem_cons]

private theorem asc_unique (l k : List String) (hl : Ascending l) (hk : Ascending k) (h : ∀ y, y ∈ l ↔ y ∈ k) : l = k := by
  induction l generalizing k with
  | nil =>
    cases k with
    | nil => rfl
    | cons b k => exact absurd ((h b).2 (by simp)) (by simp)
  | cons a l ih =>
    cases k with
    | nil => exact absurd ((h a).1 (by simp)) (by simp)
    | cons b k =>
      obtain ⟨hl1, hl2⟩ := List.pairwise_cons.1 hl
      obtain ⟨hk1, hk2⟩ := List.pairwise_cons.1 hk
      have hab : a = b := by
        rcases List.mem_cons.1 ((h a).1 (by simp)) with e | ha
        · exact e
        · rcases List.mem_cons.1 ((h b).2 (by simp)) with e | hb
          · exact e.symm
          · exact absurd (String.lt_trans (hk1 a ha) (hl1 b hb)) (String.lt_irrefl b)
      subst hab
      rw [ih k hl2 hk2 (fun y => ?_)]
      constructor
      · intro hy
        rcases List.mem_cons.1 ((h y).1 (by simp [hy])) with e | hy'
        · exact absurd (e ▸ hl1 y hy) (String.lt_irrefl _)
        · exact hy'
      · intro hy
        rcases List.mem_cons.1 ((h y).2 (by simp [hy])) with e | hy'
        · exact absurd (e ▸ hk1 y hy) (String.lt_irrefl _)
        · exact hy'

private theorem shown_eq (l k : List String) (hk : Ascending k) (h : ∀ y, y ∈ k ↔ y ∈ l) : shown l = join ", " k := by
  obtain ⟨h1, h2⟩ := sorted_asc l
  unfold shown
  rw [asc_unique _ k h1 hk (fun y => by rw [h2, h])]

private theorem allFields_some (l : List (List Char)) (fs : List (String × String × String)) :
    allFields l = some fs ↔ l.map fields = fs.map some := by
  induction l generalizing fs with
  | nil => cases fs <;> simp [allFields]
  | cons r l ih =>
    unfold allFields
    cases hf : fields r with
    | none => cases fs <;> simp [hf]
    | some f =>
      dsimp only
      cases ha : allFields l with
      | none =>
        dsimp only
        cases fs with
        | nil => simp
        | cons g gs =>
          simp only [List.map_cons, hf, List.cons.injEq, reduceCtorEq, false_iff, not_and]
          intro _ h
          rw [(ih gs).2 h] at ha; cases ha
      | some gs =>
        dsimp only
        cases fs with
        | nil => simp
        | cons g gs' =>
          simp only [Option.some.injEq, List.cons.injEq, List.map_cons, hf]
          have := ih gs'
          rw [ha, Option.some.injEq] at this
          rw [this]

private theorem allFields_none (l : List (List Char)) : allFields l = none ↔ ∃ r ∈ l, fields r = none := by
  induction l with
  | nil => simp [allFields]
  | cons r l ih =>
    unfold allFields
    cases hf : fields r with
    | none => simp [hf]
    | some f =>
      dsimp only
      cases ha : allFields l with
      | none => rw [ha] at ih; simpa [hf] using ih
      | some gs => rw [ha] at ih; simpa [hf] using ih

/-- What is listed for an address: each value of its records once, in ascending order. There is nothing (and the loop ends)
exactly if the query failed, there are no records, or one has not five parts. -/
theorem C125_entry (l : List (List Char)) :
    (∀ (fs : List (String × String × String)) (ka kc kr : List String), l ≠ [] → l.map fields = fs.map some →
      Ascending ka → (∀ y, y ∈ ka ↔ ∃ f ∈ fs, y = f.1) → Ascending kc → (∀ y, y ∈ kc ↔ ∃ f ∈ fs, y = f.2.1) →
      Ascending kr → (∀ y, y ∈ kr ↔ ∃ f ∈ fs, y = f.2.2) →
      entry (.rows l) = some (join ", " ka, join ", " kc, join ", " kr)) ∧
    (entry (.rows l) = none ↔ l = [] ∨ ∃ r ∈ l, fields r = none) ∧
    entry .failed = none ∧ entry .nxdomain = some ("nxdomain", "nxdomain", "nxdomain") := by
  refine ⟨fun fs ka kc kr hl hf h1 h2 h3 h4 h5 h6 => ?_, ?_, rfl, rfl⟩
  · have ha := (allFields_some l fs).2 hf
    have hm : ∀ (g : String × String × String → String) (k : List String), (∀ y, y ∈ k ↔ ∃ f ∈ fs, y = g f) → ∀ y, y ∈ k ↔ y ∈ fs.map g := by
      intro g k h y
      rw [h, List.mem_map]
      exact ⟨fun ⟨f, a, b⟩ => ⟨f, a, b.symm⟩, fun ⟨f, a, b⟩ => ⟨f, a, b.symm⟩⟩
    cases l with
    | nil => exact absurd rfl hl
    | cons r l =>
      unfold entry
      dsimp only
      rw [ha]
      dsimp only
      rw [shown_eq _ ka h1 (hm _ ka h2), shown_eq _ kc h3 (hm _ kc h4), shown_eq _ kr h5 (hm _ kr h6)]
  · cases l with
    | nil => simp [entry]
    | cons r l =>
      unfold entry
      dsimp only
      cases ha : allFields (r :: l) with
      | none => simp only [true_iff]; exact Or.inr ((allFields_none _).1 ha)
      | some fs =>
        simp only [reduceCtorEq, false_iff, not_or]
        refine ⟨by simp, fun h => ?_⟩
        rw [(allFields_none _).2 h] at ha; cases ha

/-- The order of records in an answer (and repetitions) do not matter. -/
theorem C125_order (l l' : List (List Char)) (h : ∀ r, r ∈ l ↔ r ∈ l') : entry (.rows l) = entry (.rows l') := by
  have hn : l = [] ↔ l' = [] := by
    rw [List.eq_nil_iff_forall_not_mem, List.eq_nil_iff_forall_not_mem]
    exact ⟨fun a r hr => a r ((h r).2 hr), fun a r hr => a r ((h r).1 hr)⟩
  cases hx : allFields l with
  | none =>
    obtain ⟨r, hr, hf⟩ := (allFields_none l).1 hx
    rw [((C125_entry l).2.1).2 (Or.inr ⟨r, hr, hf⟩), ((C125_entry l').2.1).2 (Or.inr ⟨r, (h r).1 hr, hf⟩)]
  | some fs =>
    cases hy : allFields l' with
    | none =>
      obtain ⟨r, hr, hf⟩ := (allFields_none l').1 hy
      rw [(allFields_none l).2 ⟨r, (h r).2 hr, hf⟩] at hx; cases hx
    | some gs =>
      have h1 := (allFields_some l fs).1 hx
      have h2 := (allFields_some l' gs).1 hy
      have hm : ∀ f, f ∈ fs ↔ f ∈ gs := by
        intro f
        have a1 : f ∈ fs ↔ ∃ r ∈ l, fields r = some f := by
          rw [← List.mem_map (f := fields), h1, List.mem_map]; simp
        have a2 : f ∈ gs ↔ ∃ r ∈ l', fields r = some f := by
          rw [← List.mem_map (f := fields), h2, List.mem_map]; simp
        rw [a1, a2]
        exact ⟨fun ⟨r, a, b⟩ => ⟨r, (h r).1 a, b⟩, fun ⟨r, a, b⟩ => ⟨r, (h r).2 a, b⟩⟩
      have hs : ∀ g : String × String × String → String, shown (fs.map g) = shown (gs.map g) := by
        intro g
        refine shown_eq _ _ (sorted_asc _).1 (fun y => ?_)
        rw [(sorted_asc _).2, List.mem_map, List.mem_map]
        exact ⟨fun ⟨f, a, b⟩ => ⟨f, (hm f).2 a, b⟩, fun ⟨f, a, b⟩ => ⟨f, (hm f).1 a, b⟩⟩
      cases l with
      | nil => rw [(hn.1 rfl)]
      | cons r l =>
        cases l' with
        | nil => exact absurd (hn.2 rfl) (by simp)
        | cons r' l' =>
          unfold entry
          dsimp only
          rw [hx, hy]
          dsimp only
          rw [hs, hs, hs]

/-! ### Lists -/

private theorem look_eq (dns : Nat → String → Answer) (n : Nat) (ips : List Addr) :
    ∃ k ≤ ips.length,
      (∀ j (h : j < ips.length), j < k → ∃ e, entry (dns (n + j) (question ips[j])) = some e ∧
        (look dns n ips).asn[j]? = some e.1 ∧ (look dns n ips).country[j]? = some e.2.1 ∧ (look dns n ips).rir[j]? = some e.2.2) ∧
      (∀ h : k < ips.length, entry (dns (n + k) (question ips[k])) = none) ∧
      (look dns n ips).asn.length = k ∧ (look dns n ips).country.length = k ∧ (look dns n ips).rir.length = k ∧
      ((look dns n ips).error = true ↔ k < ips.length) ∧
      (look dns n ips).asked = (ips.take (k + 1)).map question := by
  induction ips generalizing n with
  | nil => exact ⟨0, by simp, by simp, by simp, rfl, rfl, rfl, by simp [look], rfl⟩
  | cons ip ips ih =>
    unfold look
    cases he : entry (dns n (question ip)) with
    | none =>
      refine ⟨0, by simp, by simp, fun h => by simpa using he, rfl, rfl, rfl, by simp, by simp⟩
    | some e =>
      obtain ⟨k, h1, h2, h3, h4, h5, h6, h7, h8⟩ := ih (n + 1)
      refine ⟨k + 1, by simpa using h1, ?_, ?_, by simp [h4], by simp [h5], by simp [h6], by simpa using h7, by simp [h8]⟩
      · intro j hj hjk
        cases j with
        | zero => exact ⟨e, by simpa using he, by simp, by simp, by simp⟩
        | succ j =>
          obtain ⟨e', a, b, c, d⟩ := h2 j (by simpa using hj) (by omega)
          refine ⟨e', ?_, by simpa using b, by simpa using c, by simpa using d⟩
          simpa [Nat.add_assoc, Nat.add_comm 1 j] using a
      · intro h
        have := h3 (by simpa using h)
        simpa [Nat.add_assoc, Nat.add_comm 1 k] using this

/-- The three lists have the same length, and entry number `j` is that of the address number `j` in the list of bans. They are
complete exactly if no query fails; otherwise they end before the first address that fails, and no further queries are made. -/
theorem C125_lists (dns : Nat → String → Answer) (ips : List Addr) :
    ∃ k ≤ ips.length,
      (∀ j (h : j < ips.length), j < k → ∃ e, entry (dns j (question ips[j])) = some e ∧
        (info true dns ips).asn[j]? = some e.1 ∧ (info true dns ips).country[j]? = some e.2.1 ∧ (info true dns ips).rir[j]? = some e.2.2) ∧
      (∀ h : k < ips.length, entry (dns k (question ips[k])) = none) ∧
      (info true dns ips).asn.length = k ∧ (info true dns ips).country.length = k ∧ (info true dns ips).rir.length = k ∧
      ((info true dns ips).error = true ↔ k < ips.length) ∧
      (info true dns ips).asked = (ips.take (k + 1)).map question := by
  have := look_eq dns 0 ips
  simpa [info] using this

/-- What the status shows: numbers and addresses are those of the first read of the ban list, the lists on networks those of the
second one. -/
theorem C125_status (installed : Bool) (dns : Nat → String → Answer) (flavor : String) (size : Nat) (bans : List String) (later : List Addr)
    (total : Nat) :
    (flavor = "stats" → status installed dns flavor size bans later total = .numbers size total) ∧
    (flavor = "short" → status installed dns flavor size bans later total = .lines [.currently size, .total total]) ∧
    (flavor = "cymru" → ∃ i, i = info installed dns later ∧ status installed dns flavor size bans later total =
      .lines [.currently bans.length, .total total, .ips bans, .asn i.asn, .country i.country, .rir i.rir]) ∧
    (flavor ≠ "stats" → flavor ≠ "short" → flavor ≠ "cymru" →
      status installed dns flavor size bans later total = .lines [.currently bans.length, .total total, .ips bans]) := by
  have e1 : ("short" : String) ≠ "stats" := by decide
  have e2 : ("cymru" : String) ≠ "stats" := by decide
  have e3 : ("short" : String) ≠ "cymru" := by decide
  have e4 : ("cymru" : String) ≠ "short" := by decide
  refine ⟨?_, ?_, ?_, ?_⟩
  · rintro rfl; simp [status]
  · rintro rfl; unfold status; rw [if_neg e1]; simp [e3]
  · rintro rfl; refine ⟨_, rfl, ?_⟩; unfold status; rw [if_neg e2]; simp [e4]
  · intro h1 h2 h3; simp [status, h1, h2, h3]

/-- Without the package for DNS nothing is asked and each list is a single `error`, whatever is banned. -/
theorem C125_missing (dns : Nat → String → Answer) (ips : List Addr) :
    info false dns ips = ⟨["error"], ["error"], ["error"], true, []⟩ := rfl

private theorem join_chars (sep : String) (l : List String) :
    (join sep l).toList = ((l.map String.toList).intersperse sep.toList).flatten := by
  induction l with
  | nil => rfl
  | cons a l ih =>
    cases l with
    | nil => simp [join]
    | cons b l => simp only [join, String.toList_append, List.map_cons] at ih ⊢; rw [List.intersperse_cons_cons, ih]; simp

/-- Questions, character by character: parts of the address in reverse order with dots between, and the suffix of its family. -/
theorem C125_question (p : List String) :
    (question (.v4 p)).toList = (((p.map String.toList).reverse).intersperse ['.']).flatten ++ ".origin.asn.cymru.com".toList ∧
    (question (.v6 p)).toList = (((p.map String.toList).reverse).intersperse ['.']).flatten ++ ".origin6.asn.cymru.com".toList ∧
    question .raw = "" := by
  have e : ".".toList = ['.'] := by decide
  refine ⟨?_, ?_, rfl⟩ <;> (unfold question; rw [String.toList_append, join_chars, e, List.map_reverse])

/-! ### Examples and counterexamples -/

private def row (s : String) : List Char := s.toList

example : question (.v4 ["192", "0", "2", "1"]) = "1.2.0.192.origin.asn.cymru.com" := by decide +kernel

example : fields (row "\"3333 | 193.0.0.0/21 | NL | ripencc | 1993-09-01\"") = some ("3333", "NL", "ripencc") := by decide +kernel

-- two records, one without country
example : entry (.rows [row "\"64 | a | | z | d\"", row "\"12 | b | DE | z | d\""]) = some ("12, 64", "DE, unknown", "z") := by decide +kernel

-- a wrong record
example : entry (.rows [row "\"12 | b | DE | z | d\"", row "\"12\""]) = none := by decide +kernel

/-- Answers for examples: the second query fails. -/
private def sample (n : Nat) (_ : String) : Answer := if n = 1 then .failed else .nxdomain

/-- One failing query cuts the lists: the address after it has no entry, although it would have an answer, and the status does
not tell. -/
theorem C125_refuted_cut : entry (sample 2 "") ≠ none ∧
    status true sample "cymru" 3 ["a", "b", "c"] [.raw, .raw, .raw] 3 =
      .lines [.currently 3, .total 3, .ips ["a", "b", "c"], .asn ["nxdomain"], .country ["nxdomain"], .rir ["nxdomain"]] := by
  constructor <;> decide +kernel

/-- Answers for the next example: there is a record for one address. -/
private def known (_ : Nat) (q : String) : Answer :=
  if q = "1.2.0.192.origin.asn.cymru.com" then .rows [row "\"12 | b | DE | z | d\""] else .nxdomain

/-- If the first ban ends between both reads, the entries are shown beside wrong addresses. -/
theorem C125_refuted_moved :
    status true known "cymru" 2 ["198.51.100.7", "192.0.2.1"] [.v4 ["192", "0", "2", "1"]] 2 =
      .lines [.currently 2, .total 2, .ips ["198.51.100.7", "192.0.2.1"], .asn ["12"], .country ["DE"], .rir ["z"]] := by
  decide +kernel

end Verif.Cymru
