import Verif.Spec.CombOption

/-!
# C129 — values of tags from other sections
-/

namespace Verif.CombOption

open CombOptionSpec

variable {ω : Type}

private theorem cut_some (s a b : Str) : cut s = some (a, b) ↔ s = a ++ '/' :: b ∧ '/' ∉ a := by
  induction s generalizing a with
  | nil => simp [cut]
  | cons c s ih =>
    unfold cut
    by_cases hc : c = '/'
    · subst hc
      rw [if_pos rfl]
      constructor
      · intro h; simp at h; obtain ⟨rfl, rfl⟩ := h; simp
      · rintro ⟨h, hn⟩
        cases a with
        | nil => simp at h; simp [h]
        | cons d a => simp at h; exact absurd h.1 (fun e => hn (e ▸ List.mem_cons_self))
    · rw [if_neg hc]
      constructor
      · intro h
        cases hx : cut s with
        | none => rw [hx] at h; simp at h
        | some p =>
          rw [hx] at h
          simp at h
          obtain ⟨rfl, rfl⟩ := h
          obtain ⟨h1, h2⟩ := (ih p.1).1 hx
          exact ⟨by rw [List.cons_append, ← h1], by simp [h2, Ne.symm hc]⟩
      · rintro ⟨h, hn⟩
        cases a with
        | nil => simp at h; exact absurd h.1 hc
        | cons d a =>
          simp at h
          obtain ⟨rfl, h⟩ := h
          rw [(ih a).2 ⟨h, fun hm => hn (by simp [hm])⟩]; rfl

private theorem chomp_cases (s : Str) : (s = chomp s ++ ['\n']) ∨ (s = chomp s ∧ s.getLast? ≠ some '\n') := by
  unfold chomp
  split
  · rename_i h
    left
    obtain ⟨l, hl⟩ := List.getLast?_eq_some_iff.1 h
    rw [hl]; simp
  · rename_i h; exact Or.inr ⟨rfl, h⟩

/-- Names that are taken as `section/option`: the section has characters of words and `-`, the option no blanks and no `>`. (White
space includes the line break, `/` is not in a word.) -/
theorem C129_name (env : Env ω) (h1 : env.space '\n' = true) (h2 : env.word '/' = false) (name a b : Str) :
    parse env name = some (a, b) ↔ Named env name a b := by
  unfold parse
  constructor
  · intro h
    cases hc : cut name with
    | none => rw [hc] at h; cases h
    | some p =>
      obtain ⟨x, y⟩ := p
      rw [hc] at h
      dsimp only at h
      split at h
      · rename_i hx
        simp only [Option.some.injEq, Prod.mk.injEq] at h
        obtain ⟨rfl, rfl⟩ := h
        obtain ⟨q1, q2, q3, q4⟩ := hx
        refine ⟨?_, q1, q3, by simpa using q2, by simpa using q4⟩
        have hn := ((cut_some name x y).1 hc).1
        rcases chomp_cases y with hy | ⟨hy, _⟩
        · right; rw [List.append_assoc, List.cons_append, ← hy]; exact hn
        · left; rw [← hy]; exact hn
      · cases h
  · rintro ⟨hn, ha, hb, hwa, hwb⟩
    have hs : '/' ∉ a := fun hm => by
      rcases hwa _ hm with h | h
      · rw [h2] at h; cases h
      · exact absurd h (by decide)
    have hl : b.getLast? ≠ some '\n' := fun h => by
      have := (hwb _ (List.mem_of_getLast? h)).1
      rw [h1] at this; cases this
    have e : ∃ y, cut name = some (a, y) ∧ chomp y = b := by
      rcases hn with hn | hn
      · exact ⟨b, (cut_some _ _ _).2 ⟨hn, hs⟩, by unfold chomp; rw [if_neg hl]⟩
      · exact ⟨b ++ ['\n'], (cut_some _ _ _).2 ⟨by simpa using hn, hs⟩, by simp [chomp]⟩
    obtain ⟨y, hc, hy⟩ := e
    rw [hc]
    dsimp only
    rw [hy, if_pos]
    exact ⟨ha, by simpa using hwa, hb, by simpa using hwb⟩

private theorem places_iff (env : Env ω) (s a : Str) (l : List Str) : Places env s a l ↔ l = places env s a := by
  have hne : "known".toList ≠ "default".toList := by decide
  unfold places
  constructor
  · rintro (h | h | ⟨h, h'⟩)
    · rw [if_pos h]
    · rw [if_neg (by rw [h]; exact Ne.symm hne), if_neg (by simp [h])]
    · rw [if_neg h, if_pos h']
  · intro h
    by_cases hk : env.lower a = "known".toList
    · rw [if_pos hk] at h; rw [h]; exact .known hk
    · by_cases hd : env.lower a = "default".toList
      · rw [if_neg hk, if_neg (by simp [hd])] at h; rw [h]; exact .default hd
      · rw [if_neg hk, if_pos hd] at h; rw [h]; exact .other hk hd

private theorem firstOf_all (env : Env ω) (o : Str) (f : Got) (l : List Str) (h : ∀ q ∈ l, env.get q o = .absent) : firstOf env o f l = f := by
  induction l with
  | nil => rfl
  | cons p l ih =>
    unfold firstOf
    rw [h p (by simp)]
    exact ih fun q hq => h q (by simp [hq])

private theorem firstOf_first (env : Env ω) (o : Str) (f : Got) (pre post : List Str) (p : Str) (h : ∀ q ∈ pre, env.get q o = .absent)
    (hp : env.get p o ≠ .absent) : firstOf env o f (pre ++ p :: post) = env.get p o := by
  induction pre with
  | nil =>
    rw [List.nil_append]
    unfold firstOf
    cases hg : env.get p o <;> first | rfl | exact absurd hg hp
  | cons q pre ih =>
    rw [List.cons_append]
    unfold firstOf
    rw [h q (by simp)]
    exact ih fun r hr => h r (by simp [hr])

/-- A value comes from the first of its places that has the option; if none has it, or the name is of no section, it is that of the
whole name in the current section with the options of the reader. An error in a place, other than that the option is not there, ends
the search. -/
theorem C129_value (env : Env ω) (h1 : env.space '\n' = true) (h2 : env.word '/' = false) (vars : ω) (s name : Str) :
    (∀ a b l, Named env name a b → Places env s a l →
      (∀ pre p post, l = pre ++ p :: post → (∀ q ∈ pre, env.get q b = .absent) → env.get p b ≠ .absent → getEx env vars s name = env.get p b) ∧
      ((∀ q ∈ l, env.get q b = .absent) → getEx env vars s name = env.getVars vars s name)) ∧
    ((¬∃ a b, Named env name a b) → getEx env vars s name = env.getVars vars s name) := by
  constructor
  · intro a b l hn hl
    rw [places_iff] at hl
    unfold getEx
    rw [(C129_name env h1 h2 name a b).2 hn]
    dsimp only
    rw [← hl]
    exact ⟨fun pre p post e hq hp => by rw [e]; exact firstOf_first env b _ pre post p hq hp, firstOf_all env b _ l⟩
  · intro hn
    unfold getEx
    cases hp : parse env name with
    | none => rfl
    | some p => exact absurd ⟨p.1, p.2, (C129_name env h1 h2 name p.1 p.2).1 hp⟩ hn

/-- The cache agrees with the files for the options. -/
private def Right (env : Env ω) (s : State ω) : Prop :=
  ∀ k v, s.cache k = some v → Answers (getEx env s.opts "Definition".toList k) (.is v)

private theorem comb_right (env : Env ω) (s : State ω) (h : Right env s) (n : Str) :
    Answers (getEx env s.opts "Definition".toList n) (comb env s n).2 ∧ Right env (comb env s n).1 ∧ (comb env s n).1.opts = s.opts := by
  unfold comb
  cases hc : s.cache n with
  | some v => exact ⟨h n v hc, h, rfl⟩
  | none =>
    have put : ∀ v, Answers (getEx env s.opts "Definition".toList n) (.is v) →
        Right env { s with cache := fun k => if k = n then some v else s.cache k } := by
      intro v hv k w hk
      dsimp only at hk ⊢
      split at hk
      · rename_i e; cases hk; rw [e]; exact hv
      · exact h k w hk
    dsimp only
    cases hg : getEx env s.opts "Definition".toList n with
    | value v => exact ⟨.value v, put _ (hg ▸ .value v), rfl⟩
    | absent => exact ⟨.absent, put _ (hg ▸ .absent), rfl⟩
    | wrong => exact ⟨.wrong, put _ (hg ▸ .wrong), rfl⟩
    | failed => exact ⟨.failed, h, rfl⟩

/-- As long as the options of the reader stay the same, each answer is what the files say; the cache is not visible. -/
theorem C129_cache (env : Env ω) (o : ω) (ns : List Str) :
    (asks env ⟨o, fun _ => none⟩ ns).length = ns.length ∧
    ∀ (j : Nat) (n : Str), ns[j]? = some n → ∃ a, (asks env ⟨o, fun _ => none⟩ ns)[j]? = some a ∧ Answers (getEx env o "Definition".toList n) a := by
  suffices H : ∀ s : State ω, Right env s → s.opts = o → (asks env s ns).length = ns.length ∧
      ∀ (j : Nat) (n : Str), ns[j]? = some n → ∃ a, (asks env s ns)[j]? = some a ∧ Answers (getEx env o "Definition".toList n) a from
    H _ (fun k v h => by cases h) rfl
  induction ns with
  | nil => intro s _ _; exact ⟨rfl, fun j n h => by simp at h⟩
  | cons m ns ih =>
    intro s hs ho
    obtain ⟨h1, h2, h3⟩ := comb_right env s hs m
    obtain ⟨i1, i2⟩ := ih _ h2 (h3.trans ho)
    refine ⟨by simp [asks, i1], fun j n hj => ?_⟩
    cases j with
    | zero =>
      simp only [List.getElem?_cons_zero, Option.some.injEq] at hj
      subst hj
      exact ⟨_, by simp [asks], ho ▸ h1⟩
    | succ j =>
      obtain ⟨a, ha, hb⟩ := i2 j n (by simpa using hj)
      exact ⟨a, by simpa [asks] using ha, hb⟩

/-- Answers of a reader: each outcome has one. -/
theorem C129_answer (g : Got) (a b : Answer) (ha : Answers g a) (hb : Answers g b) : a = b := by
  cases ha <;> cases hb <;> rfl

/-- What was answered stays, also if options of the reader are set again. -/
theorem C129_stays (env : Env ω) (s : State ω) (n : Str) (v : Option Str) (o : ω) (h : (comb env s n).2 = .is v) :
    (comb env (setOpts (comb env s n).1 o) n).2 = .is v := by
  have hc : (comb env s n).1.cache n = some v := by
    unfold comb at h ⊢
    cases hc : s.cache n with
    | some w => rw [hc] at h; simp at h; rw [← h]; exact hc
    | none =>
      rw [hc] at h
      dsimp only at h ⊢
      cases hg : getEx env s.opts "Definition".toList n <;> rw [hg] at h <;> simp at h <;> simp [h]
  have hs : (setOpts (comb env s n).1 o).cache n = some v := hc
  generalize setOpts (comb env s n).1 o = t at hs
  unfold comb
  rw [hs]

/-! ### Examples and counterexamples -/

/-- Files for examples; the options of the reader are the value of `x`. -/
private def sample : Env Str where
  word c := c.isAlphanum || c == '_'
  space c := c == ' ' || c == '\n'
  lower s := s.map Char.toLower
  get s o :=
    if s = "KNOWN/Definition".toList ∧ o = "re".toList then .value "old".toList
    else if s = "Definition".toList ∧ (o = "re".toList ∨ o = "other".toList) then .value "new".toList
    else if s = "Init".toList ∧ o = "port".toList then .value "ssh".toList
    else if s = "DEFAULT".toList then .value "default".toList
    else if s = "Loop".toList then .failed
    else .absent
  getVars v _ o := if o = "x".toList then .value v else .absent

example : parse sample "Init/a/b".toList = some ("Init".toList, "a/b".toList) := by decide +kernel
example : parse sample "a b/c".toList = none := by decide +kernel
example : asks sample ⟨"1".toList, fun _ => none⟩ ["Known/re".toList, "known/other".toList, "Init/port".toList, "default/z".toList, "x".toList, "Init/z".toList, "Loop/z".toList] =
    [.is (some "old".toList), .is (some "new".toList), .is (some "ssh".toList), .is (some "default".toList), .is (some "1".toList), .is none, .raised] := by decide +kernel

/-- If options are set again, values asked before are those of the old options. -/
theorem C129_refuted_stale : ∃ s : State Str, s = setOpts (comb sample ⟨"1".toList, fun _ => none⟩ "x".toList).1 "2".toList ∧
    (comb sample s "x".toList).2 = .is (some "1".toList) ∧ getEx sample s.opts "Definition".toList "x".toList = .value "2".toList := by
  refine ⟨_, rfl, ?_, ?_⟩ <;> decide +kernel

end Verif.CombOption
