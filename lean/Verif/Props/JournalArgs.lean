import Verif.Spec.JournalArgs

/-!
# C121 — options of the backend `systemd`
-/

namespace Verif.JournalArgs

open JournalArgsSpec Reader

private theorem mem_unique (l : List Str) (f : Str) : f ∈ unique l ↔ f ∈ l := by
  induction l with
  | nil => rfl
  | cons x xs ih =>
    unfold unique
    split
    · rename_i h
      rw [ih]; simp only [List.mem_cons]
      exact ⟨Or.inr, fun h' => h'.elim (fun e => e ▸ h) id⟩
    · simp only [List.mem_cons, ih]

private theorem nodup_unique (l : List Str) : (unique l).Nodup := by
  induction l with
  | nil => exact List.nodup_nil
  | cons x xs ih =>
    unfold unique
    split
    · exact ih
    · rename_i h
      rw [List.nodup_cons]
      exact ⟨fun h' => h ((mem_unique xs x).1 h'), ih⟩

private theorem mem_expand (env : Env) (v f : Str) : f ∈ expand env v ↔ ∃ w ∈ splitwords v, f ∈ env.glob w := by
  unfold expand; rw [mem_unique, List.mem_flatMap]

private theorem keys_ne : ("journalfiles".toList ≠ "journalpath".toList ∧ "journalflags".toList ≠ "journalfiles".toList ∧ "journalflags".toList ≠ "journalpath".toList) ∧
    ("namespace".toList ≠ "journalflags".toList ∧ "namespace".toList ≠ "journalfiles".toList ∧ "namespace".toList ≠ "journalpath".toList) := by decide

private theorem getArgs_eq (env : Env) (kw : Dict Str Str) :
    getArgs env kw = (flagsOf env (opt kw "journalflags") (opt kw "journalpath") ((opt kw "journalfiles").map (expand env))).map (fun flags =>
      (⟨opt kw "journalpath", (opt kw "journalfiles").map (expand env), flags, opt kw "namespace"⟩,
        (((kw.erase "journalpath".toList).erase "journalfiles".toList).erase "journalflags".toList).erase "namespace".toList)) := by
  obtain ⟨⟨h1, h2, h3⟩, h4, h5, h6⟩ := keys_ne
  unfold getArgs opt
  dsimp only
  rw [Dict.get?_erase_ne _ h1, Dict.get?_erase_ne _ h2, Dict.get?_erase_ne _ h3, Dict.get?_erase_ne _ h4, Dict.get?_erase_ne _ h5, Dict.get?_erase_ne _ h6]
  split <;> rename_i h <;> rw [h] <;> rfl

private theorem chosen_iff (env : Env) (kw : Dict Str Str) :
    (noFiles ((opt kw "journalfiles").map (expand env)) && noPath (opt kw "journalpath")) = true ↔ ¬Chosen env kw := by
  have h1 : noFiles ((opt kw "journalfiles").map (expand env)) = true ↔ ¬∃ v, opt kw "journalfiles" = some v ∧ ∃ w ∈ splitwords v, env.glob w ≠ [] := by
    cases h : opt kw "journalfiles" with
    | none => simp [noFiles]
    | some v =>
      have he : expand env v = [] ↔ ∀ w ∈ splitwords v, env.glob w = [] := by
        constructor
        · intro e w hw
          apply List.eq_nil_iff_forall_not_mem.2
          intro f hf
          have := (mem_expand env v f).2 ⟨w, hw, hf⟩
          rw [e] at this; exact absurd this (by simp)
        · intro e
          apply List.eq_nil_iff_forall_not_mem.2
          intro f hf
          obtain ⟨w, hw, hf⟩ := (mem_expand env v f).1 hf
          rw [e w hw] at hf; exact absurd hf (by simp)
      simp [noFiles, he]
  have h2 : noPath (opt kw "journalpath") = true ↔ ¬∃ p, opt kw "journalpath" = some p ∧ p ≠ [] := by
    cases h : opt kw "journalpath" with
    | none => simp [noPath]
    | some p => simp [noPath]
  rw [Bool.and_eq_true, h1, h2, Chosen, not_or]

/-- Directory and namespace are passed on as they are -/
theorem C121_passed {env : Env} {kw left : Dict Str Str} {a : Args} (h : getArgs env kw = some (a, left)) :
    a.path = opt kw "journalpath" ∧ a.namespace_ = opt kw "namespace" := by
  rw [getArgs_eq, Option.map_eq_some_iff] at h
  obtain ⟨f, -, h⟩ := h
  simp only [Prod.mk.injEq] at h
  rw [← h.1]
  exact ⟨rfl, rfl⟩

/-- The files are those of all patterns, each once -/
theorem C121_files {env : Env} {kw left : Dict Str Str} {a : Args} (h : getArgs env kw = some (a, left)) :
    (a.files = none ↔ opt kw "journalfiles" = none) ∧
    (∀ v l, opt kw "journalfiles" = some v → a.files = some l → l.Nodup ∧ ∀ f, f ∈ l ↔ ∃ w ∈ splitwords v, f ∈ env.glob w) := by
  rw [getArgs_eq, Option.map_eq_some_iff] at h
  obtain ⟨f, -, h⟩ := h
  simp only [Prod.mk.injEq] at h
  rw [← h.1]
  refine ⟨by simp, ?_⟩
  intro v l h1 h2
  simp only [h1, Option.map_some, Option.some.injEq] at h2
  subst h2
  exact ⟨nodup_unique _, mem_expand env v⟩

/-- Flags are those given; else there are none if files or a directory are chosen, and those of the environment or 4 if not -/
theorem C121_flags {env : Env} {kw left : Dict Str Str} {a : Args} (h : getArgs env kw = some (a, left)) :
    (∀ v, opt kw "journalflags" = some v → ∃ i, env.toInt v = some i ∧ a.flags = some i) ∧
    (opt kw "journalflags" = none → Chosen env kw → a.flags = none) ∧
    (opt kw "journalflags" = none → ¬Chosen env kw →
      (env.defaultFlags = none → a.flags = some 4) ∧ (∀ v, env.defaultFlags = some v → ∃ i, env.toInt v = some i ∧ a.flags = some i)) := by
  rw [getArgs_eq, Option.map_eq_some_iff] at h
  obtain ⟨f, hf, h⟩ := h
  simp only [Prod.mk.injEq] at h
  rw [← h.1]
  have hch := chosen_iff env kw
  refine ⟨?_, ?_, ?_⟩
  · intro v hv
    rw [hv] at hf
    simp only [flagsOf, Option.map_eq_some_iff] at hf
    obtain ⟨i, h1, h2⟩ := hf
    exact ⟨i, h1, h2.symm⟩
  · intro hv hc
    rw [hv] at hf
    simp only [flagsOf] at hf
    rw [if_neg (fun x => hch.1 x hc)] at hf
    simpa using hf.symm
  · intro hv hc
    rw [hv] at hf
    simp only [flagsOf] at hf
    rw [if_pos (hch.2 hc), Option.map_eq_some_iff] at hf
    obtain ⟨i, h1, h2⟩ := hf
    refine ⟨?_, ?_⟩
    · intro hd
      simp only [default, hd, Option.some.injEq] at h1
      rw [← h2, ← h1]
    · intro v hd
      simp only [default, hd] at h1
      exact ⟨i, h1, h2.symm⟩

/-- The only errors are flags that are no number, given or (if they count) of the environment -/
theorem C121_error (env : Env) (kw : Dict Str Str) :
    getArgs env kw = none ↔ (∃ v, opt kw "journalflags" = some v ∧ env.toInt v = none) ∨
      (opt kw "journalflags" = none ∧ ¬Chosen env kw ∧ ∃ v, env.defaultFlags = some v ∧ env.toInt v = none) := by
  rw [getArgs_eq, Option.map_eq_none_iff]
  have hch := chosen_iff env kw
  cases h : opt kw "journalflags" with
  | some v => simp [flagsOf]
  | none =>
    simp only [flagsOf, reduceCtorEq, false_and, exists_false, true_and, false_or]
    by_cases hc : Chosen env kw
    · rw [if_neg (fun x => hch.1 x hc)]
      simp [hc]
    · rw [if_pos (hch.2 hc)]
      cases hd : env.defaultFlags <;> simp [default, hd, hc]

/-- Options that there are not are refused, but `useDns`; all others are used up -/
theorem C121_create (env : Env) (kw : Dict Str Str) (a : Args) :
    create env kw = some a ↔ (∃ left, getArgs env kw = some (a, left)) ∧ ∀ k ∈ kw.keys, k ∈ known.map String.toList ∨ k = "useDns".toList := by
  have hk : ∀ k : Str, k ∈ known.map String.toList ↔ k = "journalpath".toList ∨ k = "journalfiles".toList ∨ k = "journalflags".toList ∨ k = "namespace".toList := by
    intro k; simp only [known, List.map_cons, List.map_nil, List.mem_cons, List.not_mem_nil, or_false]
  have hl : ∀ left, (∃ a, getArgs env kw = some (a, left)) →
      (left.keys.all (fun k => k = "useDns".toList) = true ↔ ∀ k ∈ kw.keys, k ∈ known.map String.toList ∨ k = "useDns".toList) := by
    rintro left ⟨a, h⟩
    rw [getArgs_eq, Option.map_eq_some_iff] at h
    obtain ⟨f, -, h⟩ := h
    simp only [Prod.mk.injEq] at h
    rw [← h.2, List.all_eq_true]
    simp only [Dict.keys_erase, List.mem_filter, decide_eq_true_eq, hk]
    constructor
    · intro H k hm
      by_cases h1 : k = "journalpath".toList
      · exact Or.inl (Or.inl h1)
      by_cases h2 : k = "journalfiles".toList
      · exact Or.inl (Or.inr (Or.inl h2))
      by_cases h3 : k = "journalflags".toList
      · exact Or.inl (Or.inr (Or.inr (Or.inl h3)))
      by_cases h4 : k = "namespace".toList
      · exact Or.inl (Or.inr (Or.inr (Or.inr h4)))
      exact Or.inr (H k ⟨⟨⟨⟨hm, h1⟩, h2⟩, h3⟩, h4⟩)
    · rintro H k ⟨⟨⟨⟨hm, h1⟩, h2⟩, h3⟩, h4⟩
      rcases H k hm with (h | h | h | h) | h
      · exact absurd h h1
      · exact absurd h h2
      · exact absurd h h3
      · exact absurd h h4
      · exact h
  unfold create
  cases h : getArgs env kw with
  | none => simp
  | some x =>
    obtain ⟨b, left⟩ := x
    have := hl left ⟨b, h⟩
    dsimp only
    constructor
    · intro h1
      split at h1
      · rename_i h2
        simp only [Option.some.injEq] at h1
        subst h1
        exact ⟨⟨left, rfl⟩, this.1 h2⟩
      · simp at h1
    · rintro ⟨⟨l, h1⟩, h2⟩
      simp only [Option.some.injEq, Prod.mk.injEq] at h1
      rw [if_pos (this.2 h2), h1.1]

/-! Examples -/

private def dict (l : List (String × String)) : Dict Str Str := l.foldl (fun d x => d.insert x.1.toList x.2.toList) Dict.empty

private def host (flags : Option String) : Env where
  glob p := if p = "/j/*".toList then ["/j/a".toList, "/j/b".toList] else if p = "/j/a".toList then ["/j/a".toList] else []
  toInt s := if s = "1".toList then some 1 else if s = "0".toList then some 0 else none
  defaultFlags := flags.map String.toList

/-- A pattern that no file fulfils: the flags are those of the system journal, and the list of files is empty -/
theorem C121_refuted_nofile : ∃ (env : Env) (kw : Dict Str Str), opt kw "journalfiles" = some "/none/*.journal".toList ∧
    create env kw = some { files := some [], flags := some 4 } :=
  ⟨host none, dict [("journalfiles", "/none/*.journal")], by decide +kernel, by decide +kernel⟩

example : create (host none) (dict []) = some { flags := some 4 } ∧ create (host (some "0")) (dict []) = some { flags := some 0 } ∧
    create (host (some "x")) (dict []) = none ∧ create (host (some "x")) (dict [("journalflags", "1")]) = some { flags := some 1 } ∧
    create (host none) (dict [("journalflags", "one")]) = none := by
  decide +kernel

example : create (host none) (dict [("journalfiles", "/j/a, /j/*\n/k"), ("namespace", "n")]) =
      some { files := some ["/j/a".toList, "/j/b".toList], namespace_ := some "n".toList } ∧
    create (host (some "x")) (dict [("journalpath", "/run/j")]) = some { path := some "/run/j".toList } ∧
    create (host none) (dict [("journalpath", "")]) = some { path := some [], flags := some 4 } ∧
    create (host none) (dict [("journalpath", "/run/j"), ("journalflags", "0"), ("useDns", "no")]) = some { path := some "/run/j".toList, flags := some 0 } ∧
    create (host none) (dict [("journalpaths", "/run/j")]) = none := by
  decide +kernel

end Verif.JournalArgs
