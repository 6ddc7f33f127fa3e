import Verif.Model.CmdLine
import Verif.Spec.CmdLine

/-!
# C107 — options of the command line
-/

set_option linter.unusedSimpArgs false

namespace Verif.CmdLine

open Spec

/-! ## Reading of the words -/

theorem starts_iff : ∀ p s : Text, starts p s = true ↔ p <+: s
  | [], s => by simp [starts]
  | a :: p, [] => by simp [starts]
  | a :: p, b :: s => by simp [starts, starts_iff p s, List.cons_prefix_cons]

theorem short_flag (c : Char) : shortHasArg c = some false ↔ c ∈ flags := by
  unfold shortHasArg shorts
  have : flags = ['h','x','f','b','d','t','v','i','q','V'] := by decide
  rw [this]
  simp only [List.lookup, List.mem_cons, List.not_mem_nil, or_false]
  repeat' split
  all_goals simp_all

theorem short_valued (c : Char) : shortHasArg c = some true ↔ c ∈ valued := by
  unfold shortHasArg shorts
  have : valued = ['c','s','p'] := by decide
  rw [this]
  simp only [List.lookup, List.mem_cons, List.not_mem_nil, or_false]
  repeat' split
  all_goals simp_all

/-- Long options and their kinds -/
theorem mem_longs (n : Text) (b : Bool) : (n, b) ∈ longs ↔ (b = false ∧ n ∈ longFlags) ∨ (b = true ∧ n ∈ longValued) := by
  have h1 : longFlags = ["test".toList, "async".toList, "help".toList, "version".toList, "dp".toList, "dump-pretty".toList] := by decide
  have h2 : longValued = ["loglevel".toList, "logtarget".toList, "syslogsocket".toList, "conf".toList, "pidfile".toList, "pname".toList, "socket".toList, "timeout".toList, "str2sec".toList] := by decide
  rw [h1, h2]
  simp only [longs, List.mem_cons, List.not_mem_nil, or_false, Prod.mk.injEq]
  cases b <;> simp <;> grind

theorem mem_names (n : Text) : n ∈ longNames ↔ ∃ b, (n, b) ∈ longs := by
  simp only [mem_longs, longNames, List.mem_append]
  constructor
  · rintro (h | h)
    · exact ⟨false, .inl ⟨rfl, h⟩⟩
    · exact ⟨true, .inr ⟨rfl, h⟩⟩
  · rintro ⟨b, ⟨_, h⟩ | ⟨_, h⟩⟩
    · exact .inl h
    · exact .inr h

theorem longs_inj : ∀ o ∈ longs, ∀ o' ∈ longs, o.1 = o'.1 → o = o' := by decide +kernel

theorem longs_nodup : longs.Nodup := by decide +kernel

/-- A list whose only member is `a` -/
theorem single {α : Type} {l : List α} {a : α} (hn : l.Nodup) (ha : a ∈ l) (hu : ∀ b ∈ l, b = a) : l = [a] := by
  cases l with
  | nil => simp at ha
  | cons x t =>
    cases t with
    | nil => have := hu x (by simp); rw [this]
    | cons y t =>
      have h1 := hu x (by simp)
      have h2 := hu y (by simp)
      subst h1
      subst h2
      simp at hn

theorem longHasArg_iff (n full : Text) (b : Bool) : longHasArg n = some (full, b) ↔ Names n full ∧ (full, b) ∈ longs := by
  unfold longHasArg
  cases hf : longs.find? (fun o => o.1 == n) with
  | some o =>
    have hm := List.mem_of_find?_eq_some hf
    have hn : o.1 = n := by have := List.find?_some hf; simpa using this
    have hin : n ∈ longNames := (mem_names n).2 ⟨o.2, by rw [← hn]; exact hm⟩
    constructor
    · intro h
      cases h
      have hn' : full = n := hn
      subst hn'
      exact ⟨⟨hin, .inl rfl⟩, hm⟩
    · rintro ⟨⟨h1, h2 | h2⟩, h3⟩
      · have := longs_inj o hm (full, b) h3 (by simp [hn, h2])
        rw [this]
      · exact absurd hin h2.1
  | none =>
    have hno : n ∉ longNames := by
      intro h
      obtain ⟨b', hb⟩ := (mem_names n).1 h
      have := List.find?_eq_none.1 hf _ hb
      simp at this
    constructor
    · intro h
      simp only at h
      split at h
      · rename_i o ho
        cases h
        have hmem : ∀ x, x ∈ longs.filter (fun o => starts n o.1) ↔ x = (full, b) := by intro x; rw [ho]; simp
        have h0 := (hmem (full, b)).2 rfl
        simp only [List.mem_filter, starts_iff] at h0
        refine ⟨⟨(mem_names full).2 ⟨b, h0.1⟩, .inr ⟨hno, h0.2, ?_⟩⟩, h0.1⟩
        intro m hm hp
        obtain ⟨b', hb⟩ := (mem_names m).1 hm
        have := (hmem (m, b')).1 (by simp [List.mem_filter, hb, starts_iff, hp])
        cases this
        rfl
      · simp at h
    · rintro ⟨⟨h1, h2 | ⟨_, h2, h3⟩⟩, h4⟩
      · exact absurd (h2 ▸ h1) hno
      · have : longs.filter (fun o => starts n o.1) = [(full, b)] := by
          refine single (longs_nodup.filter _) (by simp [List.mem_filter, h4, starts_iff, h2]) ?_
          intro x hx
          simp only [List.mem_filter, starts_iff] at hx
          have := h3 x.1 ((mem_names _).2 ⟨x.2, hx.1⟩) hx.2
          exact longs_inj x hx.1 _ h4 this
        rw [this]

/-- No name contains an equals sign or is empty -/
theorem names_plain : ∀ m ∈ longNames, '=' ∉ m := by decide +kernel

theorem Spec.Names.plain {n full : Text} (h : Names n full) : '=' ∉ n := by
  obtain ⟨h1, h2 | ⟨_, h2, _⟩⟩ := h
  · exact h2 ▸ names_plain _ h1
  · intro hm
    exact names_plain _ h1 (h2.subset hm)

theorem Spec.Names.nonempty {n full : Text} (h : Names n full) : n ≠ [] := by
  intro hn
  subst hn
  obtain ⟨h1, h2 | ⟨_, _, h3⟩⟩ := h
  · subst h2
    exact absurd h1 (by decide +kernel)
  · have a := h3 "test".toList (by decide +kernel) (by simp)
    have b := h3 "dp".toList (by decide +kernel) (by simp)
    exact absurd (a.trans b.symm) (by decide)

theorem splitEq_none : ∀ n : Text, '=' ∉ n → splitEq n = (n, none)
  | [], _ => rfl
  | c :: t, h => by
    simp only [List.mem_cons, not_or] at h
    have : (c == '=') = false := by simp; exact fun e => h.1 e.symm
    simp [splitEq, this, splitEq_none t h.2]

theorem splitEq_some : ∀ (n v : Text), '=' ∉ n → splitEq (n ++ '=' :: v) = (n, some v)
  | [], v, _ => by simp [splitEq]
  | c :: t, v, h => by
    simp only [List.mem_cons, not_or] at h
    have : (c == '=') = false := by simp; exact fun e => h.1 e.symm
    simp [splitEq, this, splitEq_some t v h.2]

theorem splitEq_back : ∀ w : Text, (splitEq w).2 = none ∧ (splitEq w).1 = w ∨ ∃ v, (splitEq w).2 = some v ∧ w = (splitEq w).1 ++ '=' :: v
  | [] => by simp [splitEq]
  | c :: t => by
    by_cases h : c = '='
    · subst h
      exact .inr ⟨t, by simp [splitEq]⟩
    · rcases splitEq_back t with ⟨a, b⟩ | ⟨v, a, b⟩
      · exact .inl (by simp [splitEq, h, a, b])
      · exact .inr ⟨v, by simp [splitEq, h, a, ← b]⟩

/-- Words of letters, read -/
theorem doShorts_iff : ∀ (w : Text) (args : List Text) (os : List Opt) (r : List Text), doShorts w args = some (os, r) ↔
    ((∀ c ∈ w, c ∈ flags) ∧ os = letters w ∧ r = args) ∨
    (∃ l c v, w = l ++ c :: v ∧ (∀ c ∈ l, c ∈ flags) ∧ c ∈ valued ∧
      ((v ≠ [] ∧ os = letters l ++ [(['-', c], v)] ∧ r = args) ∨
       (v = [] ∧ ∃ x, args = x :: r ∧ os = letters l ++ [(['-', c], x)])))
  | [], args, os, r => by
    simp only [doShorts, Option.some.injEq, Prod.mk.injEq]
    constructor
    · rintro ⟨rfl, rfl⟩
      exact .inl (by simp [letters])
    · rintro (⟨_, rfl, rfl⟩ | ⟨l, c, v, h, _⟩)
      · simp [letters]
      · simp at h
  | c :: t, args, os, r => by
    cases hc : shortHasArg c with
    | none =>
      have h1 : c ∉ flags := fun h => by rw [(short_flag c).2 h] at hc; simp at hc
      have h2 : c ∉ valued := fun h => by rw [(short_valued c).2 h] at hc; simp at hc
      simp only [doShorts, hc]
      constructor
      · simp
      · rintro (⟨h, _⟩ | ⟨l, d, v, h, hl, hd, _⟩)
        · exact absurd (h c (by simp)) h1
        · cases l with
          | nil => simp only [List.nil_append, List.cons.injEq] at h; exact absurd (h.1 ▸ hd) h2
          | cons x l => simp only [List.cons_append, List.cons.injEq] at h; exact absurd (h.1 ▸ hl x (by simp)) h1
    | some b =>
      cases b with
      | true =>
        have hv := (short_valued c).1 hc
        have h1 : c ∉ flags := fun h => by rw [(short_flag c).2 h] at hc; simp at hc
        constructor
        · intro h
          refine .inr ⟨[], c, t, rfl, by simp, hv, ?_⟩
          simp only [doShorts, hc] at h
          split at h
          · simp at h
          · simp only [Option.some.injEq, Prod.mk.injEq] at h
            exact .inr ⟨rfl, _, by rw [h.2], by simp [letters, h.1]⟩
          · rename_i hne1 hne2
            simp only [Option.some.injEq, Prod.mk.injEq] at h
            refine .inl ⟨?_, by simp [letters, h.1], h.2.symm⟩
            intro ht
            cases args with
            | nil => exact hne1 ht rfl
            | cons a as => exact hne2 a as ht rfl
        · rintro (⟨h, _⟩ | ⟨l, d, v, h, hl, hd, h3⟩)
          · exact absurd (h c (by simp)) h1
          · cases l with
            | cons x l => simp only [List.cons_append, List.cons.injEq] at h; exact absurd (h.1 ▸ hl x (by simp)) h1
            | nil =>
              simp only [List.nil_append, List.cons.injEq] at h
              obtain ⟨rfl, rfl⟩ := h
              simp only [doShorts, hc]
              rcases h3 with ⟨h3, rfl, rfl⟩ | ⟨rfl, x, rfl, rfl⟩
              · cases t with
                | nil => exact absurd rfl h3
                | cons a b => simp [letters]
              · simp [letters]
      | false =>
        have hv := (short_flag c).1 hc
        have h1 : c ∉ valued := fun h => by rw [(short_valued c).2 h] at hc; simp at hc
        simp only [doShorts, hc, Option.map_eq_some_iff]
        constructor
        · rintro ⟨⟨os', r'⟩, ha, hb⟩
          simp only [Prod.mk.injEq] at hb
          obtain ⟨rfl, rfl⟩ := hb
          rcases (doShorts_iff t args os' r').1 ha with ⟨a, rfl, rfl⟩ | ⟨l, d, v, rfl, hl, hd, h3⟩
          · refine .inl ⟨?_, by simp [letters], rfl⟩
            intro x hx
            rcases List.mem_cons.1 hx with rfl | hx
            · exact hv
            · exact a x hx
          · refine .inr ⟨c :: l, d, v, by simp, ?_, hd, ?_⟩
            · intro x hx
              rcases List.mem_cons.1 hx with rfl | hx
              · exact hv
              · exact hl x hx
            · rcases h3 with ⟨h3, rfl, rfl⟩ | ⟨h3, x, rfl, rfl⟩
              · exact .inl ⟨h3, by simp [letters], rfl⟩
              · exact .inr ⟨h3, x, rfl, by simp [letters]⟩
        · rintro (⟨h, rfl, rfl⟩ | ⟨l, d, v, h, hl, hd, h3⟩)
          · exact ⟨(letters t, r), (doShorts_iff t r _ _).2 (.inl ⟨fun x hx => h x (by simp [hx]), rfl, rfl⟩), by simp [letters]⟩
          · cases l with
            | nil => simp only [List.nil_append, List.cons.injEq] at h; exact absurd (h.1 ▸ hd) h1
            | cons x l =>
              simp only [List.cons_append, List.cons.injEq] at h
              obtain ⟨rfl, rfl⟩ := h
              rcases h3 with ⟨h3, rfl, rfl⟩ | ⟨h3, y, rfl, rfl⟩
              · exact ⟨(letters l ++ [(['-', d], v)], r), (doShorts_iff _ _ _ _).2
                  (.inr ⟨l, d, v, rfl, fun x hx => hl x (by simp [hx]), hd, .inl ⟨h3, rfl, rfl⟩⟩), by simp [letters]⟩
              · exact ⟨(letters l ++ [(['-', d], y)], r), (doShorts_iff _ _ _ _).2
                  (.inr ⟨l, d, v, rfl, fun x hx => hl x (by simp [hx]), hd, .inr ⟨h3, y, rfl, rfl⟩⟩), by simp [letters]⟩

theorem flag_long {full : Text} : full ∈ longFlags ↔ (full, false) ∈ longs := by simp [mem_longs]

theorem valued_long {full : Text} : full ∈ longValued ↔ (full, true) ∈ longs := by simp [mem_longs]

/-- Long options, read -/
theorem doLong_iff (w : Text) (args : List Text) (o : Opt) (r : List Text) : doLong w args = some (o, r) ↔
    (∃ full, Names w full ∧ full ∈ longFlags ∧ o = ('-' :: '-' :: full, []) ∧ r = args) ∨
    (∃ n full v, w = n ++ '=' :: v ∧ Names n full ∧ full ∈ longValued ∧ o = ('-' :: '-' :: full, v) ∧ r = args) ∨
    (∃ full v, Names w full ∧ full ∈ longValued ∧ o = ('-' :: '-' :: full, v) ∧ args = v :: r) := by
  constructor
  · intro h
    unfold doLong at h
    split at h
    · simp at h
    · rename_i n hn
      obtain ⟨h1, h2⟩ := (longHasArg_iff _ _ _).1 hn
      rcases splitEq_back w with ⟨a, b⟩ | ⟨v, a, b⟩
      · rw [a] at h
        rw [b] at h1
        cases args with
        | nil => simp at h
        | cons v args =>
          simp only [Option.some.injEq, Prod.mk.injEq] at h
          exact .inr (.inr ⟨n, v, h1, valued_long.2 h2, h.1.symm, by rw [h.2]⟩)
      · rw [a] at h
        simp only [Option.some.injEq, Prod.mk.injEq] at h
        exact .inr (.inl ⟨_, n, v, b, h1, valued_long.2 h2, h.1.symm, h.2.symm⟩)
    · rename_i n hn
      obtain ⟨h1, h2⟩ := (longHasArg_iff _ _ _).1 hn
      rcases splitEq_back w with ⟨a, b⟩ | ⟨v, a, b⟩
      · rw [a] at h
        rw [b] at h1
        simp only [Option.some.injEq, Prod.mk.injEq] at h
        exact .inl ⟨n, h1, flag_long.2 h2, h.1.symm, h.2.symm⟩
      · rw [a] at h
        simp at h
  · rintro (⟨full, h1, h2, rfl, rfl⟩ | ⟨n, full, v, rfl, h1, h2, rfl, rfl⟩ | ⟨full, v, h1, h2, rfl, rfl⟩)
    · have := (longHasArg_iff w full false).2 ⟨h1, flag_long.1 h2⟩
      simp [doLong, splitEq_none w h1.plain, this]
    · have := (longHasArg_iff n full true).2 ⟨h1, valued_long.1 h2⟩
      simp [doLong, splitEq_some n v h1.plain, this]
    · have := (longHasArg_iff w full true).2 ⟨h1, valued_long.1 h2⟩
      simp [doLong, splitEq_none w h1.plain, this]

theorem go_long (n : Nat) (c : Char) (l : Text) (args : List Text) : getoptGo (n + 1) (('-' :: '-' :: c :: l) :: args) =
    (doLong (c :: l) args).bind (fun p => (getoptGo n p.2).map (fun r => (p.1 :: r.1, r.2))) := by
  simp only [getoptGo]
  cases doLong (c :: l) args <;> rfl

theorem go_short (n : Nat) (c : Char) (l : Text) (args : List Text) (h : c ≠ '-') : getoptGo (n + 1) (('-' :: c :: l) :: args) =
    (doShorts (c :: l) args).bind (fun p => (getoptGo n p.2).map (fun r => (p.1 ++ r.1, r.2))) := by
  rw [getoptGo.eq_def (n + 1)]
  simp only
  split
  · simp_all
  · simp_all
  · simp_all
  · rename_i heq
    cases heq
    cases doShorts (c :: l) args <;> rfl
  · simp_all

theorem go_rest (n : Nat) (t r : List Text) (h : Rest t r) (hn : t.length ≤ n) : getoptGo n t = some ([], r) := by
  cases n with
  | zero =>
    have : t = [] := List.length_eq_zero_iff.1 (by omega)
    subst this
    rcases h with h | ⟨rfl, _⟩
    · simp at h
    · rfl
  | succ n =>
    rcases h with rfl | ⟨rfl, h⟩
    · rfl
    · cases t with
      | nil => rfl
      | cons w t =>
        rcases h w (by simp) with rfl | h
        · rfl
        · unfold getoptGo
          split <;> simp_all

theorem go_word (n : Nat) {w : List Text} {o : List Opt} (h : Word w o) (args : List Text) :
    getoptGo (n + 1) (w ++ args) = (getoptGo n args).map (fun r => (o ++ r.1, r.2)) := by
  have hd : ∀ c : Char, c ∈ flags ∨ c ∈ valued → c ≠ '-' := by
    intro c hc e
    subst e
    exact absurd hc (by decide)
  have key : ∀ (w : Text) (a args : List Text) (os : List Opt), w ≠ [] → (∀ c ∈ w.head?, c ∈ flags ∨ c ∈ valued) →
      doShorts w (a ++ args) = some (os, args) → getoptGo (n + 1) (('-' :: w) :: a ++ args) = (getoptGo n args).map (fun r => (os ++ r.1, r.2)) := by
    intro w a args os h0 h1 h2
    cases w with
    | nil => exact absurd rfl h0
    | cons c t =>
      rw [List.cons_append, go_short n c t _ (hd c (h1 c (by simp))), h2]
      rfl
  have keyl : ∀ (w : Text) (a args : List Text) (o : Opt), w ≠ [] →
      doLong w (a ++ args) = some (o, args) → getoptGo (n + 1) (('-' :: '-' :: w) :: a ++ args) = (getoptGo n args).map (fun r => ([o] ++ r.1, r.2)) := by
    intro w a args o h0 h2
    cases w with
    | nil => exact absurd rfl h0
    | cons c t =>
      rw [List.cons_append, go_long n c t, h2]
      rfl
  cases h with
  | flags l h1 h2 =>
    refine key l [] args _ h1 ?_ ((doShorts_iff _ _ _ _).2 (.inl ⟨h2, rfl, rfl⟩))
    intro c hc
    exact .inl (h2 c (List.mem_of_mem_head? hc))
  | joined l c v h1 h2 h3 =>
    refine key (l ++ c :: v) [] args _ (by simp) ?_ ((doShorts_iff _ _ _ _).2 (.inr ⟨l, c, v, rfl, h1, h2, .inl ⟨h3, rfl, rfl⟩⟩))
    intro d hc
    cases l with
    | nil => simp at hc; subst hc; exact .inr h2
    | cons x l => simp at hc; subst hc; exact .inl (h1 _ (by simp))
  | apart l c v h1 h2 =>
    refine key (l ++ [c]) [v] args _ (by simp) ?_ ((doShorts_iff _ _ _ _).2 (.inr ⟨l, c, [], rfl, h1, h2, .inr ⟨rfl, v, rfl, rfl⟩⟩))
    intro d hc
    cases l with
    | nil => simp at hc; subst hc; exact .inr h2
    | cons x l => simp at hc; subst hc; exact .inl (h1 _ (by simp))
  | long m full h1 h2 => exact keyl m [] args _ h1.nonempty ((doLong_iff _ _ _ _).2 (.inl ⟨full, h1, h2, rfl, rfl⟩))
  | longEq m full v h1 h2 => exact keyl _ [] args _ (by simp) ((doLong_iff _ _ _ _).2 (.inr (.inl ⟨m, full, v, rfl, h1, h2, rfl, rfl⟩)))
  | longApart m full v h1 h2 => exact keyl m [v] args _ h1.nonempty ((doLong_iff _ _ _ _).2 (.inr (.inr ⟨full, v, h1, h2, rfl, rfl⟩)))

theorem word_length {w : List Text} {o : List Opt} (h : Word w o) : 1 ≤ w.length := by cases h <;> simp

theorem go_spell {ws : List Text} {os : List Opt} (h : Spell ws os) (t r : List Text) (hr : Rest t r) :
    ∀ n, (ws ++ t).length ≤ n → getoptGo n (ws ++ t) = some (os, r) := by
  induction h with
  | nil => exact fun n hn => go_rest n t r hr hn
  | @cons w ws o os hw _ ih =>
    intro n hn
    have hl := word_length hw
    cases n with
    | zero => simp only [List.length_append] at hn; omega
    | succ n =>
      rw [List.append_assoc, go_word n hw, ih n (by simp only [List.length_append] at hn ⊢; omega)]
      rfl

theorem Spell.one {w ws : List Text} {o : Opt} {os : List Opt} (h : Word w [o]) (hs : Spell ws os) : Spell (w ++ ws) (o :: os) := Spell.cons h hs

theorem go_back : ∀ (n : Nat) (args : List Text) (os : List Opt) (r : List Text), args.length ≤ n → getoptGo n args = some (os, r) →
    ∃ ws t, Spell ws os ∧ Rest t r ∧ args = ws ++ t
  | 0, args, os, r, hn, h => by
    have : args = [] := List.length_eq_zero_iff.1 (by omega)
    subst this
    simp only [getoptGo, Option.some.injEq, Prod.mk.injEq] at h
    obtain ⟨rfl, rfl⟩ := h
    exact ⟨[], [], .nil, .inr ⟨rfl, by simp⟩, rfl⟩
  | n + 1, [], os, r, hn, h => by
    simp only [getoptGo, Option.some.injEq, Prod.mk.injEq] at h
    obtain ⟨rfl, rfl⟩ := h
    exact ⟨[], [], .nil, .inr ⟨rfl, by simp⟩, rfl⟩
  | n + 1, w :: args, os, r, hn, h => by
    simp only [List.length_cons, Nat.add_le_add_iff_right] at hn
    rcases w with _ | ⟨c, w⟩
    · simp only [getoptGo, Option.some.injEq, Prod.mk.injEq] at h
      obtain ⟨rfl, rfl⟩ := h
      exact ⟨[], _, .nil, .inr ⟨rfl, by simp⟩, rfl⟩
    by_cases hc : c = '-'
    · subst hc
      rcases w with _ | ⟨d, w⟩
      · simp only [getoptGo, Option.some.injEq, Prod.mk.injEq] at h
        obtain ⟨rfl, rfl⟩ := h
        exact ⟨[], _, .nil, .inr ⟨rfl, by simp⟩, rfl⟩
      by_cases hd : d = '-'
      · subst hd
        rcases w with _ | ⟨a, w⟩
        · simp only [getoptGo, Option.some.injEq, Prod.mk.injEq] at h
          obtain ⟨rfl, rfl⟩ := h
          exact ⟨[], _, .nil, .inl rfl, rfl⟩
        · rw [go_long] at h
          obtain ⟨⟨o, args'⟩, h1, h2⟩ := Option.bind_eq_some_iff.1 h
          obtain ⟨⟨os', r'⟩, h3, h4⟩ := Option.map_eq_some_iff.1 h2
          cases h4
          simp only at h3
          rcases (doLong_iff _ _ _ _).1 h1 with ⟨full, a1, a2, rfl, rfl⟩ | ⟨m, full, v, hw, a1, a2, rfl, rfl⟩ | ⟨full, v, a1, a2, rfl, rfl⟩
          · obtain ⟨ws, t, b1, b2, rfl⟩ := go_back n _ _ _ hn h3
            exact ⟨_, t, Spell.one (.long _ full a1 a2) b1, b2, rfl⟩
          · obtain ⟨ws, t, b1, b2, rfl⟩ := go_back n _ _ _ hn h3
            exact ⟨_, t, Spell.one (.longEq m full v a1 a2) b1, b2, by rw [hw]; rfl⟩
          · obtain ⟨ws, t, b1, b2, rfl⟩ := go_back n _ _ _ (by simp only [List.length_cons] at hn; omega) h3
            exact ⟨_, t, Spell.one (.longApart _ full v a1 a2) b1, b2, rfl⟩
      · rw [go_short n d w args hd] at h
        obtain ⟨⟨o, args'⟩, h1, h2⟩ := Option.bind_eq_some_iff.1 h
        obtain ⟨⟨os', r'⟩, h3, h4⟩ := Option.map_eq_some_iff.1 h2
        cases h4
        simp only at h3
        rcases (doShorts_iff _ _ _ _).1 h1 with ⟨a1, rfl, rfl⟩ | ⟨l, c, v, hw, a1, a2, ⟨a3, rfl, rfl⟩ | ⟨rfl, x, rfl, rfl⟩⟩
        · obtain ⟨ws, t, b1, b2, rfl⟩ := go_back n _ _ _ hn h3
          exact ⟨_, t, Spell.cons (.flags _ (by simp) a1) b1, b2, rfl⟩
        · obtain ⟨ws, t, b1, b2, rfl⟩ := go_back n _ _ _ hn h3
          exact ⟨_, t, Spell.cons (.joined l c v a1 a2 a3) b1, b2, by rw [hw]; rfl⟩
        · obtain ⟨ws, t, b1, b2, rfl⟩ := go_back n _ _ _ (by simp only [List.length_cons] at hn; omega) h3
          exact ⟨_, t, Spell.cons (.apart l c x a1 a2) b1, b2, by rw [hw]; rfl⟩
    · have : getoptGo (n + 1) ((c :: w) :: args) = some ([], (c :: w) :: args) := by
        unfold getoptGo
        split <;> simp_all
      rw [this] at h
      cases h
      exact ⟨[], _, .nil, .inr ⟨rfl, by simp [hc]⟩, rfl⟩

/-- C107: exactly the words that spell options are read as these options, in their order, and the words after them are the command, unchanged;
everything else is refused. -/
theorem C107_words (args : List Text) (os : List Opt) (r : List Text) :
    getopt args = some (os, r) ↔ ∃ ws t, Spell ws os ∧ Rest t r ∧ args = ws ++ t := by
  constructor
  · exact go_back _ _ _ _ (Nat.le_refl _)
  · rintro ⟨ws, t, h1, h2, rfl⟩
    exact go_spell h1 t r h2 _ (Nat.le_refl _)

/-- C107: words after the first word of a command belong to the command, whatever they look like. -/
theorem C107_command {ws : List Text} {os : List Opt} (h : Spell ws os) (w : Text) (r : List Text) (hw : w.head? ≠ some '-') :
    getopt (ws ++ w :: r) = some (os, w :: r) ∧ getopt (ws ++ "--".toList :: r) = some (os, r) :=
  ⟨(C107_words _ _ _).2 ⟨ws, _, h, .inr ⟨rfl, by simp [hw]⟩, rfl⟩, (C107_words _ _ _).2 ⟨ws, _, h, .inl rfl, rfl⟩⟩

/-- C107: what cannot be read changes nothing and nothing is done. -/
theorem C107_usage (e : Env) (c : Conf) (argv : List Text) (h : ¬ ∃ ws t os r, Spell ws os ∧ Rest t r ∧ argv = ws ++ t) :
    initCmdLine e c argv = ([.usage], .code false) := by
  have : getopt argv = none := by
    cases hg : getopt argv with
    | none => rfl
    | some p =>
      obtain ⟨ws, t, h1⟩ := (C107_words argv p.1 p.2).1 hg
      exact absurd ⟨ws, t, _, _, h1⟩ h
  simp [initCmdLine, this]

def words (l : List String) : List Text := l.map String.toList

example : getopt (words ["-vvs/run/x", "--conf=/e", "--log", "x"]) = none := by decide +kernel

example : getopt (words ["-vvs/run/x", "--conf=/e", "--logl", "x", "-tc", "/f", "set", "sshd", "-v"]) =
    some ([("-v".toList, []), ("-v".toList, []), ("-s".toList, "/run/x".toList), ("--conf".toList, "/e".toList), ("--loglevel".toList, "x".toList),
      ("-t".toList, []), ("-c".toList, "/f".toList)], words ["set", "sshd", "-v"]) := by decide +kernel

example : getopt (words ["--test=1"]) = none ∧ getopt (words ["-s"]) = none ∧ getopt (words ["-z"]) = none := by decide +kernel

/-! ## Effect of options -/

theorem lastOf_cons (ns : List Text) (o : Opt) (os : List Opt) :
    lastOf ns (o :: os) = (lastOf ns os).or (if o.1 ∈ ns then some o.2 else none) := by
  unfold lastOf
  by_cases h : o.1 ∈ ns
  · simp only [List.filter_cons, h, decide_true, if_true, List.getLast?_cons]
    cases (os.filter (fun o => decide (o.1 ∈ ns))).getLast? <;> simp
  · simp [List.filter_cons, h]

theorem lastName_cons (ns : List String) (o : Opt) (os : List Opt) :
    lastName ns (o :: os) = (lastName ns os).or (if o.1 ∈ ns.map String.toList then some o.1 else none) := by
  unfold lastName
  by_cases h : o.1 ∈ ns.map String.toList
  · simp only [List.filter_cons, h, decide_true, if_true, List.getLast?_cons]
    cases (os.filter (fun o => decide (o.1 ∈ ns.map String.toList))).getLast? <;> simp
  · simp only [List.filter_cons, h, decide_false, if_false, Option.or_none, Bool.false_eq_true]

theorem count_cons (n : String) (o : Opt) (os : List Opt) : count n (o :: os) = (if o.1 = n.toList then 1 else 0) + count n os := by
  unfold count
  by_cases h : o.1 = n.toList
  · simp [List.filter_cons, h]; omega
  · simp [List.filter_cons, h]

theorem given_cons (ns : List String) (o : Opt) (os : List Opt) : given ns (o :: os) = (decide (o.1 ∈ ns.map String.toList) || given ns os) := by
  simp [given]

/-- The last reading of a text counts; all before are known to be readable -/
theorem result_cons (secs : Text → Option Int) (c : Conf) (o : Opt) (os : List Opt) (hc : ∀ o ∈ os, Clean secs o) :
    result secs c (o :: os) = result secs (result secs c [o]) os := by
  have e1 : ∀ ns, lastOf ns [o] = (if o.1 ∈ ns then some o.2 else none) := by intro ns; rw [lastOf_cons]; simp [lastOf]
  have e2 : ∀ ns, lastName ns [o] = (if o.1 ∈ ns.map String.toList then some o.1 else none) := by intro ns; rw [lastName_cons]; simp [lastName]
  have e3 : ∀ n, count n [o] = (if o.1 = n.toList then 1 else 0) := by intro n; rw [count_cons]; simp [count]
  have e4 : ∀ ns, given ns [o] = decide (o.1 ∈ ns.map String.toList) := by intro n; rw [given_cons]; simp [given]
  have ht : ∀ v, lastOf ["--timeout".toList] os = some v → (secs v).isSome = true := by
    intro v hv
    unfold lastOf at hv
    obtain ⟨x, h1, rfl⟩ := Option.map_eq_some_iff.1 hv
    have hm := List.mem_of_getLast? h1
    simp only [List.mem_filter, List.mem_cons, List.not_mem_nil, or_false, decide_eq_true_eq] at hm
    exact (hc x hm.1).2 hm.2
  simp only [result, Conf.mk.injEq]
  refine ⟨?_, ?_, ?_, ?_, ?_, ?_, ?_, ?_, ?_, ?_, ?_⟩
  · rw [given_cons, e4, Bool.or_assoc]
  · rw [lastOf_cons, e1]; cases lastOf ["-c".toList, "--conf".toList] os <;> rfl
  · rw [given_cons, e4, Bool.or_assoc]
  · rw [lastName_cons, e2]; cases lastName ["-b", "-f"] os <;> rfl
  · rw [count_cons, count_cons, e3, e3]; omega
  · rw [lastOf_cons, e1]
    cases hl : lastOf ["--timeout".toList] os with
    | none => rfl
    | some v =>
      have := ht v hl
      obtain ⟨x, hx⟩ := Option.isSome_iff_exists.1 this
      show (secs v).getD _ = (secs v).getD _
      rw [hx]
      rfl
  · rw [lastName_cons, e2]; cases lastName ["-d", "--dp", "--dump-pretty"] os <;> rfl
  · rw [given_cons, e4, Bool.or_assoc]
  · rw [given_cons, e4, Bool.or_assoc]
  · rw [given_cons, e4, Bool.or_assoc]
  · funext p
    rw [lastOf_cons, e1]; cases lastOf (names p) os <;> rfl

/-- All names that mean something -/
def known : List Text := ["-c", "--conf", "-s", "--socket", "-p", "--pidfile", "-d", "--dp", "--dump-pretty", "-t", "--test", "-v", "-q", "-x", "-i",
  "-b", "-f", "--async", "--timeout", "--str2sec", "-h", "--help", "-V", "--version", "--loglevel", "--logtarget", "--syslogsocket", "--pname"].map String.toList

theorem conf_ext {a b : Conf} (h1 : a.async = b.async) (h2 : a.conf = b.conf) (h3 : a.force = b.force) (h4 : a.background = b.background)
    (h5 : a.verbose = b.verbose) (h6 : a.timeout = b.timeout) (h7 : a.dump = b.dump) (h8 : a.test = b.test) (h9 : a.interactive = b.interactive)
    (h10 : a.cleanConfOnly = b.cleanConfOnly) (h11 : ∀ p, a.params p = b.params p) : a = b := by
  cases a; cases b; simp_all; funext p; exact h11 p

theorem step_unknown (secs : Text → Option Int) (c : Conf) (o : Opt) (h : o.1 ∉ known) : step secs c o = .next c := by
  have s : ∀ ns : List Text, (∀ n ∈ ns, n ∈ known) → o.1 ∉ ns := fun ns hs hm => h (hs _ hm)
  have s1 : ∀ n : Text, n ∈ known → o.1 ≠ n := fun n hs hm => h (by rw [hm]; exact hs)
  unfold step
  refine (if_neg (s _ (by decide +kernel))).trans ?_
  refine (if_neg (s _ (by decide +kernel))).trans ?_
  refine (if_neg (s _ (by decide +kernel))).trans ?_
  refine (if_neg (s _ (by decide +kernel))).trans ?_
  refine (if_neg (s _ (by decide +kernel))).trans ?_
  refine (if_neg (s1 _ (by decide +kernel))).trans ?_
  refine (if_neg (s1 _ (by decide +kernel))).trans ?_
  refine (if_neg (s1 _ (by decide +kernel))).trans ?_
  refine (if_neg (s1 _ (by decide +kernel))).trans ?_
  refine (if_neg (s1 _ (by decide +kernel))).trans ?_
  refine (if_neg (s1 _ (by decide +kernel))).trans ?_
  refine (if_neg (s1 _ (by decide +kernel))).trans ?_
  refine (if_neg (s1 _ (by decide +kernel))).trans ?_
  refine (if_neg (s1 _ (by decide +kernel))).trans ?_
  refine (if_neg (s _ (by decide +kernel))).trans ?_
  refine (if_neg (s _ (by decide +kernel))).trans ?_
  refine (if_neg (s1 _ (by decide +kernel))).trans ?_
  refine (if_neg (s1 _ (by decide +kernel))).trans ?_
  refine (if_neg (s1 _ (by decide +kernel))).trans ?_
  refine (if_neg (s1 _ (by decide +kernel))).trans ?_
  rfl

theorem lastOf_one (ns : List Text) (o : Opt) : lastOf ns [o] = (if o.1 ∈ ns then some o.2 else none) := by rw [lastOf_cons]; simp [lastOf]

theorem lastName_one (ns : List String) (o : Opt) : lastName ns [o] = (if o.1 ∈ ns.map String.toList then some o.1 else none) := by
  rw [lastName_cons]; simp [lastName]

theorem count_one (n : String) (o : Opt) : count n [o] = (if o.1 = n.toList then 1 else 0) := by rw [count_cons]; simp [count]

theorem given_one (ns : List String) (o : Opt) : given ns [o] = decide (o.1 ∈ ns.map String.toList) := by rw [given_cons]; simp [given]

theorem result_unknown (secs : Text → Option Int) (c : Conf) (o : Opt) (h : o.1 ∉ known) : result secs c [o] = c := by
  have e1 : ∀ ns : List Text, (∀ n ∈ ns, n ∈ known) → lastOf ns [o] = none := by
    intro ns hs
    rw [lastOf_one, if_neg (fun hm => h (hs _ hm))]
  have e2 : ∀ ns : List String, (∀ n ∈ ns.map String.toList, n ∈ known) → lastName ns [o] = none := by
    intro ns hs
    rw [lastName_one, if_neg (fun hm => h (hs _ hm))]
  have e3 : ∀ n : String, n.toList ∈ known → count n [o] = 0 := by
    intro n hn
    rw [count_one, if_neg (fun hm : o.1 = n.toList => h (by rw [hm]; exact hn))]
  have e4 : ∀ ns : List String, (∀ n ∈ ns.map String.toList, n ∈ known) → given ns [o] = false := by
    intro ns hs
    rw [given_one]
    exact decide_eq_false (fun hm => h (hs _ hm))
  refine conf_ext ?_ ?_ ?_ ?_ ?_ ?_ ?_ ?_ ?_ ?_ ?_
  · simp only [result]; rw [e4 _ (by decide +kernel), Bool.or_false]
  · simp only [result]; rw [e1 _ (by decide +kernel)]; rfl
  · simp only [result]; rw [e4 _ (by decide +kernel), Bool.or_false]
  · simp only [result]; rw [e2 _ (by decide +kernel)]; rfl
  · simp only [result]; rw [e3 _ (by decide +kernel), e3 _ (by decide +kernel)]; omega
  · simp only [result]; rw [e1 _ (by decide +kernel)]; rfl
  · simp only [result]; rw [e2 _ (by decide +kernel)]; rfl
  · simp only [result]; rw [e4 _ (by decide +kernel), Bool.or_false]
  · simp only [result]; rw [e4 _ (by decide +kernel), Bool.or_false]
  · simp only [result]; rw [e4 _ (by decide +kernel), Bool.or_false]
  · intro p
    simp only [result]
    rw [e1 _ (by cases p <;> decide +kernel)]
    rfl

theorem or_f (a : Bool) : a = (a || false) := (Bool.or_false a).symm

theorem or_t (a : Bool) : true = (a || true) := (Bool.or_true a).symm

theorem int_0 (a : Int) : a = a + ((0 : Nat) : Int) - ((0 : Nat) : Int) := by omega

theorem int_v (a : Int) : a + 1 = a + ((1 : Nat) : Int) - ((0 : Nat) : Int) := by omega

theorem int_q (a : Int) : a - 1 = a + ((0 : Nat) : Int) - ((1 : Nat) : Int) := by omega

theorem step_0 (secs : Text → Option Int) (c : Conf) (v : Text) : step secs c ("-c".toList, v) = .next (result secs c [("-c".toList, v)]) :=
  (rfl : step secs c ("-c".toList, v) = _).trans (congrArg Step.next (conf_ext (or_f _) rfl (or_f _) rfl (int_0 _) rfl rfl (or_f _) (or_f _) (or_f _)
    (fun p => by cases p <;> rfl)))

theorem step_1 (secs : Text → Option Int) (c : Conf) (v : Text) : step secs c ("--conf".toList, v) = .next (result secs c [("--conf".toList, v)]) :=
  (rfl : step secs c ("--conf".toList, v) = _).trans (congrArg Step.next (conf_ext (or_f _) rfl (or_f _) rfl (int_0 _) rfl rfl (or_f _) (or_f _) (or_f _)
    (fun p => by cases p <;> rfl)))

theorem step_2 (secs : Text → Option Int) (c : Conf) (v : Text) : step secs c ("-s".toList, v) = .next (result secs c [("-s".toList, v)]) :=
  (rfl : step secs c ("-s".toList, v) = _).trans (congrArg Step.next (conf_ext (or_f _) rfl (or_f _) rfl (int_0 _) rfl rfl (or_f _) (or_f _) (or_f _)
    (fun p => by cases p <;> rfl)))

theorem step_3 (secs : Text → Option Int) (c : Conf) (v : Text) : step secs c ("--socket".toList, v) = .next (result secs c [("--socket".toList, v)]) :=
  (rfl : step secs c ("--socket".toList, v) = _).trans (congrArg Step.next (conf_ext (or_f _) rfl (or_f _) rfl (int_0 _) rfl rfl (or_f _) (or_f _) (or_f _)
    (fun p => by cases p <;> rfl)))

theorem step_4 (secs : Text → Option Int) (c : Conf) (v : Text) : step secs c ("-p".toList, v) = .next (result secs c [("-p".toList, v)]) :=
  (rfl : step secs c ("-p".toList, v) = _).trans (congrArg Step.next (conf_ext (or_f _) rfl (or_f _) rfl (int_0 _) rfl rfl (or_f _) (or_f _) (or_f _)
    (fun p => by cases p <;> rfl)))

theorem step_5 (secs : Text → Option Int) (c : Conf) (v : Text) : step secs c ("--pidfile".toList, v) = .next (result secs c [("--pidfile".toList, v)]) :=
  (rfl : step secs c ("--pidfile".toList, v) = _).trans (congrArg Step.next (conf_ext (or_f _) rfl (or_f _) rfl (int_0 _) rfl rfl (or_f _) (or_f _) (or_f _)
    (fun p => by cases p <;> rfl)))

theorem step_6 (secs : Text → Option Int) (c : Conf) (v : Text) : step secs c ("-d".toList, v) = .next (result secs c [("-d".toList, v)]) :=
  (rfl : step secs c ("-d".toList, v) = _).trans (congrArg Step.next (conf_ext (or_f _) rfl (or_f _) rfl (int_0 _) rfl rfl (or_f _) (or_f _) (or_f _)
    (fun p => by cases p <;> rfl)))

theorem step_7 (secs : Text → Option Int) (c : Conf) (v : Text) : step secs c ("--dp".toList, v) = .next (result secs c [("--dp".toList, v)]) :=
  (rfl : step secs c ("--dp".toList, v) = _).trans (congrArg Step.next (conf_ext (or_f _) rfl (or_f _) rfl (int_0 _) rfl rfl (or_f _) (or_f _) (or_f _)
    (fun p => by cases p <;> rfl)))

theorem step_8 (secs : Text → Option Int) (c : Conf) (v : Text) : step secs c ("--dump-pretty".toList, v) = .next (result secs c [("--dump-pretty".toList, v)]) :=
  (rfl : step secs c ("--dump-pretty".toList, v) = _).trans (congrArg Step.next (conf_ext (or_f _) rfl (or_f _) rfl (int_0 _) rfl rfl (or_f _) (or_f _) (or_f _)
    (fun p => by cases p <;> rfl)))

theorem step_9 (secs : Text → Option Int) (c : Conf) (v : Text) : step secs c ("-t".toList, v) = .next (result secs c [("-t".toList, v)]) :=
  (rfl : step secs c ("-t".toList, v) = _).trans (congrArg Step.next (conf_ext (or_f _) rfl (or_f _) rfl (int_0 _) rfl rfl (or_t _) (or_f _) (or_t _)
    (fun p => by cases p <;> rfl)))

theorem step_10 (secs : Text → Option Int) (c : Conf) (v : Text) : step secs c ("--test".toList, v) = .next (result secs c [("--test".toList, v)]) :=
  (rfl : step secs c ("--test".toList, v) = _).trans (congrArg Step.next (conf_ext (or_f _) rfl (or_f _) rfl (int_0 _) rfl rfl (or_t _) (or_f _) (or_t _)
    (fun p => by cases p <;> rfl)))

theorem step_11 (secs : Text → Option Int) (c : Conf) (v : Text) : step secs c ("-v".toList, v) = .next (result secs c [("-v".toList, v)]) :=
  (rfl : step secs c ("-v".toList, v) = _).trans (congrArg Step.next (conf_ext (or_f _) rfl (or_f _) rfl (int_v _) rfl rfl (or_f _) (or_f _) (or_f _)
    (fun p => by cases p <;> rfl)))

theorem step_12 (secs : Text → Option Int) (c : Conf) (v : Text) : step secs c ("-q".toList, v) = .next (result secs c [("-q".toList, v)]) :=
  (rfl : step secs c ("-q".toList, v) = _).trans (congrArg Step.next (conf_ext (or_f _) rfl (or_f _) rfl (int_q _) rfl rfl (or_f _) (or_f _) (or_f _)
    (fun p => by cases p <;> rfl)))

theorem step_13 (secs : Text → Option Int) (c : Conf) (v : Text) : step secs c ("-x".toList, v) = .next (result secs c [("-x".toList, v)]) :=
  (rfl : step secs c ("-x".toList, v) = _).trans (congrArg Step.next (conf_ext (or_f _) rfl (or_t _) rfl (int_0 _) rfl rfl (or_f _) (or_f _) (or_f _)
    (fun p => by cases p <;> rfl)))

theorem step_14 (secs : Text → Option Int) (c : Conf) (v : Text) : step secs c ("-i".toList, v) = .next (result secs c [("-i".toList, v)]) :=
  (rfl : step secs c ("-i".toList, v) = _).trans (congrArg Step.next (conf_ext (or_f _) rfl (or_f _) rfl (int_0 _) rfl rfl (or_f _) (or_t _) (or_f _)
    (fun p => by cases p <;> rfl)))

theorem step_15 (secs : Text → Option Int) (c : Conf) (v : Text) : step secs c ("-b".toList, v) = .next (result secs c [("-b".toList, v)]) :=
  (rfl : step secs c ("-b".toList, v) = _).trans (congrArg Step.next (conf_ext (or_f _) rfl (or_f _) rfl (int_0 _) rfl rfl (or_f _) (or_f _) (or_f _)
    (fun p => by cases p <;> rfl)))

theorem step_16 (secs : Text → Option Int) (c : Conf) (v : Text) : step secs c ("-f".toList, v) = .next (result secs c [("-f".toList, v)]) :=
  (rfl : step secs c ("-f".toList, v) = _).trans (congrArg Step.next (conf_ext (or_f _) rfl (or_f _) rfl (int_0 _) rfl rfl (or_f _) (or_f _) (or_f _)
    (fun p => by cases p <;> rfl)))

theorem step_17 (secs : Text → Option Int) (c : Conf) (v : Text) : step secs c ("--async".toList, v) = .next (result secs c [("--async".toList, v)]) :=
  (rfl : step secs c ("--async".toList, v) = _).trans (congrArg Step.next (conf_ext (or_t _) rfl (or_f _) rfl (int_0 _) rfl rfl (or_f _) (or_f _) (or_f _)
    (fun p => by cases p <;> rfl)))

theorem step_18 (secs : Text → Option Int) (c : Conf) (v : Text) : step secs c ("--loglevel".toList, v) = .next (result secs c [("--loglevel".toList, v)]) :=
  (rfl : step secs c ("--loglevel".toList, v) = _).trans (congrArg Step.next (conf_ext (or_f _) rfl (or_f _) rfl (int_0 _) rfl rfl (or_f _) (or_f _) (or_f _)
    (fun p => by cases p <;> rfl)))

theorem step_19 (secs : Text → Option Int) (c : Conf) (v : Text) : step secs c ("--logtarget".toList, v) = .next (result secs c [("--logtarget".toList, v)]) :=
  (rfl : step secs c ("--logtarget".toList, v) = _).trans (congrArg Step.next (conf_ext (or_f _) rfl (or_f _) rfl (int_0 _) rfl rfl (or_f _) (or_f _) (or_f _)
    (fun p => by cases p <;> rfl)))

theorem step_20 (secs : Text → Option Int) (c : Conf) (v : Text) : step secs c ("--syslogsocket".toList, v) = .next (result secs c [("--syslogsocket".toList, v)]) :=
  (rfl : step secs c ("--syslogsocket".toList, v) = _).trans (congrArg Step.next (conf_ext (or_f _) rfl (or_f _) rfl (int_0 _) rfl rfl (or_f _) (or_f _) (or_f _)
    (fun p => by cases p <;> rfl)))

theorem step_21 (secs : Text → Option Int) (c : Conf) (v : Text) : step secs c ("--pname".toList, v) = .next (result secs c [("--pname".toList, v)]) :=
  (rfl : step secs c ("--pname".toList, v) = _).trans (congrArg Step.next (conf_ext (or_f _) rfl (or_f _) rfl (int_0 _) rfl rfl (or_f _) (or_f _) (or_f _)
    (fun p => by cases p <;> rfl)))

theorem step_timeout (secs : Text → Option Int) (c : Conf) (v : Text) (x : Int) (h : secs v = some x) :
    step secs c ("--timeout".toList, v) = .next (result secs c [("--timeout".toList, v)]) := by
  have h1 : step secs c ("--timeout".toList, v) = match secs v with | some n => Step.next { c with timeout := n } | none => .raise := rfl
  rw [h1, h]
  refine congrArg Step.next (conf_ext (or_f _) rfl (or_f _) rfl (int_0 _) ?_ rfl (or_f _) (or_f _) (or_f _) (fun p => by cases p <;> rfl))
  show x = (secs v).getD c.timeout
  rw [h]
  rfl

/-- One option -/
theorem step_clean (secs : Text → Option Int) (c : Conf) (o : Opt) (h : Clean secs o) : step secs c o = .next (result secs c [o]) := by
  by_cases hk : o.1 ∈ known
  · obtain ⟨n, v⟩ := o
    have hs : n ∉ ["--str2sec", "-h", "--help", "-V", "--version"].map String.toList := h.1
    have ht : n = "--timeout".toList → (secs v).isSome = true := h.2
    simp only [known, List.map_cons, List.map_nil, List.mem_cons, List.not_mem_nil, or_false] at hk
    rcases hk with e | e | e | e | e | e | e | e | e | e | e | e | e | e | e | e | e | e | e | e | e | e | e | e | e | e | e | e
    · rw [e]; exact step_0 secs c v
    · rw [e]; exact step_1 secs c v
    · rw [e]; exact step_2 secs c v
    · rw [e]; exact step_3 secs c v
    · rw [e]; exact step_4 secs c v
    · rw [e]; exact step_5 secs c v
    · rw [e]; exact step_6 secs c v
    · rw [e]; exact step_7 secs c v
    · rw [e]; exact step_8 secs c v
    · rw [e]; exact step_9 secs c v
    · rw [e]; exact step_10 secs c v
    · rw [e]; exact step_11 secs c v
    · rw [e]; exact step_12 secs c v
    · rw [e]; exact step_13 secs c v
    · rw [e]; exact step_14 secs c v
    · rw [e]; exact step_15 secs c v
    · rw [e]; exact step_16 secs c v
    · rw [e]; exact step_17 secs c v
    · obtain ⟨x, hx⟩ := Option.isSome_iff_exists.1 (ht e)
      rw [e]
      exact step_timeout secs c v x hx
    · exact absurd (by rw [e]; decide +kernel) hs
    · exact absurd (by rw [e]; decide +kernel) hs
    · exact absurd (by rw [e]; decide +kernel) hs
    · exact absurd (by rw [e]; decide +kernel) hs
    · exact absurd (by rw [e]; decide +kernel) hs
    · rw [e]; exact step_18 secs c v
    · rw [e]; exact step_19 secs c v
    · rw [e]; exact step_20 secs c v
    · rw [e]; exact step_21 secs c v
  · rw [step_unknown secs c o hk, result_unknown secs c o hk]

theorem options_cons (secs : Text → Option Int) (c : Conf) (o : Opt) (os : List Opt) (h : Clean secs o) :
    options secs c (o :: os) = options secs (result secs c [o]) os := by
  rw [options, step_clean secs c o h]

theorem result_nil (secs : Text → Option Int) (c : Conf) : result secs c [] = c :=
  conf_ext (or_f _).symm rfl (or_f _).symm rfl (int_0 _).symm rfl rfl (or_f _).symm (or_f _).symm (or_f _).symm (fun p => by cases p <;> rfl)

/-- C107: of options given several times the last counts, verbosity is counted, the others are on if they are given at all. -/
theorem C107_last (secs : Text → Option Int) : ∀ (os : List Opt) (c : Conf), (∀ o ∈ os, Clean secs o) → options secs c os = .next (result secs c os)
  | [], c, _ => by rw [result_nil]; rfl
  | o :: os, c, h => by
    rw [options_cons secs c o os (h o (by simp)), result_cons secs c o os (fun x hx => h x (by simp [hx]))]
    exact C107_last secs os _ (fun x hx => h x (by simp [hx]))

/-- C107: the first option that ends the program decides; options after it do not matter. -/
theorem C107_stop (secs : Text → Option Int) (o : Opt) (post : List Opt) : ∀ (pre : List Opt) (c : Conf), (∀ o ∈ pre, Clean secs o) → ¬ Clean secs o →
    options secs c (pre ++ o :: post) = match shown secs o with | some x => .stop x | none => .raise
  | [], c, _, h => by
    obtain ⟨n, v⟩ := o
    by_cases hs : Stops (n, v)
    · have hs : n ∈ ["--str2sec", "-h", "--help", "-V", "--version"].map String.toList := hs
      simp only [List.map_cons, List.map_nil, List.mem_cons, List.not_mem_nil, or_false] at hs
      rw [List.nil_append, options]
      rcases hs with e | e | e | e | e
      · rw [e]
        have h1 : step secs c ("--str2sec".toList, v) = match secs v with | some n => Step.stop (.seconds n) | none => .raise := rfl
        have h2 : shown secs ("--str2sec".toList, v) = (secs v).map Out.seconds := rfl
        rw [h1, h2]
        cases secs v <;> rfl
      · rw [e]; rfl
      · rw [e]; rfl
      · rw [e]; rfl
      · rw [e]; rfl
    · have ht : n = "--timeout".toList ∧ secs v = none := by
        by_cases a : n = "--timeout".toList
        · refine ⟨a, ?_⟩
          cases hv : secs v with
          | none => rfl
          | some x => exact absurd ⟨hs, fun _ => by rw [hv]; rfl⟩ h
        · exact absurd ⟨hs, fun b => absurd b a⟩ h
      rw [List.nil_append, options, ht.1]
      have h1 : step secs c ("--timeout".toList, v) = match secs v with | some n => Step.next { c with timeout := n } | none => .raise := rfl
      have h2 : shown secs ("--timeout".toList, v) = none := rfl
      rw [h1, h2, ht.2]
  | p :: pre, c, h0, h => by
    rw [List.cons_append, options_cons secs c p _ (h0 p (by simp))]
    exact C107_stop secs o post pre _ (fun x hx => h0 x (by simp [hx])) h

/-! ## Parameters of the configuration -/

theorem fill_spec (e : Env) : ∀ (ps : List Param) (c : Conf), ps.Nodup →
    fill e c ps = if e.early c.conf = none ∧ ∃ p ∈ ps, c.params p = none then none
      else some { c with params := fun p => (c.params p).or (if p ∈ ps then (e.early c.conf).bind (fun v => v p) else none) }
  | [], c, _ => by
    rw [fill, if_neg (by simp)]
    simp
  | p :: ps, c, hn => by
    have hp : p ∉ ps := (List.nodup_cons.1 hn).1
    have ih := fun c => fill_spec e ps c (List.nodup_cons.1 hn).2
    unfold fill
    cases hc : c.params p with
    | some t =>
      simp only [ih]
      have : (∃ q ∈ p :: ps, c.params q = none) ↔ ∃ q ∈ ps, c.params q = none := by simp [hc]
      simp only [this]
      split
      · rfl
      · congr 2
        funext q
        by_cases hq : q = p
        · subst hq; simp [hc]
        · simp [hq]
    | none =>
      cases he : e.early c.conf with
      | none =>
        simp only
        rw [if_pos ⟨trivial, p, by simp, hc⟩]
      | some v =>
        simp only [reduceCtorEq, false_and, if_false]
        cases hv : v p with
        | none =>
          simp only
          rw [ih, if_neg (by simp [he])]
          congr 2
          funext q
          by_cases hq : q = p
          · subst hq; simp [hc, he, hv]
          · simp [hq, he]
        | some t =>
          simp only
          rw [ih, if_neg (by simp [Conf.set, he])]
          simp only [Conf.set, he]
          congr 2
          funext q
          by_cases hq : q = p
          · subst hq; simp [hc, hv]
          · simp [hq]

theorem needed_iff (p : Param) : p ∈ configParams ↔ needed p := by cases p <;> decide

/-- C107: what is given on the command line is used; the configuration provides what is missing and is read only then. -/
theorem C107_params (e : Env) (c : Conf) : (Unread e c → fill e c configParams = none) ∧
    (¬ Unread e c → fill e c configParams = some { c with params := value e c }) := by
  have h := fill_spec e configParams c (by decide)
  have h1 : (e.early c.conf = none ∧ ∃ p ∈ configParams, c.params p = none) ↔ Unread e c := by
    simp [Unread, needed_iff]
  have h2 : (fun p => (c.params p).or (if p ∈ configParams then (e.early c.conf).bind (fun v => v p) else none)) = value e c := by
    funext p
    simp [value, needed_iff]
  rw [h2] at h
  exact ⟨fun a => by rw [h, if_pos (h1.2 a)], fun a => by rw [h, if_neg (fun b => a (h1.1 b))]⟩

/-! ## Outcome -/

/-- C107: the outcome after options that only set something. -/
theorem C107_run (e : Env) (c : Conf) (argv : List Text) (os : List Opt) (args : List Text) (h : getopt argv = some (os, args))
    (hc : ∀ o ∈ os, Clean e.secs o) :
    (¬ Usable e (result e.secs c os) → initCmdLine e c argv = ([.error], .code false)) ∧
    (Usable e (result e.secs c os) → initCmdLine e c argv =
      finish e { result e.secs c os with params := value e (result e.secs c os) } args) := by
  have hi : initCmdLine e c argv = match fill e (result e.secs c os) configParams with
      | none => ([.error], .code false)
      | some c => match c.params .loglevel, c.params .logtarget with
        | some l, some _ => if e.level l then finish e c args else ([.error], .code false)
        | _, _ => ([.error], .code false) := by
    rw [initCmdLine, h]
    simp only
    rw [C107_last e.secs os c hc]
    rfl
  rw [hi]
  generalize result e.secs c os = d
  constructor
  · intro hu
    by_cases hr : Unread e d
    · rw [(C107_params e d).1 hr]
    · rw [(C107_params e d).2 hr]
      simp only
      cases hl : value e d .loglevel with
      | none => rfl
      | some l =>
        cases ht : value e d .logtarget with
        | none => rfl
        | some t =>
          simp only
          rw [if_neg]
          intro hlev
          exact hu ⟨hr, ⟨l, hl, hlev⟩, by rw [ht]; rfl⟩
  · rintro ⟨hr, ⟨l, hl, hlev⟩, ht⟩
    obtain ⟨t, ht⟩ := Option.isSome_iff_exists.1 ht
    rw [(C107_params e d).2 hr]
    simp only
    rw [hl, ht]
    simp only [hlev, if_true]

/-- C107: an option that ends the program, or cannot be understood: nothing is read and nothing is done. -/
theorem C107_end (e : Env) (c : Conf) (argv : List Text) (pre post : List Opt) (o : Opt) (args : List Text)
    (h : getopt argv = some (pre ++ o :: post, args)) (hc : ∀ o ∈ pre, Clean e.secs o) (ho : ¬ Clean e.secs o) :
    initCmdLine e c argv = match shown e.secs o with | some x => ([x], .code true) | none => ([.error], .code false) := by
  rw [initCmdLine, h]
  simp only
  rw [C107_stop e.secs o post pre c hc ho]
  cases shown e.secs o <;> rfl

theorem finish_dump (e : Env) (c : Conf) : (if c.dump = .no then [] else if (e.read c).2 then [Out.dumped c.conf (c.dump = .pretty)] else [Out.streamFailed]) =
    dumpOut e c := by
  unfold dumpOut
  cases c.dump <;> cases (e.read c).2 <;> rfl

/-- C107: neither test nor dump: the command is executed, and the configuration is not read for it here. -/
theorem C107_go (e : Env) (c : Conf) (args : List Text) (h1 : c.dump = .no) (h2 : c.test = false) : finish e c args = ([], .go c args) := by
  simp [finish, h1, h2]

/-- C107: a dump shows the configuration, and no command is executed. -/
theorem C107_dump (e : Env) (c : Conf) (args : List Text) (h1 : c.dump ≠ .no) (h2 : c.test = false) :
    finish e c args = (dumpOut e c, .code (e.read c).1) := by
  rw [← finish_dump]
  simp [finish, h1, h2]

/-- C107: a test without a command tells whether the configuration is good, and does nothing else. -/
theorem C107_test (e : Env) (c : Conf) (h : c.test = true) :
    finish e c [] = (dumpOut e c ++ [if (e.read c).1 = true then .testOk else .testFailed], .code (e.read c).1) := by
  rw [← finish_dump]
  simp [finish, h]

/-- C107: a test with a command: the command is executed only if the configuration is good. -/
theorem C107_test_command (e : Env) (c : Conf) (args : List Text) (h : c.test = true) (ha : args ≠ []) :
    finish e c args = (dumpOut e c, if (e.read c).1 = true then .go c args else .raise) := by
  rw [← finish_dump]
  unfold finish
  simp only [h, ha, if_false, if_true, reduceCtorEq, and_false, Bool.true_eq_false]
  cases (e.read c).1 <;> rfl

/-- C107: if a command is executed, then it is the one that was given, with what was given for it. -/
theorem C107_exact (e : Env) (c c' : Conf) (argv : List Text) (args : List Text) (out : List Out) (h : initCmdLine e c argv = (out, .go c' args)) :
    ∃ os, getopt argv = some (os, args) ∧ (∀ o ∈ os, Clean e.secs o) ∧ c' = { result e.secs c os with params := value e (result e.secs c os) } ∧
      (c'.test = true → (e.read c').1 = true) ∧ (c'.dump ≠ .no → c'.test = true) := by
  cases hg : getopt argv with
  | none => simp [initCmdLine, hg] at h
  | some p =>
    obtain ⟨os, args'⟩ := p
    by_cases hc : ∀ o ∈ os, Clean e.secs o
    · by_cases hu : Usable e (result e.secs c os)
      · rw [(C107_run e c argv os args' hg hc).2 hu] at h
        generalize hd : ({ result e.secs c os with params := value e (result e.secs c os) } : Conf) = d at h ⊢
        by_cases ht : d.test = true
        · by_cases ha : args' = []
          · subst ha
            rw [C107_test e d ht] at h
            cases h
          · rw [C107_test_command e d args' ht ha] at h
            split at h
            · rename_i hr
              cases h
              exact ⟨os, rfl, hc, hd.symm, fun _ => hr, fun _ => ht⟩
            · cases h
        · have ht : d.test = false := by simpa using ht
          by_cases hdm : d.dump = .no
          · rw [C107_go e d args' hdm ht] at h
            cases h
            exact ⟨os, rfl, hc, hd.symm, fun a => absurd (ht.symm.trans a) (by decide), fun a => absurd hdm a⟩
          · rw [C107_dump e d args' hdm ht] at h
            cases h
      · rw [(C107_run e c argv os args' hg hc).1 hu] at h
        cases h
    · exfalso
      have : ∃ pre o post, os = pre ++ o :: post ∧ (∀ x ∈ pre, Clean e.secs x) ∧ ¬ Clean e.secs o := by
        clear hg h
        induction os with
        | nil => simp at hc
        | cons x os ih =>
          by_cases hx : Clean e.secs x
          · obtain ⟨pre, o, post, h1, h2, h3⟩ := ih (fun h => hc (by
              intro y hy
              rcases List.mem_cons.1 hy with rfl | hy
              · exact hx
              · exact h y hy))
            refine ⟨x :: pre, o, post, by rw [h1]; rfl, ?_, h3⟩
            intro y hy
            rcases List.mem_cons.1 hy with rfl | hy
            · exact hx
            · exact h2 y hy
          · exact ⟨[], x, os, rfl, by simp, hx⟩
      obtain ⟨pre, o, post, h1, h2, h3⟩ := this
      subst h1
      rw [C107_end e c argv pre post o args' hg h2 h3] at h
      split at h <;> cases h

/-- C107: without options: directory `/etc/fail2ban`, in the background, no messages but warnings, half a minute to wait, nothing forced. -/
theorem C107_defaults (e : Env) (w : Text) (r args : List Text) (out : List Out) (c' : Conf) (hw : w.head? ≠ some '-')
    (h : initCmdLine e {} (w :: r) = (out, .go c' args)) : args = w :: r ∧ out = [] ∧ c'.conf = "/etc/fail2ban".toList ∧ c'.background = true ∧ c'.verbose = 1 ∧
      c'.timeout = 30 ∧ c'.force = false ∧ c'.async = false ∧ c'.interactive = false ∧ c'.cleanConfOnly = false ∧
      c'.params = value e {} := by
  have hg : getopt (w :: r) = some ([], w :: r) := (C107_command .nil w r hw).1
  obtain ⟨os, h1, h2, h3, _⟩ := C107_exact e {} c' (w :: r) args out h
  rw [hg] at h1
  cases h1
  rw [result_nil] at h3
  subst h3
  refine ⟨rfl, ?_, rfl, rfl, rfl, rfl, rfl, rfl, rfl, rfl, rfl⟩
  by_cases hu : Usable e (result e.secs {} [])
  · rw [(C107_run e {} (w :: r) [] (w :: r) hg (by simp)).2 hu, result_nil, C107_go e _ _ rfl rfl] at h
    cases h
    rfl
  · rw [(C107_run e {} (w :: r) [] (w :: r) hg (by simp)).1 hu] at h
    cases h

/-! ## Examples -/

def exEnv : Env where
  secs := fun t => if t = "1m".toList then some 60 else none
  early := fun d => if d = "/etc/fail2ban".toList then some (fun p => if p = .pname then none else some "conf".toList) else none
  level := fun t => t == "INFO".toList
  read := fun c => (c.conf == "/etc/fail2ban".toList, true)

/-- What can be seen of an outcome: output, returned value, words of the command, some parameters -/
structure Seen where
  out : List Out
  code : Option Bool
  args : Option (List Text)
  params : Option (List (Option Text))
deriving DecidableEq

def outs (r : List Out × Ret) : Seen :=
  ⟨r.1, match r.2 with | .code b => some b | _ => none, match r.2 with | .go _ a => some a | _ => none,
    match r.2 with | .go c _ => some [c.params .socket, c.params .pidfile, c.params .loglevel] | _ => none⟩

example : outs (initCmdLine exEnv {} (words ["-s", "/a", "--loglevel", "INFO", "-s/b", "status", "-s", "/c"])) =
    ⟨[], none, some (words ["status", "-s", "/c"]), some [some "/b".toList, some "conf".toList, some "INFO".toList]⟩ := by decide +kernel

example : outs (initCmdLine exEnv {} (words ["status"])) = ⟨[.error], some false, none, none⟩ := by decide +kernel

example : outs (initCmdLine exEnv {} (words ["-x", "--str2sec", "1m", "--str2sec", "x"])) = ⟨[.seconds 60], some true, none, none⟩ := by decide +kernel

example : outs (initCmdLine exEnv {} (words ["--loglevel=INFO", "-td"])) = ⟨[.dumped "/etc/fail2ban".toList false, .testOk], some true, none, none⟩ := by decide +kernel

example : outs (initCmdLine exEnv {} (words ["--loglevel=INFO", "-c/x", "-s/s", "-p/p", "--logt", "f", "--sysl", "auto", "--dp", "-t", "start"])) =
    ⟨[.dumped "/x".toList true], none, none, none⟩ := by decide +kernel

end Verif.CmdLine
