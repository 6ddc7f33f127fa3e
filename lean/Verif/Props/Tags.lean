import Verif.Lemmas.TagsPlain

/-!
# C42 — interpolation of tags

`Spec.Tags` says what a tag is, when it occurs in a text and what the complete expansion of a text is. Dictionaries may have definitions
in which tags are composed (`<a<b>>`): for these all that is proved is that the loop ends and that nothing is left to do unless the
replacements lead back to the text they began with, which is possible (`C42_refuted_composed`). If each `<` of the definitions begins a
tag (`Plain`), values are expanded completely and as the definitions say.
-/

namespace Verif

open Tags Spec.Tags

variable {ignore : Text → Bool} {conditional : Text} {addrepl : Text → Option Text} {d : Defs}

/-- C42: for all definitions, conditions, ignored tags and additional replacements (known for finitely many names): the loops end, with a
result or an error. -/
theorem C42_ends (d : Defs) (conditional : Text) (ignore : Text → Bool) (addrepl : Text → Option Text)
    (names : List Text) (hA : ∀ n, addrepl n ≠ none → n ∈ names) :
    ∃ (N : Nat) (r : Res Defs), r ≠ .fuel ∧
      ∀ fuel passes, N ≤ fuel → N ≤ passes → substituteRecursiveTags d conditional ignore addrepl fuel passes = r := by
  obtain ⟨fuel, n, h⟩ := substLoop_terminates (ignore := ignore) (conditional := conditional) (addrepl := addrepl)
    (K := knownNames d.keys conditional names) rfl hA _ ⟨d, [], Dict.empty, false⟩ rfl (Nat.le_refl _)
  refine ⟨max fuel n, _, h, ?_⟩
  intro f p hf hp
  have h1 : fuel ≤ f := by omega
  have h2 : n ≤ p := by omega
  have := substLoop_mono fuel n ⟨d, [], Dict.empty, false⟩ (f - fuel) (p - n) h
  rw [show fuel + (f - fuel) = f by omega, show n + (p - n) = p by omega] at this
  exact this

/-- C42: keys and their order stay, ignored tags keep their value. -/
theorem C42_keys {fuel passes : Nat} {r : Defs} (h : substituteRecursiveTags d conditional ignore addrepl fuel passes = .ok r) :
    r.keys = d.keys ∧ ∀ k, ignore k = true → r.get? k = d.get? k := by
  obtain ⟨s0, s1, _, _, hs1, _, _, rfl⟩ := substLoop_last
    (fun s => s.tags.keys = d.keys ∧ ∀ k, ignore k = true → s.tags.get? k = d.get? k) d.keys
    (fun s b hs => hs) (fun s hs => hs.1)
    (fun s tag s' ht hs hst => by
      refine ⟨by rw [substTag_keys (by rw [hs.1]; exact ht) hst, hs.1], fun k hk => ?_⟩
      rcases substTag_ok hst with ⟨rfl, _⟩ | ⟨hc, _⟩
      · exact hs.2 k hk
      · rw [substTag_other (fun e => hc (Or.inl (by rw [← e]; exact hk))) hst, hs.2 k hk])
    passes _ r ⟨rfl, fun _ _ => rfl⟩ h
  exact hs1

/-- C42, completeness for all definitions: in the result no tag with a meaning is left, except if all replacements made for this value
(at least one) led back to it. Not complete: such an exception exists (`C42_refuted_composed`); it needs composed tags
(`C42_complete_partial`). -/
theorem C42_general_partial {fuel passes : Nat} {r : Defs} (h : substituteRecursiveTags d conditional ignore addrepl fuel passes = .ok r)
    (k v : Text) (hv : r.get? k = some v) (hi : ignore k = false) :
    (∀ n, Occurs n v → meaning ignore d conditional addrepl n = none) ∨
    (∃ (t : Defs) (c c' : Dict Text Nat), t.keys = d.keys ∧ c' ≠ c ∧
      replaceLoop ignore t conditional addrepl k fuel v c 0 = .ok (v, c')) := by
  obtain ⟨s0, s1, hs0, _, hs1, hp, hf1, rfl⟩ := substLoop_last
    (fun s => s.tags.keys = d.keys ∧ ∀ t, t ∈ s.done → '<' ∉ (s.tags.get? t).getD []) d.keys
    (fun s b hs => hs) (fun s hs => hs.1)
    (fun s tag s' ht hs hst => done_step ht hs hst)
    passes _ r ⟨rfl, fun t ht => by cases ht⟩ h
  have hk : k ∈ d.keys := by rw [← hs1.1]; exact (Dict.mem_keys_iff _ _).2 ⟨v, hv⟩
  obtain ⟨x1, x2, hx1, hx2, hx3, _, hx5⟩ := substPass_visit
    (fun s => s.tags.keys = d.keys ∧ ∀ t, t ∈ s.done → '<' ∉ (s.tags.get? t).getD []) d.keys
    (fun s tag s' ht hs hst => done_step ht hs hst)
    d.keys (Dict.keys_nodup d) (fun _ h => h) s0 s1 hs0 hp k hk
  have noTag : ('<' ∉ v) → ∀ n, Occurs n v → meaning ignore d conditional addrepl n = none := by
    rintro hlt n ⟨_, a, b, e⟩
    exact absurd (by rw [e]; simp) hlt
  rcases substTag_ok hx2 with ⟨e, hor⟩ | ⟨hc, value, rplc, h1, h2, _, _, h5⟩
  · subst e
    rcases hor with e | e
    · rw [hi] at e; cases e
    · have := hx1.2 k e
      rw [hx3, hv, Option.getD_some] at this
      exact Or.inl (noTag this)
  · have hval : v = value := by
      rw [← hx3, h2] at hv
      split at hv
      · rw [Dict.get?_insert_self] at hv; cases hv; rfl
      · rename_i e
        rw [hv, Option.getD_some] at e
        exact Classical.not_not.1 e
    subst hval
    have hflag : x2.repFlag = false := by
      cases hf : x2.repFlag with
      | false => rfl
      | true => rw [hx5 hf] at hf1; cases hf1
    rw [hflag] at h5
    have h6 : (decide ((x1.tags.get? k).getD [] ≠ v) && (search v 0).isSome) = false := by
      cases hx : (decide ((x1.tags.get? k).getD [] ≠ v) && (search v 0).isSome) with
      | false => rfl
      | true => rw [hx, Bool.or_true] at h5; cases h5
    rw [Bool.and_eq_false_iff] at h6
    rcases h6 with h6 | h6
    · have e : (x1.tags.get? k).getD [] = v := by simpa using h6
      rw [e] at h1
      by_cases hr : rplc = (x1.repCounts.get? k).getD Dict.empty
      · -- nothing was replaced
        refine Or.inl fun n hn => ?_
        rw [← meaning_none_of_keys hx1.1 n]
        exact replaceLoop_none fuel _ _ _ _ _ h1 hr n (by rw [List.drop_zero]; exact (mem_pieces_iff n v).2 hn)
      · exact Or.inr ⟨x1.tags, _, _, hx1.1, hr, h1⟩
    · refine Or.inl fun n hn => ?_
      have : search v 0 = none := by simpa using h6
      exact absurd ((mem_pieces_iff n v).2 hn) (by have := (search_none v 0).1 this n; rwa [List.drop_zero] at this)

/-- C42, completeness if each `<` in the definitions begins a tag: no tag with a meaning is left. -/
theorem C42_complete_partial {fuel passes : Nat} {r : Defs} (hd : ∀ k v, d.get? k = some v → Plain v) (hx : ∀ n x, addrepl n = some x → Plain x)
    (h : substituteRecursiveTags d conditional ignore addrepl fuel passes = .ok r) (k v : Text) (hv : r.get? k = some v) (hi : ignore k = false)
    (n : Text) (hn : Occurs n v) : meaning ignore d conditional addrepl n = none := by
  obtain ⟨_, _, _, _, h4⟩ := result_plain (fun k v e => (clean_iff_plain v).2 (hd k v e)) (fun n x e => (clean_iff_plain x).2 (hx n x e)) h k v hv hi
  exact h4 n ((mem_pieces_iff n v).2 hn)

/-- C42: and the value is the complete expansion of the definition, by what the definitions (as they were given) say. -/
theorem C42_expansion_partial {fuel passes : Nat} {r : Defs} (hd : ∀ k v, d.get? k = some v → Plain v) (hx : ∀ n x, addrepl n = some x → Plain x)
    (h : substituteRecursiveTags d conditional ignore addrepl fuel passes = .ok r) (k v : Text) (hv : r.get? k = some v) (hi : ignore k = false) :
    ∃ v0, d.get? k = some v0 ∧ Expands (meaning ignore d conditional addrepl) v0 v := by
  obtain ⟨v0, h1, h2, h3, h4⟩ := result_plain (fun k v e => (clean_iff_plain v).2 (hd k v e)) (fun n x e => (clean_iff_plain x).2 (hx n x e)) h k v hv hi
  refine ⟨v0, h1, h3 v ?_⟩
  have := expands_self (pieces v) (good_pieces h2) h4
  rwa [texts_pieces] at this

/-- An expansion is unique, so the result is determined by the definitions. -/
theorem C42_expansion_unique (f : Text → Option Text) (v w w' : Text) (h : Expands f v w) (h' : Expands f v w') : w = w' := expands_unique h h'

/-- C42: the order of the definitions does not matter for the values. -/
theorem C42_order_partial {d' : Defs} {fuel passes fuel' passes' : Nat} {r r' : Defs}
    (hd : ∀ k v, d.get? k = some v → Plain v) (hx : ∀ n x, addrepl n = some x → Plain x) (hsame : ∀ k, d'.get? k = d.get? k)
    (h : substituteRecursiveTags d conditional ignore addrepl fuel passes = .ok r)
    (h' : substituteRecursiveTags d' conditional ignore addrepl fuel' passes' = .ok r') (k : Text) : r'.get? k = r.get? k := by
  have hm : meaning ignore d' conditional addrepl = meaning ignore d conditional addrepl := by
    funext n; unfold meaning; rw [hsame, hsame]
  cases hi : ignore k with
  | true => rw [(C42_keys h).2 k hi, (C42_keys h').2 k hi, hsame]
  | false =>
    have hkeys : r.get? k = none ↔ r'.get? k = none := by
      rw [get?_none_of_keys (C42_keys h).1, get?_none_of_keys (C42_keys h').1, hsame]
    cases hv : r.get? k with
    | none => exact hkeys.1 hv
    | some v =>
      cases hv' : r'.get? k with
      | none => rw [hkeys.2 hv'] at hv; cases hv
      | some v' =>
        obtain ⟨v0, e0, e1⟩ := C42_expansion_partial hd hx h k v hv hi
        obtain ⟨v0', e0', e1'⟩ := C42_expansion_partial (fun k v e => hd k v (by rw [← hsame]; exact e)) hx h' k v' hv' hi
        rw [hsame, e0] at e0'
        cases e0'
        rw [hm] at e1'
        rw [expands_unique e1 e1']

/-- C42: definitions in which a tag uses itself, directly or through others, never give a result. -/
theorem C42_cycle_partial {fuel passes : Nat} {r : Defs} (hd : ∀ k v, d.get? k = some v → Plain v) (hx : ∀ n x, addrepl n = some x → Plain x)
    (h : substituteRecursiveTags d conditional ignore addrepl fuel passes = .ok r) (k v0 n : Text) (hk : d.get? k = some v0) (hi : ignore k = false)
    (hn : Occurs n v0) : ¬ UsesTrans (meaning ignore d conditional addrepl) n n := by
  have hkr : k ∈ r.keys := by rw [(C42_keys h).1]; exact (Dict.mem_keys_iff _ _).2 ⟨v0, hk⟩
  obtain ⟨v, hv⟩ := (Dict.mem_keys_iff _ _).1 hkr
  obtain ⟨v0', e0, e1⟩ := C42_expansion_partial hd hx h k v hv hi
  rw [hk] at e0
  cases e0
  exact expands_acyclic e1 n hn

/-- C42: if the error says that a tag contains itself, that is so. -/
theorem C42_error_partial {fuel passes : Nat} {t : Text} (hd : ∀ k v, d.get? k = some v → Plain v) (hx : ∀ n x, addrepl n = some x → Plain x)
    (b : Text) (h : substituteRecursiveTags d conditional ignore addrepl fuel passes = .selfRef t b) :
    ∃ v0, d.get? t = some v0 ∧ Reaches (meaning ignore d conditional addrepl) v0 b := by
  have hdc : ∀ k v, d.get? k = some v → Clean v := fun k v e => (clean_iff_plain v).2 (hd k v e)
  have hxc : ∀ n x, addrepl n = some x → Clean x := fun n x e => (clean_iff_plain x).2 (hx n x e)
  obtain ⟨s0, k, hk, hs0, hst⟩ := substLoop_selfRef (fun s => Inv ignore conditional addrepl d s) d.keys (fun s b hs => hs) (fun s hs => hs.1)
    (fun s tag s' ht hs hst => hs.step hxc ht hst) t b passes _ (Inv.init hdc) h
  exact hs0.selfRef hxc hk hst

/-! ### examples and refutations -/

namespace TagsExample

/-- definitions from texts -/
def defs (l : List (String × String)) : Defs := l.foldl (fun d kv => d.insert kv.1.toList kv.2.toList) Dict.empty

/-- the function with texts; no additional replacements -/
def run (l : List (String × String)) (conditional : String := "") (ignore : List String := []) : Res Defs :=
  substituteRecursiveTags (defs l) conditional.toList (fun t => decide (String.ofList t ∈ ignore)) (fun _ => none) 200 50

end TagsExample

open TagsExample

/-- Recursive, conditional, unknown, ignored and composed tags. -/
example : run [("ban", "<cmd> <ip> <name> <matches>"), ("cmd", "<tool> -w"), ("tool", "iptables"), ("tool?family=inet6", "ip6tables"),
      ("name", "f2b-<<x>>"), ("x", "tool"), ("matches", "<ip>")] "family=inet6" ["matches"]
    = .ok (defs [("ban", "ip6tables -w <ip> f2b-ip6tables <matches>"), ("cmd", "ip6tables -w"), ("tool", "iptables"),
      ("tool?family=inet6", "ip6tables"), ("name", "f2b-ip6tables"), ("x", "tool"), ("matches", "<ip>")]) := by decide +kernel

example : run [("a", "1 <b>"), ("b", "<c>"), ("c", "x<a>")] = .selfRef "a".toList "a".toList := by decide +kernel

/-- C42, not so: a composed tag comes back after the replacements it began, at a place that was already passed. The result has a known
tag left, without an error. -/
theorem C42_refuted_composed : ∃ (d r : Defs) (k v n : Text),
    substituteRecursiveTags d [] (fun _ => false) (fun _ => none) 200 50 = .ok r ∧ r.get? k = some v ∧ Occurs n v ∧
    (meaning (fun _ => false) d [] (fun _ => none) n).isSome := by
  refine ⟨defs [("n", "abcdef>>"), ("xabcdef", "<x<n"), ("t", "<x<n> <x<n>")], defs [("n", "abcdef>>"), ("xabcdef", "<x<n"), ("t", "<x<n> <x<n>")],
    "t".toList, "<x<n> <x<n>".toList, "n".toList, by decide +kernel, by decide +kernel, ⟨⟨by decide +kernel, by decide +kernel⟩, ?_⟩, by decide +kernel⟩
  exact ⟨"<x".toList, " <x<n>".toList, by decide +kernel⟩

/-- The definitions of `C42_refuted_alarm`: `t` has 27 names that all stand for `<a>`. -/
def TagsExample.names : List (String × String) := (List.range 27).map (fun i => ("b" ++ toString i, "<a>"))
def TagsExample.value : String × String :=
  ("t", "<b0><b1><b2><b3><b4><b5><b6><b7><b8><b9><b10><b11><b12><b13><b14><b15><b16><b17><b18><b19><b20><b21><b22><b23><b24><b25><b26>")

/-- Definitions that do not use themselves can be reported as self referencing, depending on their order: `t` mentions 27 tags, which all
stand for the same tag. If `t` comes first there is an error, if it comes last a result. -/
theorem C42_refuted_alarm : ∃ (d d' r : Defs), (∀ k, d'.get? k = d.get? k) ∧
    substituteRecursiveTags d [] (fun _ => false) (fun _ => none) 200 50 = .selfRef "t".toList "a".toList ∧
    substituteRecursiveTags d' [] (fun _ => false) (fun _ => none) 200 50 = .ok r ∧
    r.get? "t".toList = some "xxxxxxxxxxxxxxxxxxxxxxxxxxx".toList := by
  refine ⟨defs (TagsExample.value :: TagsExample.names ++ [("a", "x")]), defs (TagsExample.names ++ [("a", "x"), TagsExample.value]),
    (match run (TagsExample.names ++ [("a", "x"), TagsExample.value]) with | .ok r => r | _ => Dict.empty), ?_, by decide +kernel,
    by decide +kernel, by decide +kernel⟩
  have h1 : ∀ kv ∈ (defs (TagsExample.value :: TagsExample.names ++ [("a", "x")])).items,
      kv ∈ (defs (TagsExample.names ++ [("a", "x"), TagsExample.value])).items := by decide +kernel
  have h2 : ∀ kv ∈ (defs (TagsExample.names ++ [("a", "x"), TagsExample.value])).items,
      kv ∈ (defs (TagsExample.value :: TagsExample.names ++ [("a", "x")])).items := by decide +kernel
  intro k
  apply Option.ext
  intro v
  rw [Dict.get?_eq_some_iff, Dict.get?_eq_some_iff]
  exact ⟨h2 _, h1 _⟩

end Verif
