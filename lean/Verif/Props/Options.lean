import Verif.Lemmas.OptionsSplit

/-!
# C69, C70: options in brackets

`cc` are the classes of characters of `re`, about which only `Sane` is assumed.
-/

namespace Verif

open Options OptionsSpec
open Regex (Str)

/-! ## C69: a name with options -/

/-- What has the shape of a name with options is accepted; each option has the last value given for it. -/
theorem C69_accepted {cc : Chars} (sane : Sane cc) {s n : Str} {os : List (Str × Str)} (h : Shape cc s n os) :
    ∃ d, extractOptions cc s = some (n, d) ∧ ∀ k, d.get? k = lastValue k os := by
  refine ⟨_, extract_shape sane h, fun k => ?_⟩
  rw [setAll_get?]
  cases lastValue k os <;> rfl

/-- Everything else is an error. -/
theorem C69_rejected {cc : Chars} (sane : Sane cc) (s : Str) : extractOptions cc s = none ↔ ∀ n os, ¬Shape cc s n os := by
  refine ⟨?_, extract_none sane⟩
  intro h n os hs
  rw [extract_shape sane hs] at h
  cases h

/-- A text has one shape only. -/
theorem C69_unique {cc : Chars} (sane : Sane cc) {s n n' : Str} {os os' : List (Str × Str)} (h : Shape cc s n os) (h' : Shape cc s n' os') :
    n = n' ∧ ∀ k, lastValue k os = lastValue k os' := by
  obtain ⟨d, e, hd⟩ := C69_accepted sane h
  obtain ⟨d', e', hd'⟩ := C69_accepted sane h'
  rw [e] at e'
  cases e'
  exact ⟨rfl, fun k => by rw [← hd, hd']⟩

/-- A value in quotes is taken as it is, whatever it contains besides this quote and white space around it. -/
theorem C69_quoted {cc : Chars} (sane : Sane cc) {n k v : Str} {q : Char} (hn : n ≠ [] ∧ '[' ∉ n) (hk : Key cc k) (hq : IsQuote q) (hv : q ∉ v) (ht : Trimmed cc v v) :
    ∃ d, extractOptions cc (n ++ ['['] ++ k ++ ['=', q] ++ v ++ [q, ']']) = some (n, d) ∧ d.get? k = some v ∧ ∀ k', k' ≠ k → d.get? k' = none := by
  have hs : Shape cc (n ++ '[' :: ((k ++ '=' :: (q :: (v ++ [q]))) ++ [']'])) n [(k, v)] :=
    .options n _ [] _ hn.1 hn.2 blank_nil (.item [] k _ v v [] [] [] blank_nil hk (.quoted q v [] hq hv) ht .last (.none [] blank_nil))
  obtain ⟨d, e, hd⟩ := C69_accepted sane hs
  refine ⟨d, ?_, by rw [hd]; simp [lastValue], fun k' hk' => by rw [hd]; simp [lastValue, Ne.symm hk']⟩
  rw [← e]
  simp

/-- Quotes keep options apart: the value of one option does not change what is read for the others. -/
theorem C69_separate {cc : Chars} (sane : Sane cc) {n k v v' r : Str} {q : Char} {os : List (Str × Str)} (hn : n ≠ [] ∧ '[' ∉ n) (hk : Key cc k) (hq : IsQuote q) (hv : q ∉ v)
    (ht : Trimmed cc v v') (hr : OptionList cc r os) :
    ∃ d, extractOptions cc (n ++ ['['] ++ k ++ ['=', q] ++ v ++ [q, ','] ++ r ++ [']']) = some (n, d) ∧ ∀ k', d.get? k' = (lastValue k' os).or (if k = k' then some v' else none) := by
  have hs : Shape cc (n ++ '[' :: ((k ++ '=' :: (q :: (v ++ q :: ',' :: r))) ++ [']'])) n ((k, v') :: os) :=
    .options n _ [] _ hn.1 hn.2 blank_nil (.item [] k _ v v' (',' :: r) r os blank_nil hk (.quoted q v _ hq hv) ht (.comma r) hr)
  obtain ⟨d, e, hd⟩ := C69_accepted sane hs
  refine ⟨d, ?_, fun k' => by rw [hd, lastValue]⟩
  rw [← e]
  simp

/-! ## C70: lists of names with options -/

/-- A list of entries separated by white space is read entry by entry; values in quotes may contain anything, newlines and brackets too. -/
theorem C70_entries {cc : Chars} (sane : Sane cc) {s : Str} {es : List (Str × List (Str × Str))} (h : Entries cc s es) :
    ∃ ds : List (Str × Dict Str Str), readNames cc s = some ds ∧ ds.map Prod.fst = es.map Prod.fst ∧
      ∀ (i : Nat) n d os, ds[i]? = some (n, d) → es[i]? = some (n, os) → ∀ k, d.get? k = lastValue k os := by
  have ht := split_entries sane h (s.length + 1) (by omega)
  refine ⟨es.map (fun e => (e.1, setAll Dict.empty e.2)), ?_, by simp, ?_⟩
  · have := texts_read sane ht
    unfold readNames splitWithOptions Regex.matches_
    rw [List.map_map]
    exact this
  · intro i n d os h1 h2 k
    rw [List.getElem?_map, h2] at h1
    simp at h1
    rw [← h1, setAll_get?]
    cases lastValue k os <;> rfl

/-- Nothing is lost in splitting: the parts are the text without some white space between them. -/
theorem C70_parts {cc : Chars} (sane : Sane cc) (s : Str) : Parts cc s (splitWithOptions cc s) := split_parts sane _ s (by omega)

/-- A list is rejected as a whole exactly if some part of it does not have the shape of a name with options. -/
theorem C70_rejected {cc : Chars} (sane : Sane cc) (s : Str) :
    readNames cc s = none ↔ ∃ p ∈ splitWithOptions cc s, ∃ t, Trimmed cc p t ∧ ∀ n os, ¬Shape cc t n os := by
  have hall : ∀ l : List Str, allSome (extractOptions cc) l = none ↔ ∃ t ∈ l, extractOptions cc t = none := by
    intro l
    induction l with
    | nil => simp [allSome]
    | cons a as ih =>
      rw [allSome]
      cases ha : extractOptions cc a with
      | none => simp [ha]
      | some b =>
        cases has : allSome (extractOptions cc) as with
        | none =>
          simp only [true_iff]
          obtain ⟨t, ht, e⟩ := ih.mp has
          exact ⟨t, by simp [ht], e⟩
        | some bs =>
          have : ¬∃ t ∈ as, extractOptions cc t = none := fun hx => by rw [ih.mpr hx] at has; cases has
          simp only [reduceCtorEq, false_iff]
          rintro ⟨t, ht, e⟩
          rcases List.mem_cons.mp ht with rfl | ht
          · rw [ha] at e; cases e
          · exact this ⟨t, ht, e⟩
  have hne : ∀ s : Str, ∀ ps, Parts cc s ps → ∀ p ∈ ps, strip cc p ≠ [] := by
    intro s ps hp
    induction hp with
    | nil => intro p hp; cases hp
    | cons b p s ps _ hx _ ih =>
      intro p' hp'
      rcases List.mem_cons.mp hp' with rfl | hp'
      · obtain ⟨x, xs, rfl, hx⟩ := hx
        intro e
        obtain ⟨a, b, ha, hb, e2, _⟩ := strip_trimmed (cc := cc) (x :: xs)
        rw [e, List.append_nil] at e2
        have hm : x ∈ a ++ b := by rw [← e2]; simp
        rcases List.mem_append.mp hm with hm | hm
        · rw [ha x hm] at hx; cases hx
        · rw [hb x hm] at hx; cases hx
      · exact ih p' hp'
  unfold readNames
  rw [hall]
  constructor
  · rintro ⟨t, ht, e⟩
    obtain ⟨ht, _⟩ := List.mem_filter.mp ht
    obtain ⟨p, hp, rfl⟩ := List.mem_map.mp ht
    exact ⟨p, hp, _, strip_trimmed p, (C69_rejected sane _).mp e⟩
  · rintro ⟨p, hp, t, ht, h⟩
    have := trimmed_eq ht
    subst this
    refine ⟨_, List.mem_filter.mpr ⟨List.mem_map.mpr ⟨p, hp, rfl⟩, ?_⟩, (C69_rejected sane _).mpr h⟩
    have := hne _ _ (C70_parts sane s) p hp
    simpa using this

/-! ## Examples -/

namespace OptionsExample

theorem sane : Sane ascii where
  newline := by decide
  disjoint := by
    intro c hc
    have : c = ' ' ∨ c = '\t' ∨ c = '\n' ∨ c = '\r' ∨ c = '\x0b' ∨ c = '\x0c' ∨ c = '\x1c' ∨ c = '\x1d' ∨ c = '\x1e' ∨ c = '\x1f' := by simpa [ascii] using hc
    rcases this with rfl | rfl | rfl | rfl | rfl | rfl | rfl | rfl | rfl | rfl <;> decide
  space := by decide
  word := by decide

def shown (s : String) : Option (String × List (String × String)) :=
  (extractOptions ascii s.toList).map (fun x => (String.ofList x.1, x.2.items.map (fun kv => (String.ofList kv.1, String.ofList kv.2))))

def shownAll (s : String) : Option (List (String × List (String × String))) :=
  (readNames ascii s.toList).map (·.map (fun x => (String.ofList x.1, x.2.items.map (fun kv => (String.ofList kv.1, String.ofList kv.2)))))

end OptionsExample

open OptionsExample

example : shown "iptables[name=ssh, port=\"ssh,http]\", protocol='tcp'][name=x ]\n" =
    some ("iptables", [("name", "x"), ("port", "ssh,http]"), ("protocol", "tcp")]) := by decide +kernel

example : shown "mail[dest=\"a\" , x=1]" = none ∧ shown "[x=1]" = none ∧ shown "a[x=1]b" = none ∧ shown "a[x = 1]" = none := by decide +kernel

example : shown "a[x=\"1, y=2]" = some ("a", [("x", "\"1"), ("y", "2")]) := by decide +kernel

example : shownAll "iptables[name=ssh,\n  port=\"1\n2\"]\n\n  mail[x=']\n[']\n [y=2] log" =
    some [("iptables", [("name", "ssh"), ("port", "1\n2")]), ("mail", [("x", "]\n["), ("y", "2")]), ("log", [])] := by decide +kernel

end Verif
