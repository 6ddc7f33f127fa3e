import Verif.Lemmas.RegexTool

set_option linter.unusedSimpArgs false

/-!
# C94 — The numbers and lines shown by `fail2ban-regex`

For all filters (what they find in lines, which lines they keep), all options and all logs. `Trace` are the lines tested, with what the
filter said.
-/

namespace Verif.RegexTool

open Verif.RegexToolSpec

variable {σ : Type}

/-! ## Examples -/

/-- A filter on single lines: `f` is a failure (two expressions match `ff`), `i` is ignored, `n` is no failure. -/
def exampleFilter : Flt Unit where
  maxLines := 1
  buffer := fun _ => []
  process := fun _ i =>
    match i with
    | .line ['f', 'f'] => ⟨[⟨0, "A", false⟩, ⟨1, "A", false⟩], [], ()⟩
    | .line ('f' :: _) => ⟨[⟨0, "A", false⟩], [], ()⟩
    | .line ('n' :: _) => ⟨[⟨1, "B", true⟩], [], ()⟩
    | .line ('i' :: _) => ⟨[], [0], ()⟩
    | _ => ⟨[], [], ()⟩

def exampleLog : List Item := ["# comment\n", "f 1\n", "\r\n", "x \r\n", "n\n", "i\n", "ff\n", "y\n"].map (fun s => .line s.toList)

example : ((process exampleFilter {} exampleLog () {}).2.tested, (process exampleFilter {} exampleLog () {}).2.ignored,
    (process exampleFilter {} exampleLog () {}).2.matched, (process exampleFilter {} exampleLog () {}).2.missed) = (6, 2, 2, 2) := by
  decide +kernel

example : printed {} (process exampleFilter {} exampleLog () {}).2 = (.nothing, .lines ["n".toList, "i".toList], .lines ["x".toList, "y".toList]) := by
  decide +kernel

example : printed { limit := 2 } (process exampleFilter { limit := 2 } exampleLog () {}).2 = (.nothing, .tooMany 2, .tooMany 2) := by decide +kernel

example : processOut exampleFilter exampleLog () = ["A", "A", "A"] := by decide +kernel

/-- A filter over at most three lines: `e` ends a failure that includes all lines kept, but those with `x`; `j` does the same and is ignored. -/
def exampleSeveral : Flt (List Buffered) where
  maxLines := 3
  buffer := id
  process := fun s i =>
    let w := if 3 ≤ s.length then s.drop 1 else s
    match i with
    | .line ['e'] => ⟨[⟨0, "A", false⟩], [], w.filter (fun b => b.1 == ['x'])⟩
    | .line ['j'] => ⟨[], [0], w.filter (fun b => b.1 == ['x'])⟩
    | i => ⟨[], [], w ++ [(i.text, [], [])]⟩

def lines (l : List String) : List Item := l.map (fun s => .line s.toList)

/-- The lines kept before count as matched, the other one as missed. -/
example : let st := (process exampleSeveral {} (lines ["a", "x", "e"]) [] {}).2
    (st.tested, st.ignored, st.matched, st.missed) = (3, 0, 2, 1) ∧ st.missedLines = [['x']] := by decide +kernel

/-! ## Numbers -/

/-- **C94 (what is tested).** Which lines are tested with which result is determined. -/
theorem C94_tested (f : Flt σ) (s : σ) (is : List Item) : ∃ tr, Trace f s is tr ∧ ∀ tr', Trace f s is tr' → tr' = tr := by
  obtain ⟨tr, h⟩ := trace_exists f is s
  exact ⟨tr, h, fun tr' h' => trace_unique h' h⟩

/-- **C94 (numbers add up).** Each line tested is counted once: the numbers shown are those of the lines tested, and ignored, matched and
missed lines are together all lines. In particular the assertion in `printLines` (fail2banregex.py 663) holds. -/
theorem C94_total (f : Flt σ) (o : Opts) (s : σ) (is : List Item) (tr : List (σ × Item × Result σ)) (h : Trace f s is tr) :
    (process f o is s {}).2.tested = tr.length ∧
    (process f o is s {}).2.missed = (process f o is s {}).2.tested - ((process f o is s {}).2.matched + (process f o is s {}).2.ignored) := by
  obtain ⟨h1, h2, h3, h4, _⟩ := process_numbers f o h {}
  have hk := kinds_length tr
  rw [h1, h2, h3, h4]
  simp only [Int.zero_add]
  exact ⟨trivial, by omega⟩

/-- **C94 (single lines).** With a filter for single lines, the numbers are those of lines ignored, matched and missed. -/
theorem C94_single (f : Flt σ) (hm : f.maxLines ≤ 1) (o : Opts) (s : σ) (is : List Item) (tr : List (σ × Item × Result σ)) (h : Trace f s is tr) :
    (process f o is s {}).2.ignored = (linesOf .ignored tr).length ∧ (process f o is s {}).2.matched = (linesOf .matched tr).length ∧
    (process f o is s {}).2.missed = (linesOf .missed tr).length := by
  obtain ⟨_, h2, h3, h4, _⟩ := process_numbers f o h {}
  rw [if_neg (by omega)] at h3 h4
  simp only [Int.zero_add, Int.add_zero, Int.sub_zero] at h2 h3 h4
  exact ⟨h2, h3, h4⟩

/-- **C94 (several lines).** With a filter over several lines, lines kept for the search and then gone count as matched instead of missed. -/
theorem C94_several (f : Flt σ) (hm : 1 < f.maxLines) (o : Opts) (s : σ) (is : List Item) (tr : List (σ × Item × Result σ)) (h : Trace f s is tr) :
    (process f o is s {}).2.ignored = (linesOf .ignored tr).length ∧
    (process f o is s {}).2.matched = (linesOf .matched tr).length + goneLines f tr ∧
    (process f o is s {}).2.missed = (linesOf .missed tr).length - goneLines f tr := by
  obtain ⟨_, h2, h3, h4, _⟩ := process_numbers f o h {}
  rw [if_pos hm] at h3 h4
  simp only [Int.zero_add] at h2 h3 h4
  exact ⟨h2, h3, h4⟩

/-- **C94 (no negative numbers).** If the filter keeps lines only that it missed, the number of missed lines is at least that of the lines
still kept. -/
theorem C94_nonnegative (f : Flt σ) (hf : KeepsMissed f) (o : Opts) (s : σ) (hs : f.buffer s = []) (is : List Item) :
    0 ≤ (process f o is s {}).2.missed ∧ (1 < f.maxLines → ((f.buffer (process f o is s {}).1).length : Int) ≤ (process f o is s {}).2.missed) := by
  obtain ⟨tr, h⟩ := trace_exists f is s
  by_cases hm : 1 < f.maxLines
  · have hk := process_kept f o hf hm h {} (by rw [hs]; exact Int.le_refl 0)
    exact ⟨by omega, fun _ => hk⟩
  · have := (C94_single f (by omega) o s is tr h).2.2
    exact ⟨by rw [this]; omega, fun h => absurd h hm⟩

example : KeepsMissed exampleSeveral := by
  intro s i
  have hsub : ∀ w : List Buffered, (w.filter (fun b => b.1 == ['x'])).Sublist (w ++ []) := fun w => by simp
  unfold exampleSeveral
  dsimp only [id]
  split
  · exact ⟨[], hsub _, by simp, by simp⟩
  · exact ⟨[], hsub _, by simp, by simp⟩
  · exact ⟨[_], List.Sublist.refl _, by simp, fun _ => ⟨rfl, rfl⟩⟩

/-- **C94 (all matched lines).** If matched lines are to be shown, as many are as are counted, with any filter. -/
theorem C94_all_matched (f : Flt σ) (o : Opts) (ho : o.printAllMatched = true) (s : σ) (is : List Item) :
    ((process f o is s {}).2.matchedLines.length : Int) = (process f o is s {}).2.matched := by
  obtain ⟨tr, h⟩ := trace_exists f is s
  have := process_matchedLines f o ho h {}
  exact Int.sub_eq_zero.1 (by simpa using this)

/-- **C94 (hits).** The hits of an expression are the failures found by it, in order with their identifiers; those of an expression to be
ignored are the lines ignored by it. -/
theorem C94_hits (f : Flt σ) (o : Opts) (s : σ) (is : List Item) (tr : List (σ × Item × Result σ)) (h : Trace f s is tr) (k : Nat) :
    ((process f o is s {}).2.hits.filter (fun x => x.1 == k)).map (fun x => x.2.1) = ((tr.flatMap (fun x => x.2.2.found)).filter (fun m => m.idx == k)).map (·.id) ∧
    (process f o is s {}).2.ignoreHits.count k = (tr.flatMap (fun x => x.2.2.ignoredBy)).count k := by
  obtain ⟨_, _, _, _, h5, h6⟩ := process_numbers f o h {}
  refine ⟨?_, by rw [h6]; simp⟩
  simp only [List.map_nil, List.nil_append] at h5
  have e1 : ∀ l : List (Nat × String × Bool), (l.filter (fun x => x.1 == k)).map (fun x => x.2.1) =
      ((l.map (fun x => (x.1, x.2.1))).filter (fun x => x.1 == k)).map Prod.snd := by
    intro l; rw [List.filter_map, List.map_map]; rfl
  have e2 : ∀ l : List Found, (l.filter (fun m => m.idx == k)).map (·.id) = ((l.map (fun m => (m.idx, m.id))).filter (fun x => x.1 == k)).map Prod.snd := by
    intro l; rw [List.filter_map, List.map_map]; rfl
  rw [e1, e2, h5]

/-- **C94 (lines shown).** With a filter for single lines, the lines shown as matched, ignored and missed are these; if they are too many,
their number is shown instead. -/
theorem C94_shown (f : Flt σ) (hm : f.maxLines ≤ 1) (o : Opts) (s : σ) (is : List Item) (tr : List (σ × Item × Result σ)) (h : Trace f s is tr) :
    let p := printed o (process f o is s {}).2
    (if o.printAllMatched then Shows o.limit true (linesOf .matched tr) p.1 else p.1 = .nothing) ∧
    (if o.printNoIgnored then p.2.1 = .nothing else Shows o.limit o.printAllIgnored (linesOf .ignored tr) p.2.1) ∧
    (if o.printNoMissed then p.2.2 = .nothing else Shows o.limit o.printAllMissed (linesOf .missed tr) p.2.2) := by
  obtain ⟨n1, n2, n3⟩ := C94_single f hm o s is tr h
  obtain ⟨l1, l2⟩ := process_lines f o (by omega) h {}
  have l3 := process_ignored f o h {}
  simp only [List.nil_append] at l1 l2 l3
  unfold printed
  dsimp only
  rw [n1, n2, n3, l1, l2, l3]
  refine ⟨?_, ?_, ?_⟩
  · cases hp : o.printAllMatched with
    | false => rfl
    | true =>
      simp only [if_true]
      have := shows_of o.limit true (linesOf .matched tr)
      rwa [show firsts false true o.limit 0 (linesOf .matched tr) = linesOf .matched tr from rfl] at this
  · cases hp : o.printNoIgnored with
    | true => rfl
    | false => exact shows_of o.limit o.printAllIgnored (linesOf .ignored tr)
  · cases hp : o.printNoMissed with
    | true => rfl
    | false => exact shows_of o.limit o.printAllMissed (linesOf .missed tr)

/-- **C94 (ignored lines shown).** The lines shown as ignored are these with any filter. -/
theorem C94_ignored_shown (f : Flt σ) (o : Opts) (ho : o.printNoIgnored = false) (s : σ) (is : List Item) (tr : List (σ × Item × Result σ))
    (h : Trace f s is tr) : Shows o.limit o.printAllIgnored (linesOf .ignored tr) (printed o (process f o is s {}).2).2.1 := by
  have n1 := (process_numbers f o h {}).2.1
  have l3 := process_ignored f o h {}
  simp only [List.nil_append, Int.zero_add] at l3 n1
  unfold printed
  dsimp only
  rw [n1, l3, ho]
  exact shows_of o.limit o.printAllIgnored (linesOf .ignored tr)

/-- **C94 (output).** With `--out=id` exactly the identifiers of all failures are printed, in order. -/
theorem C94_out (f : Flt σ) (s : σ) (is : List Item) (tr : List (σ × Item × Result σ)) (h : Trace f s is tr) :
    processOut f is s = (tr.flatMap (fun x => x.2.2.found.filter (fun m => !m.nofail))).map (·.id) := processOut_spec f h

/-! ## What does not hold -/

/-- **C94, refuted: lines of an ignored match are not matched.** The earlier lines of an ignored match over several lines count as matched. -/
theorem C94_refuted_ignored : ∃ (f : Flt (List Buffered)) (is : List Item), KeepsMissed f ∧
    (∀ s i, (f.process s i).found = [] ∨ i = .line ['e']) ∧ Item.line ['e'] ∉ is ∧ (process f {} is [] {}).2.matched = 1 := by
  refine ⟨exampleSeveral, lines ["a", "j"], ?_, ?_, by decide +kernel, by decide +kernel⟩
  · intro s i
    have hsub : ∀ w : List Buffered, (w.filter (fun b => b.1 == ['x'])).Sublist (w ++ []) := fun w => by simp
    unfold exampleSeveral
    dsimp only [id]
    split
    · exact ⟨[], hsub _, by simp, by simp⟩
    · exact ⟨[], hsub _, by simp, by simp⟩
    · exact ⟨[_], List.Sublist.refl _, by simp, fun _ => ⟨rfl, rfl⟩⟩
  · intro s i
    unfold exampleSeveral
    dsimp only
    split
    · exact .inr rfl
    · exact .inl rfl
    · exact .inl rfl

/-- **C94, refuted: numbers are not negative.** A line that is ignored but kept (as by `ignoreregex` that are fewer than `failregex`,
filter.py 870-873) and is then part of a match is subtracted from the missed ones. -/
theorem C94_refuted_negative : ∃ (f : Flt (List Buffered)) (is : List Item), (process f {} is [] {}).2.missed = -1 := by
  refine ⟨{ maxLines := 3, buffer := id, process := fun s i =>
    if i = .line ['e'] then ⟨[⟨0, "A", false⟩], [], []⟩ else ⟨[], [0], s ++ [(i.text, [], [])]⟩ }, lines ["a", "e"], ?_⟩
  decide +kernel

/-- **C94, refuted: a line of a match counts as matched.** If the same line is kept twice and one of them is part of the match, it still
counts as missed. -/
theorem C94_refuted_twice : ∃ (f : Flt (List Buffered)) (is : List Item),
    (∀ s, (f.process s (.line ['e'])).next = s.drop 1) ∧ (process f {} is [] {}).2.missed = 2 ∧ (process f {} is [] {}).2.matched = 1 ∧ is = lines ["a", "a", "e"] := by
  refine ⟨{ maxLines := 3, buffer := id, process := fun s i =>
    if i = .line ['e'] then ⟨[⟨0, "A", false⟩], [], s.drop 1⟩ else ⟨[], [], s ++ [(i.text, [], [])]⟩ }, lines ["a", "a", "e"], fun s => ?_, ?_, ?_, rfl⟩
  · dsimp only; rw [if_pos rfl]
  · decide +kernel
  · decide +kernel

/-- A filter like the one above, over nine lines -/
def exampleNine : Flt (List Buffered) where
  maxLines := 9
  buffer := id
  process := fun s i =>
    let w := if 9 ≤ s.length then s.drop 1 else s
    if i = .line ['e'] then ⟨[⟨0, "A", false⟩], [], w.filter (fun b => b.1 == ['x'])⟩ else ⟨[], [], w ++ [(i.text, [], [])]⟩

/-- **C94, refuted: missed lines are shown, if they are not too many.** Over several lines, a line missed while there were many others is
not shown, though at the end there are few. -/
theorem C94_refuted_shown : ∃ (f : Flt (List Buffered)) (is : List Item), KeepsMissed f ∧ (process f { limit := 2 } is [] {}).2.missed = 1 ∧
    (printed { limit := 2 } (process f { limit := 2 } is [] {}).2).2.2 = .nothing := by
  refine ⟨exampleNine, lines ["a", "b", "c", "x", "e"], ?_, by decide +kernel, by decide +kernel⟩
  intro s i
  unfold exampleNine
  have hsub : ∀ w : List Buffered, (w.filter (fun b => b.1 == ['x'])).Sublist (w ++ []) := fun w => by simp
  dsimp only [id]
  by_cases hi : i = .line ['e']
  · simp only [if_pos hi]
    exact ⟨[], hsub _, by simp, by simp⟩
  · simp only [if_neg hi]
    exact ⟨[_], List.Sublist.refl _, by simp, fun _ => ⟨rfl, rfl⟩⟩

/-- **C94 (mark of several matches).** A match of a line is marked exactly if at least two failures were found in it before. -/
theorem C94_marked (f : Flt σ) (o : Opts) (s : σ) (i j : Item) (hj : Tests i j) (k : Nat) (x : Nat × String × Bool)
    (hx : (process f o [i] s {}).2.hits[k]? = some x) :
    x.2.2 = true ↔ 2 ≤ (((f.process s j).found.take k).filter (fun m => !m.nofail)).length := by
  obtain ⟨rfl, hk⟩ := (tests_iff _ _).1 hj
  obtain ⟨fl, h1, h2, h3⟩ := test_spec f o s {} i.stripped
  rw [(process_step f o s i [] {}).2 hk, h2] at hx
  simp only [process, count_hits, List.nil_append, List.getElem?_zipWith] at hx
  cases e1 : (f.process s i.stripped).found[k]? with
  | none => rw [e1] at hx; simp at hx
  | some m =>
    cases e2 : fl[k]? with
    | none => rw [e1, e2] at hx; simp at hx
    | some b =>
      rw [e1, e2] at hx
      obtain ⟨hlt, hb⟩ := List.getElem?_eq_some_iff.1 e2
      simp only [Option.some.injEq] at hx
      subst hx
      rw [← hb]
      exact h3 k hlt

/-- **C94, refuted: a line matched by several expressions is marked.** Not if there are two of them. -/
theorem C94_refuted_marked : (process exampleFilter {} (lines ["ff"]) () {}).2.hits = [(0, "A", false), (1, "A", false)] := by decide +kernel

/-- **C94, refuted: each line of the log is tested.** A line that begins with `#` is not, though the server tests it. -/
theorem C94_refuted_comment (l : Str) : ¬∃ j, Tests (.line ('#' :: l)) j := by
  rintro ⟨j, h⟩
  cases h with
  | line _ t h1 h2 h3 =>
    obtain ⟨e, he, _, _⟩ := h1
    cases t with
    | nil => exact h2 rfl
    | cons c t =>
      cases he
      exact h3 t rfl

end Verif.RegexTool
