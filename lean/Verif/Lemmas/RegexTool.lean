import Verif.Spec.RegexTool

set_option linter.unusedSimpArgs false

/-!
# The test tool `fail2ban-regex` — lemmas
-/

namespace Verif.RegexTool

open Verif.RegexToolSpec

variable {σ : Type}

/-! ## Lines -/

theorem rstrip_ends (p : Char → Bool) (s : Str) : Ends (fun c => p c = true) s (rstrip p s) := by
  unfold rstrip
  refine ⟨(s.reverse.takeWhile p).reverse, ?_, ?_, ?_⟩
  · rw [← List.reverse_append, List.takeWhile_append_dropWhile, List.reverse_reverse]
  · intro c hc
    rw [List.mem_reverse] at hc
    have := List.all_takeWhile (p := p) (l := s.reverse)
    rw [List.all_eq_true] at this
    exact this c hc
  · intro t' c h hp
    have h2 : s.reverse.dropWhile p = c :: t'.reverse := by
      have := congrArg List.reverse h
      simpa using this
    have := List.head?_dropWhile_not p s.reverse
    rw [h2] at this
    simp [hp] at this

theorem ends_unique {p : Char → Prop} {s t t' : Str} (h : Ends p s t) (h' : Ends p s t') : t = t' := by
  obtain ⟨e, rfl, he, hn⟩ := h
  obtain ⟨e', h2, he', hn'⟩ := h'
  rw [List.append_eq_append_iff] at h2
  rcases h2 with ⟨a, rfl, h2⟩ | ⟨a, rfl, h2⟩
  · rcases List.eq_nil_or_concat a with ha | ⟨b, c, ha⟩
    · subst ha; simp
    · subst ha
      have hc : p c := he c (by rw [h2]; simp)
      exact absurd hc (hn' (t ++ b) c (by simp))
  · rcases List.eq_nil_or_concat a with ha | ⟨b, c, ha⟩
    · subst ha; simp
    · subst ha
      have hc : p c := he' c (by rw [h2]; simp)
      exact absurd hc (hn (t' ++ b) c (by simp))

theorem eol_iff (c : Char) : (eol c = true) ↔ isEol c := by simp [eol, isEol]

theorem tests_iff (i j : Item) : Tests i j ↔ i.stripped = j ∧ i.stripped.skip = false := by
  cases i with
  | entry a b c =>
    constructor
    · intro h; cases h; exact ⟨rfl, rfl⟩
    · rintro ⟨rfl, _⟩; exact .entry a b c
  | line s =>
    have he : Ends isEol s (rstrip eol s) := by
      have := rstrip_ends eol s
      simpa only [eol_iff] using this
    have hs : (Item.line s).stripped = .line (rstrip eol s) := rfl
    rw [hs]
    have hk : (Item.line (rstrip eol s)).skip = false ↔ rstrip eol s ≠ [] ∧ ∀ r, rstrip eol s ≠ '#' :: r := by
      show ((rstrip eol s).head? == some '#' || (rstrip eol s).isEmpty) = false ↔ _
      cases rstrip eol s with
      | nil => simp
      | cons x l =>
        simp
    rw [hk]
    constructor
    · intro h
      cases h with
      | line _ t h1 h2 h3 =>
        have := ends_unique h1 he
        subst this
        exact ⟨rfl, h2, h3⟩
    · rintro ⟨rfl, h2, h3⟩
      exact .line _ _ he h2 h3

theorem trace_exists (f : Flt σ) (is : List Item) : ∀ s, ∃ tr, Trace f s is tr := by
  induction is with
  | nil => exact fun s => ⟨[], .nil s⟩
  | cons i is ih =>
    intro s
    cases h : i.stripped.skip with
    | true =>
      obtain ⟨tr, ht⟩ := ih s
      exact ⟨tr, .skip s i is tr (by rintro ⟨j, hj⟩; rw [tests_iff, h] at hj; cases hj.2) ht⟩
    | false =>
      obtain ⟨tr, ht⟩ := ih (f.process s i.stripped).next
      exact ⟨_, .test s i i.stripped is tr ((tests_iff _ _).2 ⟨rfl, h⟩) ht⟩

theorem trace_unique {f : Flt σ} {s : σ} {is : List Item} {tr tr' : List (σ × Item × Result σ)} (h : Trace f s is tr) (h' : Trace f s is tr') : tr = tr' := by
  induction h generalizing tr' with
  | nil s => cases h'; rfl
  | skip s i is tr hn _ ih =>
    cases h' with
    | skip _ _ _ _ _ h2 => exact ih h2
    | test _ _ j _ _ ht _ => exact absurd ⟨j, ht⟩ hn
  | test s i j is tr ht _ ih =>
    cases h' with
    | skip _ _ _ _ hn _ => exact absurd ⟨j, ht⟩ hn
    | test _ _ j' _ _ ht' h2 =>
      have : j = j' := ((tests_iff _ _).1 ht).1.symm.trans ((tests_iff _ _).1 ht').1
      subst this
      rw [ih h2]

/-! ## Steps -/

/-- Number of the elements up to here that are failures is more than one -/
theorem foundLoop_spec (fs : List Found) : ∀ ret ign hits, ∃ flags : List Bool, flags.length = fs.length ∧
    foundLoop fs ret ign hits = (ret ++ kept fs, ign || fs.any (·.nofail), hits ++ List.zipWith (fun m b => (m.idx, m.id, b)) fs flags) ∧
    ∀ k (hk : k < flags.length), (flags[k] = true ↔ 1 < ret.length + (kept (fs.take k)).length) := by
  induction fs with
  | nil => exact fun ret ign hits => ⟨[], rfl, by simp [foundLoop, kept], by simp⟩
  | cons m fs ih =>
    intro ret ign hits
    unfold foundLoop
    dsimp only
    by_cases hn : m.nofail = true
    · rw [if_pos hn]
      obtain ⟨fl, h1, h2, h3⟩ := ih ret true (hits ++ [(m.idx, m.id, decide (1 < ret.length))])
      refine ⟨decide (1 < ret.length) :: fl, by simp [h1], ?_, ?_⟩
      · rw [h2]
        simp [kept, hn]
      · intro k hk
        cases k with
        | zero => simp [kept]
        | succ k =>
          simp only [List.getElem_cons_succ]
          rw [h3 k (by simpa using hk)]
          simp [kept, hn]
    · rw [if_neg hn]
      obtain ⟨fl, h1, h2, h3⟩ := ih (ret ++ [m]) ign (hits ++ [(m.idx, m.id, decide (1 < ret.length))])
      refine ⟨decide (1 < ret.length) :: fl, by simp [h1], ?_, ?_⟩
      · rw [h2]
        simp [kept, hn]
      · intro k hk
        cases k with
        | zero => simp [kept]
        | succ k =>
          simp only [List.getElem_cons_succ]
          rw [h3 k (by simpa using hk)]
          simp [kept, hn]
          omega

theorem bufLoop_spec (o : Opts) (new bs : List Buffered) : ∀ st,
    bufLoop o new bs st =
      { st with
        missedLines := ((bs.filter (fun b => decide (b ∉ new))).map textOf).foldl List.erase st.missedLines
        matchedLines := if o.printAllMatched then st.matchedLines ++ (bs.filter (fun b => decide (b ∉ new))).map textOf else st.matchedLines
        matched := st.matched + (bs.filter (fun b => decide (b ∉ new))).length
        missed := st.missed - (bs.filter (fun b => decide (b ∉ new))).length } := by
  induction bs with
  | nil => intro st; cases o.printAllMatched <;> simp [bufLoop]
  | cons b bs ih =>
    intro st
    unfold bufLoop
    by_cases hb : b ∈ new
    · rw [if_pos hb, ih]; simp [hb]
    · rw [if_neg hb, ih]
      cases hp : o.printAllMatched <;> simp [hb] <;> constructor <;> omega

/-- What a step does to the numbers. -/
theorem kind_cases (r : Result σ) : (IsKind r .ignored ∧ ¬IsKind r .matched ∧ ¬IsKind r .missed ∧ (r.found.any (·.nofail) || !r.ignoredBy.isEmpty) = true) ∨
    (¬IsKind r .ignored ∧ IsKind r .matched ∧ ¬IsKind r .missed ∧ (r.found.any (·.nofail) || !r.ignoredBy.isEmpty) = false ∧ 0 < (kept r.found).length) ∨
    (¬IsKind r .ignored ∧ ¬IsKind r .matched ∧ IsKind r .missed ∧ (r.found.any (·.nofail) || !r.ignoredBy.isEmpty) = false ∧ ¬ 0 < (kept r.found).length) := by
  by_cases hi : IsKind r .ignored
  · left
    refine ⟨hi, ?_, ?_, ?_⟩
    · rintro ⟨h1, h2, _⟩
      rcases hi with h | ⟨m, hm, h⟩
      · exact h h1
      · rw [h2 m hm] at h; cases h
    · rintro ⟨h1, h2⟩
      rcases hi with h | ⟨m, hm, h⟩
      · exact h h1
      · rw [h2] at hm; cases hm
    · rcases hi with h | ⟨m, hm, h⟩
      · cases he : r.ignoredBy with
        | nil => exact absurd he h
        | cons _ _ => simp
      · have : r.found.any (·.nofail) = true := List.any_eq_true.2 ⟨m, hm, h⟩
        simp [this]
  · right
    have h1 : r.ignoredBy = [] := Classical.byContradiction fun h => hi (.inl h)
    have h2 : ∀ m ∈ r.found, m.nofail = false := by
      intro m hm
      cases e : m.nofail with
      | false => rfl
      | true => exact absurd (.inr ⟨m, hm, e⟩) hi
    have h3 : r.found.any (·.nofail) = false := by
      rw [Bool.eq_false_iff]
      intro h
      obtain ⟨m, hm, he⟩ := List.any_eq_true.1 h
      rw [h2 m hm] at he; cases he
    have h4 : kept r.found = r.found := by
      unfold kept
      rw [List.filter_eq_self]
      intro m hm
      rw [h2 m hm]; rfl
    cases hf : r.found with
    | nil =>
      right
      refine ⟨hi, ?_, ⟨h1, hf⟩, by simp [h1], by simp [kept]⟩
      rintro ⟨_, _, h⟩; exact h hf
    | cons m l =>
      left
      refine ⟨hi, ⟨h1, h2, by rw [hf]; simp⟩, ?_, ?_, ?_⟩
      · rintro ⟨_, h⟩; rw [hf] at h; cases h
      · rw [← hf, h3]; simp [h1]
      · rw [← hf, h4, hf]; simp

theorem text_eq (i : Item) : itemText i = i.text := by
  cases i with
  | line s => rfl
  | entry a b c => exact (List.append_assoc a b c).symm

open Classical in
theorem linesOf_cons (k : Kind) (x : σ × Item × Result σ) (tr : List (σ × Item × Result σ)) :
    linesOf k (x :: tr) = (if IsKind x.2.2 k then [x.2.1.text] else []) ++ linesOf k tr := by
  unfold linesOf
  by_cases h : IsKind x.2.2 k <;> simp [h, text_eq]

/-- One tested line: `g` is the list of lines gone. -/
theorem test_spec (f : Flt σ) (o : Opts) (s : σ) (st : Stats) (j : Item) : ∃ flags : List Bool, flags.length = (f.process s j).found.length ∧
    testRegex f o s st j = (kept (f.process s j).found, (f.process s j).found.any (·.nofail) || !(f.process s j).ignoredBy.isEmpty,
      (f.process s j).next,
      { st with
        hits := st.hits ++ List.zipWith (fun m b => (m.idx, m.id, b)) (f.process s j).found flags
        ignoreHits := st.ignoreHits ++ (f.process s j).ignoredBy
        missedLines := if 1 < f.maxLines then ((gone f (s, j, f.process s j)).map textOf).foldl List.erase st.missedLines else st.missedLines
        matchedLines := if 1 < f.maxLines ∧ o.printAllMatched = true then st.matchedLines ++ (gone f (s, j, f.process s j)).map textOf else st.matchedLines
        matched := if 1 < f.maxLines then st.matched + (gone f (s, j, f.process s j)).length else st.matched
        missed := if 1 < f.maxLines then st.missed - (gone f (s, j, f.process s j)).length else st.missed }) ∧
    ∀ k (hk : k < flags.length), (flags[k] = true ↔ 1 < (kept ((f.process s j).found.take k)).length) := by
  obtain ⟨fl, h1, h2, h3⟩ := foundLoop_spec (f.process s j).found [] false st.hits
  refine ⟨fl, h1, ?_, fun k hk => by rw [h3 k hk]; simp⟩
  unfold testRegex
  dsimp only
  rw [h2]
  by_cases hm : 1 < f.maxLines
  · rw [if_pos hm, bufLoop_spec]
    simp only [if_pos hm, hm, if_true, true_and, List.nil_append, Bool.false_or]
    unfold gone
    simp only [decide_eq_true_eq, if_true]
  · simp only [hm, if_false, false_and, List.nil_append, Bool.false_or]

/-! ## Counting -/

theorem count_tested (o : Opts) (t : Str) (ret : List Found) (ign : Bool) (st : Stats) : (count o t ret ign st).tested = st.tested + 1 := by
  unfold count; dsimp only
  split
  · split <;> rfl
  · split <;> split <;> rfl

theorem count_hits (o : Opts) (t : Str) (ret : List Found) (ign : Bool) (st : Stats) : (count o t ret ign st).hits = st.hits := by
  unfold count; dsimp only
  split
  · split <;> rfl
  · split <;> split <;> rfl

theorem count_ignoreHits (o : Opts) (t : Str) (ret : List Found) (ign : Bool) (st : Stats) : (count o t ret ign st).ignoreHits = st.ignoreHits := by
  unfold count; dsimp only
  split
  · split <;> rfl
  · split <;> split <;> rfl

theorem count_ignored (o : Opts) (t : Str) (ret : List Found) (ign : Bool) (st : Stats) :
    (count o t ret ign st).ignored = if ign = true then st.ignored + 1 else st.ignored := by
  unfold count; dsimp only
  split
  · split <;> rfl
  · split <;> split <;> rfl

theorem count_matched (o : Opts) (t : Str) (ret : List Found) (ign : Bool) (st : Stats) :
    (count o t ret ign st).matched = if ign = true then st.matched else if 0 < ret.length then st.matched + 1 else st.matched := by
  unfold count; dsimp only
  split
  · split <;> rfl
  · split <;> split <;> rfl

theorem count_missed (o : Opts) (t : Str) (ret : List Found) (ign : Bool) (st : Stats) :
    (count o t ret ign st).missed = if ign = true then st.missed else if 0 < ret.length then st.missed else st.missed + 1 := by
  unfold count; dsimp only
  split
  · split <;> rfl
  · split <;> split <;> rfl

theorem count_matchedLines (o : Opts) (t : Str) (ret : List Found) (ign : Bool) (st : Stats) :
    (count o t ret ign st).matchedLines = if ign = false ∧ 0 < ret.length ∧ o.printAllMatched = true then st.matchedLines ++ [t] else st.matchedLines := by
  unfold count; dsimp only
  cases ign <;> cases o.printAllMatched <;> by_cases h : 0 < ret.length <;> simp [h] <;> split <;> rfl

theorem count_ignoredLines (o : Opts) (t : Str) (ret : List Found) (ign : Bool) (st : Stats) :
    (count o t ret ign st).ignoredLines =
      if ign = true ∧ o.printNoIgnored = false ∧ (o.printAllIgnored = true ∨ st.ignored ≤ (o.limit : Int)) then st.ignoredLines ++ [t] else st.ignoredLines := by
  unfold count; dsimp only
  cases ign <;> cases o.printNoIgnored <;> cases o.printAllIgnored <;> by_cases h : st.ignored ≤ (o.limit : Int) <;> simp [h] <;> split <;>
    (try split) <;> first | rfl | omega | skip

theorem count_missedLines (o : Opts) (t : Str) (ret : List Found) (ign : Bool) (st : Stats) :
    (count o t ret ign st).missedLines =
      if ign = false ∧ ¬ 0 < ret.length ∧ o.printNoMissed = false ∧ (o.printAllMissed = true ∨ st.missed ≤ (o.limit : Int)) then st.missedLines ++ [t]
      else st.missedLines := by
  unfold count; dsimp only
  cases ign <;> cases o.printNoMissed <;> cases o.printAllMissed <;> by_cases h : st.missed ≤ (o.limit : Int) <;> by_cases h' : 0 < ret.length <;>
    simp [h, h'] <;> (try split) <;> first | rfl | omega | skip

/-! ## Runs -/

/-- The numbers and hits after a run. -/
theorem process_numbers (f : Flt σ) (o : Opts) {s : σ} {is : List Item} {tr : List (σ × Item × Result σ)} (h : Trace f s is tr) : ∀ st,
    (process f o is s st).2.tested = st.tested + tr.length ∧
    (process f o is s st).2.ignored = st.ignored + (linesOf .ignored tr).length ∧
    (process f o is s st).2.matched = st.matched + (linesOf .matched tr).length + (if 1 < f.maxLines then (goneLines f tr : Int) else 0) ∧
    (process f o is s st).2.missed = st.missed + (linesOf .missed tr).length - (if 1 < f.maxLines then (goneLines f tr : Int) else 0) ∧
    (process f o is s st).2.hits.map (fun x => (x.1, x.2.1)) = st.hits.map (fun x => (x.1, x.2.1)) ++ (tr.flatMap (fun x => x.2.2.found)).map (fun m => (m.idx, m.id)) ∧
    (process f o is s st).2.ignoreHits = st.ignoreHits ++ tr.flatMap (fun x => x.2.2.ignoredBy) := by
  induction h with
  | nil s => intro st; simp [process, linesOf, goneLines]
  | skip s i is tr hn _ ih =>
    intro st
    have hs : i.stripped.skip = true := by
      cases e : i.stripped.skip with
      | true => rfl
      | false => exact absurd ⟨i.stripped, (tests_iff _ _).2 ⟨rfl, e⟩⟩ hn
    have he : process f o (i :: is) s st = process f o is s st := by
      show process f o is (one f o s st i).1 (one f o s st i).2 = _
      unfold one
      rw [if_pos hs]
    rw [he]
    exact ih st
  | test s i j is tr ht _ ih =>
    intro st
    obtain ⟨rfl, hk⟩ := (tests_iff _ _).1 ht
    obtain ⟨fl, h1, h2, _⟩ := test_spec f o s st i.stripped
    have he : process f o (i :: is) s st = process f o is (f.process s i.stripped).next
        (count o i.stripped.text (testRegex f o s st i.stripped).1 (testRegex f o s st i.stripped).2.1 (testRegex f o s st i.stripped).2.2.2) := by
      show process f o is (one f o s st i).1 (one f o s st i).2 = _
      unfold one
      rw [if_neg (by rw [hk]; exact Bool.false_ne_true)]
      dsimp only
      rw [h2]
    rw [he]
    obtain ⟨i1, i2, i3, i4, i5, i6⟩ := ih (count o i.stripped.text (testRegex f o s st i.stripped).1 (testRegex f o s st i.stripped).2.1
      (testRegex f o s st i.stripped).2.2.2)
    rw [i1, i2, i3, i4, i5, i6, h2]
    simp only [linesOf_cons, goneLines]
    have hz : ∀ (l : List Found) (fl : List Bool), fl.length = l.length →
        (List.zipWith (fun m b => (m.idx, m.id, b)) l fl).map (fun x : Nat × String × Bool => (x.1, x.2.1)) = l.map (fun m => (m.idx, m.id)) := by
      intro l
      induction l with
      | nil => intro fl _; cases fl <;> rfl
      | cons m l ih =>
        intro fl hl
        cases fl with
        | nil => cases hl
        | cons b fl => exact congrArg _ (ih fl (by simpa using hl))
    have hz' := hz _ fl h1
    simp only [count_tested, count_ignored, count_matched, count_missed, count_hits, count_ignoreHits, List.map_append, List.flatMap_cons, hz']
    rcases kind_cases (f.process s i.stripped) with ⟨k1, k2, k3, k4⟩ | ⟨k1, k2, k3, k4, k5⟩ | ⟨k1, k2, k3, k4, k5⟩
    · simp only [k1, k2, k3, k4, if_true, if_false]
      refine ⟨by simp; omega, by simp; omega, ?_, ?_, by simp, by simp⟩ <;> split <;> simp <;> omega
    · simp only [k1, k2, k3, k4, k5, if_true, if_false, Bool.false_eq_true]
      refine ⟨by simp; omega, by simp, ?_, ?_, by simp, by simp⟩ <;> split <;> simp <;> omega
    · simp only [k1, k2, k3, k4, k5, if_true, if_false, Bool.false_eq_true]
      refine ⟨by simp; omega, by simp, ?_, ?_, by simp, by simp⟩ <;> split <;> simp <;> omega

/-- First lines of a list, as far as they are kept -/
def firsts (no all : Bool) (limit : Nat) (n : Int) (l : List Str) : List Str :=
  if no then [] else if all then l else l.take (((limit : Int) + 1 - n).toNat)

theorem firsts_cons (no all : Bool) (limit : Nat) (n : Int) (t : Str) (l : List Str) :
    (if no = false ∧ (all = true ∨ n ≤ (limit : Int)) then [t] else []) ++ firsts no all limit (n + 1) l = firsts no all limit n (t :: l) := by
  unfold firsts
  cases no
  · cases all
    · by_cases h : n ≤ (limit : Int)
      · simp only [h, Bool.false_eq_true, or_true, and_self, if_true, if_false]
        rw [show ((limit : Int) + 1 - n).toNat = ((limit : Int) + 1 - (n + 1)).toNat + 1 by omega]
        simp
      · simp only [h, Bool.false_eq_true, or_false, and_false, if_false]
        rw [show ((limit : Int) + 1 - n).toNat = 0 by omega, show ((limit : Int) + 1 - (n + 1)).toNat = 0 by omega]
        simp
    · simp
  · simp

theorem process_step (f : Flt σ) (o : Opts) (s : σ) (i : Item) (is : List Item) (st : Stats) :
    (i.stripped.skip = true → process f o (i :: is) s st = process f o is s st) ∧
    (i.stripped.skip = false → process f o (i :: is) s st = process f o is (f.process s i.stripped).next
        (count o i.stripped.text (testRegex f o s st i.stripped).1 (testRegex f o s st i.stripped).2.1 (testRegex f o s st i.stripped).2.2.2)) := by
  constructor
  · intro hs
    show process f o is (one f o s st i).1 (one f o s st i).2 = _
    unfold one
    rw [if_pos hs]
  · intro hk
    obtain ⟨fl, h1, h2, _⟩ := test_spec f o s st i.stripped
    show process f o is (one f o s st i).1 (one f o s st i).2 = _
    unfold one
    rw [if_neg (by rw [hk]; exact Bool.false_ne_true)]
    dsimp only
    rw [h2]

/-- The list of ignored lines after a run. -/
theorem process_ignored (f : Flt σ) (o : Opts) {s : σ} {is : List Item} {tr : List (σ × Item × Result σ)} (h : Trace f s is tr) : ∀ st,
    (process f o is s st).2.ignoredLines = st.ignoredLines ++ firsts o.printNoIgnored o.printAllIgnored o.limit st.ignored (linesOf .ignored tr) := by
  induction h with
  | nil s => intro st; simp [process, linesOf, firsts]
  | skip s i is tr hn _ ih =>
    intro st
    have hs : i.stripped.skip = true := by
      cases e : i.stripped.skip with
      | true => rfl
      | false => exact absurd ⟨i.stripped, (tests_iff _ _).2 ⟨rfl, e⟩⟩ hn
    rw [(process_step f o s i is st).1 hs]
    exact ih st
  | test s i j is tr ht _ ih =>
    intro st
    obtain ⟨rfl, hk⟩ := (tests_iff _ _).1 ht
    obtain ⟨fl, h1, h2, _⟩ := test_spec f o s st i.stripped
    rw [(process_step f o s i is st).2 hk, ih, h2, linesOf_cons]
    simp only [count_ignored, count_ignoredLines]
    rcases kind_cases (f.process s i.stripped) with ⟨k1, k2, k3, k4⟩ | ⟨k1, k2, k3, k4, k5⟩ | ⟨k1, k2, k3, k4, k5⟩
    · simp only [k1, k4, true_and, if_true, List.singleton_append]
      rw [← firsts_cons]
      split <;> simp
    · simp only [k1, k4, Bool.false_eq_true, false_and, if_false, List.nil_append]
    · simp only [k1, k4, Bool.false_eq_true, false_and, if_false, List.nil_append]

/-- The lists of matched and missed lines after a run on single lines. -/
theorem process_lines (f : Flt σ) (o : Opts) (hm : ¬ 1 < f.maxLines) {s : σ} {is : List Item} {tr : List (σ × Item × Result σ)} (h : Trace f s is tr) : ∀ st,
    (process f o is s st).2.matchedLines = st.matchedLines ++ (if o.printAllMatched = true then linesOf .matched tr else []) ∧
    (process f o is s st).2.missedLines = st.missedLines ++ firsts o.printNoMissed o.printAllMissed o.limit st.missed (linesOf .missed tr) := by
  induction h with
  | nil s => intro st; simp [process, linesOf, firsts]
  | skip s i is tr hn _ ih =>
    intro st
    have hs : i.stripped.skip = true := by
      cases e : i.stripped.skip with
      | true => rfl
      | false => exact absurd ⟨i.stripped, (tests_iff _ _).2 ⟨rfl, e⟩⟩ hn
    rw [(process_step f o s i is st).1 hs]
    exact ih st
  | test s i j is tr ht _ ih =>
    intro st
    obtain ⟨rfl, hk⟩ := (tests_iff _ _).1 ht
    obtain ⟨fl, h1, h2, _⟩ := test_spec f o s st i.stripped
    rw [(process_step f o s i is st).2 hk, (ih _).1, (ih _).2, h2, linesOf_cons, linesOf_cons]
    simp only [count_missed, count_missedLines, count_matchedLines, hm, if_false, false_and]
    rcases kind_cases (f.process s i.stripped) with ⟨k1, k2, k3, k4⟩ | ⟨k1, k2, k3, k4, k5⟩ | ⟨k1, k2, k3, k4, k5⟩
    · simp [k2, k3, k4]
    · simp only [k2, k3, k4, k5, Bool.false_eq_true, true_and, false_and, not_true, if_false, if_true, List.nil_append]
      cases o.printAllMatched <;> simp
    · simp only [k2, k3, k4, k5, Bool.false_eq_true, true_and, false_and, not_false_eq_true, if_false, if_true, List.nil_append, List.singleton_append]
      rw [← firsts_cons]
      split <;> simp

theorem kinds_length (tr : List (σ × Item × Result σ)) :
    tr.length = (linesOf .ignored tr).length + (linesOf .matched tr).length + (linesOf .missed tr).length := by
  induction tr with
  | nil => rfl
  | cons x tr ih =>
    rw [linesOf_cons, linesOf_cons, linesOf_cons]
    rcases kind_cases x.2.2 with ⟨k1, k2, k3, _⟩ | ⟨k1, k2, k3, _⟩ | ⟨k1, k2, k3, _⟩ <;>
      simp only [k1, k2, k3, if_true, if_false, List.nil_append, List.singleton_append, List.length_cons] <;> omega

theorem process_matchedLines (f : Flt σ) (o : Opts) (ho : o.printAllMatched = true) {s : σ} {is : List Item} {tr : List (σ × Item × Result σ)}
    (h : Trace f s is tr) : ∀ st,
    ((process f o is s st).2.matchedLines.length : Int) - (process f o is s st).2.matched = st.matchedLines.length - st.matched := by
  induction h with
  | nil s => intro st; rfl
  | skip s i is tr hn _ ih =>
    intro st
    have hs : i.stripped.skip = true := by
      cases e : i.stripped.skip with
      | true => rfl
      | false => exact absurd ⟨i.stripped, (tests_iff _ _).2 ⟨rfl, e⟩⟩ hn
    rw [(process_step f o s i is st).1 hs]
    exact ih st
  | test s i j is tr ht _ ih =>
    intro st
    obtain ⟨rfl, hk⟩ := (tests_iff _ _).1 ht
    obtain ⟨fl, h1, h2, _⟩ := test_spec f o s st i.stripped
    rw [(process_step f o s i is st).2 hk, ih, h2]
    simp only [count_matched, count_matchedLines, ho, and_true]
    rcases kind_cases (f.process s i.stripped) with ⟨k1, k2, k3, k4⟩ | ⟨k1, k2, k3, k4, k5⟩ | ⟨k1, k2, k3, k4, k5⟩
    · simp only [k4, Bool.true_eq_false, false_and, if_false, if_true]
      split <;> simp <;> omega
    · simp only [k4, k5, Bool.false_eq_true, true_and, if_false, if_true]
      split <;> simp <;> omega
    · simp only [k4, k5, Bool.false_eq_true, true_and, if_false, if_true]
      split <;> simp <;> omega

theorem shows_of (limit : Nat) (all : Bool) (lines : List Str) :
    Shows limit all lines (printLines limit lines.length (firsts false all limit 0 lines) all) := by
  unfold printLines
  by_cases hl : lines = []
  · left; subst hl; exact ⟨rfl, rfl⟩
  · have hn : (lines.length : Int) ≠ 0 := by
      cases lines with
      | nil => exact absurd rfl hl
      | cons => simp; omega
    rw [if_pos hn]
    by_cases hc : all = true ∨ lines.length < limit
    · right; left
      have hf : firsts false all limit 0 lines = lines := by
        unfold firsts
        rcases hc with h | h
        · simp [h]
        · cases all
          · simp only [Bool.false_eq_true, if_false]
            rw [List.take_of_length_le (by omega)]
          · simp
      rw [hf]
      have hcond : (decide ((lines.length : Int) < limit) || all) = true := by
        rcases hc with h | h
        · simp [h]
        · have : (lines.length : Int) < limit := by omega
          simp [this]
      rw [if_pos hcond, if_neg (by simpa using hl)]
      refine ⟨hl, hc, _, rfl, by simp, fun k x y hx hy => ?_⟩
      rw [List.getElem?_map, hx] at hy
      cases hy
      obtain ⟨e, h1, h2, h3⟩ := rstrip_ends white x
      have hw : ∀ c, white c = true ↔ isWhite c := by
        intro c; simp [white, isWhite, or_assoc]
      exact ⟨e, h1, fun c hc => (hw c).1 (h2 c hc), fun t' c ht hp => h3 t' c ht ((hw c).2 hp)⟩
    · right; right
      have h1 : all = false := by cases all with
        | false => rfl
        | true => exact absurd (.inl rfl) hc
      have h2 : limit ≤ lines.length := by
        rcases Nat.lt_or_ge lines.length limit with h | h
        · exact absurd (.inr h) hc
        · exact h
      have hcond : ¬ ((decide ((lines.length : Int) < limit) || all) = true) := by
        have : ¬ (lines.length : Int) < limit := by omega
        simp [h1, this]
      rw [if_neg hcond]
      exact ⟨hl, h1, h2, rfl⟩

/-- With filters that keep missed lines only, the lines kept are among those counted as missed. -/
theorem process_kept (f : Flt σ) (o : Opts) (hf : KeepsMissed f) (hm : 1 < f.maxLines) {s : σ} {is : List Item} {tr : List (σ × Item × Result σ)}
    (h : Trace f s is tr) : ∀ st, ((f.buffer s).length : Int) ≤ st.missed →
    ((f.buffer (process f o is s st).1).length : Int) ≤ (process f o is s st).2.missed := by
  induction h with
  | nil s => intro st h; exact h
  | skip s i is tr hn _ ih =>
    intro st
    have hs : i.stripped.skip = true := by
      cases e : i.stripped.skip with
      | true => rfl
      | false => exact absurd ⟨i.stripped, (tests_iff _ _).2 ⟨rfl, e⟩⟩ hn
    rw [(process_step f o s i is st).1 hs]
    exact ih st
  | test s i j is tr ht _ ih =>
    intro st hst
    obtain ⟨rfl, hk⟩ := (tests_iff _ _).1 ht
    obtain ⟨fl, h1, h2, _⟩ := test_spec f o s st i.stripped
    rw [(process_step f o s i is st).2 hk]
    refine ih _ ?_
    rw [h2]
    simp only [count_missed, if_pos hm]
    obtain ⟨l, l1, l2, l3⟩ := hf s i.stripped
    generalize hw : (if f.maxLines ≤ (f.buffer s).length then (f.buffer s).drop 1 else f.buffer s) = w at l1
    have hwl : w.length ≤ (f.buffer s).length := by rw [← hw]; split <;> simp
    have hg : gone f (s, i.stripped, f.process s i.stripped) = w.filter (fun b => decide (b ∉ f.buffer (f.process s i.stripped).next)) := by
      unfold gone; dsimp only; rw [hw]
    rw [hg]
    generalize f.buffer (f.process s i.stripped).next = new at l1 hg
    have hcount : new.length + (w.filter (fun b => decide (b ∉ new))).length ≤ w.length + l.length := by
      have e1 : new.filter (fun b => decide (b ∈ new)) = new := by
        rw [List.filter_eq_self]; intro b hb; simpa using hb
      have e2 : new.length ≤ ((w ++ l).filter (fun b => decide (b ∈ new))).length := by
        have := (l1.filter (fun b => decide (b ∈ new))).length_le
        rw [e1] at this; exact this
      rw [List.filter_append, List.length_append] at e2
      have e3 : (w.filter (fun b => decide (b ∈ new))).length + (w.filter (fun b => decide (b ∉ new))).length = w.length := by
        clear e2 hwl hw hg l1 e1
        induction w with
        | nil => rfl
        | cons x w ih => by_cases hx : x ∈ new <;> simp [hx] <;> simp at ih <;> omega
      have e4 := List.length_filter_le (fun b => decide (b ∈ new)) l
      omega
    rcases kind_cases (f.process s i.stripped) with ⟨k1, k2, k3, k4⟩ | ⟨k1, k2, k3, k4, k5⟩ | ⟨k1, k2, k3, k4, k5⟩
    · have : l.length = 0 := by
        cases l with
        | nil => rfl
        | cons => exact absurd (l3 (by simp)) k3
      rw [if_pos k4]; omega
    · have : l.length = 0 := by
        cases l with
        | nil => rfl
        | cons => exact absurd (l3 (by simp)) k3
      rw [if_neg (by rw [k4]; exact Bool.false_ne_true), if_pos k5]; omega
    · rw [if_neg (by rw [k4]; exact Bool.false_ne_true), if_neg k5]; omega

theorem processOut_spec (f : Flt σ) {s : σ} {is : List Item} {tr : List (σ × Item × Result σ)} (h : Trace f s is tr) :
    processOut f is s = (tr.flatMap (fun x => x.2.2.found.filter (fun m => !m.nofail))).map (·.id) := by
  induction h with
  | nil s => rfl
  | skip s i is tr hn _ ih =>
    have hs : i.stripped.skip = true := by
      cases e : i.stripped.skip with
      | true => rfl
      | false => exact absurd ⟨i.stripped, (tests_iff _ _).2 ⟨rfl, e⟩⟩ hn
    unfold processOut
    rw [if_pos hs]; exact ih
  | test s i j is tr ht _ ih =>
    obtain ⟨rfl, hk⟩ := (tests_iff _ _).1 ht
    unfold processOut
    rw [if_neg (by rw [hk]; exact Bool.false_ne_true)]
    dsimp only
    rw [ih]
    simp [kept]

end Verif.RegexTool
