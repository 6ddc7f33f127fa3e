import Verif.Model.SeekTime
import Verif.Props.LogFile

/-! # Search for the start time (C54) -/

namespace Verif

open Spec.LogFile FileContainer

theorem lineAt_rawLine (data : Bytes) (q : Nat) (h : rawLine (data.drop q) ≠ []) : LineAt data q (rawLine (data.drop q)) := by
  refine ⟨h, ?_⟩
  obtain ⟨r, hr⟩ := rawLine_append (data.drop q)
  rcases rawLine_cases (data.drop q) with h' | ⟨h1, h2⟩
  · exact ⟨r, hr, .inl h'⟩
  · rw [h2]
    exact ⟨[], by simp, .inr ⟨h1, rfl⟩⟩

/-- Behind a line: another line, or nothing. -/
theorem lineStart_after {data : Bytes} {q : Nat} {b : Bytes} (h : LineAt data q b) :
    (LineStart data (q + b.length) ∨ data.drop (q + b.length) = []) ∧ q + b.length ≤ data.length := by
  obtain ⟨hne, r, e, h⟩ := h
  have hlen := congrArg List.length e
  rw [List.length_drop, List.length_append] at hlen
  have hb : 0 < b.length := List.length_pos_iff.2 hne
  refine ⟨?_, by omega⟩
  rcases h with ⟨x, ex, _⟩ | ⟨_, er⟩
  · left; right
    have : data[q + b.length - 1]? = (data.drop q)[b.length - 1]? := by
      rw [List.getElem?_drop]; congr 1; omega
    rw [this, e, List.getElem?_append_left (by omega), ex]
    simp
  · right
    apply List.drop_eq_nil_of_le
    rw [er] at hlen
    simp at hlen
    omega

/-- No line starts inside of a line. -/
theorem lineStart_inside {data : Bytes} {a q : Nat} {b : Bytes} (h : LineAt data a b) (hq : LineStart data q) (h1 : q < a + b.length) : q ≤ a := by
  apply Classical.byContradiction
  intro hn
  obtain ⟨hne, r, e, h⟩ := h
  rcases hq with hq | hq
  · omega
  have : data[q - 1]? = (data.drop a)[q - 1 - a]? := by
    rw [List.getElem?_drop]; congr 1; omega
  rw [this, e, List.getElem?_append_left (by omega)] at hq
  rcases h with ⟨x, ex, hx⟩ | ⟨hx, _⟩
  · rw [ex, List.length_append] at h1
    simp only [List.length_cons, List.length_nil] at h1
    rw [ex, List.getElem?_append_left (by omega)] at hq
    exact hx (List.mem_of_getElem? hq)
  · exact hx (List.mem_of_getElem? hq)

theorem isText_decodeLine {c : Codec} (hc : AsciiEnds c) (b : Bytes) : IsText c b (rstripNL (decodeLine c b)) := by
  obtain ⟨e, h1, h2, h3, h4⟩ := rstripNL_spec (decodeLine c b)
  refine ⟨e, ?_, h2, h3, h4⟩
  rw [← h1]
  exact (decodeLine_spec hc b).1

/-- After `seek` the position is the start of a line, or nothing is left. -/
theorem seek_boundary (data : Bytes) (p : Nat) : LineStart data (seek data p) ∨ data.drop (seek data p) = [] := by
  unfold seek
  by_cases hp : p ≠ 0
  · rw [if_pos hp]
    by_cases h : rawLine (data.drop p) = []
    · right
      rw [h]
      rw [rawLine_eq_nil] at h
      simpa using h
    · exact (lineStart_after (lineAt_rawLine data p h)).1
  · rw [if_neg hp]; exact .inl (.inl rfl)

/-- The line with a time found by the inner loop. -/
theorem scan_some {c : Codec} (hc : AsciiEnds c) (timeOf : List Char → Option (Option Int)) (data : Bytes) (maxp sp : Nat) (n cur pos : Nat)
    (nextp : Option Nat) (t : Int) (cur' pos' : Nat) (nextp' : Option Nat)
    (hcur : LineStart data cur ∨ data.drop cur = [])
    (hnext : ∀ x, nextp = some x → x ≤ cur ∧ (LineStart data x ∨ data.drop x = []))
    (h : scan c timeOf data maxp sp n cur pos nextp = (some t, cur', pos', nextp')) :
    ∃ a b, LineStart data a ∧ LineAt data a b ∧ Dated c timeOf b t ∧ cur' = a + b.length ∧ ∀ x, nextp' = some x → x ≤ a ∧ LineStart data x := by
  induction n generalizing cur pos nextp with
  | zero =>
    unfold scan at h
    dsimp only at h
    by_cases hb : rawLine (data.drop cur) = []
    · rw [if_pos hb] at h; cases h
    rw [if_neg hb] at h
    have hst : LineStart data cur := hcur.resolve_right (fun e => hb ((rawLine_eq_nil _).2 e))
    split at h
    · rename_i t' ht
      cases h
      refine ⟨cur, _, hst, lineAt_rawLine data cur hb, ⟨_, isText_decodeLine hc _, ht⟩, rfl, ?_⟩
      intro x hx
      obtain ⟨h1, h2⟩ := hnext x hx
      refine ⟨h1, h2.resolve_right (fun e => hb ?_)⟩
      rw [rawLine_eq_nil]
      exact List.drop_eq_nil_of_le (Nat.le_trans (List.drop_eq_nil_iff.1 e) h1)
    · cases h
    · split at h <;> cases h
  | succ n ih =>
    unfold scan at h
    dsimp only at h
    by_cases hb : rawLine (data.drop cur) = []
    · rw [if_pos hb] at h; cases h
    rw [if_neg hb] at h
    have hst : LineStart data cur := hcur.resolve_right (fun e => hb ((rawLine_eq_nil _).2 e))
    have haft := lineStart_after (lineAt_rawLine data cur hb)
    split at h
    · rename_i t' ht
      cases h
      refine ⟨cur, _, hst, lineAt_rawLine data cur hb, ⟨_, isText_decodeLine hc _, ht⟩, rfl, ?_⟩
      intro x hx
      obtain ⟨h1, h2⟩ := hnext x hx
      refine ⟨h1, h2.resolve_right (fun e => hb ?_)⟩
      rw [rawLine_eq_nil]
      exact List.drop_eq_nil_of_le (Nat.le_trans (List.drop_eq_nil_iff.1 e) h1)
    · refine ih _ _ _ haft.1 ?_ h
      intro x hx
      exact ⟨by have := (hnext x hx).1; omega, (hnext x hx).2⟩
    · split at h
      · cases h
      · refine ih _ _ _ haft.1 ?_ h
        intro x hx
        injection hx with hx
        subst hx
        exact ⟨Nat.le_refl _, haft.1⟩

/-- What the lower bound is good for: it is the start, or it is not behind the end of a line older than the date. -/
def Good (c : Codec) (timeOf : List Char → Option (Option Int)) (data : Bytes) (date : Int) (start p : Nat) : Prop :=
  p = start ∨ start ≤ p ∧ (LineStart data p ∨ p = data.length) ∧
    ∃ a b t, LineStart data a ∧ LineAt data a b ∧ Dated c timeOf b t ∧ t < date ∧ p ≤ a + b.length

theorem probe_good {c : Codec} (hc : AsciiEnds c) (timeOf : List Char → Option (Option Int)) (data : Bytes) (date : Int) (start p minp maxp : Nat)
    (h : Good c timeOf data date start minp) : Good c timeOf data date start (probe c timeOf data date p minp maxp).2.1 := by
  unfold probe
  dsimp only
  rcases hs : scan c timeOf data maxp (seek data (p - 2)) 5 (seek data (p - 2)) (seek data (p - 2)) none with ⟨_ | t, cur, pos, nextp⟩
  · exact h
  · dsimp only
    by_cases hd : date ≤ t
    · rw [if_pos hd]; exact h
    rw [if_neg hd]
    dsimp only
    split
    · rename_i hlt
      obtain ⟨a, b, h1, h2, h3, h4, h5⟩ := scan_some hc timeOf data maxp _ 5 _ _ none t cur pos nextp (seek_boundary data _) (by simp) hs
      right
      have hst : start ≤ minp := by
        rcases h with h | ⟨h, _⟩ <;> omega
      refine ⟨by omega, ?_, a, b, t, h1, h2, h3, by omega, ?_⟩
      · cases nextp with
        | none =>
          have := lineStart_after h2
          rw [← h4] at this
          show LineStart data cur ∨ cur = data.length
          rcases this.1 with h | h
          · exact .inl h
          · right
            have := List.drop_eq_nil_iff.1 h
            omega
        | some x => exact .inl (h5 x rfl).2
      · cases nextp with
        | none => show cur ≤ _; omega
        | some x => show x ≤ _; have := (h5 x rfl).1; omega
    · exact h

theorem seekStep_good {c : Codec} (hc : AsciiEnds c) (timeOf : List Char → Option (Option Int)) (data : Bytes) (date : Int) (start : Nat)
    (s : SeekState) (h : Good c timeOf data date start s.minp) : Good c timeOf data date start (seekStep c timeOf data date s).2.minp := by
  have := probe_good hc timeOf data date start (s.tryPos.getD (s.minp + (s.maxp - s.minp) / 2)) s.minp s.maxp h
  unfold seekStep
  dsimp only
  split
  · split
    · exact this
    · split <;> exact this
  · exact this

theorem seekLoop_good {c : Codec} (hc : AsciiEnds c) (timeOf : List Char → Option (Option Int)) (data : Bytes) (date : Int) (start : Nat)
    (fuel : Nat) (s : SeekState) (p : Nat) (h : Good c timeOf data date start s.minp) (hp : seekLoop c timeOf data date fuel s = some p) :
    Good c timeOf data date start p := by
  induction fuel generalizing s with
  | zero => cases hp
  | succ fuel ih =>
    unfold seekLoop at hp
    dsimp only at hp
    have hg := seekStep_good hc timeOf data date start s h
    split at hp
    · split at hp
      · exact ih _ hg hp
      · cases hp; exact hg
    · cases hp; exact h

/-- C54: the search moves the position only forward, to the start of a line (or the end of the file), and not behind the end of some line
that is older than the date searched for. -/
theorem C54_position {c : Codec} (hc : AsciiEnds c) (timeOf : List Char → Option (Option Int)) (data : Bytes) (date : Int) (pos fuel p : Nat)
    (h : seekToTime c timeOf data date pos fuel = some p) :
    p = pos ∨ pos < p ∧ (LineStart data p ∨ p = data.length) ∧
      ∃ a b t, LineStart data a ∧ LineAt data a b ∧ Dated c timeOf b t ∧ t < date ∧ p ≤ a + b.length := by
  have hg : Good c timeOf data date pos p := by
    unfold seekToTime at h
    split at h
    · cases h; exact .inl rfl
    · exact seekLoop_good hc timeOf data date pos fuel _ p (.inl rfl) h
  rcases hg with h | ⟨h1, h2, h3⟩
  · exact .inl h
  · by_cases e : p = pos
    · exact .inl e
    · exact .inr ⟨by omega, h2, h3⟩

/-- C54: if the times of the lines never decrease, no line with a time from the date on is skipped. -/
theorem C54_nothing_skipped {c : Codec} (hc : AsciiEnds c) (timeOf : List Char → Option (Option Int)) (data : Bytes) (date : Int) (pos fuel p : Nat)
    (h : seekToTime c timeOf data date pos fuel = some p) (hs : Sorted c timeOf data)
    (q : Nat) (b : Bytes) (t : Int) (hq : LineStart data q) (hb : LineAt data q b) (ht : Dated c timeOf b t) (hpos : pos ≤ q) (hd : date ≤ t) :
    p ≤ q := by
  rcases C54_position hc timeOf data date pos fuel p h with h | ⟨_, _, a, b', t', h1, h2, h3, h4, h5⟩
  · omega
  · apply Classical.byContradiction
    intro hn
    have hqa : q ≤ a := lineStart_inside h2 hq (by omega)
    have := hs q a b b' t t' hq h1 hb h2 ht h3 hqa
    omega

/-! ## The search ends -/

theorem probe_bounds (c : Codec) (timeOf : List Char → Option (Option Int)) (data : Bytes) (date : Int) (p minp maxp : Nat) :
    let r := probe c timeOf data date p minp maxp
    minp ≤ r.2.1 ∧ r.2.2 ≤ maxp := by
  unfold probe
  dsimp only
  split
  · split
    · dsimp only
      have : ∀ x, (if x < maxp then x else maxp) ≤ maxp := by
        intro x; split <;> omega
      exact ⟨Nat.le_refl _, this _⟩
    · dsimp only
      constructor
      · split
        · exact Nat.le_of_lt ‹_›
        · exact Nat.le_refl _
      · exact Nat.le_refl _
  · exact ⟨Nat.le_refl _, Nat.le_refl _⟩

/-- where the middle try ends -/
def midPos (c : Codec) (timeOf : List Char → Option (Option Int)) (data : Bytes) (date : Int) (minp maxp : Nat) : Nat :=
  (probe c timeOf data date (minp + (maxp - minp) / 2) minp maxp).1

/-- what is left to do -/
def measure (c : Codec) (timeOf : List Char → Option (Option Int)) (data : Bytes) (date : Int) (s : SeekState) : Nat :=
  4 * ((s.maxp - s.minp) + s.movecntr) +
    (match s.tryPos with
     | some _ => 3
     | none => if s.lastPos = (midPos c timeOf data date s.minp s.maxp : Int) then 1 else 2)

theorem measure_le (c : Codec) (timeOf : List Char → Option (Option Int)) (data : Bytes) (date : Int) (s : SeekState) :
    measure c timeOf data date s ≤ 4 * ((s.maxp - s.minp) + s.movecntr) + 3 := by
  unfold measure
  split
  · omega
  · split <;> omega

theorem seekStep_measure (c : Codec) (timeOf : List Char → Option (Option Int)) (data : Bytes) (date : Int) (s : SeekState) (hlt : s.minp < s.maxp)
    (h : (seekStep c timeOf data date s).1 = true) :
    measure c timeOf data date (seekStep c timeOf data date s).2 < measure c timeOf data date s := by
  have hb := probe_bounds c timeOf data date (s.tryPos.getD (s.minp + (s.maxp - s.minp) / 2)) s.minp s.maxp
  have hmid : s.tryPos = none → (probe c timeOf data date (s.tryPos.getD (s.minp + (s.maxp - s.minp) / 2)) s.minp s.maxp).1
      = midPos c timeOf data date s.minp s.maxp := by
    intro e; rw [e]; rfl
  unfold seekStep at h ⊢
  dsimp only at h ⊢ hb
  generalize probe c timeOf data date (s.tryPos.getD (s.minp + (s.maxp - s.minp) / 2)) s.minp s.maxp = r at *
  obtain ⟨pos, mn, mx⟩ := r
  dsimp only at *
  have hge : 4 * ((s.maxp - s.minp) + s.movecntr) + 1 ≤ measure c timeOf data date s := by
    unfold measure
    split
    · omega
    · split <;> omega
  by_cases h1 : (pos : Int) = s.lastPos
  · rw [if_pos h1] at h ⊢
    by_cases h2 : s.movecntr - 1 = 0
    · rw [if_pos h2] at h; cases h
    rw [if_neg h2] at h ⊢
    by_cases h3 : (mn : Int) ≠ s.lastPos
    · rw [if_pos h3]
      refine Nat.lt_of_le_of_lt (measure_le ..) ?_
      dsimp only
      omega
    · rw [if_neg h3] at h; cases h
  · rw [if_neg h1]
    by_cases h4 : mn = s.minp ∧ mx = s.maxp
    · obtain ⟨e1, e2⟩ := h4
      subst e1; subst e2
      unfold measure
      dsimp only
      cases ht : s.tryPos with
      | some x =>
        dsimp only
        split <;> omega
      | none =>
        dsimp only
        rw [hmid ht, if_pos rfl, if_neg]
        · omega
        · intro e; rw [hmid ht] at h1; exact h1 e.symm
    · refine Nat.lt_of_le_of_lt (measure_le ..) ?_
      dsimp only
      omega

/-- C54: the search ends, whatever the file contains: after at most four tries per byte and a few more. -/
theorem C54_ends (c : Codec) (timeOf : List Char → Option (Option Int)) (data : Bytes) (date : Int) (pos fuel : Nat) (hf : 4 * data.length + 16 ≤ fuel) :
    ∃ p, seekToTime c timeOf data date pos fuel = some p := by
  have loop : ∀ fuel s, measure c timeOf data date s < fuel → ∃ p, seekLoop c timeOf data date fuel s = some p := by
    intro fuel
    induction fuel with
    | zero => intro s h; omega
    | succ fuel ih =>
      intro s h
      unfold seekLoop
      dsimp only
      by_cases h1 : s.minp < s.maxp
      · rw [if_pos h1]
        by_cases h2 : (seekStep c timeOf data date s).1 = true
        · rw [if_pos h2]
          exact ih _ (by have := seekStep_measure c timeOf data date s h1 h2; omega)
        · rw [if_neg h2]; exact ⟨_, rfl⟩
      · rw [if_neg h1]; exact ⟨_, rfl⟩
  unfold seekToTime
  split
  · exact ⟨_, rfl⟩
  · apply loop
    refine Nat.lt_of_le_of_lt (measure_le ..) ?_
    dsimp only
    omega

/-! ## The first pass -/

/-- C54: the first pass over a log file, with the search: the complete lines from some position on are delivered, each once and in order;
if the times of the lines never decrease, every line with a time within the find time stands at or behind this position. -/
theorem C54_first_pass {md5 : Bytes → String} {c : Codec} (hc : AsciiEnds c) (timeOf : List Char → Option (Option Int)) (findTime : Int)
    (s : FileContainer) (ino : Nat) (d : Bytes) (hs : Tracks md5 s ino d) (io : Option Bool) (p : Pass) (hino : p.file.ino = ino)
    (hg : Grows (d :: p.file.data :: p.reads)) (hcr : NoCREnd (p.file.data :: p.reads)) (fuel : Nat) (hf : 4 * p.file.data.length + 16 ≤ fuel) :
    ∃ r, s.firstGetFailures md5 c timeOf p.now findTime p.file true io (p.reads.map (fun d => (d, true))) fuel = some r ∧
    let dl := p.reads.getLastD p.file.data
    ∃ start ls, (∀ l ∈ ls, IsLine l) ∧ Texts c ls (r.1.map Prod.fst) ∧ s.pos ≤ start ∧ start ≤ r.2.pos ∧ Tracks md5 r.2 ino dl ∧
      dl.take r.2.pos = dl.take start ++ ls.flatten ∧
      (Sorted c timeOf p.file.data → ∀ q b t, LineStart p.file.data q → LineAt p.file.data q b → Dated c timeOf b t → s.pos ≤ q →
        p.now - findTime ≤ t → start ≤ q) := by
  have hgr : Grows (p.file.data :: p.reads) := (List.pairwise_cons.1 hg).2
  have hpre : d <+: p.file.data := (List.pairwise_cons.1 hg).1 _ (List.mem_cons_self ..)
  obtain ⟨o1, o2, _, o4⟩ := open_tracks md5 p.now s ino d p.file.data hs hpre (hcr _ (List.mem_cons_self ..))
  rw [← hino] at o1 o2 o4
  have ef : (⟨p.file.ino, p.file.data⟩ : FileState) = p.file := rfl
  rw [ef] at o1 o2 o4
  have hpl : p.file.data <+: p.reads.getLastD p.file.data := getLastD_prefix _ _ hgr
  unfold firstGetFailures
  dsimp only
  rw [if_pos rfl]
  obtain ⟨st, hst⟩ := C54_ends c timeOf p.file.data (p.now - findTime) (s.open' md5 p.now p.file).2.pos fuel hf
  rw [hst]
  dsimp only
  rw [o1] at hst
  have hskip := fun hso q b t h1 h2 h3 h4 h5 =>
    C54_nothing_skipped hc timeOf p.file.data (p.now - findTime) s.pos fuel st hst hso q b t h1 h2 h3 h4 h5
  have hpos := C54_position hc timeOf p.file.data (p.now - findTime) s.pos fuel st hst
  have hle : s.pos ≤ st := by
    rcases hpos with h | ⟨h, _⟩ <;> omega
  have hlen : st ≤ p.file.data.length := by
    rcases hpos with h | ⟨_, _, a, b, t, _, h2, _, _, h5⟩
    · rw [h, ← o1]; exact o2.2.1
    · exact Nat.le_trans h5 (lineStart_after h2).2
  generalize s.open' md5 p.now p.file = o at *
  obtain ⟨t1, t2, t3, t4⟩ := id o2
  have grow : ∀ x, p.file.data <+: x → (o.2.hash = "" ∨ ∃ l r, x = l ++ r ∧ IsLine l ∧ o.2.hash = md5 l) := by
    intro x ⟨y, hy⟩
    rcases t4 with t4 | ⟨l, r, e1, e2, e3⟩
    · exact .inl t4
    · exact .inr ⟨l, r ++ y, by rw [← hy, e1, List.append_assoc], e2, e3⟩
  by_cases ho : o.1 = true
  · rw [if_pos ho]
    obtain ⟨ls, l1, l2, l3, l4, l5⟩ := readLoop_lines hc io p.reads o.2 t3 p.file.data st hlen hgr
      (fun x hx => hcr x (List.mem_cons_of_mem _ hx))
    obtain ⟨c1, c2, c3, _⟩ := readLoop_cfg c io (p.reads.map (fun d => (d, true))) o.2 st
    generalize readLoop c io (p.reads.map (fun d => (d, true))) o.2 st = R at *
    refine ⟨_, rfl, st, ls, l1, l2, hle, l3, ⟨?_, l4, ?_, ?_⟩, l5, hskip⟩
    · show R.2.1.ino = _; rw [c2, t1, hino]
    · show R.2.1.waitForLineEnd = _; rw [c3, t3]
    · show R.2.1.hash = "" ∨ _
      rw [c1]
      exact grow _ hpl
  · rw [if_neg ho]
    refine ⟨_, rfl, st, [], by simp, .nil, hle, Nat.le_refl _, ⟨by rw [← hino]; exact t1, Nat.le_trans hlen hpl.length_le, t3, grow _ hpl⟩, by simp, hskip⟩

namespace LogFileExample

/-- for examples: the time is the number a line starts with -/
def timeOf (l : List Char) : Option (Option Int) :=
  let d := l.takeWhile Char.isDigit
  if d = [] then none else some (some (d.foldl (fun a ch => a * 10 + ((ch.toNat - 48 : Nat) : Int)) 0))

end LogFileExample

open LogFileExample

-- the lines 1-5 are skipped; with a stored position nothing before it is looked at; a line without time within the old ones is skipped too
example : seekToTime latin1 timeOf (bytes "1 aaaa\n2 bbbb\n3 cccc\n4 dddd\n5 eeee\n6 ffff\n7 gggg\n8 hhhh\n") 6 0 1000 = some 35 := by decide +kernel
example : seekToTime latin1 timeOf (bytes "1 aaaa\n2 bbbb\n3 cccc\n4 dddd\n5 eeee\n6 ffff\n7 gggg\n8 hhhh\n") 6 42 1000 = some 42 := by decide +kernel
example : seekToTime latin1 timeOf (bytes "1 aaaa\n2 bbbb\n3 cccc\n  dddd\n  eeee\n6 ffff\n7 gggg\n8 hhhh\n") 6 0 1000 = some 21 := by decide +kernel
example : seekToTime latin1 timeOf (bytes "1 aaaa\n2 bbbb\n") 3 0 1000 = some 14 := by decide +kernel
example : seekToTime latin1 timeOf (bytes "no time\nat all\n") 3 0 1000 = some 0 := by decide +kernel

-- 100 seconds ago is where the search ends
example : (firstGetFailures sum latin1 timeOf 107 100 ⟨7, bytes "1 aaaa\n2 bbbb\n6 ffff\n7 gggg\n8 hhhh\n"⟩ true none
    (List.replicate 9 (bytes "1 aaaa\n2 bbbb\n6 ffff\n7 gggg\n8 hhhh\n", true)) 1000
    (new sum 0 ⟨7, bytes "1 aaaa\n2 bbbb\n6 ffff\n7 gggg\n8 hhhh\n"⟩ false)).map (fun r => r.1.map (fun x => String.ofList x.1))
    = some ["7 gggg", "8 hhhh"] := by decide +kernel

/-- C54: without the assumption on the times a line within the find time can be skipped: one older line behind it suffices. -/
theorem C54_refuted_unsorted : ∃ data p, seekToTime latin1 timeOf data 6 0 1000 = some p ∧ 7 < p ∧ LineStart data 7 ∧
    LineAt data 7 (bytes "9 bbbb\n") ∧ Dated latin1 timeOf (bytes "9 bbbb\n") 9 := by
  refine ⟨bytes "1 aaaa\n9 bbbb\n3 cccc\n4 dddd\n5 eeee\n", 35, by decide +kernel, by decide, .inr (by decide +kernel), ?_, ?_⟩
  · exact ⟨by decide +kernel, bytes "3 cccc\n4 dddd\n5 eeee\n", by decide +kernel, .inl ⟨bytes "9 bbbb", by decide +kernel, by decide +kernel⟩⟩
  · exact ⟨"9 bbbb".toList, ⟨['\n'], .inl (by rfl), by simp, by decide +kernel, by decide +kernel⟩, by decide +kernel⟩

/-- C37 fails for a last line not complete yet, if its time is before the find time: the search ends behind its beginning, the rest of the
line is delivered as a line of its own. -/
theorem C37_refuted_seek :
    let a := bytes "1 aaaa\n2 bb"
    let s := new sum 0 ⟨7, a⟩ false
    ((firstGetFailures sum latin1 timeOf 107 100 ⟨7, a⟩ true none [(a, true)] 1000 s).map
      (fun r => (r.1, (deliver r.2 [(108, 7, "1 aaaa\n2 bbbb\n")]).1))) = some ([], ["bb"]) := by decide +kernel

end Verif
