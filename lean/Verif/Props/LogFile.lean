import Verif.Lemmas.FileContainer
import Verif.Lemmas.Codecs
import Verif.Props.Database

/-! # Reading of log files (C37, C38, C29) -/

namespace Verif

open Spec.LogFile FileContainer

/-- Lines end in the same place in a continuation. -/
theorem take_of_prefix {a b : Bytes} (h : a <+: b) {n : Nat} (hn : n ≤ a.length) : b.take n = a.take n := by
  obtain ⟨r, e⟩ := h
  rw [← e, List.take_append_of_le_length hn]

theorem Texts.append {c : Codec} {l1 l2 : List Bytes} {t1 t2 : List (List Char)} (h1 : Texts c l1 t1) (h2 : Texts c l2 t2) :
    Texts c (l1 ++ l2) (t1 ++ t2) := by
  induction h1 with
  | nil => exact h2
  | cons h _ ih => exact .cons h ih

/-- The container after the loop differs only in the flag. -/
theorem readLoop_cfg (c : Codec) (io : Option Bool) (rs : List (Bytes × Bool)) (s : FileContainer) (p : Nat) :
    (readLoop c io rs s p).2.1.hash = s.hash ∧ (readLoop c io rs s p).2.1.ino = s.ino ∧
    (readLoop c io rs s p).2.1.waitForLineEnd = s.waitForLineEnd ∧ (readLoop c io rs s p).2.1.hashNextTime = s.hashNextTime ∧
    (s.inOperation = true → (readLoop c io rs s p).2.1.inOperation = true) := by
  induction rs generalizing p with
  | nil => exact ⟨rfl, rfl, rfl, rfl, id⟩
  | cons x rs ih =>
    obtain ⟨d, a⟩ := x
    unfold readLoop
    dsimp only
    split
    · exact ⟨rfl, rfl, rfl, rfl, id⟩
    · split
      · exact ⟨rfl, rfl, rfl, rfl, fun _ => rfl⟩
      · exact ih _

/-- One pass over a growing file. -/
theorem readLoop_lines {c : Codec} (hc : AsciiEnds c) (io : Option Bool) (rs : List Bytes) (s : FileContainer) (hw : s.waitForLineEnd = true)
    (d0 : Bytes) (p : Nat) (hp : p ≤ d0.length) (hg : Grows (d0 :: rs)) (hcr : NoCREnd rs) :
    let r := readLoop c io (rs.map (fun d => (d, true))) s p
    ∃ ls, (∀ l ∈ ls, IsLine l) ∧ Texts c ls (r.1.map Prod.fst) ∧ p ≤ r.2.2 ∧ r.2.2 ≤ (rs.getLastD d0).length ∧
      (rs.getLastD d0).take r.2.2 = (rs.getLastD d0).take p ++ ls.flatten := by
  induction rs generalizing d0 p with
  | nil => exact ⟨[], by simp, .nil, Nat.le_refl _, hp, by simp [readLoop]⟩
  | cons d rs ih =>
    intro r
    have hr : r = readLoop c io ((d, true) :: rs.map (fun d => (d, true))) s p := rfl
    unfold Grows at hg
    rw [List.pairwise_cons] at hg
    obtain ⟨hg1, hg2⟩ := hg
    have hpre : d0 <+: d := hg1 d (List.mem_cons_self ..)
    have hpd : p ≤ d.length := Nat.le_trans hp hpre.length_le
    have hlast : (d :: rs).getLastD d0 = rs.getLastD d := by
      cases rs with
      | nil => rfl
      | cons x xs => simp [List.getLastD]
    have hdl : d <+: rs.getLastD d := by
      cases hrs : rs.getLast? with
      | none =>
        have : rs = [] := List.getLast?_eq_none_iff.1 hrs
        rw [this]
        exact List.prefix_refl _
      | some x =>
        rw [show rs.getLastD d = x by rw [List.getLastD_eq_getLast?, hrs]; rfl]
        exact (List.pairwise_cons.1 hg2).1 x (List.mem_of_getLast? hrs)
    rw [hlast]
    unfold readLoop at hr
    rw [hw] at hr
    dsimp only at hr
    rw [if_neg (by simp)] at hr
    rcases hx : readline c true d p with ⟨_ | t, p'⟩
    · rw [hx] at hr
      dsimp only at hr
      obtain ⟨e, _⟩ := readline_none hc d p p' hx
      rw [hr, e]
      exact ⟨[], by simp, .nil, Nat.le_refl _, Nat.le_trans hpd hdl.length_le, by simp⟩
    · rw [hx] at hr
      dsimp only at hr
      obtain ⟨b, r', h1, h2, h3, h4, h5⟩ := readline_some hc d p p' t hx
      have hl : IsLine b := by
        rcases h5 with h5 | ⟨h5, h6, h7⟩
        · exact h5
        · exfalso
          apply hcr d (List.mem_cons_self ..)
          have hsplit : d = d.take p ++ b := by
            rw [h7, List.append_nil] at h1
            rw [← h1, List.take_append_drop]
          rw [hsplit, List.getLast?_append, h6]
          rfl
      obtain ⟨ls, i1, i2, i3, i4, i5⟩ := ih d p' h3 hg2 (fun x hx => hcr x (List.mem_cons_of_mem _ hx))
      rw [hr]
      refine ⟨b :: ls, ?_, .cons h4 i2, ?_, i4, ?_⟩
      · intro l hl'
        rcases List.mem_cons.1 hl' with e | e
        · rw [e]; exact hl
        · exact i1 l e
      · dsimp only; omega
      · dsimp only
        rw [i5, List.flatten_cons, ← List.append_assoc]
        congr 1
        rw [take_of_prefix hdl h3, take_of_prefix hdl hpd, h2]
        have : d = d.take p ++ (b ++ r') := by rw [← h1, List.take_append_drop]
        conv => lhs; rw [this]
        rw [← List.append_assoc, List.take_append_of_le_length (by simp; omega), List.take_of_length_le (by simp; omega)]

/-- A container that tracks a file never sees a rotation when the file only grew. -/
theorem open_tracks (md5 : Bytes → String) (now : Int) (s : FileContainer) (ino : Nat) (d d' : Bytes)
    (hs : Tracks md5 s ino d) (hpre : d <+: d') (hcr : d'.getLast? ≠ some 13) :
    let o := s.open' md5 now ⟨ino, d'⟩
    o.2.pos = s.pos ∧ Tracks md5 o.2 ino d' ∧ o.2.inOperation = s.inOperation ∧ (o.1 = true ↔ s.pos < d'.length) := by
  obtain ⟨h1, h2, h3, h4⟩ := hs
  have hlen := hpre.length_le
  have hrot : (decide (d'.length < s.pos) || decide (ino ≠ s.ino)) = false := by
    simp [h1]; omega
  -- the hash computed is the stored one, if there is one
  have hfirst : rawLine d' ≠ rstripNLBytes (rawLine d') → IsLine (rawLine d') := by
    intro h
    rcases rawLine_cases d' with h' | ⟨h5, h6⟩
    · exact h'
    · exfalso
      apply h
      symm
      rw [rstripNLBytes_eq_self, h6]
      exact ⟨hcr, fun e => h5 (List.mem_of_getLast? e)⟩
  have hline : IsLine (rawLine d') → rawLine d' ≠ rstripNLBytes (rawLine d') := by
    intro ⟨x, e, _⟩ h
    have := (rstripNLBytes_eq_self _).1 h.symm
    rw [e] at this
    simp at this
  have hhash : s.hash ≠ "" → firstHash md5 d' = s.hash := by
    intro hne
    rcases h4 with h4 | ⟨l, r, e1, e2, e3⟩
    · exact absurd h4 hne
    · obtain ⟨r', e4⟩ := hpre
      have : rawLine d' = l := by rw [← e4, e1, List.append_assoc, rawLine_of_line e2]
      unfold firstHash
      dsimp only
      rw [if_pos (hline (by rw [this]; exact e2)), this, e3]
  have hnew : firstHash md5 d' = "" ∨ ∃ l r, d' = l ++ r ∧ IsLine l ∧ firstHash md5 d' = md5 l := by
    unfold firstHash
    dsimp only
    by_cases h : rawLine d' ≠ rstripNLBytes (rawLine d')
    · rw [if_pos h]
      obtain ⟨r, hr⟩ := rawLine_append d'
      exact .inr ⟨_, r, hr, hfirst h, rfl⟩
    · rw [if_neg h]; exact .inl rfl
  have hkeep : s.hash = "" ∨ ∃ l r, d' = l ++ r ∧ IsLine l ∧ s.hash = md5 l := by
    rcases h4 with h4 | ⟨l, r, e1, e2, e3⟩
    · exact .inl h4
    · obtain ⟨r', e4⟩ := hpre
      exact .inr ⟨l, r ++ r', by rw [← e4, e1, List.append_assoc], e2, e3⟩
  unfold open'
  simp only [hrot, Bool.false_or, Bool.false_eq_true, false_or]
  generalize hchk : (decide (s.hash.length = 0) || decide (s.hashNextTime < now)) = check
  generalize hS : (if check = true ∧ rawLine d' ≠ rstripNLBytes (rawLine d') then { s with hashNextTime := now + 30 } else s) = S
  have hSf : S.pos = s.pos ∧ S.hash = s.hash ∧ S.ino = s.ino ∧ S.waitForLineEnd = s.waitForLineEnd ∧ S.inOperation = s.inOperation := by
    rw [← hS]; split <;> exact ⟨rfl, rfl, rfl, rfl, rfl⟩
  obtain ⟨s1, s2, s3, s4, s5⟩ := hSf
  by_cases hd : (if check = true then firstHash md5 d' else s.hash) ≠ S.hash
  · rw [if_pos hd]
    have hc : check = true := by
      cases check
      · rw [s2] at hd; simp at hd
      · rfl
    rw [if_pos hc] at hd ⊢
    have he : S.hash = "" := by
      apply Classical.byContradiction
      intro hne
      rw [s2] at hne hd
      exact hd (hhash hne)
    rw [if_neg (by simpa using he)]
    refine ⟨s1, ⟨by dsimp only; rw [s3, h1], by dsimp only; omega, by dsimp only; rw [s4, h3], hnew⟩, s5, ?_⟩
    dsimp only
    rw [s1]
    simp
  · rw [if_neg hd]
    refine ⟨s1, ⟨by rw [s3, h1], by omega, by rw [s4, h3], by rw [s2]; exact hkeep⟩, s5, ?_⟩
    rw [s1]
    simp

theorem getLastD_prefix (d : Bytes) (rs : List Bytes) (hg : Grows (d :: rs)) : d <+: rs.getLastD d := by
  unfold Grows at hg
  cases hrs : rs.getLast? with
  | none =>
    have : rs = [] := List.getLast?_eq_none_iff.1 hrs
    rw [this]
    exact List.prefix_refl _
  | some x =>
    rw [show rs.getLastD d = x by rw [List.getLastD_eq_getLast?, hrs]; rfl]
    exact (List.pairwise_cons.1 hg).1 x (List.mem_of_getLast? hrs)

/-- One pass. -/
theorem pass_lines {md5 : Bytes → String} {c : Codec} (hc : AsciiEnds c) (s : FileContainer) (ino : Nat) (d : Bytes) (hs : Tracks md5 s ino d)
    (io : Option Bool) (p : Pass) (hino : p.file.ino = ino) (hg : Grows (d :: p.file.data :: p.reads)) (hcr : NoCREnd (p.file.data :: p.reads)) :
    let r := s.getFailures md5 c p.now (some p.file) io (p.reads.map (fun d => (d, true)))
    let dl := p.reads.getLastD p.file.data
    ∃ ls, (∀ l ∈ ls, IsLine l) ∧ Texts c ls (r.1.map Prod.fst) ∧ s.pos ≤ r.2.pos ∧ Tracks md5 r.2 ino dl ∧
      dl.take r.2.pos = dl.take s.pos ++ ls.flatten := by
  intro r dl
  have hr : r = s.getFailures md5 c p.now (some p.file) io (p.reads.map (fun d => (d, true))) := rfl
  have hgr : Grows (p.file.data :: p.reads) := (List.pairwise_cons.1 hg).2
  have hpre : d <+: p.file.data := (List.pairwise_cons.1 hg).1 _ (List.mem_cons_self ..)
  obtain ⟨o1, o2, _, o4⟩ := open_tracks md5 p.now s ino d p.file.data hs hpre (hcr _ (List.mem_cons_self ..))
  rw [← hino] at o1 o2 o4
  have ef : (⟨p.file.ino, p.file.data⟩ : FileState) = p.file := rfl
  rw [ef] at o1 o2 o4
  have hpl : p.file.data <+: dl := getLastD_prefix _ _ hgr
  unfold getFailures at hr
  dsimp only at hr
  generalize s.open' md5 p.now p.file = o at *
  obtain ⟨t1, t2, t3, t4⟩ := id o2
  have grow : ∀ x, p.file.data <+: x → (o.2.hash = "" ∨ ∃ l r, x = l ++ r ∧ IsLine l ∧ o.2.hash = md5 l) := by
    intro x ⟨y, hy⟩
    rcases t4 with t4 | ⟨l, r, e1, e2, e3⟩
    · exact .inl t4
    · exact .inr ⟨l, r ++ y, by rw [← hy, e1, List.append_assoc], e2, e3⟩
  by_cases ho : o.1 = true
  · rw [if_pos ho] at hr
    obtain ⟨ls, l1, l2, l3, l4, l5⟩ := readLoop_lines hc io p.reads o.2 t3 p.file.data o.2.pos t2 hgr
      (fun x hx => hcr x (List.mem_cons_of_mem _ hx))
    obtain ⟨c1, c2, c3, _⟩ := readLoop_cfg c io (p.reads.map (fun d => (d, true))) o.2 o.2.pos
    generalize readLoop c io (p.reads.map (fun d => (d, true))) o.2 o.2.pos = R at *
    rw [hr, ← o1]
    refine ⟨ls, l1, l2, l3, ⟨?_, l4, ?_, ?_⟩, l5⟩
    · show R.2.1.ino = _; rw [c2, t1, hino]
    · show R.2.1.waitForLineEnd = _; rw [c3, t3]
    · show R.2.1.hash = "" ∨ _
      rw [c1]
      exact grow _ hpl
  · rw [if_neg ho] at hr
    rw [hr, ← o1]
    refine ⟨[], by simp, .nil, Nat.le_refl _, ⟨by rw [← hino]; exact t1, Nat.le_trans t2 hpl.length_le, t3, grow _ hpl⟩, by simp⟩

/-- C37: reading a growing file in any number of passes, with anything appended between and during passes, delivers the complete lines
following the start position, each once and in order, up to the position reached. Not covered: a look at the file while it ends with a
carriage return, and stopping the filter during a pass (both are refuted below). -/
theorem C37_exactly_once_partial {md5 : Bytes → String} {c : Codec} (hc : AsciiEnds c) (s : FileContainer) (ino : Nat) (d : Bytes)
    (hs : Tracks md5 s ino d) (ps : List Pass) (hino : ∀ p ∈ ps, p.file.ino = ino) (hg : Grows (d :: contents ps)) (hcr : NoCREnd (contents ps)) :
    let r := passes md5 c s ps
    let dl := (contents ps).getLastD d
    ∃ ls, (∀ l ∈ ls, IsLine l) ∧ Texts c ls r.1 ∧ s.pos ≤ r.2.pos ∧ Tracks md5 r.2 ino dl ∧
      dl.take r.2.pos = dl.take s.pos ++ ls.flatten := by
  induction ps generalizing s d with
  | nil => exact ⟨[], by simp, .nil, Nat.le_refl _, hs, by simp [passes]⟩
  | cons p ps ih =>
    intro r dl
    have hcons : contents (p :: ps) = (p.file.data :: p.reads) ++ contents ps := by simp [contents]
    have hdl : dl = (contents ps).getLastD (p.reads.getLastD p.file.data) := by
      show (contents (p :: ps)).getLastD d = _
      rw [hcons]
      simp only [List.getLastD_eq_getLast?, List.getLast?_append, List.getLast?_cons]
      cases (contents ps).getLast? <;> simp
    rw [hcons] at hg hcr
    have hg1 : Grows (d :: p.file.data :: p.reads) := by
      unfold Grows at hg ⊢
      rw [← List.cons_append] at hg
      exact (List.pairwise_append.1 hg).1
    obtain ⟨l1, a1, a2, a3, a4, a5⟩ := pass_lines hc s ino d hs none p (hino p (List.mem_cons_self ..)) hg1
      (fun x hx => hcr x (List.mem_append_left _ hx))
    have hg2 : Grows (p.reads.getLastD p.file.data :: contents ps) := by
      unfold Grows at hg ⊢
      rw [← List.cons_append, List.pairwise_append] at hg
      rw [List.pairwise_cons]
      refine ⟨fun x hx => hg.2.2 _ ?_ x hx, hg.2.1⟩
      refine List.mem_cons_of_mem _ ?_
      cases hl : p.reads.getLast? with
      | none => rw [List.getLastD_eq_getLast?, hl]; exact List.mem_cons_self ..
      | some x => rw [List.getLastD_eq_getLast?, hl]; exact List.mem_cons_of_mem _ (List.mem_of_getLast? hl)
    obtain ⟨l2, b1, b2, b3, b4, b5⟩ := ih _ _ a4 (fun q hq => hino q (List.mem_cons_of_mem _ hq)) hg2
      (fun x hx => hcr x (List.mem_append_right _ hx))
    have hpre := getLastD_prefix _ _ hg2
    rw [← hdl] at b4 b5 hpre
    refine ⟨l1 ++ l2, ?_, Texts.append a2 b2, Nat.le_trans a3 b3, b4, ?_⟩
    · intro l hl
      rcases List.mem_append.1 hl with h | h
      · exact a1 l h
      · exact b1 l h
    · show dl.take (passes md5 c _ ps).2.pos = _
      rw [b5, List.flatten_append, ← List.append_assoc]
      congr 1
      rw [take_of_prefix hpre a4.2.1, a5]
      rw [take_of_prefix hpre (Nat.le_trans a3 a4.2.1)]

/-- C37: a new container tracks its file; it starts at the beginning, or at the end if only new lines are wanted. -/
theorem C37_start (md5 : Bytes → String) (now : Int) (f : FileState) (tail : Bool) (hcr : f.data.getLast? ≠ some 13) :
    Tracks md5 (new md5 now f tail) f.ino f.data ∧ (new md5 now f tail).pos = (if tail then f.data.length else 0) ∧
    (new md5 now f tail).inOperation = tail := by
  refine ⟨⟨rfl, ?_, rfl, ?_⟩, ?_, rfl⟩
  · show (if _ then _ else _) ≤ _
    split <;> omega
  · show (if f.data.length ≠ 0 then firstHash md5 f.data else "") = "" ∨ _
    by_cases h0 : f.data.length ≠ 0
    · show _ ∨ ∃ l r, f.data = l ++ r ∧ IsLine l ∧ (if f.data.length ≠ 0 then firstHash md5 f.data else "") = md5 l
      rw [if_pos h0]
      unfold firstHash
      dsimp only
      by_cases h : rawLine f.data ≠ rstripNLBytes (rawLine f.data)
      · rw [if_pos h]
        right
        obtain ⟨r, hr⟩ := rawLine_append f.data
        refine ⟨_, r, hr, ?_, rfl⟩
        rcases rawLine_cases f.data with h' | ⟨h5, h6⟩
        · exact h'
        · exfalso
          apply h
          symm
          rw [rstripNLBytes_eq_self, h6]
          exact ⟨hcr, fun e => h5 (List.mem_of_getLast? e)⟩
      · rw [if_neg h]; exact .inl rfl
    · rw [if_neg h0]; exact .inl rfl
  · show (if f.data.length ≠ 0 ∧ tail then f.data.length else 0) = _
    cases tail
    · simp
    · by_cases h : f.data.length = 0 <;> simp [h]

/-- C37: a pass over a file that does not change meanwhile, and that is not interrupted, leaves no complete line undelivered; from then on
lines count as written in operation. -/
theorem C37_caught_up {md5 : Bytes → String} {c : Codec} (hc : AsciiEnds c) (s : FileContainer) (ino : Nat) (d : Bytes) (hs : Tracks md5 s ino d)
    (now : Int) (io : Option Bool) (d' : Bytes) (hpre : d <+: d') (hcr : d'.getLast? ≠ some 13) (n : Nat) (hn : d'.length < n) :
    let r := s.getFailures md5 c now (some ⟨ino, d'⟩) io ((List.replicate n d').map (fun d => (d, true)))
    10 ∉ d'.drop r.2.pos ∧ (s.pos < d'.length → r.2.inOperation = true) ∧ (d'.length ≤ s.pos → r.1 = [] ∧ r.2.pos = s.pos) := by
  obtain ⟨o1, o2, _, o4⟩ := open_tracks md5 now s ino d d' hs hpre hcr
  intro r
  have hr : r = s.getFailures md5 c now (some ⟨ino, d'⟩) io ((List.replicate n d').map (fun d => (d, true))) := rfl
  unfold getFailures at hr
  dsimp only at hr
  generalize s.open' md5 now ⟨ino, d'⟩ = o at *
  obtain ⟨_, t2, t3, _⟩ := o2
  have loop : ∀ m p, p ≤ d'.length → d'.length < m + p →
      10 ∉ d'.drop (readLoop c io ((List.replicate m d').map (fun d => (d, true))) o.2 p).2.2 ∧
      (readLoop c io ((List.replicate m d').map (fun d => (d, true))) o.2 p).2.1.inOperation = true := by
    intro m
    induction m with
    | zero => intro p h1 h2; omega
    | succ m ih =>
      intro p h1 h2
      rw [List.replicate_succ, List.map_cons]
      unfold readLoop
      rw [t3]
      dsimp only
      rw [if_neg (by simp)]
      rcases hx : readline c true d' p with ⟨_ | t, p'⟩
      · dsimp only
        obtain ⟨e1, e2⟩ := readline_none hc d' p p' hx
        rw [e1]
        exact ⟨e2, rfl⟩
      · dsimp only
        obtain ⟨b, r', _, e2, e3, _, e5⟩ := readline_some hc d' p p' t hx
        have hb : 0 < b.length := by
          apply List.length_pos_iff.2
          intro hb
          subst hb
          rcases e5 with ⟨x, e6, _⟩ | ⟨_, e7, _⟩
          · have := congrArg List.length e6; simp at this
          · simp at e7
        exact ih p' e3 (by omega)
  by_cases ho : o.1 = true
  · have hlt := o4.1 ho
    rw [if_pos ho] at hr
    have := loop n o.2.pos t2 (by omega)
    rw [hr]
    exact ⟨this.1, fun _ => this.2, fun h => by omega⟩
  · rw [if_neg ho] at hr
    have hge : d'.length ≤ s.pos := by
      apply Classical.byContradiction; intro h; exact ho (o4.2 (by omega))
    rw [hr]
    refine ⟨?_, fun h => by omega, fun _ => ⟨rfl, o1⟩⟩
    show 10 ∉ d'.drop o.2.pos
    rw [o1, List.drop_eq_nil_of_le hge]
    simp

/-- C37: the lines of a pass carry the flag given by the caller, else the flag of the container: that the end of the file was reached in an
earlier pass, or that only new lines are wanted. -/
theorem C37_in_operation (md5 : Bytes → String) (c : Codec) (now : Int) (f : Option FileState) (io : Option Bool) (rs : List (Bytes × Bool))
    (s : FileContainer) : ∀ x ∈ (s.getFailures md5 c now f io rs).1, x.2 = io.getD s.inOperation := by
  have loop : ∀ (rs : List (Bytes × Bool)) (s : FileContainer) (p : Nat), ∀ x ∈ (readLoop c io rs s p).1, x.2 = io.getD s.inOperation := by
    intro rs
    induction rs with
    | nil => intro s p x hx; cases hx
    | cons y rs ih =>
      obtain ⟨d, a⟩ := y
      intro s p x hx
      unfold readLoop at hx
      dsimp only at hx
      split at hx
      · cases hx
      · split at hx
        · cases hx
        · rcases List.mem_cons.1 hx with e | e
          · rw [e]
          · exact ih _ _ x e
  intro x hx
  unfold getFailures at hx
  cases f with
  | none => cases hx
  | some f =>
    dsimp only at hx
    have ho : (s.open' md5 now f).2.inOperation = s.inOperation := by
      unfold open'
      dsimp only
      simp only [apply_ite FileContainer.inOperation, ite_self]
    split at hx
    · rw [← ho]; exact loop _ _ _ x hx
    · cases hx

/-- C37: if the file is not there, nothing happens. -/
theorem C37_unavailable (md5 : Bytes → String) (c : Codec) (now : Int) (io : Option Bool) (rs : List (Bytes × Bool)) (s : FileContainer) :
    s.getFailures md5 c now none io rs = ([], s) := rfl

/-! ## C38 -/

theorem rstrip_ne_iff_line (d : Bytes) (hcr : d.getLast? ≠ some 13) : rawLine d ≠ rstripNLBytes (rawLine d) ↔ IsLine (rawLine d) := by
  constructor
  · intro h
    rcases rawLine_cases d with h' | ⟨h5, h6⟩
    · exact h'
    · exfalso
      apply h
      symm
      rw [rstripNLBytes_eq_self, h6]
      exact ⟨hcr, fun e => h5 (List.mem_of_getLast? e)⟩
  · intro ⟨x, e, _⟩ h
    have := (rstripNLBytes_eq_self _).1 h.symm
    rw [e] at this
    simp at this

theorem line_iff_mem (d : Bytes) : IsLine (rawLine d) ↔ 10 ∈ d := by
  constructor
  · intro ⟨x, e, _⟩
    obtain ⟨r, hr⟩ := rawLine_append d
    rw [hr, e]; simp
  · intro h
    rcases rawLine_cases d with h' | ⟨h5, _⟩
    · exact h'
    · exact absurd h h5

/-- What is computed as hash of the first line. -/
theorem firstHash_spec (md5 : Bytes → String) (d : Bytes) (hcr : d.getLast? ≠ some 13) (h : String) : FirstLineHash md5 d h ↔ h = firstHash md5 d := by
  unfold firstHash FirstLineHash
  dsimp only
  by_cases hl : IsLine (rawLine d)
  · rw [if_pos ((rstrip_ne_iff_line d hcr).2 hl)]
    constructor
    · rintro (⟨l, r, e, h1, h2⟩ | ⟨h1, _⟩)
      · rw [h2, e, rawLine_of_line h1]
      · exact absurd ((line_iff_mem d).1 hl) h1
    · intro e
      obtain ⟨r, hr⟩ := rawLine_append d
      exact .inl ⟨_, r, hr, hl, e⟩
  · rw [if_neg (fun h => hl ((rstrip_ne_iff_line d hcr).1 h))]
    constructor
    · rintro (⟨l, r, e, h1, _⟩ | ⟨_, h2⟩)
      · exact absurd (by rw [e, rawLine_of_line h1]; exact h1) hl
      · exact h2
    · intro e; exact .inr ⟨fun h => hl ((line_iff_mem d).2 h), e⟩

/-- C38: opening the file, completely. The file is taken for another one if it got shorter than what was read, has another inode, or — looked
at only if the first line was not known or 30 seconds after the last such look — has another first line; then reading restarts at the
beginning, but only if the first line of the old file was known. -/
theorem C38_open (md5 : Bytes → String) (now : Int) (f : FileState) (s : FileContainer) (hcr : f.data.getLast? ≠ some 13) :
    ∃ h, FirstLineHash md5 f.data h ∧
    let moved := f.data.length < s.pos ∨ f.ino ≠ s.ino
    let look := moved ∨ s.hash = "" ∨ s.hashNextTime < now
    s.open' md5 now f =
      (let s1 : FileContainer := { s with
          hashNextTime := if look ∧ 10 ∈ f.data then now + 30 else s.hashNextTime
          hash := if look then h else s.hash
          pos := if s.hash ≠ "" ∧ (moved ∨ look ∧ h ≠ s.hash) then 0 else s.pos
          ino := if s.hash ≠ "" ∧ (moved ∨ look ∧ h ≠ s.hash) then f.ino else s.ino }
       (decide (s1.pos < f.data.length), s1)) := by
  refine ⟨firstHash md5 f.data, (firstHash_spec md5 f.data hcr _).2 rfl, ?_⟩
  dsimp only
  have hm : (rawLine f.data ≠ rstripNLBytes (rawLine f.data)) ↔ 10 ∈ f.data := (rstrip_ne_iff_line _ hcr).trans (line_iff_mem _)
  unfold open'
  dsimp only
  have hlen : s.hash.length = 0 ↔ s.hash = "" := by
    constructor
    · intro h; exact String.length_eq_zero_iff.1 h
    · intro h; rw [h]; rfl
  simp only [Bool.or_eq_true, decide_eq_true_eq, hm, hlen]
  generalize firstHash md5 f.data = H
  obtain ⟨pos, hash, nt, ino, io, wl⟩ := s
  obtain ⟨fi, fd⟩ := f
  dsimp only
  by_cases hmv : fd.length < pos ∨ fi ≠ ino
  · by_cases h10 : 10 ∈ fd <;> by_cases hh : hash = "" <;> simp [hmv, h10, hh, List.length_pos_iff]
  · by_cases hh : hash = ""
    · by_cases h10 : 10 ∈ fd <;> by_cases hH : H = "" <;> simp [hmv, h10, hh, hH]
    · by_cases hn : nt < now
      · by_cases h10 : 10 ∈ fd <;> by_cases hH : H = hash <;> simp [hmv, h10, hh, hH, hn, List.length_pos_iff]
      · simp [hmv, hh, hn]

theorem firstLineHash_unique {md5 : Bytes → String} {d : Bytes} (hcr : d.getLast? ≠ some 13) {h h' : String} (h1 : FirstLineHash md5 d h)
    (h2 : FirstLineHash md5 d h') : h = h' := by
  rw [firstHash_spec md5 d hcr] at h1 h2
  rw [h1, h2]

/-- The file is noticed to be another one. -/
theorem open_restart (md5 : Bytes → String) (now : Int) (f : FileState) (s : FileContainer) (hcr : f.data.getLast? ≠ some 13)
    (hs : s.hash ≠ "")
    (hr : f.data.length < s.pos ∨ f.ino ≠ s.ino ∨ s.hashNextTime < now ∧ ¬ FirstLineHash md5 f.data s.hash) :
    s.open' md5 now f = ({ s with pos := 0, ino := f.ino, hash := "" } : FileContainer).open' md5 now f := by
  obtain ⟨h, h1, h2⟩ := C38_open md5 now f s hcr
  obtain ⟨h', h1', h2'⟩ := C38_open md5 now f { s with pos := 0, ino := f.ino, hash := "" } hcr
  have he := firstLineHash_unique hcr h1 h1'
  subst he
  dsimp only at h2 h2'
  have hc1 : f.data.length < s.pos ∨ f.ino ≠ s.ino ∨ s.hashNextTime < now := by
    rcases hr with h | h | ⟨h, _⟩
    · exact .inl h
    · exact .inr (.inl h)
    · exact .inr (.inr h)
  have hlook : (f.data.length < s.pos ∨ f.ino ≠ s.ino) ∨ s.hash = "" ∨ s.hashNextTime < now := by
    rcases hc1 with h | h | h
    · exact .inl (.inl h)
    · exact .inl (.inr h)
    · exact .inr (.inr h)
  have hrot : s.hash ≠ "" ∧ ((f.data.length < s.pos ∨ f.ino ≠ s.ino) ∨
      ((f.data.length < s.pos ∨ f.ino ≠ s.ino) ∨ s.hash = "" ∨ s.hashNextTime < now) ∧ h ≠ s.hash) := by
    refine ⟨hs, ?_⟩
    rcases hr with h | h | ⟨h3, h4⟩
    · exact .inl (.inl h)
    · exact .inl (.inr h)
    · refine .inr ⟨hlook, fun e => h4 (by rw [← e]; exact h1)⟩
  rw [h2, h2']
  rw [if_pos hlook, if_pos hrot, if_pos hrot]
  by_cases h10 : 10 ∈ f.data
  · rw [if_pos ⟨hlook, h10⟩]; simp [h10]
  · rw [if_neg (fun h => h10 h.2)]; simp [h10]

/-- C38: if the file got shorter than what was read, has another inode, or has another first line (looked at 30 seconds after the last such
look), then from this pass on everything is as for a file just added and not read yet. Not covered: files whose first line was not known,
and another first line noticed too late (both are refuted below). -/
theorem C38_restart_partial (md5 : Bytes → String) (c : Codec) (s : FileContainer) (p : Pass) (ps : List Pass)
    (hcr : p.file.data.getLast? ≠ some 13) (hs : s.hash ≠ "")
    (hr : p.file.data.length < s.pos ∨ p.file.ino ≠ s.ino ∨ s.hashNextTime < p.now ∧ ¬ FirstLineHash md5 p.file.data s.hash) :
    passes md5 c s (p :: ps) = passes md5 c { s with pos := 0, ino := p.file.ino, hash := "" } (p :: ps) := by
  have e : s.getFailures md5 c p.now (some p.file) none (p.reads.map (fun d => (d, true))) =
      FileContainer.getFailures md5 c p.now (some p.file) none (p.reads.map (fun d => (d, true)))
        { s with pos := 0, ino := p.file.ino, hash := "" } := by
    unfold getFailures
    dsimp only
    rw [open_restart md5 p.now p.file s hcr hs hr]
  unfold passes
  rw [e]

/-- C38: the passes over the new file deliver its complete lines from the beginning, each once and in order. -/
theorem C38_from_start_partial {md5 : Bytes → String} {c : Codec} (hc : AsciiEnds c) (s : FileContainer) (hw : s.waitForLineEnd = true)
    (p : Pass) (ps : List Pass) (hino : ∀ q ∈ ps, q.file.ino = p.file.ino) (hg : Grows (contents (p :: ps))) (hcr : NoCREnd (contents (p :: ps)))
    (hs : s.hash ≠ "")
    (hr : p.file.data.length < s.pos ∨ p.file.ino ≠ s.ino ∨ s.hashNextTime < p.now ∧ ¬ FirstLineHash md5 p.file.data s.hash) :
    let r := passes md5 c s (p :: ps)
    let dl := (contents (p :: ps)).getLastD []
    ∃ ls, (∀ l ∈ ls, IsLine l) ∧ Texts c ls r.1 ∧ Tracks md5 r.2 p.file.ino dl ∧ dl.take r.2.pos = ls.flatten := by
  have hcr0 : p.file.data.getLast? ≠ some 13 := hcr _ (by simp [contents])
  dsimp only
  rw [C38_restart_partial md5 c s p ps hcr0 hs hr]
  obtain ⟨ls, h1, h2, _, h4, h5⟩ := C37_exactly_once_partial hc { s with pos := 0, ino := p.file.ino, hash := "" } p.file.ino []
    ⟨rfl, Nat.zero_le _, hw, .inl rfl⟩ (p :: ps)
    (fun q hq => by
      rcases List.mem_cons.1 hq with e | e
      · rw [e]
      · exact hino q e)
    (List.pairwise_cons.2 ⟨fun x _ => List.nil_prefix, hg⟩) hcr
  exact ⟨ls, h1, h2, h4, by rw [h5]; simp⟩

/-- C38: otherwise reading continues where it stopped. -/
theorem C38_continue (md5 : Bytes → String) (now : Int) (f : FileState) (s : FileContainer) (hcr : f.data.getLast? ≠ some 13)
    (h1 : s.pos ≤ f.data.length) (h2 : f.ino = s.ino) (h3 : s.hash = "" ∨ now ≤ s.hashNextTime ∨ FirstLineHash md5 f.data s.hash) :
    (s.open' md5 now f).2.pos = s.pos ∧ (s.open' md5 now f).2.ino = s.ino ∧ ((s.open' md5 now f).1 = true ↔ s.pos < f.data.length) ∧
      (s.hash ≠ "" → (s.open' md5 now f).2.hash = s.hash) := by
  obtain ⟨h, e1, e2⟩ := C38_open md5 now f s hcr
  dsimp only at e2
  have hn : ¬ (s.hash ≠ "" ∧ ((f.data.length < s.pos ∨ f.ino ≠ s.ino) ∨
      ((f.data.length < s.pos ∨ f.ino ≠ s.ino) ∨ s.hash = "" ∨ s.hashNextTime < now) ∧ h ≠ s.hash)) := by
    rintro ⟨a1, a2⟩
    rcases a2 with (a | a) | ⟨(a | a) | a | a, b⟩
    · omega
    · exact a h2
    · omega
    · exact a h2
    · exact a1 a
    · rcases h3 with h3 | h3 | h3
      · exact a1 h3
      · omega
      · exact b (firstLineHash_unique hcr e1 h3)
  rw [e2, if_neg hn, if_neg hn]
  refine ⟨rfl, rfl, by simp, fun hne => ?_⟩
  show (if _ then _ else _) = _
  split
  · rename_i hl
    rcases h3 with h3 | h3 | h3
    · exact absurd h3 hne
    · rcases hl with (a | a) | a | a
      · omega
      · exact absurd h2 a
      · exact absurd a hne
      · omega
    · exact firstLineHash_unique hcr e1 h3
  · rfl

/-- C38: after a pass over a file with a complete line its first line is known. -/
theorem C38_known (md5 : Bytes → String) (hmd : ∀ b, md5 b ≠ "") (c : Codec) (now : Int) (f : FileState) (io : Option Bool) (rs : List (Bytes × Bool))
    (s : FileContainer) (hcr : f.data.getLast? ≠ some 13) (h10 : 10 ∈ f.data) :
    (s.getFailures md5 c now (some f) io rs).2.hash ≠ "" ∧ (s.getFailures md5 c now (some f) io rs).2.hashNextTime ≤ max s.hashNextTime (now + 30) := by
  obtain ⟨h, e1, e2⟩ := C38_open md5 now f s hcr
  dsimp only at e2
  have hh : h ≠ "" := by
    rcases e1 with ⟨l, r, _, _, e⟩ | ⟨e, _⟩
    · rw [e]; exact hmd l
    · exact absurd h10 e
  have ho : (s.open' md5 now f).2.hash ≠ "" ∧ (s.open' md5 now f).2.hashNextTime ≤ max s.hashNextTime (now + 30) := by
    rw [e2]
    constructor
    · show (if _ then _ else _) ≠ _
      split
      · exact hh
      · rename_i hl
        exact fun e => hl (.inr (.inl e))
    · show (if _ then _ else _) ≤ _
      split
      · exact Int.le_max_right _ _
      · exact Int.le_max_left _ _
  unfold getFailures
  dsimp only
  split
  · obtain ⟨c1, _, _, c4, _⟩ := readLoop_cfg c io rs (s.open' md5 now f).2 (s.open' md5 now f).2.pos
    dsimp only
    rw [c1, c4]
    exact ho
  · exact ho

/-! ## C29 -/

/-- C29: a log added to a jail known to the database starts at the stored position exactly if it was stored with the same first line and
not only new lines are wanted. -/
theorem C29_add (md5 : Bytes → String) (now : Int) (f : FileState) (tail : Bool) (jail path : String) (db : Db) (h : String) (q : Nat)
    (hl : db.logs.get? (jail, path) = some (some h, (q : Int))) (hcr : f.data.getLast? ≠ some 13) :
    let r := addLogPath md5 now f tail jail path (some db)
    r.1.pos = (if tail then f.data.length else open Classical in if FirstLineHash md5 f.data h then q else 0) ∧
    r.2 = some db ∧ r.1.ino = f.ino ∧ FirstLineHash md5 f.data r.1.hash ∧ r.1.inOperation = tail := by
  have hh : FirstLineHash md5 f.data (new md5 now f tail).hash := by
    rw [firstHash_spec md5 f.data hcr]
    show (if f.data.length ≠ 0 then firstHash md5 f.data else "") = _
    split
    · rfl
    · rename_i h0
      have : f.data = [] := List.eq_nil_of_length_eq_zero (by omega)
      rw [this]; rfl
  have hp := (C37_start md5 now f tail hcr).2.1
  have hadd : db.addLog jail path (new md5 now f tail).pos (some (new md5 now f tail).hash) =
      (some (if (new md5 now f tail).hash = h then some (q : Int) else none), db) := by
    unfold Db.addLog
    simp only [hl]
    have e0 : ¬ ((some (some h, (q : Int)) : Option (Option String × Int)).bind Prod.fst = none ∧
        (((new md5 now f tail).pos : Int) ≠ 0 ∨ some (new md5 now f tail).hash ≠ none)) := by
      rintro ⟨h, _⟩; cases h
    rw [if_neg e0]
    by_cases e : (new md5 now f tail).hash = h
    · rw [if_pos e, if_neg (by simp [e])]; rfl
    · rw [if_neg e, if_pos ⟨by simp, by simpa using e⟩]
  have hiff : FirstLineHash md5 f.data h ↔ (new md5 now f tail).hash = h := by
    constructor
    · exact fun h' => firstLineHash_unique hcr hh h'
    · intro e; rw [← e]; exact hh
  have hno : (new md5 now f tail).ino = f.ino ∧ (new md5 now f tail).inOperation = tail := ⟨rfl, rfl⟩
  unfold addLogPath
  dsimp only
  rw [hadd]
  generalize new md5 now f tail = S at *
  by_cases e : S.hash = h
  · rw [if_pos e]
    dsimp only
    rw [if_pos (hiff.2 e)]
    cases tail
    · by_cases hq : (q : Int) = 0
      · simp only [hq, ne_eq, not_true_eq_false, false_and, if_false]
        refine ⟨?_, trivial, hno.1, hh, hno.2⟩
        rw [hp]; simp; omega
      · simp only [hq, ne_eq, not_false_eq_true, true_and, Bool.not_false, if_true]
        exact ⟨by simp, hno.1, hh, hno.2⟩
    · simp only [Bool.not_true, Bool.false_eq_true, and_false, if_false, if_true]
      exact ⟨by rw [hp]; rfl, trivial, hno.1, hh, hno.2⟩
  · rw [if_neg e]
    dsimp only
    rw [if_neg (fun h' => e (hiff.1 h'))]
    exact ⟨hp, rfl, hno.1, hh, hno.2⟩

/-- C29: a log not stored yet starts at the beginning, or at its end if only new lines are wanted; so without a database. -/
theorem C29_add_unknown (md5 : Bytes → String) (now : Int) (f : FileState) (tail : Bool) (jail path : String) (db : Option Db)
    (hl : ∀ d, db = some d → d.logs.get? (jail, path) = none) :
    (addLogPath md5 now f tail jail path db).1 = new md5 now f tail := by
  unfold addLogPath
  dsimp only
  cases db with
  | none => rfl
  | some d =>
    have := hl d rfl
    dsimp only
    have e : (d.addLog jail path (new md5 now f tail).pos (some (new md5 now f tail).hash)).1 = some none ∨
        (d.addLog jail path (new md5 now f tail).pos (some (new md5 now f tail).hash)).1 = none := by
      unfold Db.addLog
      simp only [this]
      rw [if_pos ⟨rfl, .inr (by simp)⟩]
      split
      · left; simp
      · right; rfl
    rcases hx : d.addLog jail path (new md5 now f tail).pos (some (new md5 now f tail).hash) with ⟨x, d'⟩
    rw [hx] at e
    dsimp only at e
    rcases e with e | e <;> rw [e]

/-- C37, C29: lines are delivered exactly once across a restart: passes `ps`, the position stored in the database, anything else happening to the
database (no purge while the jail is not enabled), the log added again, passes `ps'`. Not covered: a first line not complete yet when the
file was opened the last time before the restart (refuted below). -/
theorem C37_restart_partial {md5 : Bytes → String} {c : Codec} (hc : AsciiEnds c) (s : FileContainer) (ino ino' : Nat) (d : Bytes)
    (hs : Tracks md5 s ino d) (ps ps' : List Pass) (hino : ∀ p ∈ ps, p.file.ino = ino) (hino' : ∀ p ∈ ps', p.file.ino = ino')
    (now : Int) (f : FileState) (hf : f.ino = ino')
    (hg : Grows (d :: contents ps ++ f.data :: contents ps')) (hcr : NoCREnd (contents ps ++ f.data :: contents ps'))
    (jail path : String) (db : Db) (pre post : List Db.Op) (hj : jail ∈ (db.run pre).jails.keys)
    (hu : ∀ op ∈ post, ∀ q m, op ≠ .updateLog jail path q m)
    (hhash : (passes md5 c s ps).2.hash ≠ "")
    (hp : ∀ a b now, post = a ++ .purge now :: b →
      (Db.run ((passes md5 c s ps).2.store jail path (db.run pre)) a).jails.get? jail = some true) :
    let r := passes md5 c s ps
    let s' := (addLogPath md5 now f false jail path (some (Db.run (r.2.store jail path (db.run pre)) post))).1
    let r' := passes md5 c s' ps'
    let dl := (contents ps').getLastD f.data
    ∃ ls, (∀ l ∈ ls, IsLine l) ∧ Texts c ls (r.1 ++ r'.1) ∧ s.pos ≤ r'.2.pos ∧ Tracks md5 r'.2 ino' dl ∧
      dl.take r'.2.pos = dl.take s.pos ++ ls.flatten := by
  intro r s' r' dl
  have hg1 : Grows (d :: contents ps) := (List.pairwise_append.1 hg).1
  obtain ⟨l1, a1, a2, a3, a4, a5⟩ := C37_exactly_once_partial hc s ino d hs ps hino hg1 (fun x hx => hcr x (List.mem_append_left _ hx))
  have hg2 : Grows (f.data :: contents ps') := (List.pairwise_append.1 hg).2.1
  have hcrf : f.data.getLast? ≠ some 13 := hcr _ (by simp)
  -- the content known before the restart is a beginning of the content found
  have hpre : (contents ps).getLastD d <+: f.data := by
    apply (List.pairwise_append.1 hg).2.2
    · cases hl : (contents ps).getLast? with
      | none => rw [List.getLastD_eq_getLast?, hl]; exact List.mem_cons_self ..
      | some x => rw [List.getLastD_eq_getLast?, hl]; exact List.mem_cons_of_mem _ (List.mem_of_getLast? hl)
    · exact List.mem_cons_self ..
  -- the stored position
  have hrun : Db.run (r.2.store jail path (db.run pre)) post
      = db.run (pre ++ .updateLog jail path r.2.pos (some r.2.hash) :: post) := by
    rw [Db.run_append]; rfl
  have hstored : (Db.run (r.2.store jail path (db.run pre)) post).logs.get? (jail, path) = some (some r.2.hash, (r.2.pos : Int)) := by
    rw [hrun]
    apply C29_stored db pre post jail path r.2.pos r.2.hash hj hu
    intro a b now' e
    have := hp a b now' e
    rw [Db.run_append]
    exact this
  obtain ⟨b1, _, b3, b4, _⟩ := C29_add md5 now f false jail path _ r.2.hash r.2.pos hstored hcrf
  have hfl : FirstLineHash md5 f.data r.2.hash := by
    rcases a4.2.2.2 with h | ⟨l, t, h1, h2, h3⟩
    · exact absurd h hhash
    · obtain ⟨y, hy⟩ := hpre
      exact .inl ⟨l, t ++ y, by rw [← hy, h1, List.append_assoc], h2, h3⟩
  rw [if_neg (by simp), if_pos hfl] at b1
  have hw : s'.waitForLineEnd = true := by
    show (addLogPath md5 now f false jail path _).1.waitForLineEnd = true
    unfold addLogPath
    dsimp only
    split
    · split <;> rfl
    · rfl
  have htr : Tracks md5 s' ino' f.data := by
    refine ⟨by rw [← hf]; exact b3, ?_, hw, ?_⟩
    · rw [show s'.pos = r.2.pos from b1]
      exact Nat.le_trans a4.2.1 hpre.length_le
    · rcases b4 with h | ⟨_, h⟩
      · exact .inr h
      · exact .inl h
  obtain ⟨l2, c1, c2, c3, c4, c5⟩ := C37_exactly_once_partial hc s' ino' f.data htr ps' hino' hg2
    (fun x hx => hcr x (List.mem_append_right _ (List.mem_cons_of_mem _ hx)))
  have hpl : f.data <+: dl := getLastD_prefix _ _ hg2
  rw [show s'.pos = r.2.pos from b1] at c3 c5
  refine ⟨l1 ++ l2, ?_, Texts.append a2 c2, Nat.le_trans a3 c3, c4, ?_⟩
  · intro l hl
    rcases List.mem_append.1 hl with h | h
    · exact a1 l h
    · exact c1 l h
  · show dl.take r'.2.pos = _
    rw [c5, List.flatten_append, ← List.append_assoc]
    congr 1
    rw [take_of_prefix (List.IsPrefix.trans hpre hpl) a4.2.1, a5]
    rw [take_of_prefix (List.IsPrefix.trans hpre hpl) (Nat.le_trans a3 a4.2.1)]

/-! ## What does not hold, and examples -/

namespace LogFileExample

/-- bytes of an ASCII text -/
def bytes (s : String) : Bytes := s.toList.map (fun ch => UInt8.ofNat ch.toNat)

/-- for examples: an injective "hash" -/
def sum (b : Bytes) : String := String.ofList ('h' :: b.map (fun x => Char.ofNat x.toNat))

/-- the texts delivered by passes over contents of a file with the same inode, each content looked at six times -/
def deliver (s : FileContainer) (cs : List (Int × Nat × String)) : List String × FileContainer :=
  let r := passes sum latin1 s (cs.map (fun x => ⟨x.1, ⟨x.2.1, bytes x.2.2⟩, List.replicate 6 (bytes x.2.2)⟩))
  (r.1.map String.ofList, r.2)

end LogFileExample

open LogFileExample

-- three passes: nothing complete, two lines, the rest
example : (deliver (new sum 0 ⟨7, []⟩ false) [(1, 7, "on"), (2, 7, "one\r\ntwo\nth"), (3, 7, "one\r\ntwo\nthree\n")]).1 = ["one", "two", "three"] := by
  decide +kernel

-- UTF-8: an invalid sequence is replaced, the line is delivered
example : (passes sum utf8 (new sum 0 ⟨7, []⟩ false) [⟨1, ⟨7, [0xC3, 0xA4, 0xE2, 10]⟩, [[0xC3, 0xA4, 0xE2, 10], [0xC3, 0xA4, 0xE2, 10]]⟩]).1
    = [['ä', '�']] := by decide +kernel

-- tail: only what is appended
example : (deliver (new sum 0 ⟨7, bytes "old\n"⟩ true) [(1, 7, "old\nnew\n")]).1 = ["new"] := by decide +kernel

-- rotation: another inode; truncation; another first line after 31 seconds
example : (deliver (new sum 0 ⟨7, bytes "a\n"⟩ false) [(1, 7, "a\n"), (2, 8, "b\nc\n")]).1 = ["a", "b", "c"] := by decide +kernel
example : (deliver (new sum 0 ⟨7, bytes "a\nb\n"⟩ false) [(1, 7, "a\nb\n"), (2, 7, "c\n")]).1 = ["a", "b", "c"] := by decide +kernel
example : (deliver (new sum 0 ⟨7, bytes "a\n"⟩ false) [(1, 7, "a\n"), (31, 7, "b\nc\n")]).1 = ["a", "b", "c"] := by decide +kernel

/-- C38 fails for another first line within 30 seconds after the first line was looked at: the file is rewritten in place, and what stands
before the old position is never delivered. -/
theorem C38_refuted_30s : ∃ (s : FileContainer) (f : FileState) (now : Int), FirstLineHash sum (bytes "a\n") s.hash ∧ s.pos = 2 ∧ f.ino = s.ino ∧ f.data = bytes "b\nc\n" ∧
    (deliver s [(now, f.ino, "b\nc\n")]).1 = ["c"] :=
  ⟨(deliver (new sum 0 ⟨7, bytes "a\n"⟩ false) [(1, 7, "a\n")]).2, ⟨7, bytes "b\nc\n"⟩, 30,
    .inl ⟨bytes "a\n", [], by decide +kernel, ⟨bytes "a", by decide +kernel, by decide +kernel⟩, by decide +kernel⟩,
    by decide +kernel, by decide +kernel, rfl, by decide +kernel⟩

/-- C38 fails if the first line of the old file was not complete (here: added to read new lines only): the new file, with another inode, is
read from the middle, and then, with its first line known now, a second time from the beginning. -/
theorem C38_refuted_no_hash :
    let s := new sum 0 ⟨7, bytes "ab"⟩ true
    s.pos = 2 ∧ (deliver s [(1, 8, "x\ny\n")]).1 = ["y"] ∧ (deliver s [(1, 8, "x\ny\n"), (2, 8, "x\ny\n")]).1 = ["y", "x", "y"] := by
  decide +kernel

/-- C37 fails if the file is looked at between the two characters of CR LF: the line is delivered, and then an empty line. -/
theorem C37_refuted_cr :
    (deliver (new sum 0 ⟨7, bytes "a\n"⟩ false) [(1, 7, "a\nb\r"), (2, 7, "a\nb\r\nc\n")]).1 = ["a", "b", "", "c"] := by
  decide +kernel

/-- C37 fails if the first line is looked at between the two characters of CR LF: the file is taken for another one, the line is delivered
twice. -/
theorem C37_refuted_cr_first :
    (deliver (new sum 0 ⟨7, bytes "a\r"⟩ false) [(1, 7, "a\r"), (31, 7, "a\r\nc\n")]).1 = ["a", "a", "c"] := by
  decide +kernel

/-- C37 fails if the filter is stopped during a pass: the line just read is not delivered, and the position stored is behind it. -/
theorem C37_refuted_stop :
    let s := new sum 0 ⟨7, bytes "a\nb\n"⟩ false
    let r := s.getFailures sum latin1 1 (some ⟨7, bytes "a\nb\n"⟩) none [(bytes "a\nb\n", false)]
    r.1 = [] ∧ r.2.pos = 2 ∧ (deliver r.2 [(2, 7, "a\nb\n")]).1 = ["b"] := by
  decide +kernel

/-- C37 fails across a restart if the first line was completed only after the file was opened the last time: it is delivered twice. -/
theorem C37_refuted_restart :
    let db := Db.init.addJail "j"
    let a := addLogPath sum 0 ⟨7, []⟩ false "j" "/log" (some db)
    let r := passes sum latin1 a.1 [⟨1, ⟨7, bytes "a"⟩, [bytes "a\n"]⟩]
    let b := addLogPath sum 2 ⟨7, bytes "a\n"⟩ false "j" "/log" (some (r.2.store "j" "/log" (a.2.getD db)))
    r.1 = [['a']] ∧ r.2.pos = 2 ∧ (deliver b.1 [(3, 7, "a\n")]).1 = ["a"] := by
  decide +kernel

-- restart: continued at the stored position, from the beginning if the first line is another one, at the end if only new lines are wanted
example :
    let db := Db.init.addJail "j"
    let a := addLogPath sum 0 ⟨7, bytes "a\n"⟩ false "j" "/log" (some db)
    let r := deliver a.1 [(1, 7, "a\nb\n")]
    let db := r.2.store "j" "/log" (a.2.getD db)
    r.1 = ["a", "b"] ∧ (deliver (addLogPath sum 9 ⟨7, bytes "a\nb\nc\n"⟩ false "j" "/log" (some db)).1 [(9, 7, "a\nb\nc\n")]).1 = ["c"] ∧
    (deliver (addLogPath sum 9 ⟨8, bytes "d\nb\nc\n"⟩ false "j" "/log" (some db)).1 [(9, 8, "d\nb\nc\n")]).1 = ["d", "b", "c"] ∧
    (deliver (addLogPath sum 9 ⟨7, bytes "a\nb\nc\n"⟩ true "j" "/log" (some db)).1 [(9, 7, "a\nb\nc\nd\n")]).1 = ["d"] := by
  decide +kernel

end Verif
