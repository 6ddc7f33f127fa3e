import Verif.Spec.Inotify

/-!
# Monitoring by notification — lemmas
-/

namespace Verif.Inotify

open Verif.InotifySpec

/-! ## Elementary operations -/

theorem get?_addPending (s : Filter) (p q : String) (d : Option Bool) :
    (s.addPending p d).pending.get? q = if q = p ∧ s.pending.get? p = none then some (interval, d) else s.pending.get? q := by
  unfold Filter.addPending
  cases h : s.pending.get? p with
  | none =>
    have : s.pending.contains p = false := by simp [Dict.contains, h]
    simp [this, Dict.get?_insert]
  | some v =>
    have : s.pending.contains p = true := by simp [Dict.contains, h]
    simp [this]

theorem addPending_frame (s : Filter) (p : String) (d : Option Bool) :
    (s.addPending p d).files = s.files ∧ (s.addPending p d).dirs = s.dirs ∧ (s.addPending p d).idle = s.idle ∧
    (s.addPending p d).out = s.out ∧ (s.addPending p d).chkTime = s.chkTime ∧ (s.addPending p d).active = s.active := by
  unfold Filter.addPending; split <;> simp

theorem get?_delPending (s : Filter) (p q : String) : (s.delPending p).pending.get? q = if q = p then none else s.pending.get? q := by
  simp [Filter.delPending, Dict.get?_erase]

theorem process_frame (s : Filter) (p : String) : (s.process p).files = s.files ∧ (s.process p).dirs = s.dirs ∧ (s.process p).idle = s.idle ∧
    (s.process p).pending = s.pending ∧ (s.process p).chkTime = s.chkTime ∧ (s.process p).minTime = s.minTime ∧
    (s.process p).out = s.out ++ (if s.idle then [] else [.process p]) ∧ (s.process p).active = s.active := by
  unfold Filter.process; split <;> simp_all

theorem addDir_frame (s : Filter) (d : String) : (s.addDir d).files = s.files ∧ (s.addDir d).idle = s.idle ∧
    (s.addDir d).pending = s.pending ∧ (s.addDir d).chkTime = s.chkTime ∧ (s.addDir d).minTime = s.minTime ∧ (s.addDir d).active = s.active ∧
    (∀ q, q ∈ (s.addDir d).dirs ↔ q ∈ s.dirs ∨ q = d) ∧ (s.addDir d).out = s.out ++ (if d ∈ s.dirs then [] else [.watchDir d]) := by
  unfold Filter.addDir; split <;> simp_all

theorem delDir_frame (s : Filter) (d : String) : (s.delDir d).files = s.files ∧ (s.delDir d).idle = s.idle ∧
    (s.delDir d).pending = s.pending ∧ (s.delDir d).chkTime = s.chkTime ∧ (s.delDir d).minTime = s.minTime ∧ (s.delDir d).active = s.active ∧
    (∀ q, q ∈ (s.delDir d).dirs ↔ q ∈ s.dirs ∧ q ≠ d) ∧ (s.delDir d).out = s.out ++ (if d ∈ s.dirs then [.unwatchDir d] else []) := by
  unfold Filter.delDir
  split
  · simp_all
  · simp_all
    intro q hq e; subst e; contradiction

theorem addFile_frame (ps : Paths) (s : Filter) (p : String) : (s.addFile ps p).idle = s.idle ∧
    (s.addFile ps p).pending = s.pending ∧ (s.addFile ps p).chkTime = s.chkTime ∧ (s.addFile ps p).minTime = s.minTime ∧ (s.addFile ps p).active = s.active ∧
    (∀ q, q ∈ (s.addFile ps p).dirs ↔ q ∈ s.dirs ∨ q = ps.dirname p) ∧ (∀ q, q ∈ (s.addFile ps p).files ↔ q ∈ s.files ∨ q = p) ∧
    (s.addFile ps p).out = s.out ++ (if ps.dirname p ∈ s.dirs then [.watchFile p] else [.watchDir (ps.dirname p), .watchFile p]) := by
  obtain ⟨h1, h2, h3, h4, h5, h6, h7, h8⟩ := addDir_frame s (ps.dirname p)
  unfold Filter.addFile
  dsimp only
  refine ⟨h2, h3, h4, h5, h6, h7, ?_, ?_⟩
  · intro q; rw [h1]; split
    · constructor
      · exact Or.inl
      · rintro (h | h)
        · exact h
        · subst h; assumption
    · simp
  · rw [h8]; split <;> simp

theorem delFile_frame (s : Filter) (p : String) : (s.delFile p).dirs = s.dirs ∧ (s.delFile p).idle = s.idle ∧
    (s.delFile p).pending = s.pending ∧ (s.delFile p).chkTime = s.chkTime ∧ (s.delFile p).minTime = s.minTime ∧ (s.delFile p).active = s.active ∧
    (∀ q, q ∈ (s.delFile p).files ↔ q ∈ s.files ∧ q ≠ p) ∧ (s.delFile p).out = s.out ++ (if p ∈ s.files then [.unwatchFile p] else []) := by
  unfold Filter.delFile
  split
  · simp_all
  · simp_all
    intro q hq e; subst e; contradiction

/-- Renewing the watch of a file. -/
theorem refresh_file (ps : Paths) (s : Filter) (p : String) (hf : p ∈ s.files) (hd : ps.dirname p ∈ s.dirs) :
    (s.refresh ps p false).idle = s.idle ∧ (s.refresh ps p false).pending = s.pending ∧ (s.refresh ps p false).chkTime = s.chkTime ∧
    (s.refresh ps p false).minTime = s.minTime ∧ (∀ q, q ∈ (s.refresh ps p false).dirs ↔ q ∈ s.dirs) ∧ (∀ q, q ∈ (s.refresh ps p false).files ↔ q ∈ s.files) ∧
    (s.refresh ps p false).out = s.out ++ [.unwatchFile p, .watchFile p] := by
  obtain ⟨a1, a2, a3, a4, a5, a6, a7, a8⟩ := delFile_frame s p
  obtain ⟨b1, b2, b3, b4, b5, b6, b7, b8⟩ := addFile_frame ps (s.delFile p) p
  simp only [Filter.refresh, Bool.false_eq_true, if_false]
  refine ⟨b1.trans a2, b2.trans a3, b3.trans a4, b4.trans a5, ?_, ?_, ?_⟩
  · intro q; rw [b6, a1]
    constructor
    · rintro (h | h)
      · exact h
      · subst h; exact hd
    · exact Or.inl
  · intro q; rw [b7, a7]
    constructor
    · rintro (h | h)
      · exact h.1
      · subst h; exact hf
    · intro h; by_cases e : q = p
      · exact Or.inr e
      · exact Or.inl ⟨h, e⟩
  · rw [b8, a8, a1]; simp [hf, hd]

/-- Renewing the watch of a directory. -/
theorem refresh_dir (ps : Paths) (s : Filter) (p : String) (hd : p ∈ s.dirs) :
    (s.refresh ps p true).idle = s.idle ∧ (s.refresh ps p true).pending = s.pending ∧ (s.refresh ps p true).chkTime = s.chkTime ∧
    (s.refresh ps p true).minTime = s.minTime ∧ (∀ q, q ∈ (s.refresh ps p true).dirs ↔ q ∈ s.dirs) ∧ (s.refresh ps p true).files = s.files ∧
    (s.refresh ps p true).out = s.out ++ [.unwatchDir p, .watchDir p] := by
  obtain ⟨a1, a2, a3, a4, a5, a6, a7, a8⟩ := delDir_frame s p
  obtain ⟨b1, b2, b3, b4, b5, b6, b7, b8⟩ := addDir_frame (s.delDir p) p
  simp only [Filter.refresh, if_true]
  refine ⟨b2.trans a2, b3.trans a3, b4.trans a4, b5.trans a5, ?_, b1.trans a1, ?_⟩
  · intro q; rw [b7, a7]
    constructor
    · rintro (h | h)
      · exact h.1
      · subst h; exact hd
    · intro h; by_cases e : q = p
      · exact Or.inr e
      · exact Or.inl ⟨h, e⟩
  · rw [b8, a8]
    have : p ∉ (s.delDir p).dirs := by rw [a7]; simp
    simp [hd, this]

theorem nodup_snoc {l : List String} {p : String} (h : l.Nodup) (hp : p ∉ l) : (l ++ [p]).Nodup := by
  rw [List.nodup_append]
  refine ⟨h, by simp, ?_⟩
  intro a ha b hb e
  rw [List.mem_singleton] at hb
  subst hb; subst e; exact hp ha

theorem nodup_addFile (ps : Paths) (s : Filter) (p : String) (h : s.files.Nodup) : (s.addFile ps p).files.Nodup := by
  have e := (addDir_frame s (ps.dirname p)).1
  unfold Filter.addFile
  dsimp only
  rw [e]
  split
  · exact h
  · exact nodup_snoc h (by assumption)

theorem nodup_delFile (s : Filter) (p : String) (h : s.files.Nodup) : (s.delFile p).files.Nodup := by
  unfold Filter.delFile
  split
  · exact List.Sublist.nodup List.filter_sublist h
  · exact h

theorem nodup_refresh (ps : Paths) (s : Filter) (p : String) (h : s.files.Nodup) : (s.refresh ps p false).files.Nodup := by
  simp only [Filter.refresh, Bool.false_eq_true, if_false]
  exact nodup_addFile ps _ p (nodup_delFile s p h)

/-! ## The loop over pending paths -/

/-- delay after a check at which a path was not found -/
def longer (r : Int) : Int := if r < minute then r * 2 else r

theorem loop_spec (fs : Fs) (el : Int) (l : List (String × (Int × Option Bool))) (hn : (l.map Prod.fst).Nodup) (a : Loop) :
    (l.foldl (loopStep fs el) a).found = a.found ++ (l.filter (fun x => decide (x.2.1 ≤ el ∧ Present fs x.1 x.2.2))).map (fun x => (x.1, x.2.2)) ∧
    (∀ q, (l.foldl (loopStep fs el) a).pending.get? q =
      match Dict.lookup q l with
      | some (r, d) => if r ≤ el ∧ ¬ Present fs q d then some (longer r, d) else a.pending.get? q
      | none => a.pending.get? q) ∧
    (l.foldl (loopStep fs el) a).minTime ≤ a.minTime ∧
    (∀ q r d, (q, (r, d)) ∈ l → (el < r → (l.foldl (loopStep fs el) a).minTime ≤ r) ∧
      (r ≤ el → ¬ Present fs q d → (l.foldl (loopStep fs el) a).minTime ≤ longer r)) ∧
    ((l.foldl (loopStep fs el) a).minTime = a.minTime ∨ ∃ q r d, (q, (r, d)) ∈ l ∧
      ((el < r ∧ (l.foldl (loopStep fs el) a).minTime = r) ∨ (r ≤ el ∧ ¬ Present fs q d ∧ (l.foldl (loopStep fs el) a).minTime = longer r))) := by
  induction l generalizing a with
  | nil => simp [Dict.lookup]
  | cons x l ih =>
    obtain ⟨p, r, d⟩ := x
    simp only [List.map_cons, List.nodup_cons] at hn
    obtain ⟨i1, i2, i3, i4, i5⟩ := ih hn.2 (loopStep fs el a (p, (r, d)))
    have hl : Dict.lookup p l = none := (Dict.lookup_eq_none_iff p l).2 hn.1
    rw [List.foldl_cons]
    generalize hF : l.foldl (loopStep fs el) (loopStep fs el a (p, (r, d))) = F at *
    have hP : (if d = some true then fs.isdir p else fs.isfile p) = true ↔ Present fs p d := by unfold Present; split <;> rfl
    by_cases h1 : el < r
    · have e : loopStep fs el a (p, (r, d)) = { a with minTime := if a.minTime > r then r else a.minTime } := by simp [loopStep, h1]
      rw [e] at i1 i2 i3 i5
      dsimp only at i1 i2 i3 i5
      have h1' : ¬ r ≤ el := by omega
      refine ⟨?_, ?_, ?_, ?_, ?_⟩
      · rw [i1]; simp [h1']
      · intro q; rw [i2]
        by_cases hq : p = q
        · subst hq; simp [Dict.lookup, hl, h1']
        · simp [Dict.lookup, hq]
      · split at i3 <;> omega
      · intro q r' d' hm
        rcases List.mem_cons.1 hm with hm | hm
        · injection hm with _ hm; injection hm with hm _; subst hm
          refine ⟨fun _ => ?_, fun h => absurd h h1'⟩
          split at i3 <;> omega
        · exact i4 q r' d' hm
      · rcases i5 with h | ⟨q, r', d', hm, h⟩
        · split at h
          · exact Or.inr ⟨p, r, d, List.mem_cons_self .., Or.inl ⟨h1, h⟩⟩
          · exact Or.inl h
        · exact Or.inr ⟨q, r', d', List.mem_cons_of_mem _ hm, h⟩
    · have h1' : r ≤ el := by omega
      by_cases h2 : Present fs p d
      · have e : loopStep fs el a (p, (r, d)) = { a with found := a.found ++ [(p, d)] } := by simp [loopStep, h1, hP.2 h2]
        rw [e] at i1 i2 i3 i5
        dsimp only at i1 i2 i3 i5
        refine ⟨?_, ?_, i3, ?_, ?_⟩
        · rw [i1]; simp [h1', h2]
        · intro q; rw [i2]
          by_cases hq : p = q
          · subst hq; simp [Dict.lookup, hl, h2]
          · simp [Dict.lookup, hq]
        · intro q r' d' hm
          rcases List.mem_cons.1 hm with hm | hm
          · injection hm with hm0 hm; injection hm with hm1 hm2; subst hm0; subst hm1; subst hm2
            exact ⟨fun h => absurd h h1, fun _ h => absurd h2 h⟩
          · exact i4 q r' d' hm
        · rcases i5 with h | ⟨q, r', d', hm, h⟩
          · exact Or.inl h
          · exact Or.inr ⟨q, r', d', List.mem_cons_of_mem _ hm, h⟩
      · have hP' : (if d = some true then fs.isdir p else fs.isfile p) = false := by
          cases h : (if d = some true then fs.isdir p else fs.isfile p)
          · rfl
          · exact absurd (hP.1 h) h2
        have e : loopStep fs el a (p, (r, d)) = { a with pending := a.pending.insert p (longer r, d), minTime := if a.minTime > longer r then longer r else a.minTime } := by
          simp [loopStep, h1, hP', longer]
        rw [e] at i1 i2 i3 i5
        dsimp only at i1 i2 i3 i5
        refine ⟨?_, ?_, ?_, ?_, ?_⟩
        · rw [i1]; simp [h2]
        · intro q; rw [i2]
          by_cases hq : p = q
          · subst hq; simp [Dict.lookup, hl, h1', h2]
          · simp [Dict.lookup, hq, Dict.get?_insert_ne _ (fun h => hq h.symm)]
        · split at i3 <;> omega
        · intro q r' d' hm
          rcases List.mem_cons.1 hm with hm | hm
          · injection hm with hm0 hm; injection hm with hm1 hm2; subst hm0; subst hm1; subst hm2
            refine ⟨fun h => absurd h h1, fun _ _ => ?_⟩
            split at i3 <;> omega
          · exact i4 q r' d' hm
        · rcases i5 with h | ⟨q, r', d', hm, h⟩
          · split at h
            · exact Or.inr ⟨p, r, d, List.mem_cons_self .., Or.inr ⟨h1', h2, h⟩⟩
            · exact Or.inl h
          · exact Or.inr ⟨q, r', d', List.mem_cons_of_mem _ hm, h⟩

/-! ## Paths found -/

/-- Files and their directories. -/
structure Files (ps : Paths) (s : Filter) : Prop where
  nodup : s.files.Nodup
  dir : ∀ f, f ∈ s.files → ps.dirname f ∈ s.dirs

/-- A state with the same files, directories and settings. -/
structure Like (s s' : Filter) : Prop where
  files : ∀ q, q ∈ s'.files ↔ q ∈ s.files
  dirs : ∀ q, q ∈ s'.dirs ↔ q ∈ s.dirs
  idle : s'.idle = s.idle
  chk : s'.chkTime = s.chkTime
  nodup : s.files.Nodup → s'.files.Nodup

theorem Like.refl (s : Filter) : Like s s := ⟨fun _ => Iff.rfl, fun _ => Iff.rfl, rfl, rfl, id⟩

theorem Like.trans {a b c : Filter} (h : Like a b) (g : Like b c) : Like a c :=
  ⟨fun q => (g.files q).trans (h.files q), fun q => (g.dirs q).trans (h.dirs q), g.idle.trans h.idle, g.chk.trans h.chk, fun x => g.nodup (h.nodup x)⟩

theorem Files.like {ps : Paths} {s s' : Filter} (h : Files ps s) (g : Like s s') : Files ps s' :=
  ⟨g.nodup h.nodup, fun f hf => (g.dirs _).2 (h.dir f ((g.files f).1 hf))⟩

/-- A file below a directory that has come back. -/
def dirFile (ps : Paths) (fs : Fs) (s : Filter) (f : String) : Filter :=
  if !fs.isfile f then s.addPending f (some false) else (s.refresh ps f false).process f

theorem dirFile_spec (ps : Paths) (fs : Fs) (s : Filter) (f : String) (h : Files ps s) (hi : s.idle = false) (hf : f ∈ s.files) :
    Like s (dirFile ps fs s f) ∧
    (∀ q, (dirFile ps fs s f).pending.get? q = if q = f ∧ fs.isfile f = false ∧ s.pending.get? f = none then some (interval, some false) else s.pending.get? q) ∧
    ((dirFile ps fs s f).minTime = s.minTime ∧ (fs.isfile f = false → s.pending.get? f ≠ none) ∨ (dirFile ps fs s f).minTime = 0) ∧
    (dirFile ps fs s f).out = s.out ++ (if fs.isfile f then renewFile f else []) := by
  unfold dirFile
  cases hx : fs.isfile f with
  | false =>
    obtain ⟨a1, a2, a3, a4, a5, a6⟩ := addPending_frame s f (some false)
    simp only [Bool.not_false, if_true, true_and, Bool.false_eq_true, if_false, List.append_nil]
    refine ⟨⟨by rw [a1]; simp, by rw [a2]; simp, a3, a5, by rw [a1]; exact id⟩, fun q => get?_addPending s f q _, ?_, a4⟩
    unfold Filter.addPending
    split
    · rename_i hc
      refine Or.inl ⟨rfl, fun _ hn => ?_⟩
      simp [Dict.contains, hn] at hc
    · exact Or.inr rfl
  | true =>
    obtain ⟨a1, a2, a3, a4, a5, a6, a7⟩ := refresh_file ps s f hf (h.dir f hf)
    obtain ⟨b1, b2, b3, b4, b5, b6, b7, b8⟩ := process_frame (s.refresh ps f false) f
    simp only [Bool.not_true, Bool.false_eq_true, if_false, if_true]
    refine ⟨⟨by rw [b1]; exact a6, by rw [b2]; exact a5, b3.trans a1, b5.trans a3, fun hn => by rw [b1]; exact nodup_refresh ps s f hn⟩, ?_, ?_, ?_⟩
    · intro q; rw [b4, a2]; simp
    · exact Or.inl ⟨b6.trans a4, by simp⟩
    · rw [b7, a1, a7, hi]; simp [renewFile]

theorem dirFold_spec (ps : Paths) (fs : Fs) (l : List String) (s : Filter) (h : Files ps s) (hi : s.idle = false) (hl : ∀ f, f ∈ l → f ∈ s.files) :
    Like s (l.foldl (dirFile ps fs) s) ∧
    (∀ q, (l.foldl (dirFile ps fs) s).pending.get? q = if q ∈ l ∧ fs.isfile q = false ∧ s.pending.get? q = none then some (interval, some false) else s.pending.get? q) ∧
    ((l.foldl (dirFile ps fs) s).minTime = s.minTime ∧ (∀ f, f ∈ l → fs.isfile f = false → s.pending.get? f ≠ none) ∨ (l.foldl (dirFile ps fs) s).minTime = 0) ∧
    (l.foldl (dirFile ps fs) s).out = s.out ++ (l.filter fs.isfile).flatMap renewFile := by
  induction l generalizing s with
  | nil => exact ⟨Like.refl s, by simp, Or.inl ⟨rfl, by simp⟩, by simp⟩
  | cons f l ih =>
    obtain ⟨a1, a2, a3, a4⟩ := dirFile_spec ps fs s f h hi (hl f (List.mem_cons_self ..))
    obtain ⟨b1, b2, b3, b4⟩ := ih (dirFile ps fs s f) (h.like a1) (a1.idle.trans hi) (fun g hg => (a1.files g).2 (hl g (List.mem_cons_of_mem _ hg)))
    rw [List.foldl_cons]
    refine ⟨a1.trans b1, ?_, ?_, ?_⟩
    · intro q
      rw [b2, a2]
      by_cases e : q = f
      · subst e
        by_cases c1 : fs.isfile q = false <;> by_cases c2 : s.pending.get? q = none <;> simp_all
      · simp [e]
    · rcases b3 with ⟨b3, b3'⟩ | b3
      · rcases a3 with ⟨a3, a3'⟩ | a3
        · refine Or.inl ⟨b3.trans a3, ?_⟩
          intro g hg hx hn
          by_cases e : g = f
          · subst e; exact a3' hx hn
          · rcases List.mem_cons.1 hg with hg | hg
            · exact e hg
            · have := b3' g hg hx
              rw [a2] at this
              simp [e] at this
              exact this hn
        · exact Or.inr (b3.trans a3)
      · exact Or.inr b3
    · rw [b4, a4]
      cases hx : fs.isfile f <;> simp [hx]

theorem foundPath_spec (ps : Paths) (fs : Fs) (s : Filter) (p : String) (d : Option Bool) (h : Files ps s) (hi : s.idle = false)
    (hp : if d = some true then p ∈ s.dirs else p ∈ s.files) :
    Like s (s.foundPath ps fs (p, d)) ∧
    (∀ q, (s.foundPath ps fs (p, d)).pending.get? q =
      if d = some true ∧ q ∈ s.files ∧ ps.under p q = true ∧ fs.isfile q = false ∧ (s.pending.get? q = none ∨ q = p) then some (interval, some false)
      else if q = p then none else s.pending.get? q) ∧
    ((s.foundPath ps fs (p, d)).minTime = s.minTime ∧ (d = some true → ∀ q, q ∈ s.files → ps.under p q = true → fs.isfile q = false → s.pending.get? q ≠ none ∧ q ≠ p)
      ∨ (s.foundPath ps fs (p, d)).minTime = 0) ∧
    ∃ files', files'.Nodup ∧ (∀ q, q ∈ files' ↔ q ∈ s.files) ∧ (s.foundPath ps fs (p, d)).out = s.out ++ renewal ps fs files' p d := by
  have hF : Files ps (s.delPending p) := ⟨h.nodup, h.dir⟩
  have hL : Like s (s.delPending p) := ⟨fun _ => Iff.rfl, fun _ => Iff.rfl, rfl, rfl, id⟩
  match d with
  | none =>
    obtain ⟨b1, b2, b3, b4, b5, b6, b7, b8⟩ := process_frame (s.delPending p) p
    simp only [Filter.foundPath]
    refine ⟨⟨by rw [b1]; exact hL.files, by rw [b2]; exact hL.dirs, b3, b5, by rw [b1]; exact id⟩, ?_, Or.inl ⟨b6, by simp⟩, s.files, h.nodup, fun _ => Iff.rfl, ?_⟩
    · intro q; rw [b4, get?_delPending]; simp
    · rw [b7]
      have : (s.delPending p).idle = false := hi
      rw [this]; simp [renewal, Filter.delPending]
  | some false =>
    simp only [Option.some.injEq, Bool.false_eq_true, if_false] at hp
    obtain ⟨a1, a2, a3, a4, a5, a6, a7⟩ := refresh_file ps (s.delPending p) p hp (h.dir p hp)
    obtain ⟨b1, b2, b3, b4, b5, b6, b7, b8⟩ := process_frame ((s.delPending p).refresh ps p false) p
    simp only [Filter.foundPath]
    refine ⟨⟨by rw [b1]; exact a6, by rw [b2]; exact a5, b3.trans a1, b5.trans a3, fun hn => by rw [b1]; exact nodup_refresh ps _ p hn⟩, ?_, Or.inl ⟨b6.trans a4, by simp⟩, s.files, h.nodup, fun _ => Iff.rfl, ?_⟩
    · intro q; rw [b4, a2, get?_delPending]; simp
    · rw [b7, a1, a7]
      have : (s.delPending p).idle = false := hi
      rw [this]; simp [renewal, renewFile, Filter.delPending]
  | some true =>
    simp only [if_true] at hp
    obtain ⟨a1, a2, a3, a4, a5, a6, a7⟩ := refresh_dir ps (s.delPending p) p hp
    have hL1 : Like s ((s.delPending p).refresh ps p true) := ⟨by rw [a6]; exact hL.files, a5, a1, a3, by rw [a6]; exact id⟩
    obtain ⟨b1, b2, b3, b4⟩ := dirFold_spec ps fs (((s.delPending p).refresh ps p true).files.filter (fun f => ps.under p f)) _ (h.like hL1) (a1.trans hi)
      (fun f hf => (List.mem_filter.1 hf).1)
    have e : s.foundPath ps fs (p, some true) = (((s.delPending p).refresh ps p true).files.filter (fun f => ps.under p f)).foldl (dirFile ps fs) ((s.delPending p).refresh ps p true) := rfl
    rw [e]
    have hm : ∀ q, q ∈ ((s.delPending p).refresh ps p true).files.filter (fun f => ps.under p f) ↔ q ∈ s.files ∧ ps.under p q = true := by
      intro q; rw [a6]; simp [Filter.delPending]
    refine ⟨hL1.trans b1, ?_, ?_, s.files, h.nodup, fun _ => Iff.rfl, ?_⟩
    · intro q
      rw [b2, a2, get?_delPending]
      simp only [hm]
      by_cases e1 : q = p
      · subst e1
        by_cases c : (q ∈ s.files ∧ ps.under q q = true) ∧ fs.isfile q = false
        · simp [c.1.1, c.1.2, c.2]
        · have : ¬ (q ∈ s.files ∧ ps.under q q = true ∧ fs.isfile q = false) := fun h => c ⟨⟨h.1, h.2.1⟩, h.2.2⟩
          simp [c, this]
      · simp [e1, and_assoc]
    · rcases b3 with ⟨b3, b3'⟩ | b3
      · refine Or.inl ⟨b3.trans a4, fun _ q hq hu hx => ?_⟩
        have := b3' q ((hm q).2 ⟨hq, hu⟩) hx
        rw [a2, get?_delPending] at this
        by_cases e1 : q = p
        · simp [e1] at this
        · simp [e1] at this
          exact ⟨this, e1⟩
      · exact Or.inr b3
    · rw [b4, a7, a6]
      simp only [renewal, List.filter_filter, List.append_assoc]
      have : (s.delPending p).files = s.files := rfl
      rw [this]
      have : (fun a => fs.isfile a && ps.under p a) = (fun f => ps.under p f && fs.isfile f) := by funext a; exact Bool.and_comm _ _
      rw [this]; rfl

/-! ## Invariants -/

/-- A delay that occurs. -/
def Delay (r : Int) : Prop := ∃ k : Nat, k ≤ 9 ∧ r = interval * 2 ^ k

theorem delay_interval : Delay interval := ⟨0, by omega, by simp⟩

theorem delay_longer {r : Int} (h : Delay r) : Delay (longer r) := by
  obtain ⟨k, hk, rfl⟩ := h
  unfold longer
  split
  · rename_i hlt
    refine ⟨k + 1, ?_, ?_⟩
    · have : k ≠ 9 := by intro e; subst e; simp [minute, interval] at hlt
      omega
    · rw [Int.pow_succ, Int.mul_assoc]
  · exact ⟨k, hk, rfl⟩

theorem delay_bounds {r : Int} (h : Delay r) : interval ≤ r ∧ r ≤ 102400000 := by
  obtain ⟨k, hk, rfl⟩ := h
  have : k = 0 ∨ k = 1 ∨ k = 2 ∨ k = 3 ∨ k = 4 ∨ k = 5 ∨ k = 6 ∨ k = 7 ∨ k = 8 ∨ k = 9 := by omega
  unfold interval
  rcases this with h | h | h | h | h | h | h | h | h | h <;> subst h <;> decide

theorem le_longer {r : Int} (h : Delay r) : r ≤ longer r := by
  have := (delay_bounds h).1
  unfold interval at this
  unfold longer; split <;> omega

/-- What holds between steps; `ex` are paths that are to be handled in this check. -/
structure Inv (ps : Paths) (ex : List String) (s : Filter) : Prop where
  files : Files ps s
  normal : ∀ f, f ∈ s.files → Normal ps f
  pend : ∀ p r d, Waits s p r d → if d = some true then p ∈ s.dirs else p ∈ s.files
  min : 0 ≤ s.minTime ∧ s.minTime ≤ minute
  time : ∀ p r d, Waits s p r d → (p ∉ ex → s.minTime ≤ r) ∧ Delay r

theorem inv_new (ps : Paths) : Inv ps [] new :=
  ⟨⟨List.nodup_nil, by simp [new]⟩, by simp [new], by simp [new, Waits], by simp [new, minute], by simp [new, Waits]⟩

/-- States like another one. -/
theorem Inv.like {ps : Paths} {ex ex' : List String} {s s' : Filter} (h : Inv ps ex s) (g : Like s s')
    (hw : ∀ p r d, Waits s' p r d → Waits s p r d ∨ (r = interval ∧ if d = some true then p ∈ s.dirs else p ∈ s.files))
    (hm : s'.minTime = s.minTime ∧ (∀ p r d, Waits s' p r d → p ∉ ex' → Waits s p r d ∧ p ∉ ex) ∨ s'.minTime = 0) : Inv ps ex' s' := by
  refine ⟨h.files.like g, fun f hf => h.normal f ((g.files f).1 hf), ?_, ?_, ?_⟩
  · intro p r d hp
    rw [g.dirs, g.files]
    rcases hw p r d hp with hp | hp
    · exact h.pend p r d hp
    · exact hp.2
  · rcases hm with hm | hm
    · rw [hm.1]; exact h.min
    · rw [hm]; simp [minute]
  · intro p r d hp
    have hd : Delay r := by
      rcases hw p r d hp with hp | hp
      · exact (h.time p r d hp).2
      · rw [hp.1]; exact delay_interval
    refine ⟨fun hx => ?_, hd⟩
    rcases hm with hm | hm
    · rw [hm.1]
      have := hm.2 p r d hp hx
      exact (h.time p r d this.1).1 this.2
    · rw [hm]
      have := (delay_bounds hd).1
      unfold interval at this; omega

theorem inv_foundPath {ps : Paths} {fs : Fs} {s : Filter} {p : String} {d : Option Bool} {ex : List String} (h : Inv ps (p :: ex) s) (hi : s.idle = false)
    (hp : if d = some true then p ∈ s.dirs else p ∈ s.files) : Inv ps ex (s.foundPath ps fs (p, d)) := by
  obtain ⟨a1, a2, a3, _⟩ := foundPath_spec ps fs s p d h.files hi hp
  refine h.like a1 ?_ ?_
  · intro q r d' hq
    unfold Waits at hq ⊢
    rw [a2] at hq
    split at hq
    · rename_i hc
      injection hq with hq; injection hq with h1 h2
      subst h1; subst h2
      exact Or.inr ⟨rfl, by simp [hc.2.1]⟩
    · split at hq
      · simp at hq
      · exact Or.inl hq
  · rcases a3 with ⟨a3, a3'⟩ | a3
    · refine Or.inl ⟨a3, ?_⟩
      intro q r d' hq hex
      unfold Waits at hq ⊢
      rw [a2] at hq
      split at hq
      · rename_i hc
        have := a3' hc.1 q hc.2.1 hc.2.2.1 hc.2.2.2.1
        rcases hc.2.2.2.2 with hc | hc
        · exact absurd hc this.1
        · exact absurd hc this.2
      · split at hq
        · simp at hq
        · exact ⟨hq, by simp only [List.mem_cons, not_or]; exact ⟨by assumption, hex⟩⟩
    · exact Or.inr a3

/-- All the paths found. -/
theorem foundAll_spec (ps : Paths) (fs : Fs) (xs : List (String × Option Bool)) (s : Filter) (h : Inv ps (xs.map Prod.fst) s) (hi : s.idle = false)
    (hx : ∀ p d, (p, d) ∈ xs → if d = some true then p ∈ s.dirs else p ∈ s.files) :
    Inv ps [] (xs.foldl (Filter.foundPath ps fs) s) ∧ Like s (xs.foldl (Filter.foundPath ps fs) s) ∧
    ((xs.foldl (Filter.foundPath ps fs) s).minTime = s.minTime ∨ (xs.foldl (Filter.foundPath ps fs) s).minTime = 0) ∧
    (∀ q v, q ∉ xs.map Prod.fst → s.pending.get? q = some v → (xs.foldl (Filter.foundPath ps fs) s).pending.get? q = some v) ∧
    (∀ q v, (xs.foldl (Filter.foundPath ps fs) s).pending.get? q = some v → (q ∉ xs.map Prod.fst ∧ s.pending.get? q = some v) ∨
      (v = (interval, some false) ∧ q ∈ s.files ∧ fs.isfile q = false ∧ ∃ p, (p, some true) ∈ xs ∧ ps.under p q = true)) ∧
    (∀ p q, (p, some true) ∈ xs → q ∈ s.files → ps.under p q = true → fs.isfile q = false → q ∉ xs.map Prod.fst →
      (xs.foldl (Filter.foundPath ps fs) s).pending.get? q ≠ none) ∧
    ∃ l, Renewals ps fs s.files xs l ∧ (xs.foldl (Filter.foundPath ps fs) s).out = s.out ++ l := by
  induction xs generalizing s with
  | nil => exact ⟨h, Like.refl s, Or.inl rfl, by simp, by simp, by simp, [], rfl, by simp⟩
  | cons x xs ih =>
    obtain ⟨p, d⟩ := x
    have hp := hx p d (List.mem_cons_self ..)
    obtain ⟨a1, a2, a3, files', f1, f2, f3⟩ := foundPath_spec ps fs s p d h.files hi hp
    have ha := inv_foundPath (fs := fs) h hi hp
    obtain ⟨b1, b2, bm, b3, b4, b5, l, b6, b7⟩ := ih (s.foundPath ps fs (p, d)) ha (a1.idle.trans hi) (by
      intro q d' hq
      rw [a1.dirs, a1.files]
      exact hx q d' (List.mem_cons_of_mem _ hq))
    have hren : ∀ ys m, Renewals ps fs (s.foundPath ps fs (p, d)).files ys m → Renewals ps fs s.files ys m := by
      intro ys
      induction ys with
      | nil => intro m h; exact h
      | cons y ys ih =>
        rintro m ⟨fl, a, h1, h2, h3, h4⟩
        exact ⟨fl, a, h1, fun q => (h2 q).trans (a1.files q), h3, ih a h4⟩
    rw [List.foldl_cons]
    refine ⟨b1, a1.trans b2, ?_, ?_, ?_, ?_, renewal ps fs files' p d ++ l, ⟨files', l, f1, f2, rfl, hren _ _ b6⟩, ?_⟩
    · rcases bm with bm | bm
      · rcases a3 with a3 | a3
        · exact Or.inl (bm.trans a3.1)
        · exact Or.inr (bm.trans a3)
      · exact Or.inr bm
    · intro q v hq hv
      simp only [List.map_cons, List.mem_cons, not_or] at hq
      apply b3 q v hq.2
      rw [a2]
      simp [hq.1, hv]
    · intro q v hv
      rcases b4 q v hv with ⟨h1, h2⟩ | ⟨h1, h2, h3, p', h4, h5⟩
      · rw [a2] at h2
        split at h2
        · rename_i hc
          injection h2 with h2
          refine Or.inr ⟨h2.symm, hc.2.1, hc.2.2.2.1, p, ?_, hc.2.2.1⟩
          rw [← hc.1]; exact List.mem_cons_self ..
        · split at h2
          · simp at h2
          · rename_i hne
            refine Or.inl ⟨?_, h2⟩
            simp only [List.map_cons, List.mem_cons, not_or]
            exact ⟨hne, h1⟩
      · exact Or.inr ⟨h1, (a1.files q).1 h2, h3, p', List.mem_cons_of_mem _ h4, h5⟩
    · intro p' q hp' hq hu hf hn
      simp only [List.map_cons, List.mem_cons, not_or] at hn
      rcases List.mem_cons.1 hp' with e | hp'
      · injection e with e1 e2
        subst e1; subst e2
        intro hnone
        cases hv : (s.foundPath ps fs (p', some true)).pending.get? q with
        | some v => rw [b3 q v hn.2 hv] at hnone; simp at hnone
        | none =>
          rw [a2] at hv
          split at hv
          · simp at hv
          · rename_i hc
            split at hv
            · exact hn.1 (by assumption)
            · exact hc ⟨rfl, hq, hu, hf, Or.inl hv⟩
      · exact b5 p' q hp' ((a1.files q).2 hq) hu hf hn.2
    · rw [b7, f3, List.append_assoc]

/-- A check. -/
theorem check_spec (ps : Paths) (fs : Fs) (now : Int) (s : Filter) (h : Inv ps [] s) (hi : s.idle = false) (hd : s.chkTime + s.minTime ≤ now) :
    Inv ps [] (s.checkPending ps fs now) ∧ (∀ q, q ∈ (s.checkPending ps fs now).files ↔ q ∈ s.files) ∧ (∀ q, q ∈ (s.checkPending ps fs now).dirs ↔ q ∈ s.dirs) ∧
    (s.checkPending ps fs now).idle = false ∧
    (s.pending.items ≠ [] → (s.checkPending ps fs now).chkTime = now ∧ ((s.checkPending ps fs now).minTime = minute ∨
      ((s.checkPending ps fs now).minTime = 0 ∧ back fs now s ≠ []) ∨ ∃ q r d, Waits (s.checkPending ps fs now) q r d ∧ (s.checkPending ps fs now).minTime = r)) ∧
    (∀ q r d, Waits s q r d → ¬ (r ≤ now - s.chkTime ∧ Present fs q d) → Waits (s.checkPending ps fs now) q (if r ≤ now - s.chkTime then longer r else r) d) ∧
    (∀ q r d, Waits (s.checkPending ps fs now) q r d →
      (∃ r0, Waits s q r0 d ∧ ¬ (r0 ≤ now - s.chkTime ∧ Present fs q d) ∧ r = if r0 ≤ now - s.chkTime then longer r0 else r0) ∨
      (r = interval ∧ d = some false ∧ q ∈ s.files ∧ fs.isfile q = false ∧ ∃ p, (p, some true) ∈ back fs now s ∧ ps.under p q = true)) ∧
    (∀ p q, (p, some true) ∈ back fs now s → q ∈ s.files → ps.under p q = true → fs.isfile q = false → q ∉ (back fs now s).map Prod.fst →
      ∃ r d, Waits (s.checkPending ps fs now) q r d) ∧
    ∃ l, Renewals ps fs s.files (back fs now s) l ∧ (s.checkPending ps fs now).out = s.out ++ l := by
  unfold Filter.checkPending
  cases he : s.pending.items with
  | nil =>
    simp only [List.isEmpty_nil, if_true]
    have hb : back fs now s = [] := by simp [back, he]
    have hw : ∀ q r d, ¬ Waits s q r d := by intro q r d hq; simp [Waits, Dict.get?, he, Dict.lookup] at hq
    refine ⟨h, by simp, by simp, hi, by simp, fun q r d hq => absurd hq (hw q r d), fun q r d hq => absurd hq (hw q r d), ?_, [], ?_, by simp⟩
    · rw [hb]; simp
    · rw [hb]; rfl
  | cons y ys =>
    rw [← he]
    have hne : s.pending.items.isEmpty = false := by rw [he]; rfl
    have hd' : ¬ now < s.chkTime + s.minTime := by omega
    simp only [hne, Bool.false_eq_true, if_false, hd']
    obtain ⟨c1, c2, c3, c4, c5⟩ := loop_spec fs (now - s.chkTime) s.pending.items s.pending.nodup ⟨s.pending, minute, []⟩
    generalize s.pending.items.foldl (loopStep fs (now - s.chkTime)) ⟨s.pending, minute, []⟩ = A at *
    obtain ⟨AP, AM, AF⟩ := A
    dsimp only at c1 c2 c3 c4 c5 ⊢
    rw [List.nil_append] at c1
    have hAF : AF = back fs now s := c1
    have hget : ∀ q, AP.get? q = match s.pending.get? q with
        | some (r, d) => if r ≤ now - s.chkTime ∧ ¬ Present fs q d then some (longer r, d) else some (r, d)
        | none => none := by
      intro q
      rw [c2]
      show (match s.pending.get? q with | some (r, d) => _ | none => _) = _
      cases hq : s.pending.get? q with
      | none => rfl
      | some v => rfl
    have hmem : ∀ q d, (q, d) ∈ back fs now s ↔ ∃ r, Waits s q r d ∧ r ≤ now - s.chkTime ∧ Present fs q d := by
      intro q d
      unfold back Waits
      simp only [List.mem_map, List.mem_filter, decide_eq_true_eq]
      constructor
      · rintro ⟨⟨q', r', d'⟩, ⟨h1, h2⟩, h3⟩
        injection h3 with h3 h4
        subst h3; subst h4
        exact ⟨r', (Dict.get?_eq_some_iff _ _ _).2 h1, h2⟩
      · rintro ⟨r, h1, h2⟩
        exact ⟨(q, r, d), ⟨(Dict.get?_eq_some_iff _ _ _).1 h1, h2⟩, rfl⟩
    have hAW : ∀ q r d, AP.get? q = some (r, d) → ∃ r0, Waits s q r0 d ∧ r = if r0 ≤ now - s.chkTime ∧ ¬ Present fs q d then longer r0 else r0 := by
      intro q r d hq
      rw [hget] at hq
      cases hv : s.pending.get? q with
      | none => rw [hv] at hq; simp at hq
      | some v =>
        obtain ⟨r0, d0⟩ := v
        rw [hv] at hq
        dsimp only at hq
        split at hq
        · injection hq with hq; injection hq with h1 h2
          subst h2
          exact ⟨r0, hv, by rw [if_pos (by assumption)]; exact h1.symm⟩
        · injection hq with hq; injection hq with h1 h2
          subst h2
          exact ⟨r0, hv, by rw [if_neg (by assumption)]; exact h1.symm⟩
    -- the state before the paths found are handled; those are still in `pending`
    have hbackAP : ∀ q d, (q, d) ∈ back fs now s → ∃ r, AP.get? q = some (r, d) := by
      intro q d hq
      obtain ⟨r, h1, h2⟩ := (hmem q d).1 hq
      refine ⟨r, ?_⟩
      rw [hget]
      unfold Waits at h1
      rw [h1]
      simp [h2.2]
    have hbackKey : ∀ q r d, Waits s q r d → (q ∈ (back fs now s).map Prod.fst ↔ r ≤ now - s.chkTime ∧ Present fs q d) := by
      intro q r d hq
      rw [List.mem_map]
      constructor
      · rintro ⟨⟨q', d'⟩, h1, h2⟩
        have h2 : q' = q := h2
        subst h2
        obtain ⟨r', h3, h4⟩ := (hmem q' d').1 h1
        unfold Waits at hq h3
        rw [hq] at h3
        injection h3 with h3; injection h3 with h3 h5
        subst h3; subst h5
        exact h4
      · intro h1
        exact ⟨(q, d), (hmem q d).2 ⟨r, hq, h1⟩, rfl⟩
    have hinv : Inv ps (AF.map Prod.fst) { s with pending := AP, chkTime := now, minTime := AM } := by
      refine ⟨⟨h.files.nodup, h.files.dir⟩, h.normal, ?_, ?_, ?_⟩
      · intro q r d hq
        obtain ⟨r0, h1, _⟩ := hAW q r d hq
        exact h.pend q r0 d h1
      · refine ⟨?_, c3⟩
        show 0 ≤ AM
        rcases c5 with e | ⟨q, r, d, hm, e | e⟩
        · rw [e]; simp [minute]
        · have := (delay_bounds (h.time q r d ((Dict.get?_eq_some_iff _ _ _).2 hm)).2).1
          unfold interval at this; omega
        · have h0 := (h.time q r d ((Dict.get?_eq_some_iff _ _ _).2 hm)).2
          have := (delay_bounds (delay_longer h0)).1
          unfold interval at this; omega
      · intro q r d hq
        obtain ⟨r0, h1, h2⟩ := hAW q r d hq
        have h0 := (h.time q r0 d h1).2
        have hm := (Dict.get?_eq_some_iff _ _ _).1 h1
        constructor
        · intro hex
          rw [hAF, hbackKey q r0 d h1] at hex
          show AM ≤ r
          by_cases c : r0 ≤ now - s.chkTime
          · have hP : ¬ Present fs q d := fun hP => hex ⟨c, hP⟩
            rw [h2, if_pos ⟨c, hP⟩]
            exact (c4 q r0 d hm).2 c hP
          · rw [h2, if_neg (fun h => c h.1)]
            exact (c4 q r0 d hm).1 (by omega)
        · rw [h2]; split
          · exact delay_longer h0
          · exact h0
    obtain ⟨d1, d2, dm, d3, d4, d5, l, d6, d7⟩ := foundAll_spec ps fs AF { s with pending := AP, chkTime := now, minTime := AM } hinv hi (by
      intro p d hp
      rw [hAF] at hp
      obtain ⟨r, h1, _⟩ := (hmem p d).1 hp
      exact h.pend p r d h1)
    rw [hAF] at d1 d2 dm d3 d4 d5 d6 d7 ⊢
    have hkeep : ∀ q r d, Waits s q r d → ¬ (r ≤ now - s.chkTime ∧ Present fs q d) →
        Waits ((back fs now s).foldl (Filter.foundPath ps fs) { s with pending := AP, chkTime := now, minTime := AM }) q (if r ≤ now - s.chkTime then longer r else r) d := by
      intro q r d hq hn
      apply d3 q _ (fun hc => hn ((hbackKey q r d hq).1 hc))
      show AP.get? q = _
      rw [hget]
      unfold Waits at hq
      rw [hq]
      by_cases c : r ≤ now - s.chkTime
      · have hP : ¬ Present fs q d := fun hP => hn ⟨c, hP⟩
        simp [c, hP]
      · simp [c]
    refine ⟨d1, d2.files, d2.dirs, d2.idle.trans hi, fun _ => ⟨d2.chk, ?_⟩, hkeep, ?_, ?_, l, d6, d7⟩
    · have key : AM = minute ∨ ∃ q r d, Waits ((back fs now s).foldl (Filter.foundPath ps fs) { s with pending := AP, chkTime := now, minTime := AM }) q r d ∧ AM = r := by
        rcases c5 with e | ⟨q, r, d, hm, e⟩
        · exact Or.inl e
        · have hw : Waits s q r d := (Dict.get?_eq_some_iff _ _ _).2 hm
          refine Or.inr ⟨q, _, d, hkeep q r d hw ?_, ?_⟩
          · rcases e with e | e
            · intro h; have := h.1; omega
            · exact fun h => e.2.1 h.2
          · rcases e with e | e
            · have : ¬ r ≤ now - s.chkTime := by omega
              rw [if_neg this]; exact e.2
            · rw [if_pos e.1]; exact e.2.2
      cases hb : back fs now s with
      | nil =>
        rw [hb] at key
        rcases key with key | key
        · exact Or.inl key
        · exact Or.inr (Or.inr key)
      | cons y ys =>
        rw [hb] at key dm
        rcases dm with dm | dm
        · rcases key with key | ⟨q, r, d, h1, h2⟩
          · exact Or.inl (dm.trans key)
          · exact Or.inr (Or.inr ⟨q, r, d, h1, dm.trans h2⟩)
        · exact Or.inr (Or.inl ⟨dm, by simp⟩)
    · intro q r d hq
      rcases d4 q (r, d) hq with ⟨h1, h2⟩ | ⟨h1, h2⟩
      · obtain ⟨r0, h3, h4⟩ := hAW q r d h2
        rw [hbackKey q r0 d h3] at h1
        refine Or.inl ⟨r0, h3, h1, ?_⟩
        rw [h4]
        by_cases c : r0 ≤ now - s.chkTime
        · have hP : ¬ Present fs q d := fun hP => h1 ⟨c, hP⟩
          simp [c, hP]
        · simp [c]
      · injection h1 with h1 h3
        exact Or.inr ⟨h1, h3, h2⟩
    · intro p q hp hq hu hf hn
      have := d5 p q hp hq hu hf hn
      cases hv : ((back fs now s).foldl (Filter.foundPath ps fs) { s with pending := AP, chkTime := now, minTime := AM }).pending.get? q with
      | none => exact absurd hv this
      | some v => exact ⟨v.1, v.2, hv⟩

/-- Paths that come back. -/
theorem mem_back {fs : Fs} {now : Int} {s : Filter} {q : String} {d : Option Bool} :
    (q, d) ∈ back fs now s ↔ ∃ r, Waits s q r d ∧ r ≤ now - s.chkTime ∧ Present fs q d := by
  unfold back Waits
  simp only [List.mem_map, List.mem_filter, decide_eq_true_eq]
  constructor
  · rintro ⟨⟨q', r', d'⟩, ⟨h1, h2⟩, h3⟩
    injection h3 with h3 h4
    subst h3; subst h4
    exact ⟨r', (Dict.get?_eq_some_iff _ _ _).2 h1, h2⟩
  · rintro ⟨r, h1, h2⟩
    exact ⟨(q, r, d), ⟨(Dict.get?_eq_some_iff _ _ _).1 h1, h2⟩, rfl⟩

theorem renewals_split {ps : Paths} {fs : Fs} {files : List String} {xs : List (String × Option Bool)} {l : List Eff} (h : Renewals ps fs files xs l)
    {p : String} {d : Option Bool} (hp : (p, d) ∈ xs) :
    ∃ files' a b, files'.Nodup ∧ (∀ q, q ∈ files' ↔ q ∈ files) ∧ l = a ++ renewal ps fs files' p d ++ b := by
  induction xs generalizing l with
  | nil => simp at hp
  | cons x xs ih =>
    obtain ⟨fl, m, h1, h2, h3, h4⟩ := h
    rcases List.mem_cons.1 hp with e | hp
    · subst e
      exact ⟨fl, [], m, h1, h2, by simpa using h3⟩
    · obtain ⟨fl', a, b, g1, g2, g3⟩ := ih h4 hp
      exact ⟨fl', renewal ps fs fl x.1 x.2 ++ a, b, g1, g2, by rw [h3, g3]; simp [List.append_assoc]⟩

/-- What is read belongs to a path that came back. -/
theorem renewals_process {ps : Paths} {fs : Fs} {files : List String} {xs : List (String × Option Bool)} {l : List Eff} (h : Renewals ps fs files xs l)
    {f : String} (hf : .process f ∈ l) :
    ∃ p d, (p, d) ∈ xs ∧ (d ≠ some true ∧ f = p ∨ d = some true ∧ f ∈ files ∧ ps.under p f = true ∧ fs.isfile f = true) := by
  induction xs generalizing l with
  | nil => simp only [Renewals] at h; subst h; simp at hf
  | cons x xs ih =>
    obtain ⟨fl, m, h1, h2, h3, h4⟩ := h
    rw [h3] at hf
    rcases List.mem_append.1 hf with hf | hf
    · obtain ⟨p, d⟩ := x
      refine ⟨p, d, List.mem_cons_self .., ?_⟩
      match d with
      | none => simp [renewal] at hf; exact Or.inl ⟨by simp, hf⟩
      | some false => simp [renewal, renewFile] at hf; exact Or.inl ⟨by simp, hf⟩
      | some true =>
        simp [renewal, renewFile] at hf
        rw [h2] at hf
        exact Or.inr ⟨rfl, hf.1, hf.2⟩
    · obtain ⟨p, d, g1, g2⟩ := ih h4 hf
      exact ⟨p, d, List.mem_cons_of_mem _ g1, g2⟩

theorem check_early {ps : Paths} {fs : Fs} {now : Int} {s : Filter} (hd : now < s.chkTime + s.minTime) : s.checkPending ps fs now = s := by
  unfold Filter.checkPending
  simp [hd]

/-! ## Steps -/

theorem like_addPending (s : Filter) (p : String) (d : Option Bool) : Like s (s.addPending p d) := by
  obtain ⟨a1, a2, a3, a4, a5, a6⟩ := addPending_frame s p d
  exact ⟨by rw [a1]; simp, by rw [a2]; simp, a3, a5, by rw [a1]; exact id⟩

theorem inv_addPending {ps : Paths} {s : Filter} {p : String} {d : Option Bool} (h : Inv ps [] s)
    (hp : if d = some true then p ∈ s.dirs else p ∈ s.files) : Inv ps [] (s.addPending p d) := by
  refine h.like (like_addPending s p d) ?_ ?_
  · intro q r d' hq
    unfold Waits at *
    rw [get?_addPending] at hq
    split at hq
    · rename_i hc
      injection hq with hq; injection hq with h1 h2
      subst h1; subst h2
      exact Or.inr ⟨rfl, by rw [hc.1]; exact hp⟩
    · exact Or.inl hq
  · unfold Filter.addPending
    split
    · exact Or.inl ⟨rfl, fun _ _ _ h hx => ⟨h, hx⟩⟩
    · exact Or.inr rfl

theorem like_refresh {ps : Paths} {s : Filter} {p : String} (h : Inv ps [] s) (hp : p ∈ s.files) : Like s (s.refresh ps p false) := by
  obtain ⟨a1, a2, a3, a4, a5, a6, a7⟩ := refresh_file ps s p hp (h.files.dir p hp)
  exact ⟨a6, a5, a1, a3, nodup_refresh ps s p⟩

theorem inv_refresh {ps : Paths} {s : Filter} {p : String} (h : Inv ps [] s) (hp : p ∈ s.files) : Inv ps [] (s.refresh ps p false) := by
  obtain ⟨a1, a2, a3, a4, a5, a6, a7⟩ := refresh_file ps s p hp (h.files.dir p hp)
  refine h.like (like_refresh h hp) ?_ (Or.inl ⟨a4, ?_⟩)
  · intro q r d hq
    unfold Waits at *
    rw [a2] at hq
    exact Or.inl hq
  · intro q r d hq hx
    unfold Waits at *
    rw [a2] at hq
    exact ⟨hq, hx⟩

theorem like_process (s : Filter) (p : String) : Like s (s.process p) := by
  obtain ⟨b1, b2, b3, b4, b5, b6, b7, b8⟩ := process_frame s p
  exact ⟨by rw [b1]; simp, by rw [b2]; simp, b3, b5, by rw [b1]; exact id⟩

theorem inv_process {ps : Paths} {s : Filter} {p : String} (h : Inv ps [] s) : Inv ps [] (s.process p) := by
  obtain ⟨b1, b2, b3, b4, b5, b6, b7, b8⟩ := process_frame s p
  refine h.like (like_process s p) ?_ (Or.inl ⟨b6, ?_⟩)
  · intro q r d hq
    unfold Waits at *
    rw [b4] at hq
    exact Or.inl hq
  · intro q r d hq hx
    unfold Waits at *
    rw [b4] at hq
    exact ⟨hq, hx⟩

theorem fileEvent_inv {ps : Paths} {fs : Fs} {s : Filter} {p : String} (h : Inv ps [] s) (hp : p ∈ s.files) :
    Inv ps [] (s.fileEvent fs p) ∧ Like s (s.fileEvent fs p) := by
  unfold Filter.fileEvent
  split
  · exact ⟨inv_addPending h (by simpa using hp), like_addPending ..⟩
  · split
    · exact ⟨h, Like.refl s⟩
    · exact ⟨inv_process h, like_process s p⟩

theorem foldl_pending_inv {ps : Paths} (l : List String) (s : Filter) (h : Inv ps [] s) (hl : ∀ d, d ∈ l → d ∈ s.dirs) :
    Inv ps [] (l.foldl (fun s d => s.addPending d (some true)) s) ∧ Like s (l.foldl (fun s d => s.addPending d (some true)) s) := by
  induction l generalizing s with
  | nil => exact ⟨h, Like.refl s⟩
  | cons d l ih =>
    rw [List.foldl_cons]
    have hL := like_addPending s d (some true)
    obtain ⟨a, b⟩ := ih (s.addPending d (some true)) (inv_addPending h (by simpa using hl d (List.mem_cons_self ..)))
      (fun e he => (hL.dirs e).2 (hl e (List.mem_cons_of_mem _ he)))
    exact ⟨a, hL.trans b⟩

theorem watchGone_inv {ps : Paths} {fs : Fs} {s : Filter} {gone : Bool} {p : String} {wf : Bool} (h : Inv ps [] s) :
    Inv ps [] (s.watchGone ps fs gone p wf) ∧ Like s (s.watchGone ps fs gone p wf) := by
  unfold Filter.watchGone
  dsimp only
  generalize (if (gone && !wf && !decide (p ∈ s.dirs)) = true then (ps.unknown p).getD p else p) = p'
  split
  · rename_i hc
    simp only [Bool.and_eq_true, decide_eq_true_eq] at hc
    exact ⟨inv_addPending h (by simpa using hc.1), like_addPending ..⟩
  · split
    · exact foldl_pending_inv _ s h (fun d hd => (List.mem_filter.1 hd).1)
    · exact ⟨h, Like.refl s⟩

theorem callback_inv {ps : Paths} {fs : Fs} {s : Filter} {k : Kind} {p : String} (h : Inv ps [] s) :
    Inv ps [] (s.callback ps fs k p) ∧ Like s (s.callback ps fs k p) := by
  unfold Filter.callback
  dsimp only
  match k with
  | .created true => exact ⟨h, Like.refl s⟩
  | .created false =>
    dsimp only
    split
    · rename_i hw
      have hf := (of_decide_eq_true hw).2
      have := fileEvent_inv (fs := fs) (inv_refresh h hf) ((like_refresh h hf).files p |>.2 hf)
      exact ⟨this.1, (like_refresh h hf).trans this.2⟩
    · exact ⟨h, Like.refl s⟩
  | .ignored =>
    dsimp only
    have g := watchGone_inv (fs := fs) (gone := false) (p := p) (wf := decide (p ∉ s.dirs ∧ p ∈ s.files)) h
    split
    · rename_i hw
      have hf := (of_decide_eq_true hw).2
      have := fileEvent_inv (fs := fs) g.1 ((g.2.files p).2 hf)
      exact ⟨this.1, g.2.trans this.2⟩
    · exact g
  | .gone =>
    dsimp only
    have g := watchGone_inv (fs := fs) (gone := true) (p := p) (wf := decide (p ∉ s.dirs ∧ p ∈ s.files)) h
    split
    · rename_i hw
      have hf := (of_decide_eq_true hw).2
      have := fileEvent_inv (fs := fs) g.1 ((g.2.files p).2 hf)
      exact ⟨this.1, g.2.trans this.2⟩
    · exact g
  | .modified =>
    dsimp only
    split
    · rename_i hw
      exact fileEvent_inv (fs := fs) h (of_decide_eq_true hw).2
    · exact ⟨h, Like.refl s⟩

theorem addLog_inv {ps : Paths} {s : Filter} {p : String} (h : Inv ps [] s) (hn : Normal ps p) :
    Inv ps [] (s.addLog ps p) ∧ (∀ q, q ∈ (s.addLog ps p).files ↔ q ∈ s.files ∨ q = p) := by
  obtain ⟨b1, b2, b3, b4, b5, b6, b7, b8⟩ := addFile_frame ps s p
  have h1 : Inv ps [] (s.addFile ps p) := by
    refine ⟨⟨nodup_addFile ps s p h.files.nodup, ?_⟩, ?_, ?_, ?_, ?_⟩
    · intro f hf
      rw [b6]
      rcases (b7 f).1 hf with hf | hf
      · exact Or.inl (h.files.dir f hf)
      · subst hf; exact Or.inr rfl
    · intro f hf
      rcases (b7 f).1 hf with hf | hf
      · exact h.normal f hf
      · subst hf; exact hn
    · intro q r d hq
      unfold Waits at hq
      rw [b2] at hq
      have := h.pend q r d hq
      split
      · rename_i e; rw [if_pos e] at this; exact (b6 q).2 (Or.inl this)
      · rename_i e; rw [if_neg e] at this; exact (b7 q).2 (Or.inl this)
    · rw [b4]; exact h.min
    · intro q r d hq
      unfold Waits at hq
      rw [b2] at hq
      rw [b4]
      exact h.time q r d hq
  have h2 : Inv ps [] (if (s.addFile ps p).active then { s.addFile ps p with minTime := 0 } else s.addFile ps p) := by
    split
    · exact h1.like (s' := { s.addFile ps p with minTime := 0 }) ⟨fun _ => Iff.rfl, fun _ => Iff.rfl, rfl, rfl, id⟩ (fun q r d hq => Or.inl hq) (Or.inr rfl)
    · exact h1
  have hf : (if (s.addFile ps p).active then { s.addFile ps p with minTime := 0 } else s.addFile ps p).files = (s.addFile ps p).files := by split <;> rfl
  unfold Filter.addLog
  dsimp only
  refine ⟨inv_addPending h2 ?_, ?_⟩
  · simp only [reduceCtorEq, if_false]
    rw [hf]; exact (b7 p).2 (Or.inr rfl)
  · intro q
    rw [(like_addPending ..).files, hf]; exact b7 q

theorem inv_delPending {ps : Paths} {s : Filter} {p : String} (h : Inv ps [] s) : Inv ps [] (s.delPending p) := by
  have hw : ∀ q r d, Waits (s.delPending p) q r d → Waits s q r d := by
    intro q r d hq
    unfold Waits at *
    rw [get?_delPending] at hq
    split at hq
    · simp at hq
    · exact hq
  exact h.like ⟨fun _ => Iff.rfl, fun _ => Iff.rfl, rfl, rfl, id⟩ (fun q r d hq => Or.inl (hw q r d hq)) (Or.inl ⟨rfl, fun q r d hq hx => ⟨hw q r d hq, hx⟩⟩)

theorem delLog_inv {ps : Paths} {s : Filter} {p : String} (h : Inv ps [] s) :
    Inv ps [] (s.delLog ps p) ∧ (∀ q, q ∈ (s.delLog ps p).files ↔ q ∈ s.files ∧ q ≠ p) := by
  obtain ⟨a1, a2, a3, a4, a5, a6, a7, a8⟩ := delFile_frame (s.delPending p) p
  have h0 := inv_delPending (p := p) h
  have h1 : Inv ps [] ((s.delPending p).delFile p) := by
    refine ⟨⟨nodup_delFile _ p h0.files.nodup, ?_⟩, ?_, ?_, ?_, ?_⟩
    · intro f hf
      rw [a1]; exact h0.files.dir f ((a7 f).1 hf).1
    · intro f hf
      exact h0.normal f ((a7 f).1 hf).1
    · intro q r d hq
      unfold Waits at hq
      rw [a3] at hq
      have hne : q ≠ p := by
        intro e; rw [get?_delPending, if_pos e] at hq; simp at hq
      have := h0.pend q r d hq
      split
      · rename_i e; rw [if_pos e] at this; rw [a1]; exact this
      · rename_i e; rw [if_neg e] at this; exact (a7 q).2 ⟨this, hne⟩
    · rw [a5]; exact h0.min
    · intro q r d hq
      unfold Waits at hq
      rw [a3] at hq
      rw [a5]
      exact h0.time q r d hq
  unfold Filter.delLog
  dsimp only
  split
  · exact ⟨h1, a7⟩
  · rename_i hc
    simp only [Bool.or_eq_true, List.any_eq_true, not_or, not_exists, not_and] at hc
    have h2 := inv_delPending (p := ps.dirname p) h1
    obtain ⟨c1, c2, c3, c4, c5, c6, c7, c8⟩ := delDir_frame (((s.delPending p).delFile p).delPending (ps.dirname p)) (ps.dirname p)
    refine ⟨⟨⟨by rw [c1]; exact h2.files.nodup, ?_⟩, by rw [c1]; exact h2.normal, ?_, by rw [c5]; exact h2.min, ?_⟩, by rw [c1]; exact a7⟩
    · intro f hf
      rw [c1] at hf
      rw [c7]
      refine ⟨h2.files.dir f hf, ?_⟩
      intro e
      have := h2.normal f hf
      unfold Normal at this
      rw [e] at this
      exact hc.1 f hf this
    · intro q r d hq
      unfold Waits at hq
      rw [c3] at hq
      have hne : q ≠ ps.dirname p := by
        intro e; rw [get?_delPending, if_pos e] at hq; simp at hq
      have := h2.pend q r d hq
      split
      · rename_i e; rw [if_pos e] at this; exact (c7 q).2 ⟨this, hne⟩
      · rename_i e; rw [if_neg e] at this; rw [c1]; exact this
    · intro q r d hq
      unfold Waits at hq
      rw [c3] at hq
      rw [c5]
      exact h2.time q r d hq

theorem check_inv {ps : Paths} {fs : Fs} {now : Int} {s : Filter} (h : Inv ps [] s) (hi : s.idle = false) :
    Inv ps [] (s.checkPending ps fs now) ∧ (∀ q, q ∈ (s.checkPending ps fs now).files ↔ q ∈ s.files) := by
  by_cases hd : s.chkTime + s.minTime ≤ now
  · have := check_spec ps fs now s h hi hd
    exact ⟨this.1, this.2.1⟩
  · have : s.checkPending ps fs now = s := check_early (by omega)
    rw [this]; exact ⟨h, by simp⟩

/-- What holds for a filter and its logs. -/
def WInv (ps : Paths) (w : World) : Prop := Inv ps [] w.filter ∧ ∀ q, q ∈ w.filter.files ↔ q ∈ w.logs

theorem step_inv {ps : Paths} {w : World} (h : WInv ps w) (op : Op) (hn : ∀ p, op = .add p → Normal ps p) : WInv ps (step ps w op) := by
  obtain ⟨h, g⟩ := h
  match op with
  | .add p =>
    unfold step
    dsimp only
    split
    · exact ⟨h, g⟩
    · have := addLog_inv h (hn p rfl)
      refine ⟨this.1, ?_⟩
      intro q
      rw [this.2, g]; simp
  | .del p =>
    unfold step
    dsimp only
    split
    · have := delLog_inv (p := p) h
      refine ⟨this.1, ?_⟩
      intro q
      rw [this.2, g]; simp
    · exact ⟨h, g⟩
  | .start => exact ⟨h.like (s' := { w.filter with active := true }) ⟨fun _ => Iff.rfl, fun _ => Iff.rfl, rfl, rfl, id⟩ (fun q r d hq => Or.inl hq) (Or.inl ⟨rfl, fun q r d hq hx => ⟨hq, hx⟩⟩), g⟩
  | .idle b => exact ⟨⟨⟨h.files.nodup, h.files.dir⟩, h.normal, h.pend, h.min, h.time⟩, g⟩
  | .event fs k p =>
    have := callback_inv (fs := fs) (k := k) (p := p) h
    exact ⟨this.1, fun q => (this.2.files q).trans (g q)⟩
  | .check fs now =>
    unfold step
    dsimp only
    split
    · exact ⟨h, g⟩
    · rename_i hi
      have := check_inv (fs := fs) (now := now) h (by simpa using hi)
      exact ⟨this.1, fun q => (this.2 q).trans (g q)⟩

theorem run_inv {ps : Paths} (ops : List Op) (w : World) (h : WInv ps w) (hn : AllNormal ps ops) : WInv ps (run ps w ops) := by
  induction ops generalizing w with
  | nil => exact h
  | cons op ops ih =>
    exact ih (step ps w op) (step_inv h op (fun p e => hn p (by rw [e]; exact List.mem_cons_self ..))) (fun p hp => hn p (List.mem_cons_of_mem _ hp))

theorem fresh_inv (ps : Paths) : WInv ps fresh := ⟨inv_new ps, by simp [fresh, new]⟩

theorem reach_inv {ps : Paths} {ops : List Op} (hn : AllNormal ps ops) : WInv ps (run ps fresh ops) := run_inv ops fresh (fresh_inv ps) hn

theorem reached_inv {ps : Paths} {w : World} (h : Reached ps w) : WInv ps w := by
  obtain ⟨ops, hn, rfl⟩ := h
  exact reach_inv hn

theorem step_check {ps : Paths} {fs : Fs} {w : World} {now : Int} (h : w.filter.idle = false) :
    (step ps w (.check fs now)).filter = w.filter.checkPending ps fs now := by
  unfold step; simp [h]

theorem wait_due {ps : Paths} {s : Filter} (hi : Inv ps [] s) {p : String} {r : Int} {d : Option Bool} (h : Waits s p r d) {now : Int} (hr : s.chkTime + r ≤ now) :
    s.chkTime + s.minTime ≤ now := by
  have := (hi.time p r d h).1 (by simp)
  omega

theorem wait_items {s : Filter} {p : String} {r : Int} {d : Option Bool} (h : Waits s p r d) : s.pending.items ≠ [] := by
  intro e
  simp [Waits, Dict.get?, e, Dict.lookup] at h

/-! ## Paths that are never looked at -/

/-- A check when all delays are longer than the time since the last one. -/
theorem check_late {ps : Paths} {fs : Fs} {now : Int} {s : Filter} (h : Inv ps [] s) (hi : s.idle = false) (hd : s.chkTime + s.minTime ≤ now)
    (hl : ∀ q r d, Waits s q r d → now - s.chkTime < r) (hne : s.pending.items ≠ []) :
    (s.checkPending ps fs now).pending.get? = s.pending.get? ∧ (s.checkPending ps fs now).out = s.out ∧ (s.checkPending ps fs now).chkTime = now ∧
    (s.checkPending ps fs now).idle = false ∧ Inv ps [] (s.checkPending ps fs now) := by
  obtain ⟨a1, a2, a3, a4, a5, a6, a7, a8, l, a9, a10⟩ := check_spec ps fs now s h hi hd
  have hb : back fs now s = [] := by
    cases hb : back fs now s with
    | nil => rfl
    | cons x xs =>
      obtain ⟨r, h1, h2, _⟩ := mem_back.1 (hb ▸ List.mem_cons_self .. : (x.1, x.2) ∈ back fs now s)
      have := hl _ _ _ h1
      omega
  rw [hb] at a7 a9
  have hl0 : l = [] := a9
  refine ⟨?_, by rw [a10, hl0]; simp, (a5 hne).1, a4, a1⟩
  funext q
  cases hq : s.pending.get? q with
  | some v =>
    have hlt := hl q v.1 v.2 hq
    have hnot : ¬ v.1 ≤ now - s.chkTime := by omega
    have := a6 q v.1 v.2 hq (fun h => hnot h.1)
    rw [if_neg hnot] at this
    exact this
  | none =>
    cases hv : (s.checkPending ps fs now).pending.get? q with
    | none => rfl
    | some v =>
      rcases a7 q v.1 v.2 hv with ⟨r0, h1, _⟩ | ⟨_, _, _, _, p, h1, _⟩
      · unfold Waits at h1; rw [hq] at h1; simp at h1
      · simp at h1

end Verif.Inotify
