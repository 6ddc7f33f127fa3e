import Verif.Lemmas.Inotify

/-!
# C75, C76 — log files monitored by notification
-/

namespace Verif

open Inotify InotifySpec

/-! ## C75: files and directories that are waited for -/

/-- Delays of paths that are waited for are 0.2 s, doubled up to nine times, and the time between two checks is not longer than any of them, nor than a minute. -/
theorem C75_delays {ps : Paths} {w : World} (hw : Reached ps w) {p : String} {r : Int} {d : Option Bool} (h : Waits w.filter p r d) :
    (∃ k : Nat, k ≤ 9 ∧ r = 200000 * 2 ^ k) ∧ 0 ≤ w.filter.minTime ∧ w.filter.minTime ≤ r ∧ w.filter.minTime ≤ 60000000 := by
  have hi := (reached_inv hw).1
  have := hi.time p r d h
  exact ⟨this.2, hi.min.1, this.1 (by simp), hi.min.2⟩

/-- A check before its time does nothing. -/
theorem C75_early (ps : Paths) (fs : Fs) (w : World) {now : Int} (h : now < w.filter.chkTime + w.filter.minTime) : step ps w (.check fs now) = w := by
  unfold step
  dsimp only
  split
  · rfl
  · rw [check_early h]

/-- No check while the filter is idle. -/
theorem C75_idle (ps : Paths) (fs : Fs) (w : World) (now : Int) (h : w.filter.idle = true) : step ps w (.check fs now) = w := by
  unfold step
  simp [h]

/-- What a check does in its time: for the paths that are there again, in order; the next check is then due after the shortest delay, at most a minute,
or at once if other files turned out to be missing. -/
theorem C75_check {ps : Paths} {w : World} (hw : Reached ps w) (hi : w.filter.idle = false) (fs : Fs) {now : Int} (hd : w.filter.chkTime + w.filter.minTime ≤ now)
    (hne : w.filter.pending.items ≠ []) :
    let s := (step ps w (.check fs now)).filter
    (∃ l, Renewals ps fs w.filter.files (back fs now w.filter) l ∧ Does w.filter s l) ∧ s.chkTime = now ∧
    (s.minTime = 60000000 ∨ (s.minTime = 0 ∧ back fs now w.filter ≠ []) ∨ ∃ q r d, Waits s q r d ∧ s.minTime = r) := by
  have h := (reached_inv hw).1
  obtain ⟨a1, a2, a3, a4, a5, a6, a7, a8, l, a9, a10⟩ := check_spec ps fs now w.filter h hi hd
  dsimp only
  rw [step_check hi]
  exact ⟨⟨l, a9, a10⟩, (a5 hne).1, (a5 hne).2⟩

/-- A file that is waited for and is there is read by a check after its delay; if it had been lost, its watch is renewed before. It is not waited for any more. -/
theorem C75_noticed {ps : Paths} {w : World} (hw : Reached ps w) {p : String} {r : Int} {d : Option Bool} (hp : Waits w.filter p r d)
    (hd : d ≠ some true) (hi : w.filter.idle = false) {fs : Fs} (hf : fs.isfile p = true) {now : Int} (hr : w.filter.chkTime + r ≤ now) :
    (∃ a b, Does w.filter (step ps w (.check fs now)).filter (a ++ (if d = none then [.process p] else [.unwatchFile p, .watchFile p, .process p]) ++ b)) ∧
    ∀ r' d', ¬ Waits (step ps w (.check fs now)).filter p r' d' := by
  have h := (reached_inv hw).1
  obtain ⟨a1, a2, a3, a4, a5, a6, a7, a8, l, a9, a10⟩ := check_spec ps fs now w.filter h hi (wait_due h hp hr)
  have hP : Present fs p d := by simp [Present, hd, hf]
  have hb : (p, d) ∈ back fs now w.filter := mem_back.2 ⟨r, hp, by omega, hP⟩
  rw [step_check hi]
  constructor
  · obtain ⟨fl, a, b, _, _, e⟩ := renewals_split a9 hb
    refine ⟨a, b, ?_⟩
    unfold Does
    rw [a10, e]
    match d, hd with
    | none, _ => simp [renewal]
    | some false, _ => simp [renewal, renewFile]
    | some true, hd => exact absurd rfl hd
  · intro r' d' hq
    rcases a7 p r' d' hq with ⟨r0, h1, h2, _⟩ | ⟨_, _, _, h1, _⟩
    · unfold Waits at h1 hp
      rw [hp] at h1
      injection h1 with h1; injection h1 with h1 h3
      subst h1; subst h3
      exact h2 ⟨by omega, hP⟩
    · rw [hf] at h1; simp at h1

/-- A directory that is waited for and is there: its watch is renewed, then those of the files in it, which are read; files that are missing are waited for. -/
theorem C75_noticed_dir {ps : Paths} {w : World} (hw : Reached ps w) {p : String} {r : Int} (hp : Waits w.filter p r (some true))
    (hi : w.filter.idle = false) {fs : Fs} (hf : fs.isdir p = true) {now : Int} (hr : w.filter.chkTime + r ≤ now) :
    (∃ (files : List String) (a b : List Eff), files.Nodup ∧ (∀ f, f ∈ files ↔ f ∈ w.logs ∧ ps.under p f = true ∧ fs.isfile f = true) ∧
      Does w.filter (step ps w (.check fs now)).filter
        (a ++ ([.unwatchDir p, .watchDir p] ++ files.flatMap (fun f => [.unwatchFile f, .watchFile f, .process f])) ++ b)) ∧
    (∀ f, f ∈ w.logs → ps.under p f = true → fs.isfile f = false → (∀ r', ¬ Waits w.filter f r' (some true)) →
      ∃ r' d', Waits (step ps w (.check fs now)).filter f r' d') ∧
    (p ∉ w.logs → ∀ r' d', ¬ Waits (step ps w (.check fs now)).filter p r' d') := by
  obtain ⟨h, hlog⟩ := reached_inv hw
  obtain ⟨a1, a2, a3, a4, a5, a6, a7, a8, l, a9, a10⟩ := check_spec ps fs now w.filter h hi (wait_due h hp hr)
  have hP : Present fs p (some true) := by simp [Present, hf]
  have hb : (p, some true) ∈ back fs now w.filter := mem_back.2 ⟨r, hp, by omega, hP⟩
  rw [step_check hi]
  refine ⟨?_, ?_, ?_⟩
  · obtain ⟨fl, a, b, e1, e2, e⟩ := renewals_split a9 hb
    refine ⟨fl.filter (fun f => ps.under p f && fs.isfile f), a, b, List.Sublist.nodup List.filter_sublist e1, ?_, ?_⟩
    · intro f
      rw [List.mem_filter, e2, hlog, Bool.and_eq_true]
    · unfold Does
      rw [a10, e]
      rfl
  · intro f h1 h2 h3 h4
    apply a8 p f hb ((hlog f).2 h1) h2 h3
    intro hc
    obtain ⟨⟨f', d'⟩, g1, g2⟩ := List.mem_map.1 hc
    have g2 : f' = f := g2
    subst g2
    obtain ⟨r', g3, _, g4⟩ := mem_back.1 g1
    by_cases e : d' = some true
    · subst e; exact h4 r' g3
    · simp [Present, e, h3] at g4
  · intro hl r' d' hq
    rcases a7 p r' d' hq with ⟨r0, h1, h2, _⟩ | ⟨_, _, h1, _⟩
    · unfold Waits at h1 hp
      rw [hp] at h1
      injection h1 with h1; injection h1 with h1 h3
      subst h1; subst h3
      exact h2 ⟨by omega, hP⟩
    · exact hl ((hlog p).1 h1)

/-- A path whose delay is not over, or that is not there, is still waited for; in the second case the delay is doubled, unless it is a minute or longer. -/
theorem C75_waits {ps : Paths} {w : World} (hw : Reached ps w) {p : String} {r : Int} {d : Option Bool} (hp : Waits w.filter p r d)
    (hi : w.filter.idle = false) (fs : Fs) {now : Int} (hd : w.filter.chkTime + w.filter.minTime ≤ now) :
    (now < w.filter.chkTime + r → Waits (step ps w (.check fs now)).filter p r d) ∧
    (w.filter.chkTime + r ≤ now → ¬ Present fs p d → Waits (step ps w (.check fs now)).filter p (if r < 60000000 then r * 2 else r) d) := by
  have h := (reached_inv hw).1
  obtain ⟨a1, a2, a3, a4, a5, a6, a7, a8, l, a9, a10⟩ := check_spec ps fs now w.filter h hi hd
  rw [step_check hi]
  constructor
  · intro hr
    have hn : ¬ r ≤ now - w.filter.chkTime := by omega
    have := a6 p r d hp (fun h => hn h.1)
    rw [if_neg hn] at this
    exact this
  · intro hr hP
    have := a6 p r d hp (fun h => hP h.2)
    rw [if_pos (by omega)] at this
    exact this

/-- A check reads only files that were waited for, or are in a directory that was waited for, and are there. -/
theorem C75_only {ps : Paths} {w : World} (hw : Reached ps w) (hi : w.filter.idle = false) (fs : Fs) (now : Int) {f : String} {l : List Eff}
    (hl : Does w.filter (step ps w (.check fs now)).filter l) (hf : .process f ∈ l) :
    fs.isfile f = true ∧ f ∈ w.logs ∧
    ∃ p r d, Waits w.filter p r d ∧ w.filter.chkTime + r ≤ now ∧ Present fs p d ∧ (d ≠ some true ∧ f = p ∨ d = some true ∧ ps.under p f = true) := by
  obtain ⟨h, hlog⟩ := reached_inv hw
  rw [step_check hi] at hl
  unfold Does at hl
  by_cases hd : w.filter.chkTime + w.filter.minTime ≤ now
  · obtain ⟨a1, a2, a3, a4, a5, a6, a7, a8, l', a9, a10⟩ := check_spec ps fs now w.filter h hi hd
    rw [a10] at hl
    have e : l' = l := List.append_cancel_left hl
    subst e
    obtain ⟨p, d, h1, h2⟩ := renewals_process a9 hf
    obtain ⟨r, h3, h4, h5⟩ := mem_back.1 h1
    have hm := h.pend p r d h3
    rcases h2 with ⟨h2, h6⟩ | ⟨h2, h6, h7, h8⟩
    · subst h6
      rw [if_neg h2] at hm
      refine ⟨by simpa [Present, h2] using h5, (hlog f).1 hm, f, r, d, h3, by omega, h5, Or.inl ⟨h2, rfl⟩⟩
    · exact ⟨h8, (hlog f).1 h6, p, r, d, h3, by omega, h5, Or.inr ⟨h2, h7⟩⟩
  · rw [check_early (by omega)] at hl
    have : l = [] := by simpa using hl
    subst this; simp at hf

/-- The same with nothing left out: what is waited for after a check. -/
theorem C75_afterwards {ps : Paths} {w : World} (hw : Reached ps w) (hi : w.filter.idle = false) (fs : Fs) {now : Int} (hd : w.filter.chkTime + w.filter.minTime ≤ now)
    {q : String} {r : Int} {d : Option Bool} (hq : Waits (step ps w (.check fs now)).filter q r d) :
    (∃ r0, Waits w.filter q r0 d) ∨ (r = 200000 ∧ d = some false ∧ q ∈ w.logs ∧ fs.isfile q = false ∧
      ∃ p r0, Waits w.filter p r0 (some true) ∧ w.filter.chkTime + r0 ≤ now ∧ fs.isdir p = true ∧ ps.under p q = true) := by
  obtain ⟨h, hlog⟩ := reached_inv hw
  obtain ⟨a1, a2, a3, a4, a5, a6, a7, a8, l, a9, a10⟩ := check_spec ps fs now w.filter h hi hd
  rw [step_check hi] at hq
  rcases a7 q r d hq with ⟨r0, h1, _⟩ | ⟨h1, h2, h3, h4, p, h5, h6⟩
  · exact Or.inl ⟨r0, h1⟩
  · obtain ⟨r0, g1, g2, g3⟩ := mem_back.1 h5
    exact Or.inr ⟨h1, h2, (hlog q).1 h3, h4, p, r0, g1, by omega, by simpa [Present] using g3, h6⟩

/-! ### In time -/

theorem checks_out {ps : Paths} (l : List (Fs × Int)) {w : World} (hw : WInv ps w) (hi : w.filter.idle = false) {e : Eff} (he : e ∈ w.filter.out) :
    e ∈ (run ps w (checks l)).filter.out := by
  induction l generalizing w with
  | nil => exact he
  | cons x l ih =>
    have hs : WInv ps (step ps w (.check x.1 x.2)) := step_inv hw _ (by intro p h; cases h)
    by_cases hd : w.filter.chkTime + w.filter.minTime ≤ x.2
    · obtain ⟨a1, a2, a3, a4, a5, a6, a7, a8, l', a9, a10⟩ := check_spec ps x.1 x.2 w.filter hw.1 hi hd
      refine ih (w := step ps w (.check x.1 x.2)) hs ?_ ?_
      · rw [step_check hi]; exact a4
      · rw [step_check hi, a10]; exact List.mem_append_left _ he
    · have e' : step ps w (.check x.1 x.2) = w := C75_early ps x.1 w (by omega)
      show e ∈ (run ps (step ps w (.check x.1 x.2)) (checks l)).filter.out
      rw [e']; exact ih hw hi he

/-- the only path that is waited for -/
def Single (s : Filter) (p : String) (r : Int) (d : Option Bool) : Prop := Waits s p r d ∧ ∀ q r' d', Waits s q r' d' → q = p

theorem check_found {ps : Paths} {w : World} (hw : WInv ps w) (hi : w.filter.idle = false) {p : String} {r : Int} {d : Option Bool} (hp : Waits w.filter p r d) (hd : d ≠ some true)
    {fs : Fs} (hf : fs.isfile p = true) {now : Int} (hr : w.filter.chkTime + r ≤ now) : Eff.process p ∈ (step ps w (.check fs now)).filter.out ∧ (step ps w (.check fs now)).filter.idle = false := by
  obtain ⟨a1, a2, a3, a4, a5, a6, a7, a8, l, a9, a10⟩ := check_spec ps fs now w.filter hw.1 hi (wait_due hw.1 hp hr)
  have hb : (p, d) ∈ back fs now w.filter := mem_back.2 ⟨r, hp, by omega, by simp [Present, hd, hf]⟩
  rw [step_check hi]
  refine ⟨?_, a4⟩
  obtain ⟨fl, a, b, _, _, e⟩ := renewals_split a9 hb
  rw [a10, e]
  match d, hd with
  | none, _ => simp [renewal]
  | some false, _ => simp [renewal, renewFile]
  | some true, hd => exact absurd rfl hd

theorem soon_fixed {ps : Paths} {p : String} {r : Int} {d : Option Bool} (hd : d ≠ some true) (l : List (Fs × Int)) (hf : ∀ x, x ∈ l → x.1.isfile p = true) (w : World)
    (hw : WInv ps w) (hi : w.filter.idle = false) (hp : Waits w.filter p r d) (hm : w.filter.minTime = r) {t : Int} (ht : w.filter.chkTime + r ≤ t) (hl : ∃ fs, (fs, t) ∈ l) :
    Eff.process p ∈ (run ps w (checks l)).filter.out := by
  induction l with
  | nil => obtain ⟨fs, h⟩ := hl; simp at h
  | cons x l ih =>
    have hs : WInv ps (step ps w (.check x.1 x.2)) := step_inv hw _ (by intro p h; cases h)
    by_cases hx : w.filter.chkTime + r ≤ x.2
    · have := check_found hw hi hp hd (hf x (List.mem_cons_self ..)) hx
      exact checks_out l hs this.2 this.1
    · have e' : step ps w (.check x.1 x.2) = w := C75_early ps x.1 w (by omega)
      show Eff.process p ∈ (run ps (step ps w (.check x.1 x.2)) (checks l)).filter.out
      rw [e']
      refine ih (fun y hy => hf y (List.mem_cons_of_mem _ hy)) ?_
      obtain ⟨fs, h⟩ := hl
      rcases List.mem_cons.1 h with h | h
      · exfalso; apply hx; rw [← h]; exact ht
      · exact ⟨fs, h⟩

/-- A file that is the only path waited for, with a delay of a minute at most, and that is there, is read at the latest by a check two delays later. -/
theorem C75_soon {ps : Paths} {w : World} (hw : Reached ps w) (hi : w.filter.idle = false) {p : String} {r : Int} {d : Option Bool} (hd : d ≠ some true)
    (hp : Waits w.filter p r d) (hs : ∀ q r' d', Waits w.filter q r' d' → q = p) (hr : r ≤ 60000000)
    (l : List (Fs × Int)) (hf : ∀ x, x ∈ l → x.1.isfile p = true) {t : Int} (ht : w.filter.chkTime + 2 * r ≤ t) (hl : ∃ fs, (fs, t) ∈ l) :
    Eff.process p ∈ (run ps w (checks l)).filter.out := by
  replace hw := reached_inv hw
  induction l with
  | nil => obtain ⟨fs, h⟩ := hl; simp at h
  | cons x l ih =>
    have hs' : WInv ps (step ps w (.check x.1 x.2)) := step_inv hw _ (by intro p h; cases h)
    have hpos := (delay_bounds (hw.1.time p r d hp).2).1
    unfold interval at hpos
    by_cases hx : w.filter.chkTime + r ≤ x.2
    · have := check_found hw hi hp hd (hf x (List.mem_cons_self ..)) hx
      exact checks_out l hs' this.2 this.1
    · have htl : ∃ fs, (fs, t) ∈ l := by
        obtain ⟨fs, h⟩ := hl
        rcases List.mem_cons.1 h with h | h
        · exfalso; rw [← h] at hx; dsimp only at hx; omega
        · exact ⟨fs, h⟩
      by_cases hm : w.filter.chkTime + w.filter.minTime ≤ x.2
      · have hlate : ∀ q r' d', Waits w.filter q r' d' → x.2 - w.filter.chkTime < r' := by
          intro q r' d' hq
          have e := hs q r' d' hq
          subst e
          unfold Waits at hq hp
          rw [hp] at hq
          injection hq with hq; injection hq with h1 h2
          subst h1; omega
        obtain ⟨b1, b2, b3, b4, b5⟩ := check_late (ps := ps) (fs := x.1) hw.1 hi hm hlate (wait_items hp)
        have hmin := ((check_spec ps x.1 x.2 w.filter hw.1 hi hm).2.2.2.2.1 (wait_items hp)).2
        have hback : back x.1 x.2 w.filter = [] := by
          cases hb : back x.1 x.2 w.filter with
          | nil => rfl
          | cons y ys =>
            obtain ⟨r', h1, h2, _⟩ := mem_back.1 (hb ▸ List.mem_cons_self .. : (y.1, y.2) ∈ back x.1 x.2 w.filter)
            have := hlate _ _ _ h1
            omega
        have hp' : Waits (w.filter.checkPending ps x.1 x.2) p r d := by unfold Waits; rw [b1]; exact hp
        have hmr : (w.filter.checkPending ps x.1 x.2).minTime = r := by
          rcases hmin with h | ⟨_, h⟩ | ⟨q, r', d', h1, h2⟩
          · have := (b5.time p r d hp').1 (by simp)
            unfold minute at h; omega
          · exact absurd hback h
          · unfold Waits at h1
            rw [b1] at h1
            have e := hs q r' d' h1
            subst e
            unfold Waits at hp
            rw [hp] at h1
            injection h1 with h1; injection h1 with h1 h3
            rw [h2, h1]
        have hstep := step_check (ps := ps) (fs := x.1) (now := x.2) hi
        refine soon_fixed (r := r) (d := d) hd l (fun y hy => hf y (List.mem_cons_of_mem _ hy)) (step ps w (.check x.1 x.2)) hs' ?_ ?_ ?_ (t := t) ?_ htl
        · rw [hstep]; exact b4
        · rw [hstep]; exact hp'
        · rw [hstep]; exact hmr
        · rw [hstep, b3]; omega
      · have e' : step ps w (.check x.1 x.2) = w := C75_early ps x.1 w (by omega)
        show Eff.process p ∈ (run ps (step ps w (.check x.1 x.2)) (checks l)).filter.out
        rw [e']
        exact ih (fun y hy => hf y (List.mem_cons_of_mem _ hy)) htl

/-! ### Never -/

theorem starved {ps : Paths} (gap : Int) (l : List (Fs × Int)) (w : World) (hw : Inv ps [] w.filter) (hi : w.filter.idle = false)
    (hl : ∀ q r d, Waits w.filter q r d → minute + gap < r) (hne : ∃ q r d, Waits w.filter q r d) {t : Int} (ht : w.filter.chkTime ≤ t ∧ t ≤ w.filter.chkTime + minute)
    (hs : Spaced gap t l) : (run ps w (checks l)).filter.pending.get? = w.filter.pending.get? ∧ (run ps w (checks l)).filter.out = w.filter.out := by
  induction l generalizing w t with
  | nil => exact ⟨rfl, rfl⟩
  | cons x l ih =>
    obtain ⟨h1, h2, h3⟩ := hs
    obtain ⟨q, r, d, hq⟩ := hne
    by_cases hm : w.filter.chkTime + w.filter.minTime ≤ x.2
    · have hlate : ∀ q r' d', Waits w.filter q r' d' → x.2 - w.filter.chkTime < r' := by
        intro q r' d' hq
        have := hl q r' d' hq
        omega
      obtain ⟨b1, b2, b3, b4, b5⟩ := check_late (ps := ps) (fs := x.1) hw hi hm hlate (wait_items hq)
      have hstep := step_check (ps := ps) (fs := x.1) (now := x.2) hi
      have := ih (step ps w (.check x.1 x.2)) (by rw [hstep]; exact b5) (by rw [hstep]; exact b4)
        (by intro q r' d' hq; rw [hstep] at hq; unfold Waits at hq; rw [b1] at hq; exact hl q r' d' hq)
        ⟨q, r, d, by rw [hstep]; unfold Waits; rw [b1]; exact hq⟩ (t := x.2) (by rw [hstep, b3]; unfold minute; omega) h3
      rw [hstep] at this
      exact ⟨this.1.trans b1, this.2.trans b2⟩
    · have e' : step ps w (.check x.1 x.2) = w := C75_early ps x.1 w (by omega)
      show (run ps (step ps w (.check x.1 x.2)) (checks l)).filter.pending.get? = _ ∧ (run ps (step ps w (.check x.1 x.2)) (checks l)).filter.out = _
      rw [e']
      have := hw.min.2
      exact ih w hw hi hl ⟨q, r, d, hq⟩ (t := x.2) ⟨by omega, by omega⟩ h3

/-- A path whose delay is longer than a minute and the time between two calls is not looked at any more, whether it is there or not, and whatever else is waited for. -/
theorem C75_starved {ps : Paths} {w : World} (hw : Reached ps w) (hi : w.filter.idle = false) {p : String} {r : Int} {d : Option Bool} (hp : Waits w.filter p r d) {gap : Int}
    (hr : 60000000 + gap < r) (l : List (Fs × Int)) {t : Int} (ht : w.filter.chkTime ≤ t ∧ t ≤ w.filter.chkTime + 60000000) (hs : Spaced gap t l) :
    Waits (run ps w (checks l)).filter p r d := by
  replace hw := (reached_inv hw).1
  induction l generalizing w t with
  | nil => exact hp
  | cons x l ih =>
    obtain ⟨h1, h2, h3⟩ := hs
    by_cases hm : w.filter.chkTime + w.filter.minTime ≤ x.2
    · obtain ⟨a1, a2, a3, a4, a5, a6, a7, a8, l', a9, a10⟩ := check_spec ps x.1 x.2 w.filter hw hi hm
      have hstep := step_check (ps := ps) (fs := x.1) (now := x.2) hi
      have hn : ¬ r ≤ x.2 - w.filter.chkTime := by omega
      have hp' := a6 p r d hp (fun h => hn h.1)
      rw [if_neg hn] at hp'
      refine ih (w := step ps w (.check x.1 x.2)) ?_ ?_ (t := x.2) ?_ h3 ?_
      · rw [hstep]; exact a4
      · rw [hstep]; exact hp'
      · rw [hstep, (a5 (wait_items hp)).1]; omega
      · rw [hstep]; exact a1
    · have e' : step ps w (.check x.1 x.2) = w := C75_early ps x.1 w (by omega)
      show Waits (run ps (step ps w (.check x.1 x.2)) (checks l)).filter p r d
      rw [e']
      have := hw.min.2
      unfold minute at this
      exact ih hi hp (t := x.2) ⟨by omega, by omega⟩ h3 hw

namespace InotifyExample

/-- all is there -/
def all : Fs := ⟨fun p => p == "/d/f" || p == "/a/g" || p == "/a/b/h", fun p => p == "/d" || p == "/a" || p == "/a/b"⟩

/-- nothing is there -/
def none' : Fs := ⟨fun _ => false, fun _ => false⟩

def s (n : Int) : Int := n * 1000000

/-- A log is added and read; then its directory disappears for two minutes, in which the thread comes to its check each second. -/
def lost : List Op :=
  [.start, .add "/d/f", .check all (s 1000), .event none' .gone "/d"] ++ checks ((List.range 120).map (fun i : Nat => (none', s (1001 + (i : Int)))))

end InotifyExample

open InotifyExample

theorem normal_example : AllNormal posix lost := by
  intro p hp
  have : p = "/d/f" := by simpa [lost, checks] using hp
  subst this
  unfold Normal
  decide +kernel

/-- A directory that was absent for two minutes is not noticed any more: the log in it is never read again, if the thread comes to its check at least each 42 seconds, whether directory and file are there or not. -/
theorem C75_refuted_starved (l : List (Fs × Int)) (hs : Spaced (s 42) (s 1120) l) :
    let w := run posix (run posix fresh lost) (checks l)
    w.filter.out = [.watchDir "/d", .watchFile "/d/f", .process "/d/f"] ∧ Waits w.filter "/d" 102400000 (some true) ∧ w.logs = ["/d/f"] := by
  have h0 : (run posix fresh lost).filter.out = [.watchDir "/d", .watchFile "/d/f", .process "/d/f"] ∧
      (run posix fresh lost).filter.pending.items = [("/d", (102400000, some true))] ∧ (run posix fresh lost).logs = ["/d/f"] ∧
      (run posix fresh lost).filter.idle = false ∧ (run posix fresh lost).filter.chkTime = s 1107 := by decide +kernel
  obtain ⟨e1, e2, e3, e4, e5⟩ := h0
  have hi := (reach_inv normal_example).1
  have hw : ∀ q r d, Waits (run posix fresh lost).filter q r d ↔ q = "/d" ∧ r = 102400000 ∧ d = some true := by
    intro q r d
    unfold Waits
    rw [Dict.get?_eq_some_iff, e2]
    simp
  have := starved (s 42) l (run posix fresh lost) hi e4
    (by intro q r d hq; rw [((hw q r d).1 hq).2.1]; decide) ⟨"/d", 102400000, some true, (hw _ _ _).2 ⟨rfl, rfl, rfl⟩⟩ (t := s 1120) (by rw [e5]; decide) hs
  refine ⟨this.2.trans e1, ?_, ?_⟩
  · unfold Waits; rw [this.1]; exact (hw _ _ _).2 ⟨rfl, rfl, rfl⟩
  · have hlog : ∀ (l : List (Fs × Int)) (w : World), (run posix w (checks l)).logs = w.logs := by
      intro l
      induction l with
      | nil => intro w; rfl
      | cons x l ih =>
        intro w
        show (run posix (step posix w (.check x.1 x.2)) (checks l)).logs = _
        rw [ih]
        unfold step; dsimp only; split <;> rfl
    rw [hlog]; exact e3

/-! ### Examples -/

example : Spaced (s 42) (s 1120) ((List.range 5).map (fun i : Nat => (all, s (1121 + (i : Int))))) := by
  simp [Spaced, s, List.range, List.range.loop]

example : (run posix fresh ([.start, .add "/d/f", .add "/a/g", .check all (s 1000), .event none' .gone "/d", .event none' .modified "/a/g"] ++
      checks [(none', s 1001), (all, s 1001 + 100000), (all, s 1001 + 400000)])).filter.out.drop 6 =
    [.unwatchDir "/d", .watchDir "/d", .unwatchFile "/d/f", .watchFile "/d/f", .process "/d/f", .unwatchFile "/a/g", .watchFile "/a/g", .process "/a/g"] := by
  decide +kernel

/-! ## C76: watches and events -/

/-- The files watched are the logs, each is watched once, and so is its directory. -/
theorem C76_watched {ps : Paths} {ops : List Op} (hn : AllNormal ps ops) :
    let s := (run ps fresh ops).filter
    (∀ p, p ∈ s.files ↔ p ∈ logs ops []) ∧ s.files.Nodup ∧ (∀ p, p ∈ s.files → ps.dirname p ∈ s.dirs) := by
  have h := reach_inv hn
  have hlog : ∀ (ops : List Op) (w : World), (run ps w ops).logs = logs ops w.logs := by
    intro ops
    induction ops with
    | nil => intro w; rfl
    | cons op ops ih =>
      intro w
      show (run ps (step ps w op) ops).logs = _
      rw [ih]
      cases op with
      | add p => unfold step; dsimp only; rw [logs]; split <;> rfl
      | del p =>
        unfold step; dsimp only; rw [logs]; split
        · rfl
        · rename_i hp
          congr 1
          symm
          rw [List.filter_eq_self]
          intro q hq
          simp only [ne_eq, decide_not, Bool.not_eq_true', decide_eq_false_iff_not]
          rintro rfl
          exact hp hq
      | start => rfl
      | idle b => rfl
      | event fs k p => rfl
      | check fs now =>
        have : (step ps w (.check fs now)).logs = w.logs := by unfold step; dsimp only; split <;> rfl
        rw [this]; rfl
  dsimp only
  refine ⟨fun p => ?_, h.1.files.nodup, h.1.files.dir⟩
  rw [h.2 p, hlog]; rfl

theorem beq_flip (a b : String) : (a == b) = true ↔ b = a := by rw [beq_iff_eq]; exact eq_comm

theorem bne_flip (a b : String) : (a != b) = true ↔ b ≠ a := by rw [bne_iff_ne]; exact ne_comm

theorem fileWatched_append (p : String) (a b : List Eff) (x : Bool) : fileWatched p (a ++ b) x = fileWatched p b (fileWatched p a x) := by
  induction a generalizing x with
  | nil => rfl
  | cons e a ih => cases e <;> simp only [List.cons_append, fileWatched, ih]

theorem dirWatched_append (p : String) (a b : List Eff) (x : Bool) : dirWatched p (a ++ b) x = dirWatched p b (dirWatched p a x) := by
  induction a generalizing x with
  | nil => rfl
  | cons e a ih => cases e <;> simp only [List.cons_append, dirWatched, ih]

/-- the watches are those that were set -/
def Replay (s : Filter) : Prop := ∀ p, (fileWatched p s.out false = true ↔ p ∈ s.files) ∧ (dirWatched p s.out false = true ↔ p ∈ s.dirs)

theorem replay_like {s s' : Filter} (h : Replay s) (h1 : s'.out = s.out) (h2 : s'.files = s.files) (h3 : s'.dirs = s.dirs) : Replay s' := by
  intro p; rw [h1, h2, h3]; exact h p

theorem replay_addPending {s : Filter} (h : Replay s) (p : String) (d : Option Bool) : Replay (s.addPending p d) := by
  obtain ⟨a1, a2, a3, a4, _⟩ := addPending_frame s p d
  exact replay_like h a4 a1 a2

theorem replay_process {s : Filter} (h : Replay s) (p : String) : Replay (s.process p) := by
  obtain ⟨b1, b2, b3, b4, b5, b6, b7, b8⟩ := process_frame s p
  intro q
  rw [b1, b2, b7, fileWatched_append, dirWatched_append]
  cases s.idle <;> simpa [fileWatched, dirWatched] using h q

theorem replay_addDir {s : Filter} (h : Replay s) (p : String) : Replay (s.addDir p) := by
  obtain ⟨b1, b2, b3, b4, b5, b6, b7, b8⟩ := addDir_frame s p
  intro q
  rw [b1, b7, b8, fileWatched_append, dirWatched_append]
  by_cases hp : p ∈ s.dirs
  · simp only [hp, if_true, fileWatched, dirWatched]
    refine ⟨(h q).1, (h q).2.trans ?_⟩
    constructor
    · exact Or.inl
    · rintro (h | h)
      · exact h
      · subst h; exact hp
  · simp only [hp, if_false, fileWatched, dirWatched]
    refine ⟨(h q).1, ?_⟩
    rw [Bool.or_eq_true, (h q).2, beq_flip]

theorem replay_delDir {s : Filter} (h : Replay s) (p : String) : Replay (s.delDir p) := by
  obtain ⟨b1, b2, b3, b4, b5, b6, b7, b8⟩ := delDir_frame s p
  intro q
  rw [b1, b7, b8, fileWatched_append, dirWatched_append]
  by_cases hp : p ∈ s.dirs
  · simp only [hp, if_true, fileWatched, dirWatched]
    refine ⟨(h q).1, ?_⟩
    rw [Bool.and_eq_true, (h q).2, bne_flip]
  · simp only [hp, if_false, fileWatched, dirWatched]
    refine ⟨(h q).1, (h q).2.trans ?_⟩
    constructor
    · intro h; refine ⟨h, ?_⟩; rintro rfl; exact hp h
    · exact fun h => h.1

theorem replay_addFile (ps : Paths) {s : Filter} (h : Replay s) (p : String) : Replay (s.addFile ps p) := by
  have h' := replay_addDir h (ps.dirname p)
  intro q
  unfold Filter.addFile
  dsimp only
  rw [fileWatched_append, dirWatched_append]
  simp only [fileWatched, dirWatched]
  refine ⟨?_, (h' q).2⟩
  rw [Bool.or_eq_true, (h' q).1, beq_flip]
  split
  · constructor
    · rintro (g | g)
      · exact g
      · subst g; assumption
    · exact Or.inl
  · simp

theorem replay_delFile {s : Filter} (h : Replay s) (p : String) : Replay (s.delFile p) := by
  obtain ⟨b1, b2, b3, b4, b5, b6, b7, b8⟩ := delFile_frame s p
  intro q
  rw [b1, b7, b8, fileWatched_append, dirWatched_append]
  by_cases hp : p ∈ s.files
  · simp only [hp, if_true, fileWatched, dirWatched]
    refine ⟨?_, (h q).2⟩
    rw [Bool.and_eq_true, (h q).1, bne_flip]
  · simp only [hp, if_false, fileWatched, dirWatched]
    refine ⟨(h q).1.trans ?_, (h q).2⟩
    constructor
    · intro h; refine ⟨h, ?_⟩; rintro rfl; exact hp h
    · exact fun h => h.1

theorem replay_refresh (ps : Paths) {s : Filter} (h : Replay s) (p : String) (d : Bool) : Replay (s.refresh ps p d) := by
  unfold Filter.refresh
  split
  · exact replay_addDir (replay_delDir h p) p
  · exact replay_addFile ps (replay_delFile h p) p

theorem replay_foldl {α : Type} {f : Filter → α → Filter} (hf : ∀ s a, Replay s → Replay (f s a)) (l : List α) {s : Filter} (h : Replay s) : Replay (l.foldl f s) := by
  induction l generalizing s with
  | nil => exact h
  | cons a l ih => exact ih (hf s a h)

theorem replay_step (ps : Paths) {w : World} (h : Replay w.filter) (op : Op) : Replay (step ps w op).filter := by
  have hfe : ∀ (fs : Fs) (s : Filter) (p : String), Replay s → Replay (s.fileEvent fs p) := by
    intro fs s p h
    unfold Filter.fileEvent
    split
    · exact replay_addPending h _ _
    · split
      · exact h
      · exact replay_process h p
  have hwg : ∀ (fs : Fs) (s : Filter) (g : Bool) (p : String) (wf : Bool), Replay s → Replay (s.watchGone ps fs g p wf) := by
    intro fs s g p wf h
    unfold Filter.watchGone
    dsimp only
    generalize (if (g && !wf && !decide (p ∈ s.dirs)) = true then (ps.unknown p).getD p else p) = p'
    split
    · exact replay_addPending h _ _
    · split
      · exact replay_foldl (fun s d hs => replay_addPending hs _ _) _ h
      · exact h
  have hfp : ∀ (fs : Fs) (s : Filter) (x : String × Option Bool), Replay s → Replay (s.foundPath ps fs x) := by
    intro fs s x h
    have h0 : Replay (s.delPending x.1) := replay_like h rfl rfl rfl
    unfold Filter.foundPath
    dsimp only
    split
    · exact replay_process h0 _
    · exact replay_process (replay_refresh ps h0 _ _) _
    · refine replay_foldl (fun s f hs => ?_) _ (replay_refresh ps h0 _ _)
      split
      · exact replay_addPending hs _ _
      · exact replay_process (replay_refresh ps hs _ _) _
  cases op with
  | add p =>
    unfold step; dsimp only; split
    · exact h
    · show Replay (w.filter.addLog ps p)
      unfold Filter.addLog
      dsimp only
      apply replay_addPending
      have := replay_addFile ps h p
      split
      · exact replay_like this rfl rfl rfl
      · exact this
  | del p =>
    unfold step; dsimp only; split
    · show Replay (w.filter.delLog ps p)
      unfold Filter.delLog
      dsimp only
      have h0 : Replay (w.filter.delPending p) := replay_like h rfl rfl rfl
      have h1 := replay_delFile h0 p
      split
      · exact h1
      · have h2 : Replay (((w.filter.delPending p).delFile p).delPending (ps.dirname p)) := replay_like h1 rfl rfl rfl
        exact replay_delDir h2 _
    · exact h
  | start => exact replay_like h rfl rfl rfl
  | idle b => exact replay_like h rfl rfl rfl
  | event fs k p =>
    show Replay (w.filter.callback ps fs k p)
    unfold Filter.callback
    dsimp only
    split
    · exact h
    · split
      · exact hfe _ _ _ (replay_refresh ps h _ _)
      · exact h
    · split
      · exact hfe _ _ _ (hwg _ _ _ _ _ h)
      · exact hwg _ _ _ _ _ h
    · split
      · exact hfe _ _ _ (hwg _ _ _ _ _ h)
      · exact hwg _ _ _ _ _ h
    · split
      · exact hfe _ _ _ h
      · exact h
  | check fs now =>
    unfold step; dsimp only; split
    · exact h
    · show Replay (w.filter.checkPending ps fs now)
      unfold Filter.checkPending
      dsimp only
      split
      · exact h
      · split
        · exact h
        · exact replay_foldl (hfp fs) _ (replay_like h rfl rfl rfl)

/-- The watches that are set and not removed are those the filter knows. -/
theorem C76_replay (ps : Paths) (ops : List Op) (p : String) :
    let s := (run ps fresh ops).filter
    (fileWatched p s.out false = true ↔ p ∈ s.files) ∧ (dirWatched p s.out false = true ↔ p ∈ s.dirs) := by
  have : ∀ (ops : List Op) (w : World), Replay w.filter → Replay (run ps w ops).filter := by
    intro ops
    induction ops with
    | nil => intro w h; exact h
    | cons op ops ih => intro w h; exact ih _ (replay_step ps h op)
  exact this ops fresh (by intro p; simp [fresh, new, fileWatched, dirWatched]) p

/-! ### Events -/

theorem waits_addPending {s : Filter} {p q : String} {d d' : Option Bool} {r : Int} :
    Waits (s.addPending p d) q r d' ↔ Waits s q r d' ∨ (s.pending.get? q = none ∧ r = interval ∧ q = p ∧ d' = d) := by
  unfold Waits
  rw [get?_addPending]
  by_cases e : q = p
  · subst e
    cases hq : s.pending.get? q with
    | none => simp [eq_comm]
    | some v => simp
  · simp [e]

theorem waits_foldl (l : List String) (s : Filter) (q : String) (r : Int) (d : Option Bool) :
    Waits (l.foldl (fun s x => s.addPending x (some true)) s) q r d ↔ Waits s q r d ∨ (s.pending.get? q = none ∧ r = interval ∧ q ∈ l ∧ d = some true) := by
  induction l generalizing s with
  | nil => simp
  | cons x l ih =>
    rw [List.foldl_cons, ih, waits_addPending, get?_addPending]
    by_cases e : q = x
    · subst e
      by_cases hq : s.pending.get? q = none
      · simp [hq]
      · simp [hq]
    · simp [e]

theorem frame_foldl (l : List String) (s : Filter) : (l.foldl (fun s x => s.addPending x (some true)) s).out = s.out ∧
    (l.foldl (fun s x => s.addPending x (some true)) s).chkTime = s.chkTime := by
  induction l generalizing s with
  | nil => exact ⟨rfl, rfl⟩
  | cons x l ih =>
    rw [List.foldl_cons]
    obtain ⟨a1, a2, a3, a4, a5, a6⟩ := addPending_frame s x (some true)
    have := ih (s.addPending x (some true))
    exact ⟨this.1.trans a4, this.2.trans a5⟩

/-- An event for a file: what is done, what is waited for. -/
theorem fileEvent_spec (fs : Fs) (s : Filter) (p : String) :
    (s.fileEvent fs p).out = s.out ++ (if fs.isfile p ∧ s.idle = false then [.process p] else []) ∧
    (∀ q r d, Waits (s.fileEvent fs p) q r d ↔ Waits s q r d ∨ (s.pending.get? q = none ∧ r = interval ∧ fs.isfile p = false ∧ q = p ∧ d = some false)) := by
  unfold Filter.fileEvent
  cases hf : fs.isfile p with
  | false =>
    simp only [Bool.not_false, if_true, Bool.false_eq_true, false_and, if_false, List.append_nil]
    refine ⟨(addPending_frame s p _).2.2.2.1, ?_⟩
    intro q r d
    rw [waits_addPending]
    simp
  | true =>
    simp only [Bool.not_true, Bool.false_eq_true, if_false]
    cases hi : s.idle with
    | true => simp
    | false =>
      obtain ⟨b1, b2, b3, b4, b5, b6, b7, b8⟩ := process_frame s p
      simp only [Bool.false_eq_true, if_false]
      refine ⟨by rw [b7, hi]; simp, ?_⟩
      intro q r d
      unfold Waits
      rw [b4]; simp

theorem watchGone_spec (ps : Paths) (fs : Fs) (s : Filter) (g : Bool) (p : String) :
    (s.watchGone ps fs g p false).out = s.out ∧
    (∀ q r d, Waits (s.watchGone ps fs g p false) q r d ↔ Waits s q r d ∨ (s.pending.get? q = none ∧ r = interval ∧ d = some true ∧ LostDir ps fs s (g = true) p q)) := by
  unfold Filter.watchGone LostDir
  dsimp only
  by_cases hd : p ∈ s.dirs
  · simp only [hd, decide_true, Bool.not_true, Bool.and_false, Bool.false_eq_true, if_false, Bool.true_and, not_true, false_and, or_false, true_and]
    by_cases hc : (g || !fs.isdir p) = true
    · rw [if_pos hc]
      refine ⟨(addPending_frame s p _).2.2.2.1, ?_⟩
      intro q r d
      rw [waits_addPending]
      have h1 : g = true ∨ fs.isdir p = false := by simpa using hc
      have h2 : ¬ (¬ g = true ∧ fs.isdir p = true) := by
        rintro ⟨a, b⟩; rcases h1 with h | h
        · exact a h
        · rw [h] at b; simp at b
      constructor
      · rintro (h | ⟨h3, h4, h5, h6⟩)
        · exact Or.inl h
        · exact Or.inr ⟨h3, h4, h6, Or.inl ⟨h1, h5⟩⟩
      · rintro (h | ⟨h3, h4, h6, h | h⟩)
        · exact Or.inl h
        · exact Or.inr ⟨h3, h4, h.2, h6⟩
        · exact absurd ⟨h.1, h.2.1⟩ h2
    · rw [if_neg hc]
      have hg : g = false := by cases g <;> simp_all
      have hx : fs.isdir p = true := by cases h : fs.isdir p <;> simp_all
      subst hg
      simp only [Bool.not_false, if_true, Bool.false_or, hx, Bool.false_eq_true, not_false_eq_true, true_and, false_or, reduceCtorEq, false_and]
      refine ⟨(frame_foldl _ s).1, ?_⟩
      intro q r d
      rw [waits_foldl]
      simp only [List.mem_filter, Bool.and_eq_true, Bool.not_eq_true', and_assoc]
      constructor
      · rintro (h | ⟨h1, h2, h3, h4, h5, h6⟩)
        · exact Or.inl h
        · exact Or.inr ⟨h1, h2, h6, h3, h4, h5⟩
      · rintro (h | ⟨h1, h2, h6, h3, h4, h5⟩)
        · exact Or.inl h
        · exact Or.inr ⟨h1, h2, h3, h4, h5, h6⟩
  · simp only [hd, decide_false, Bool.not_false, Bool.and_true, not_false_eq_true, true_and, false_and, false_or]
    cases g with
    | false =>
      simp only [Bool.false_eq_true, if_false, hd, decide_false, Bool.false_and, Bool.false_or, if_true, not_false_eq_true, true_and, false_and, or_false]
      refine ⟨(frame_foldl _ s).1, ?_⟩
      intro q r d
      rw [waits_foldl]
      simp only [List.mem_filter, Bool.and_eq_true, Bool.not_eq_true', and_assoc]
      constructor
      · rintro (h | ⟨h1, h2, h3, h4, h5, h6⟩)
        · exact Or.inl h
        · exact Or.inr ⟨h1, h2, h6, h3, h4, h5⟩
      · rintro (h | ⟨h1, h2, h6, h3, h4, h5⟩)
        · exact Or.inl h
        · exact Or.inr ⟨h1, h2, h3, h4, h5, h6⟩
    | true =>
      simp only [if_true, Bool.true_or, Bool.and_true, not_true, false_and, false_or, true_and, decide_eq_true_eq]
      by_cases hp : (ps.unknown p).getD p ∈ s.dirs
      · simp only [hp, if_true, true_and, not_true, false_and, or_false]
        refine ⟨(addPending_frame s _ _).2.2.2.1, ?_⟩
        intro q r d
        rw [waits_addPending]
        constructor
        · rintro (h | ⟨h3, h4, h5, h6⟩)
          · exact Or.inl h
          · exact Or.inr ⟨h3, h4, h6, h5⟩
        · rintro (h | ⟨h3, h4, h6, h5⟩)
          · exact Or.inl h
          · exact Or.inr ⟨h3, h4, h5, h6⟩
      · simp only [hp, if_false, false_and, not_false_eq_true, true_and, false_or]
        refine ⟨(frame_foldl _ s).1, ?_⟩
        intro q r d
        rw [waits_foldl]
        simp only [List.mem_filter, and_assoc]
        constructor
        · rintro (h | ⟨h1, h2, h3, h4, h6⟩)
          · exact Or.inl h
          · exact Or.inr ⟨h1, h2, h6, h3, h4⟩
        · rintro (h | ⟨h1, h2, h6, h3, h4⟩)
          · exact Or.inl h
          · exact Or.inr ⟨h1, h2, h3, h4, h6⟩

theorem callback_file (ps : Paths) (fs : Fs) (s : Filter) (p : String) (k : Kind) (h : OfFile s p) :
    s.callback ps fs k p = match k with
      | .created true => s
      | .created false => (s.refresh ps p false).fileEvent fs p
      | _ => s.fileEvent fs p := by
  have hw : decide (p ∉ s.dirs ∧ p ∈ s.files) = true := decide_eq_true ⟨h.2, h.1⟩
  have hg : ∀ g, s.watchGone ps fs g p true = s := by
    intro g
    unfold Filter.watchGone
    simp [h.2]
  unfold Filter.callback
  dsimp only
  rw [hw]
  match k with
  | .created true => rfl
  | .created false => rfl
  | .ignored => simp only [hg, if_true]
  | .gone => simp only [hg, if_true]
  | .modified => rfl

theorem callback_other (ps : Paths) (fs : Fs) (s : Filter) (p : String) (k : Kind) (h : ¬ OfFile s p) :
    s.callback ps fs k p = match k with
      | .ignored => s.watchGone ps fs false p false
      | .gone => s.watchGone ps fs true p false
      | _ => s := by
  have hw : decide (p ∉ s.dirs ∧ p ∈ s.files) = false := decide_eq_false (fun h' => h ⟨h'.2, h'.1⟩)
  unfold Filter.callback
  dsimp only
  rw [hw]
  match k with
  | .created true => rfl
  | .created false => rfl
  | .ignored => rfl
  | .gone => rfl
  | .modified => rfl

/-- What an event does: the watch of a new file is renewed, the file is read if it is there and the filter is not idle; files and directories that are lost are waited for. -/
theorem C76_event {ps : Paths} {w : World} (hw : Reached ps w) (fs : Fs) (k : Kind) (p : String) :
    let s := (step ps w (.event fs k p)).filter
    Does w.filter s (reaction fs w.filter p k) ∧
    ∀ q r d, Waits s q r d ↔ Waits w.filter q r d ∨ (w.filter.pending.get? q = none ∧ r = 200000 ∧ ∃ b, d = some b ∧ Lost ps fs w.filter p k q b) := by
  have h := (reached_inv hw).1
  have e : (step ps w (.event fs k p)).filter = w.filter.callback ps fs k p := rfl
  dsimp only
  rw [e]
  generalize w.filter = s at *
  unfold Does reaction Lost
  have hint : interval = 200000 := rfl
  by_cases hf : OfFile s p
  · rw [callback_file ps fs s p k hf]
    simp only [hf, not_true, if_false, false_and, and_false, or_false, true_and]
    obtain ⟨b1, b2⟩ := fileEvent_spec fs s p
    have fin : ∀ q r d, (Waits s q r d ∨ (s.pending.get? q = none ∧ r = interval ∧ fs.isfile p = false ∧ q = p ∧ d = some false)) ↔
        (Waits s q r d ∨ (s.pending.get? q = none ∧ r = 200000 ∧ ∃ b, d = some b ∧ b = false ∧ fs.isfile p = false ∧ True ∧ q = p)) := by
      intro q r d
      rw [hint]
      constructor
      · rintro (h | ⟨h1, h2, h3, h4, h5⟩)
        · exact Or.inl h
        · exact Or.inr ⟨h1, h2, false, h5, rfl, h3, trivial, h4⟩
      · rintro (h | ⟨h1, h2, b, h3, h4, h5, _, h6⟩)
        · exact Or.inl h
        · subst h4; exact Or.inr ⟨h1, h2, h5, h6, h3⟩
    match k with
    | .created true => simp
    | .created false =>
      obtain ⟨a1, a2, a3, a4, a5, a6, a7⟩ := refresh_file ps s p hf.1 (h.files.dir p hf.1)
      obtain ⟨c1, c2⟩ := fileEvent_spec fs (s.refresh ps p false) p
      dsimp only
      refine ⟨by rw [c1, a1, a7]; simp, ?_⟩
      intro q r d
      rw [c2]
      unfold Waits
      rw [a2]
      have := fin q r d
      unfold Waits at this
      simpa using this
    | .ignored => exact ⟨b1, fun q r d => (b2 q r d).trans (by simpa using fin q r d)⟩
    | .gone => exact ⟨b1, fun q r d => (b2 q r d).trans (by simpa using fin q r d)⟩
    | .modified => exact ⟨b1, fun q r d => (b2 q r d).trans (by simpa using fin q r d)⟩
  · rw [callback_other ps fs s p k hf]
    simp only [hf, not_false_eq_true, if_true, false_and, and_false, false_or, true_and, List.append_nil]
    have fin : ∀ (k' : Kind) (g : Bool), (k' = .gone ↔ g = true) → ∀ q r d, (Waits s q r d ∨ (s.pending.get? q = none ∧ r = interval ∧ d = some true ∧ LostDir ps fs s (g = true) p q)) ↔
        (Waits s q r d ∨ (s.pending.get? q = none ∧ r = 200000 ∧ ∃ b, d = some b ∧ b = true ∧ True ∧ LostDir ps fs s (k' = .gone) p q)) := by
      intro k' g hk q r d
      have : LostDir ps fs s (k' = .gone) p q ↔ LostDir ps fs s (g = true) p q := by rw [propext hk]
      rw [hint, this]
      constructor
      · rintro (h | ⟨h1, h2, h3, h4⟩)
        · exact Or.inl h
        · exact Or.inr ⟨h1, h2, true, h3, rfl, trivial, h4⟩
      · rintro (h | ⟨h1, h2, b, h3, h4, _, h5⟩)
        · exact Or.inl h
        · subst h4; exact Or.inr ⟨h1, h2, h3, h5⟩
    match k with
    | .created true => simp
    | .created false => simp
    | .ignored =>
      obtain ⟨b1, b2⟩ := watchGone_spec ps fs s false p
      exact ⟨b1, fun q r d => (b2 q r d).trans (by simpa using fin .ignored false (by simp) q r d)⟩
    | .gone =>
      obtain ⟨b1, b2⟩ := watchGone_spec ps fs s true p
      exact ⟨b1, fun q r d => (b2 q r d).trans (by simpa using fin .gone true (by simp) q r d)⟩
    | .modified => simp

/-- nothing new is waited for, or the next check is due -/
def Prompt (s s' : Filter) : Prop := (s'.pending.get? = s.pending.get? ∧ s'.minTime = s.minTime) ∨ s'.minTime = 0

theorem Prompt.trans {a b c : Filter} (h : Prompt a b) (g : Prompt b c) : Prompt a c := by
  rcases g with ⟨g1, g2⟩ | g
  · rcases h with ⟨h1, h2⟩ | h
    · exact Or.inl ⟨g1.trans h1, g2.trans h2⟩
    · exact Or.inr (g2.trans h)
  · exact Or.inr g

theorem prompt_addPending (s : Filter) (p : String) (d : Option Bool) : Prompt s (s.addPending p d) := by
  unfold Filter.addPending
  split
  · exact Or.inl ⟨rfl, rfl⟩
  · exact Or.inr rfl

theorem prompt_foldl (l : List String) (s : Filter) : Prompt s (l.foldl (fun s x => s.addPending x (some true)) s) := by
  induction l generalizing s with
  | nil => exact Or.inl ⟨rfl, rfl⟩
  | cons x l ih => exact (prompt_addPending s x _).trans (ih _)

theorem prompt_fileEvent (fs : Fs) (s : Filter) (p : String) : Prompt s (s.fileEvent fs p) := by
  unfold Filter.fileEvent
  split
  · exact prompt_addPending s p _
  · split
    · exact Or.inl ⟨rfl, rfl⟩
    · obtain ⟨b1, b2, b3, b4, b5, b6, b7, b8⟩ := process_frame s p
      exact Or.inl ⟨by rw [b4], b6⟩

theorem prompt_watchGone (ps : Paths) (fs : Fs) (s : Filter) (g : Bool) (p : String) (wf : Bool) : Prompt s (s.watchGone ps fs g p wf) := by
  unfold Filter.watchGone
  dsimp only
  generalize (if (g && !wf && !decide (p ∈ s.dirs)) = true then (ps.unknown p).getD p else p) = p'
  split
  · exact prompt_addPending s p' _
  · split
    · exact prompt_foldl _ s
    · exact Or.inl ⟨rfl, rfl⟩

/-- A path that is lost with an event is looked for at the next check. -/
theorem C76_at_once {ps : Paths} {w : World} (hw : Reached ps w) (fs : Fs) (k : Kind) (p : String) :
    let s := (step ps w (.event fs k p)).filter
    s.chkTime = w.filter.chkTime ∧ s.idle = w.filter.idle ∧ (s.minTime = w.filter.minTime ∨ s.minTime = 0) ∧
    ((∃ q r d, Waits s q r d ∧ ¬ Waits w.filter q r d) → s.minTime = 0) := by
  have h := (reached_inv hw).1
  have hL := (callback_inv (fs := fs) (k := k) (p := p) h).2
  have e : (step ps w (.event fs k p)).filter = w.filter.callback ps fs k p := rfl
  dsimp only
  rw [e]
  have hP : Prompt w.filter (w.filter.callback ps fs k p) := by
    by_cases hf : OfFile w.filter p
    · rw [callback_file ps fs _ p k hf]
      match k with
      | .created true => exact Or.inl ⟨rfl, rfl⟩
      | .created false =>
        obtain ⟨a1, a2, a3, a4, a5, a6, a7⟩ := refresh_file ps w.filter p hf.1 (h.files.dir p hf.1)
        have : Prompt w.filter (w.filter.refresh ps p false) := Or.inl ⟨by rw [a2], a4⟩
        exact this.trans (prompt_fileEvent ..)
      | .ignored => exact prompt_fileEvent ..
      | .gone => exact prompt_fileEvent ..
      | .modified => exact prompt_fileEvent ..
    · rw [callback_other ps fs _ p k hf]
      match k with
      | .created true => exact Or.inl ⟨rfl, rfl⟩
      | .created false => exact Or.inl ⟨rfl, rfl⟩
      | .ignored => exact prompt_watchGone ..
      | .gone => exact prompt_watchGone ..
      | .modified => exact Or.inl ⟨rfl, rfl⟩
  refine ⟨hL.chk, hL.idle, ?_, ?_⟩
  · rcases hP with h | h
    · exact Or.inl h.2
    · exact Or.inr h
  · rintro ⟨q, r, d, h1, h2⟩
    rcases hP with ⟨h3, _⟩ | h
    · unfold Waits at h1 h2
      rw [h3] at h1
      exact absurd h1 h2
    · exact h

/-! ### Commands -/

/-- A log that is added is watched, with its directory, and read at the next check in time. -/
theorem C76_added {ps : Paths} {w : World} (p : String) (hp : p ∉ w.logs) (hq : w.filter.pending.get? p = none) :
    let s := (step ps w (.add p)).filter
    Does w.filter s (if ps.dirname p ∈ w.filter.dirs then [.watchFile p] else [.watchDir (ps.dirname p), .watchFile p]) ∧
    Waits s p 200000 none ∧ (∀ q, q ≠ p → s.pending.get? q = w.filter.pending.get? q) ∧ s.minTime = 0 := by
  obtain ⟨b1, b2, b3, b4, b5, b6, b7, b8⟩ := addFile_frame ps w.filter p
  have e : (step ps w (.add p)).filter = w.filter.addLog ps p := by unfold step; simp [hp]
  dsimp only
  rw [e]
  unfold Filter.addLog
  dsimp only
  generalize hA : (if (w.filter.addFile ps p).active = true then { w.filter.addFile ps p with minTime := 0 } else w.filter.addFile ps p) = A
  have a1 : A.out = (w.filter.addFile ps p).out := by rw [← hA]; split <;> rfl
  have a2 : A.pending = w.filter.pending := by rw [← hA, ← b2]; split <;> rfl
  obtain ⟨c1, c2, c3, c4, c5, c6⟩ := addPending_frame A p none
  refine ⟨?_, ?_, ?_, ?_⟩
  · unfold Does; rw [c4, a1, b8]
  · rw [waits_addPending, a2]; exact Or.inr ⟨hq, rfl, rfl, rfl⟩
  · intro q hne
    rw [get?_addPending, a2]; simp [hne]
  · unfold Filter.addPending
    rw [a2]
    simp [Dict.contains, hq]

/-- A log that is removed is not watched nor waited for any more; its directory neither, unless another file watched is below it. -/
theorem C76_removed {ps : Paths} {w : World} (hw : Reached ps w) (p : String) (hp : p ∈ w.logs) (hd : ps.dirname p ≠ "") :
    let s := (step ps w (.del p)).filter
    Does w.filter s ([.unwatchFile p] ++ if ∃ f, f ∈ w.filter.files ∧ f ≠ p ∧ ps.under (ps.dirname p) f = true then [] else [.unwatchDir (ps.dirname p)]) ∧
    (∀ r d, ¬ Waits s p r d) ∧
    ((∃ f, f ∈ w.filter.files ∧ f ≠ p ∧ ps.under (ps.dirname p) f = true) ↔ ps.dirname p ∈ s.dirs) ∧
    (∀ q, q ≠ p → q ≠ ps.dirname p → s.pending.get? q = w.filter.pending.get? q) := by
  obtain ⟨h, hlog⟩ := reached_inv hw
  have hpf := (hlog p).2 hp
  obtain ⟨a1, a2, a3, a4, a5, a6, a7, a8⟩ := delFile_frame (w.filter.delPending p) p
  have e : (step ps w (.del p)).filter = w.filter.delLog ps p := by unfold step; simp [hp]
  have hany : (((w.filter.delPending p).delFile p).files.any (fun k => ps.under (ps.dirname p) k) || ps.dirname p == "") = true ↔
      ∃ f, f ∈ w.filter.files ∧ f ≠ p ∧ ps.under (ps.dirname p) f = true := by
    rw [Bool.or_eq_true, List.any_eq_true]
    constructor
    · rintro (⟨f, h1, h2⟩ | h1)
      · exact ⟨f, ((a7 f).1 h1).1, ((a7 f).1 h1).2, h2⟩
      · exact absurd (by simpa using h1) hd
    · rintro ⟨f, h1, h2, h3⟩
      exact Or.inl ⟨f, (a7 f).2 ⟨h1, h2⟩, h3⟩
  dsimp only
  rw [e]
  unfold Filter.delLog
  dsimp only
  have ho : ((w.filter.delPending p).delFile p).out = w.filter.out ++ [.unwatchFile p] := by
    rw [a8]
    have : p ∈ (w.filter.delPending p).files := hpf
    rw [if_pos this]; rfl
  by_cases hc : ∃ f, f ∈ w.filter.files ∧ f ≠ p ∧ ps.under (ps.dirname p) f = true
  · rw [if_pos (hany.2 hc)]
    simp only [hc, if_true, true_iff]
    refine ⟨by unfold Does; rw [ho]; rfl, ?_, ?_, ?_⟩
    · intro r d hq
      unfold Waits at hq
      rw [a3, get?_delPending, if_pos rfl] at hq
      simp at hq
    · rw [a1]; exact h.files.dir p hpf
    · intro q h1 h2
      rw [a3, get?_delPending, if_neg h1]
  · rw [if_neg (fun x => hc (hany.1 x))]
    simp only [hc, if_false, false_iff]
    obtain ⟨c1, c2, c3, c4, c5, c6, c7, c8⟩ := delDir_frame (((w.filter.delPending p).delFile p).delPending (ps.dirname p)) (ps.dirname p)
    refine ⟨?_, ?_, ?_, ?_⟩
    · unfold Does
      rw [c8]
      have h1 : ps.dirname p ∈ (((w.filter.delPending p).delFile p).delPending (ps.dirname p)).dirs := by
        show ps.dirname p ∈ ((w.filter.delPending p).delFile p).dirs
        rw [a1]; exact h.files.dir p hpf
      rw [if_pos h1]
      show ((w.filter.delPending p).delFile p).out ++ _ = _
      rw [ho]; simp
    · intro r d hq
      unfold Waits at hq
      rw [c3, get?_delPending, a3, get?_delPending, if_pos rfl] at hq
      simp at hq
    · rw [c7]; simp
    · intro q h1 h2
      rw [c3, get?_delPending, if_neg h2, a3, get?_delPending, if_neg h1]

theorem splitSlash_append {a b : List Char} (h : '/' ∉ b) : splitSlash (a ++ '/' :: b) = (a ++ ['/'], b) := by
  have hb : ∀ x ∈ b.reverse, x ≠ '/' := by
    intro x hx e
    subst e
    exact h (List.mem_reverse.1 hx)
  have h1 : ∀ (l m : List Char), (∀ x ∈ l, x ≠ '/') → (l ++ '/' :: m).dropWhile (· ≠ '/') = '/' :: m ∧ (l ++ '/' :: m).takeWhile (· ≠ '/') = l := by
    intro l m hl
    induction l with
    | nil => simp
    | cons c l ih =>
      have hc := hl c (List.mem_cons_self ..)
      have := ih (fun x hx => hl x (List.mem_cons_of_mem _ hx))
      simpa [hc] using this
  unfold splitSlash
  have e : (a ++ '/' :: b).reverse = b.reverse ++ '/' :: a.reverse := by simp
  rw [e, (h1 b.reverse a.reverse hb).1, (h1 b.reverse a.reverse hb).2]
  simp

/-- The directory of a file `d/b` is `d`, and the file is below it, except in `/` itself. -/
theorem C76_posix {a b : List Char} (ha : a.getLast? ≠ some '/') (hne : a ≠ []) (hb : '/' ∉ b) :
    posix.dirname (String.ofList (a ++ '/' :: b)) = String.ofList a ∧ Normal posix (String.ofList (a ++ '/' :: b)) := by
  have hd : posix.dirname (String.ofList (a ++ '/' :: b)) = String.ofList a := by
    show posixDirname _ = _
    unfold posixDirname
    rw [String.toList_ofList, splitSlash_append hb]
    dsimp only
    obtain ⟨a', c, rfl⟩ : ∃ a' c, a = a' ++ [c] := by
      cases h : a.reverse with
      | nil => exact absurd (by simpa using h) hne
      | cons c r => exact ⟨r.reverse, c, by rw [← List.reverse_reverse a, h]; simp⟩
    have hc : c ≠ '/' := by simpa using ha
    have hall : ((a' ++ [c] ++ ['/']).all (fun x => decide (x = '/'))) = false := by
      simp [hc]
    rw [hall]
    simp [hc]
  refine ⟨hd, ?_⟩
  unfold Normal
  rw [hd]
  show ((String.ofList a).toList ++ ['/']).isPrefixOf (String.ofList (a ++ '/' :: b)).toList = true
  rw [String.toList_ofList, String.toList_ofList, List.isPrefixOf_iff_prefix]
  exact ⟨b, by simp⟩

/-! ### What does not hold -/

/-- A modification notified while the filter is idle is not read afterwards, as long as there is no further event. -/
theorem C76_refuted_idle (l : List (Fs × Int)) :
    let w := run posix fresh [.start, .add "/d/f", .check all (s 1000), .idle true, .event all .modified "/d/f", .idle false]
    (run posix w (checks l)).filter.out = [.watchDir "/d", .watchFile "/d/f", .process "/d/f"] := by
  have h0 : let w := run posix fresh [.start, .add "/d/f", .check all (s 1000), .idle true, .event all .modified "/d/f", .idle false]
      w.filter.out = [.watchDir "/d", .watchFile "/d/f", .process "/d/f"] ∧ w.filter.pending.items = [] := by decide +kernel
  dsimp only at h0 ⊢
  generalize run posix fresh [.start, .add "/d/f", .check all (s 1000), .idle true, .event all .modified "/d/f", .idle false] = w at *
  have key : ∀ x : Fs × Int, step posix w (.check x.1 x.2) = w := by
    intro x
    unfold step Filter.checkPending
    simp [h0.2]
  have : run posix w (checks l) = w := by
    induction l with
    | nil => rfl
    | cons x l ih =>
      show run posix (step posix w (.check x.1 x.2)) (checks l) = w
      rw [key, ih]
  rw [this]; exact h0.1

/-- A directory is still watched when there is no log any more, if logs are removed in this order. -/
theorem C76_refuted_leak :
    let w := run posix fresh [.add "/a/g", .add "/a/b/h", .del "/a/g", .del "/a/b/h"]
    w.logs = [] ∧ w.filter.files = [] ∧ w.filter.dirs = ["/a"] := by
  decide +kernel

/-- The directory `/` is no more watched when one of two logs in it is removed. -/
theorem C76_refuted_root :
    let w := run posix fresh [.add "/g", .add "/h", .del "/g"]
    w.logs = ["/h"] ∧ w.filter.files = ["/h"] ∧ w.filter.dirs = [] := by
  decide +kernel

/-! ### Examples -/

example : let w := run posix fresh [.start, .add "/d/f", .add "/a/g", .check all (s 1000)]
    (step posix w (.event all (.created false) "/d/f")).filter.out.drop 6 = [.unwatchFile "/d/f", .watchFile "/d/f", .process "/d/f"] ∧
    (step posix w (.event all .modified "/a/g")).filter.out.drop 6 = [.process "/a/g"] ∧
    (step posix w (.event none' .gone "/d-unknown-path")).filter.pending.items = [("/d", (200000, some true))] ∧
    (step posix w (.event all .ignored "/d")).filter.pending.items = [] ∧
    (step posix w (.event none' .ignored "")).filter.pending.items = [("/d", (200000, some true)), ("/a", (200000, some true))] ∧
    (step posix w (.event none' .ignored "/a/g")).filter.pending.items = [("/a/g", (200000, some false))] ∧
    (step posix w (.event all .modified "/a/x")).filter.out.drop 6 = [] := by
  decide +kernel

example : posix.dirname "/var/log/auth.log" = "/var/log" ∧ posix.dirname "/f" = "/" ∧ posix.dirname "f" = "" ∧ posix.under "/var/log" "/var/log/auth.log" = true ∧
    posix.under "/var/lo" "/var/log/auth.log" = false := by
  decide +kernel

end Verif
