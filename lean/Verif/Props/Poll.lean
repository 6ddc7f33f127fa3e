import Verif.Lemmas.Poll

/-!
# C74: polling of log files
-/

namespace Verif

open Poll PollSpec

namespace Poll

theorem run_cons (w : World) (s : Step) (l : List Step) : run w (s :: l) = run (step w s) l := rfl

theorem reads_append {p : String} : ∀ {a b : List Step} {w : World}, Reads p w a → Reads p (run w a) b → Reads p w (a ++ b) := by
  intro a
  induction a with
  | nil => intro b w _ h; exact h
  | cons s a ih => intro b w h1 h2; exact ⟨h1.1, ih h1.2 h2⟩

theorem checks_spec {p : String} {st : Stat} : ∀ (n : Nat) (w : World), w.todo.length ≤ n → w.stat p = some st → p ∈ w.filter.logs →
    (p ∈ w.todo ∨ w.filter.prev.get? p = some (some st)) → w.filter.idle = false → w.filter.errors + w.todo.length < 100 →
    Reads p w (List.replicate n .check) ∧ (run w (List.replicate n .check)).todo = [] ∧ (run w (List.replicate n .check)).stat = w.stat ∧
    (run w (List.replicate n .check)).version = w.version ∧ (run w (List.replicate n .check)).filter.prev.get? p = some (some st) ∧
    p ∈ (run w (List.replicate n .check)).filter.logs ∧ (run w (List.replicate n .check)).filter.idle = false ∧
    (run w (List.replicate n .check)).mods.length ≤ w.mods.length + w.todo.length := by
  intro n
  induction n with
  | zero =>
    intro w hn hs hl hp hi _
    have ht := List.eq_nil_of_length_eq_zero (Nat.le_zero.mp hn)
    refine ⟨trivial, ht, rfl, rfl, ?_, hl, hi, Nat.le_add_right _ _⟩
    rcases hp with hp | hp
    · rw [ht] at hp; cases hp
    · exact hp
  | succ n ih =>
    intro w hn hs hl hp hi he
    rw [List.replicate_succ]
    cases ht : w.todo with
    | nil =>
      have hstep : step w .check = w := by unfold step; dsimp only; rw [ht]
      rw [ht] at hp hn he
      have := ih w (by rw [ht]; exact Nat.zero_le _) hs hl (by rw [ht]; exact hp) hi (by rw [ht]; exact he)
      rw [ht] at this
      refine ⟨⟨fun h => h, ?_⟩, ?_⟩
      · rw [hstep]; exact this.1
      · rw [run_cons, hstep]
        exact this.2
    | cons q qs =>
      have hstep : step w .check = ⟨(w.filter.isModified q (w.stat q)).2, w.stat, w.version, w.read, qs, if (w.filter.isModified q (w.stat q)).1 = true then w.mods ++ [q] else w.mods⟩ := by
        unfold step; dsimp only; rw [ht]
      rw [ht] at hp hn he
      rw [List.length_cons] at hn he
      have hl' : p ∈ (w.filter.isModified q (w.stat q)).2.logs := by
        by_cases e : p = q
        · subst e; rw [hs, (isModified_some ..).1]; exact hl
        · exact (isModified_ne w.filter (w.stat q) e).2.2.mpr hl
      have hp' : p ∈ qs ∨ (w.filter.isModified q (w.stat q)).2.prev.get? p = some (some st) := by
        by_cases e : p = q
        · subst e; rw [hs]; exact .inr (isModified_some ..).2.2.1
        · rw [(isModified_ne w.filter (w.stat q) e).1]
          rcases hp with hp | hp
          · rcases List.mem_cons.mp hp with hp | hp
            · exact absurd hp e
            · exact .inl hp
          · exact .inr hp
      have he' : (w.filter.isModified q (w.stat q)).2.idle = false ∧ (w.filter.isModified q (w.stat q)).2.errors ≤ w.filter.errors + 1 := by
        cases hq : w.stat q with
        | some sq => obtain ⟨_, _, _, _, _, h6, h7⟩ := isModified_some w.filter q sq; rw [h6, h7]; exact ⟨hi, Nat.le_succ _⟩
        | none =>
          have hd : ∀ s : Poll, (s.delLog q).idle = s.idle ∧ (s.delLog q).errors = s.errors := by
            intro s; unfold Poll.delLog; split <;> exact ⟨rfl, rfl⟩
          have hc : ∀ s : Poll, s.errors = w.filter.errors → s.idle = false → s.commonError.idle = false ∧ s.commonError.errors ≤ w.filter.errors + 1 := by
            intro s h1 h2
            unfold Poll.commonError
            rw [if_neg (by omega)]
            exact ⟨h2, by dsimp only; omega⟩
          unfold Poll.isModified
          dsimp only
          split
          · exact ⟨hi, Nat.le_succ _⟩
          · dsimp only
            split
            · rw [(hd _).1, (hd _).2]
              exact hc _ rfl hi
            · exact hc _ rfl hi
      obtain ⟨i1, i2, i3, i4, i5, i6, i7, i8⟩ := ih (step w .check) (by rw [hstep]; dsimp only; omega) (by rw [hstep]; exact hs) (by rw [hstep]; exact hl')
        (by rw [hstep]; exact hp') (by rw [hstep]; exact he'.1) (by rw [hstep]; dsimp only; have := he'.2; omega)
      refine ⟨⟨fun h => h, i1⟩, ?_⟩
      show (run (step w .check) _).todo = [] ∧ (run (step w .check) _).stat = _ ∧ (run (step w .check) _).version = _ ∧ (run (step w .check) _).filter.prev.get? p = _ ∧
        p ∈ (run (step w .check) _).filter.logs ∧ (run (step w .check) _).filter.idle = _ ∧ (run (step w .check) _).mods.length ≤ _
      refine ⟨i2, by rw [i3, hstep], by rw [i4, hstep], i5, i6, i7, Nat.le_trans i8 ?_⟩
      rw [hstep]
      dsimp only
      rw [List.length_cons]
      split
      · simp; omega
      · omega

theorem reads_spec {p : String} : ∀ (m : Nat) (w : World), w.todo = [] → w.mods.length ≤ m → w.filter.idle = false →
    Reads p w (List.replicate m .read) ∧ (run w (List.replicate m .read)).mods = [] ∧ (run w (List.replicate m .read)).filter = w.filter ∧
    (run w (List.replicate m .read)).stat = w.stat ∧ (run w (List.replicate m .read)).version = w.version ∧ (run w (List.replicate m .read)).todo = [] := by
  intro m
  induction m with
  | zero =>
    intro w ht hm hi
    exact ⟨trivial, List.eq_nil_of_length_eq_zero (Nat.le_zero.mp hm), rfl, rfl, rfl, ht⟩
  | succ m ih =>
    intro w ht hm hi
    rw [List.replicate_succ]
    have hnm : ¬Missed p w .read := by rintro ⟨_, _, h⟩; rw [hi] at h; cases h
    have hstep : step w .read = { w with mods := w.mods.tail, read := (step w .read).read } := by
      unfold step
      dsimp only
      rw [ht]
      cases hq : w.mods with
      | nil => dsimp only; rw [← hq]; cases w; cases hq; cases ht; rfl
      | cons q qs => rfl
    obtain ⟨h1, h2, h3, h4, h5, h6⟩ := ih (step w .read) (by rw [hstep]; exact ht) (by rw [hstep]; dsimp only; rw [List.length_tail]; omega) (by rw [hstep]; exact hi)
    refine ⟨⟨hnm, h1⟩, h2, ?_, ?_, ?_, h6⟩
    · show (run (step w .read) _).filter = _; rw [h3, hstep]
    · show (run (step w .read) _).stat = _; rw [h4, hstep]
    · show (run (step w .read) _).version = _; rw [h5, hstep]

end Poll

/-! ## No modification is missed -/

/-- Whatever happens, a log is read up to its current content if its `stat` is the one remembered and it is not about to be read: provided that each modification changes the `stat` and
each reading of this log after a modification succeeds. -/
theorem C74_seen {logs : List String} {stat : String → Option Stat} {p : String} {l : List Step} {st : Stat} (hd : Distinct p (stat p).toList l) (hr : Reads p (start logs stat) l)
    (hl : p ∈ (run (start logs stat) l).filter.logs) (hs : (run (start logs stat) l).stat p = some st) (hp : (run (start logs stat) l).filter.prev.get? p = some (some st))
    (hm : p ∉ (run (start logs stat) l).mods) : (run (start logs stat) l).read p = (run (start logs stat) l).version p := by
  obtain ⟨h, inv⟩ := run_inv (start_inv logs stat p) (by rw [List.map_map]; simpa [Function.comp_def] using hd) hr
  exact inv_seen inv hl hs hp hm

/-- A pass of the main loop reads all that was written before it. -/
theorem C74_pass {logs : List String} {stat : String → Option Stat} {p : String} {l : List Step} {st : Stat} (hd : Distinct p (stat p).toList l) (hr : Reads p (start logs stat) l)
    (hl : p ∈ (run (start logs stat) l).filter.logs) (hs : (run (start logs stat) l).stat p = some st) (ht : (run (start logs stat) l).todo = []) (hm : (run (start logs stat) l).mods = [])
    (hi : (run (start logs stat) l).filter.idle = false) (he : (run (start logs stat) l).filter.errors + (run (start logs stat) l).filter.logs.length < 100) {n m : Nat}
    (hn : (run (start logs stat) l).filter.logs.length ≤ n) (hm' : (run (start logs stat) l).filter.logs.length ≤ m) :
    (run (run (start logs stat) l) (pass n m)).read p = (run (start logs stat) l).version p := by
  obtain ⟨h, inv⟩ := run_inv (start_inv logs stat p) (by rw [List.map_map]; simpa [Function.comp_def] using hd) hr
  revert inv hl hs ht hm hi he hn hm'
  generalize run (start logs stat) l = w
  intro hl hs ht hm hi he hn hm' inv
  have hb : step w .begin = { w with todo := w.filter.logs } := by
    unfold step; dsimp only; rw [if_pos ⟨ht, hm, hi⟩]
  have c := checks_spec n (step w .begin) (by rw [hb]; exact hn) (p := p) (st := st) (by rw [hb]; exact hs) (by rw [hb]; exact hl) (by rw [hb]; exact .inl hl) (by rw [hb]; exact hi)
    (by rw [hb]; exact he)
  obtain ⟨c1, c2, c3, c4, c5, c6, c7, c8⟩ := c
  have b1 : (step w .begin).stat = w.stat := by rw [hb]
  have b2 : (step w .begin).version = w.version := by rw [hb]
  have b3 : (step w .begin).mods = [] := by rw [hb]; exact hm
  have b4 : (step w .begin).todo = w.filter.logs := by rw [hb]
  rw [b1] at c3
  rw [b2] at c4
  rw [b3, b4] at c8
  obtain ⟨r1, r2, r3, r4, r5, r6⟩ := reads_spec (p := p) m (run (step w .begin) (List.replicate n .check)) c2 (by simp at c8; omega) c7
  have hreads : Reads p w (pass n m) := ⟨fun h => h, reads_append c1 r1⟩
  have hdist : ∀ (seen : List Stat), Distinct p seen (pass n m) := by
    intro seen
    have h1 : ∀ k, Distinct p seen (List.replicate k .read) := by
      intro k; induction k with
      | zero => trivial
      | succ k ih => exact ih
    have h2 : ∀ k, Distinct p seen (List.replicate k .check ++ List.replicate m .read) := by
      intro k; induction k with
      | zero => exact h1 m
      | succ k ih => exact ih
    exact h2 n
  obtain ⟨h', inv'⟩ := run_inv inv (hdist _) hreads
  have e : run w (pass n m) = run (run (step w .begin) (List.replicate n .check)) (List.replicate m .read) := by
    unfold pass run
    rw [List.foldl_cons, List.foldl_append]
  rw [e] at inv' ⊢
  have := inv_seen inv' (by rw [r3]; exact c6) (st := st) (by rw [r4, c3]; exact hs) (by rw [r3]; exact c5) (by rw [r2]; simp)
  rw [this, r5, c4]

/-- Checking of a log has no influence on the others. -/
theorem C74_independent (s : Poll) (st : Option Stat) {p q : String} (h : q ≠ p) :
    (s.isModified p st).2.prev.get? q = s.prev.get? q ∧ (s.isModified p st).2.cnt.get? q = s.cnt.get? q ∧ (q ∈ (s.isModified p st).2.logs ↔ q ∈ s.logs) := isModified_ne s st h

/-- A log counts as modified exactly if its `stat` differs from the one remembered, which is then the new one. -/
theorem C74_modified (s : Poll) (p : String) (st : Stat) :
    ((s.isModified p (some st)).1 = true ↔ s.prev.get? p ≠ some (some st)) ∧ (s.isModified p (some st)).2.prev.get? p = some (some st) ∧
      (s.isModified p (some st)).2.cnt.get? p = some 0 ∧ (s.isModified p (some st)).2.logs = s.logs :=
  ⟨(isModified_some s p st).2.2.2.2.1, (isModified_some s p st).2.2.1, (isModified_some s p st).2.2.2.1, (isModified_some s p st).1⟩

/-- A log that is not there is given up exactly when it was not found for 51 times in a row. -/
theorem C74_removed {s : Poll} {p : String} (hl : p ∈ s.logs) (hp : s.prev.get? p ≠ none) (hc : s.cnt.get? p = some 0) (n : Nat) :
    (p ∈ (absent s p n).logs ↔ n ≤ 50) ∧ (n ≤ 50 → (absent s p n).prev.get? p = s.prev.get? p ∧ (absent s p n).cnt.get? p = some n) ∧
      (50 < n → (absent s p n).prev.get? p = none ∧ (absent s p n).cnt.get? p = none) := by
  induction n with
  | zero => exact ⟨by simp [absent, hl], fun _ => ⟨rfl, hc⟩, fun h => absurd h (by omega)⟩
  | succ n ih =>
    obtain ⟨i1, i2, i3⟩ := ih
    rw [absent]
    by_cases hn : n ≤ 50
    · obtain ⟨j1, j2⟩ := i2 hn
      have j0 := i1.mpr hn
      revert j0 j1 j2
      generalize absent s p n = t
      intro j1 j2 j0
      unfold Poll.isModified
      dsimp only
      rw [if_neg (by rw [j1]; simp [j0, hp]), j2]
      dsimp only [Option.getD_some]
      obtain ⟨c1, c2, c3⟩ := commonError_same { t with cnt := t.cnt.insert p (n + 1) }
      dsimp only at c1 c2 c3
      by_cases h50 : n + 1 > 50
      · rw [if_pos h50]
        have e : p ∈ ({ t with cnt := t.cnt.insert p (n + 1) }.commonError).logs := by rw [c1]; exact j0
        refine ⟨by rw [mem_delLog]; simp; omega, fun h => absurd h (by omega), fun _ => ?_⟩
        unfold Poll.delLog
        rw [if_pos e]
        exact ⟨Dict.get?_erase_self .., Dict.get?_erase_self ..⟩
      · rw [if_neg h50, c1, c2, c3]
        refine ⟨by simp [j0]; omega, fun _ => ⟨j1, by simp⟩, fun h => absurd h (by omega)⟩
    · have h1 : p ∉ (absent s p n).logs := fun h => hn (i1.mp h)
      have h2 := i3 (by omega)
      unfold Poll.isModified
      dsimp only
      rw [if_pos (.inl h1)]
      exact ⟨⟨fun h => absurd h h1, fun h => absurd h (by omega)⟩, fun h => absurd h (by omega), fun _ => h2⟩

/-- A log given up is not read any more until it is added again. -/
theorem C74_given_up {p : String} {w : World} (hp : p ∉ w.filter.logs) (l : List Step) (hl : Step.add p ∉ l) : p ∉ (run w l).filter.logs ∧ (run w l).read p = w.read p := by
  induction l generalizing w with
  | nil => exact ⟨hp, rfl⟩
  | cons s l ih =>
    rw [List.mem_cons, not_or] at hl
    have key : p ∉ (step w s).filter.logs ∧ (step w s).read p = w.read p := by
      cases s with
      | write q st => exact ⟨hp, rfl⟩
      | vanish q => exact ⟨hp, rfl⟩
      | add q =>
        refine ⟨?_, rfl⟩
        have hq : p ≠ q := by rintro rfl; exact hl.1 rfl
        show p ∉ (w.filter.addLog q).logs
        unfold Poll.addLog
        split
        · exact hp
        · simp [hp, hq]
      | del q =>
        refine ⟨?_, rfl⟩
        show p ∉ (w.filter.delLog q).logs
        rw [mem_delLog]
        exact fun h => hp h.1
      | begin => unfold step; dsimp only; split <;> exact ⟨hp, rfl⟩
      | check =>
        unfold step; dsimp only; split
        · exact ⟨hp, rfl⟩
        · rename_i q qs _
          refine ⟨?_, rfl⟩
          dsimp only
          by_cases e : p = q
          · subst e
            cases hs : w.stat p with
            | none => exact fun h => hp ((isModified_none w.filter p).2.2 h).1
            | some st => rw [(isModified_some w.filter p st).1]; exact hp
          · rw [(isModified_ne w.filter (w.stat q) e).2.2]; exact hp
      | read =>
        unfold step; dsimp only; split
        · rename_i q qs _ _
          refine ⟨hp, ?_⟩
          dsimp only
          split
          · rename_i h
            unfold update
            rw [if_neg]
            rintro rfl
            exact hp h.2
          · rfl
        · exact ⟨hp, rfl⟩
      | fail => unfold step; dsimp only; split <;> exact ⟨hp, rfl⟩
      | raise =>
        unfold step; dsimp only; split
        · refine ⟨?_, rfl⟩
          dsimp only
          rw [(commonError_same _).1]
          exact hp
        · exact ⟨hp, rfl⟩
    obtain ⟨h1, h2⟩ := ih key.1 hl.2
    exact ⟨h1, by rw [← key.2]; exact h2⟩

/-! ## What is not true -/

namespace PollExample

def stat0 : String → Option Stat := fun _ => some ⟨10, 1, 100⟩

/-- A log found as modified could not be read. -/
def failed : World := run (start ["a"] stat0) [.begin, .check, .fail]

/-- Two of three logs are absent in 50 passes, then the third one is modified. -/
def twoAbsent : World :=
  step (run (run (start ["a", "b", "c"] stat0) (pass 3 3 ++ [.vanish "a", .vanish "b"])) (List.flatten (List.replicate 50 (pass 3 0)))) (.write "c" ⟨11, 1, 200⟩)

/-- The exception of one log. -/
def raised : World := run (start ["a", "b"] stat0) [.begin, .check, .check, .raise]

end PollExample

open PollExample

/-- A log that could not be read once is not read again, in any number of passes, until it is modified: its `stat` is remembered before it is read. -/
theorem C74_refuted_failed (n : Nat) : let w := run failed (List.flatten (List.replicate n (pass 1 1)))
    w.read "a" = 0 ∧ w.version "a" = 1 ∧ w.stat "a" = some ⟨10, 1, 100⟩ ∧ w.filter.logs = ["a"] ∧ w.filter.idle = false := by
  have fixed : run failed (pass 1 1) = failed := by
    rfl
  have : run failed (List.flatten (List.replicate n (pass 1 1))) = failed := by
    induction n with
    | zero => rfl
    | succ n ih =>
      rw [List.replicate_succ, List.flatten_cons, run, List.foldl_append]
      show run (run failed (pass 1 1)) _ = failed
      rw [fixed, ih]
  dsimp only
  rw [this]
  decide +kernel

/-- An exception for one log lets the modifications of other logs be missed. -/
theorem C74_refuted_raise : let w := run raised (pass 2 2)
    w.read "b" = 0 ∧ w.version "b" = 1 ∧ w.filter.logs = ["a", "b"] ∧ w.filter.idle = false ∧ w.filter.prev.get? "b" = some (w.stat "b") := by
  decide +kernel

/-- A modification that does not change the `stat` is not seen. -/
theorem C74_refuted_same_stat : let w := run (start ["a"] stat0) (pass 1 1 ++ [.write "a" ⟨10, 1, 100⟩] ++ pass 1 1)
    w.read "a" = 1 ∧ w.version "a" = 2 := by
  decide +kernel

/-- A filter that is idle reads nothing, whatever happens. -/
theorem idle_reads_nothing (l : List Step) (w : World) (h : w.filter.idle = true) : (run w l).filter.idle = true ∧ (run w l).read = w.read := by
  have hce : ∀ s : Poll, s.idle = true → s.commonError.idle = true := by
    intro s hs; unfold Poll.commonError; split
    · rfl
    · exact hs
  have hdel : ∀ (s : Poll) (p : String), s.idle = true → (s.delLog p).idle = true := by
    intro s p hs; unfold Poll.delLog; split <;> exact hs
  induction l generalizing w with
  | nil => exact ⟨h, rfl⟩
  | cons s l ih =>
    have key : (step w s).filter.idle = true ∧ (step w s).read = w.read := by
      cases s with
      | write q st => exact ⟨h, rfl⟩
      | vanish q => exact ⟨h, rfl⟩
      | add q => refine ⟨?_, rfl⟩; show (w.filter.addLog q).idle = true; unfold Poll.addLog; split <;> exact h
      | del q => exact ⟨hdel w.filter q h, rfl⟩
      | begin => unfold step; dsimp only; split <;> exact ⟨h, rfl⟩
      | check =>
        unfold step; dsimp only; split
        · exact ⟨h, rfl⟩
        · rename_i q qs _
          refine ⟨?_, rfl⟩
          show (w.filter.isModified q (w.stat q)).2.idle = true
          unfold Poll.isModified
          split
          · split <;> exact h
          · split
            · exact h
            · dsimp only
              have := hce { w.filter with cnt := w.filter.cnt.insert q ((w.filter.cnt.get? q).getD 0 + 1) } h
              split
              · exact hdel _ q this
              · exact this
      | read => unfold step; dsimp only; split <;> simp [h]
      | fail => unfold step; dsimp only; split <;> exact ⟨h, rfl⟩
      | raise =>
        unfold step; dsimp only; split
        · exact ⟨hce _ h, rfl⟩
        · exact ⟨h, rfl⟩
    have := ih (step w s) key.1
    exact ⟨this.1, this.2.trans key.2⟩

/-- The hundredth error in a row makes the filter idle, and halves the number of errors. -/
theorem C74_idle (s : Poll) (n : Nat) (h : s.errors < 100) :
    (s.errors + n < 100 → (manyErrors s n).errors = s.errors + n ∧ (manyErrors s n).idle = s.idle) ∧
    (s.errors + n = 100 → (manyErrors s n).errors = 50 ∧ (manyErrors s n).idle = true) := by
  have key : ∀ n, s.errors + n < 100 → (manyErrors s n).errors = s.errors + n ∧ (manyErrors s n).idle = s.idle := by
    intro n
    induction n with
    | zero => intro _; exact ⟨rfl, rfl⟩
    | succ n ih =>
      intro hn
      obtain ⟨i1, i2⟩ := ih (by omega)
      unfold manyErrors Poll.commonError
      rw [i1, if_neg (by omega)]
      exact ⟨rfl, i2⟩
  refine ⟨key n, fun hn => ?_⟩
  cases n with
  | zero => omega
  | succ n =>
    obtain ⟨i1, i2⟩ := key n (by omega)
    unfold manyErrors Poll.commonError
    rw [i1, if_pos (by omega)]
    refine ⟨?_, rfl⟩
    show (s.errors + n + 1) / 2 = 50
    omega

/-- Two logs that are absent for 50 passes make the filter idle before they are given up; then the other log is not read any more, whatever happens afterwards. -/
theorem C74_refuted_two_absent : twoAbsent.filter.logs = ["a", "b", "c"] ∧ twoAbsent.filter.idle = true ∧ twoAbsent.version "c" = 2 ∧
    ∀ l, (run twoAbsent l).read "c" = 1 := by
  have h : twoAbsent.filter.logs = ["a", "b", "c"] ∧ twoAbsent.filter.idle = true ∧ twoAbsent.version "c" = 2 ∧ twoAbsent.read "c" = 1 := by decide +kernel
  refine ⟨h.1, h.2.1, h.2.2.1, fun l => ?_⟩
  rw [(idle_reads_nothing l twoAbsent h.2.1).2]; exact h.2.2.2

/-! ## Examples -/

instance (p : String) (w : World) (s : Step) : Decidable (Missed p w s) := by
  cases s <;> unfold Missed <;> infer_instance

instance decReads (p : String) : (w : World) → (l : List Step) → Decidable (Reads p w l)
  | _, [] => isTrue trivial
  | w, s :: l => @instDecidableAnd _ _ inferInstance (decReads p (step w s) l)

example : let w := run (start ["a", "b"] stat0) (pass 2 2 ++ [.write "a" ⟨11, 1, 120⟩, .begin, .check, .check, .write "a" ⟨11, 1, 130⟩, .read, .write "a" ⟨12, 1, 140⟩, .vanish "b"] ++ pass 2 2)
    w.read "a" = 4 ∧ w.version "a" = 4 ∧ w.read "b" = 1 ∧ w.filter.cnt.get? "b" = some 1 ∧ w.filter.logs = ["a", "b"] := by
  decide +kernel

example : Distinct "a" [⟨10, 1, 100⟩] (pass 2 2 ++ [.write "a" ⟨11, 1, 120⟩, .write "b" ⟨10, 1, 100⟩] ++ pass 2 2) ∧
    Reads "a" (start ["a", "b"] stat0) [.begin, .check, .check, .read, .read, .write "a" ⟨11, 1, 120⟩, .begin, .check, .check, .read] := by
  refine ⟨?_, ?_⟩
  · simp [pass, Distinct, List.replicate]
  · decide +kernel

end Verif
