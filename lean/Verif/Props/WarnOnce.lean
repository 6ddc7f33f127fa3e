import Verif.Spec.WarnOnce

/-!
# C127 — warnings once per day
-/

namespace Verif.WarnOnce

open WarnOnceSpec

private theorem run_length (jail : String) (level : Nat) (s : Next) (cs : List Call) : (run jail level s cs).length = cs.length := by
  induction cs generalizing s with
  | nil => rfl
  | cons c cs ih => simp [run, ih]

private theorem next_le (jail : String) (level : Nat) (s : Next) (c : Call) (k : String) : s k ≤ (warn jail level s c).1 k := by
  unfold warn
  split
  · exact Int.le_refl _
  · rename_i h
    dsimp only
    split
    · rename_i hk; subst hk; omega
    · exact Int.le_refl _

private theorem warned_ge (jail : String) (level : Nat) (s : Next) (cs : List Call) (j : Nat) (k : String) (t : Int)
    (h : Warned cs (run jail level s cs) j k t) : s k ≤ t := by
  induction cs generalizing s j with
  | nil => obtain ⟨⟨c, hc, _⟩, _⟩ := h; simp at hc
  | cons c cs ih =>
    obtain ⟨⟨c', hc, hk, ht⟩, l, hl⟩ := h
    cases j with
    | zero =>
      simp only [List.getElem?_cons_zero, Option.some.injEq] at hc
      subst hc
      rw [run] at hl
      simp only [List.getElem?_cons_zero, Option.some.injEq] at hl
      unfold warn at hl
      split at hl
      · dsimp only at hl; split at hl <;> cases hl
      · subst hk; omega
    | succ j =>
      have := ih (warn jail level s c).1 j ⟨⟨c', by simpa using hc, hk, ht⟩, l, by simpa [run] using hl⟩
      exact Int.le_trans (next_le jail level s c k) this

private theorem not_warned (jail : String) (level : Nat) (s : Next) (cs : List Call) (j : Nat) (c : Call) (hc : cs[j]? = some c)
    (h : ¬Warned cs (run jail level s cs) j c.kind c.time) :
    c.time < s c.kind ∨ ∃ i t, i < j ∧ Warned cs (run jail level s cs) i c.kind t ∧ c.time < t + 86400 := by
  induction cs generalizing s j with
  | nil => simp at hc
  | cons d cs ih =>
    cases j with
    | zero =>
      simp only [List.getElem?_cons_zero, Option.some.injEq] at hc
      subst hc
      by_cases hd : d.time < s d.kind
      · exact Or.inl hd
      · exfalso; apply h
        refine ⟨⟨d, rfl, rfl, rfl⟩, (d.first :: d.more).map (named jail), ?_⟩
        simp [run, warn, hd]
    | succ j =>
      have hc' : cs[j]? = some c := by simpa using hc
      have h' : ¬Warned cs (run jail level (warn jail level s d).1 cs) j c.kind c.time := by
        rintro ⟨⟨c', a, b⟩, l, hl⟩
        exact h ⟨⟨c', by simpa using a, b⟩, l, by simpa [run] using hl⟩
      rcases ih (warn jail level s d).1 j hc' h' with hn | ⟨i, t, hi, ⟨⟨c', a, b⟩, l, hl⟩, ht⟩
      · by_cases hd : d.time < s d.kind
        · left
          simpa [warn, hd] using hn
        · by_cases hk : c.kind = d.kind
          · right
            refine ⟨0, d.time, by omega, ⟨⟨d, rfl, hk.symm, rfl⟩, (d.first :: d.more).map (named jail), ?_⟩, ?_⟩
            · simp [run, warn, hd]
            · simp [warn, hd, hk] at hn; exact hn
          · left
            simpa [warn, hd, hk] using hn
      · right
        exact ⟨i + 1, t, by omega, ⟨⟨c', by simpa using a, b⟩, l, by simpa [run] using hl⟩, ht⟩

/-- Two warnings of a kind are at least a day apart by the clock, even if it was set back in between. -/
theorem C127_gap (jail : String) (level : Nat) (s : Next) (cs : List Call) (i j : Nat) (hij : i < j) (k : String) (t u : Int)
    (hi : Warned cs (run jail level s cs) i k t) (hj : Warned cs (run jail level s cs) j k u) : t + 86400 ≤ u := by
  induction cs generalizing s i j with
  | nil => obtain ⟨⟨c, hc, _⟩, _⟩ := hi; simp at hc
  | cons c cs ih =>
    obtain ⟨⟨cj, a, b⟩, l, hl⟩ := hj
    cases j with
    | zero => omega
    | succ j =>
      have hj' : Warned cs (run jail level (warn jail level s c).1 cs) j k u := ⟨⟨cj, by simpa using a, b⟩, l, by simpa [run] using hl⟩
      obtain ⟨⟨ci, hci, hk, ht⟩, m, hm⟩ := hi
      cases i with
      | zero =>
        simp only [List.getElem?_cons_zero, Option.some.injEq] at hci
        subst hci
        have := warned_ge jail level _ cs j k u hj'
        by_cases hd : c.time < s c.kind
        · rw [run] at hm
          simp only [List.getElem?_cons_zero, Option.some.injEq] at hm
          unfold warn at hm
          rw [if_pos hd] at hm
          dsimp only at hm; split at hm <;> cases hm
        · subst hk; subst ht
          simp [warn, hd] at this
          exact this
      | succ i => exact ih _ i j (by omega) ⟨⟨ci, by simpa using hci, hk, ht⟩, m, by simpa [run] using hm⟩ hj'

/-- A call warns exactly if there was no warning of its kind later than a day before it (and the clock is not before 1970). -/
theorem C127_warns (jail : String) (level : Nat) (cs : List Call) (j : Nat) (c : Call) (hc : cs[j]? = some c) :
    Warned cs (run jail level (fun _ => 0) cs) j c.kind c.time ↔
      0 ≤ c.time ∧ ∀ i t, i < j → Warned cs (run jail level (fun _ => 0) cs) i c.kind t → t + 86400 ≤ c.time := by
  constructor
  · intro h
    exact ⟨warned_ge jail level _ cs j _ _ h, fun i t hi ht => C127_gap jail level _ cs i j hi _ _ _ ht h⟩
  · rintro ⟨h0, h1⟩
    apply Classical.byContradiction
    intro hn
    rcases not_warned jail level _ cs j c hc hn with h | ⟨i, t, hi, hw, ht⟩
    · omega
    · have := h1 i t hi hw; omega

/-- What is logged: all messages, with the name of the jail, as warnings, or only the first at level 7 if that level is shown. -/
theorem C127_text (jail : String) (level : Nat) (s : Next) (cs : List Call) (j : Nat) (c : Call) (hc : cs[j]? = some c) :
    (Warned cs (run jail level s cs) j c.kind c.time →
      (run jail level s cs)[j]? = some (.warnings ((c.first :: c.more).map fun m => ⟨"[%s] " ++ m.fmt, jail :: m.args⟩))) ∧
    (¬Warned cs (run jail level s cs) j c.kind c.time →
      (level ≤ 7 → (run jail level s cs)[j]? = some (.low c.first)) ∧ (7 < level → (run jail level s cs)[j]? = some .silent)) := by
  induction cs generalizing s j with
  | nil => simp at hc
  | cons d cs ih =>
    cases j with
    | zero =>
      simp only [List.getElem?_cons_zero, Option.some.injEq] at hc
      subst hc
      by_cases hd : d.time < s d.kind
      · refine ⟨fun h => absurd (warned_ge _ _ _ _ _ _ _ h) (by omega), fun _ => ⟨fun hl => ?_, fun hl => ?_⟩⟩
        · simp [run, warn, hd, hl]
        · simp [run, warn, hd, Nat.not_le.2 hl]
      · refine ⟨fun _ => by simp [run, warn, hd, named], fun h => absurd ?_ h⟩
        exact ⟨⟨d, rfl, rfl, rfl⟩, _, by simp [run, warn, hd]; rfl⟩
    | succ j =>
      have hc' : cs[j]? = some c := by simpa using hc
      have hw : Warned (d :: cs) (run jail level s (d :: cs)) (j + 1) c.kind c.time ↔
          Warned cs (run jail level (warn jail level s d).1 cs) j c.kind c.time := by
        simp [Warned, run]
      rw [hw]
      have := ih (warn jail level s d).1 j hc'
      simpa [run] using this

/-! ### Kinds are separate -/

/-- Calls of other kinds change nothing: outputs for a kind are those of its calls alone. -/
theorem C127_separate (jail : String) (level : Nat) (k : String) (s : Next) (cs : List Call) :
    ((cs.zip (run jail level s cs)).filter fun p => p.1.kind = k).map Prod.snd = run jail level s (cs.filter fun c => c.kind = k) := by
  suffices H : ∀ s s' : Next, s k = s' k →
      ((cs.zip (run jail level s cs)).filter fun p => p.1.kind = k).map Prod.snd = run jail level s' (cs.filter fun c => c.kind = k) from
    H s s rfl
  induction cs with
  | nil => intro s s' _; rfl
  | cons c cs ih =>
    intro s s' hs
    rw [run, List.zip_cons_cons]
    by_cases hk : c.kind = k
    · have h2 : (warn jail level s c).2 = (warn jail level s' c).2 := by
        unfold warn; rw [hk, hs]; split <;> rfl
      have h1 : (warn jail level s c).1 k = (warn jail level s' c).1 k := by
        unfold warn; rw [hk, hs]; split
        · exact hs
        · simp
      rw [List.filter_cons_of_pos (by simpa using hk), List.filter_cons_of_pos (by simpa using hk), List.map_cons, run, h2, ih _ _ h1]
    · have h1 : (warn jail level s c).1 k = s' k := by
        unfold warn; split
        · exact hs
        · simp [Ne.symm hk, hs]
      rw [List.filter_cons_of_neg (by simpa using hk), List.filter_cons_of_neg (by simpa using hk), ih _ _ h1]

/-! ### Examples and counterexamples -/

private def at_ (k : String) (t : Int) : Call := ⟨k, t, ⟨"Detected a log entry %s", ["1"]⟩, [⟨"Please check", []⟩]⟩

private def warning : Out := .warnings [⟨"[%s] Detected a log entry %s", ["sshd", "1"]⟩, ⟨"[%s] Please check", ["sshd"]⟩]

example : run "sshd" 20 (fun _ => 0) [at_ "a" 1000, at_ "a" 1001, at_ "b" 1002, at_ "a" 87399, at_ "a" 87400, at_ "a" 87401] =
    [warning, .silent, warning, .silent, warning, .silent] := by decide +kernel

example : run "sshd" 5 (fun _ => 0) [at_ "a" 1000, at_ "a" 1001] = [warning, .low ⟨"Detected a log entry %s", ["1"]⟩] := by decide +kernel

/-- If the clock was in the future at a warning and is set right, there are no warnings until then, here for over a year. -/
theorem C127_refuted_clock : run "sshd" 20 (fun _ => 0) [at_ "a" 40000000, at_ "a" 1000, at_ "a" 32000000] = [warning, .silent, .silent] := by
  decide +kernel

end Verif.WarnOnce
