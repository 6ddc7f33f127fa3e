import Verif.Spec.BgService

/-!
# C120 — garbage is collected by the threads of jails
-/

namespace Verif.BgService

open BgServiceSpec

private theorem run_append (s : St) (a b : List (Int × Ev)) : run s (a ++ b) = run (run s a) b := by
  induction a generalizing s with
  | nil => rfl
  | cons x xs ih => obtain ⟨n, e⟩ := x; exact ih _

/-! Mutual exclusion -/

private def Excl (s : St) : Prop := ∀ t, Inside (s.pc t) ↔ s.holder = some t

private theorem excl_event {s : St} (h : Excl s) (now : Int) (e : Ev) : Excl (event now s e) := by
  intro u
  have hu := h u
  cases e with
  | initTime => exact hu
  | initCount => exact hu
  | call t f =>
    have ht := h t
    simp only [event]
    split
    · rename_i r hr
      simp only [St.at]
      by_cases hut : u = t
      · subst hut; simp [hr, Inside] at ht; simp [Inside, ht]
      · simp [hut]; exact hu
    · exact hu
  | step t =>
    have ht := h t
    simp only [event, step]
    by_cases hut : u = t
    · subst hut
      cases hp : s.pc u <;> rw [hp] at ht <;> simp only [Inside, reduceCtorEq, or_false, exists_false, false_iff, or_true, true_iff, Pc.release.injEq, exists_eq'] at ht <;>
        (try split) <;> (try split) <;> (try split) <;> simp_all [Inside, St.at]
    · have hne : (some t : Option Nat) ≠ some u := by simp; exact fun x => hut x.symm
      cases hp : s.pc t <;> rw [hp] at ht <;> simp only [Inside, reduceCtorEq, or_false, exists_false, false_iff, or_true, true_iff, Pc.release.injEq, exists_eq'] at ht <;>
        (try split) <;> (try split) <;> (try split) <;> simp_all [Inside, St.at]

private theorem excl_run {s : St} (h : Excl s) (es : List (Int × Ev)) : Excl (run s es) := by
  induction es generalizing s with
  | nil => exact h
  | cons x xs ih => obtain ⟨n, e⟩ := x; exact ih (excl_event h n e)

private theorem excl_quiet {s : St} (h : Quiet s) : Excl s := by
  intro t
  obtain ⟨r, hr⟩ := h.out t
  simp [hr, h.free, Inside]

/-- Never two threads collect at the same time -/
theorem C120_one {s : St} (h : Quiet s) (es : List (Int × Ev)) (t u : Nat) (ht : Inside ((run s es).pc t)) (hu : Inside ((run s es).pc u)) : t = u := by
  have := excl_run (excl_quiet h) es
  have h1 := (this t).1 ht
  have h2 := (this u).1 hu
  rw [h1] at h2
  simpa using h2

/-! Times -/

private structure Timed (now : Int) (s : St) : Prop where
  excl : Excl s
  past : ∀ g ∈ s.collected, g ≤ now
  apart : s.collected.Pairwise (fun b a => a + period ≤ b)
  gate : (∀ t, s.pc t ≠ .collect ∧ s.pc t ≠ .setTime) → ∀ g ∈ s.collected, g + period ≤ s.serviceTime
  ready : ∀ t, s.pc t = .collect → ∀ g ∈ s.collected, g + period ≤ now

private theorem timed_step {now n : Int} {s : St} (h : Timed now s) (hn : now ≤ n) (t : Nat) : Timed n (step n t s) := by
  have hex : Excl (step n t s) := excl_event h.excl n (.step t)
  have hother : ∀ u, u ≠ t → (step n t s).pc u = s.pc u := by
    intro u hu
    unfold step
    cases s.pc t <;> (try dsimp only) <;> (try split) <;> (try split) <;> simp [St.at, hu]
  have honly : Inside (s.pc t) → ∀ u, u ≠ t → ¬Inside (s.pc u) := by
    intro h1 u hu h2
    have a := (h.excl t).1 h1
    have b := (h.excl u).1 h2
    rw [a] at b; exact hu (by simpa using b.symm)
  have hpast : ∀ g ∈ s.collected, g ≤ n := fun g hg => Int.le_trans (h.past g hg) hn
  -- steps that neither collect nor set the time
  have hsame : ∀ s' : St, s' = step n t s → s'.collected = s.collected → s'.serviceTime = s.serviceTime → s.pc t ≠ .collect → s.pc t ≠ .setTime →
      (s'.pc t ≠ .collect) → (s'.pc t ≠ .setTime) → Timed n (step n t s) := by
    intro s' e h1 h2 h3 h3' h4 h5
    subst e
    refine ⟨hex, by rw [h1]; exact hpast, by rw [h1]; exact h.apart, ?_, ?_⟩
    · intro hq
      rw [h1, h2]
      apply h.gate
      intro u
      by_cases hu : u = t
      · subst hu; exact ⟨h3, h3'⟩
      · have := hq u; rw [hother u hu] at this; exact this
    · intro u hu g hg
      rw [h1] at hg
      by_cases hut : u = t
      · subst hut; exact absurd hu h4
      · rw [hother u hut] at hu
        exact Int.le_trans (h.ready u hu g hg) hn
  cases hp : s.pc t with
  | out r => exact hsame _ rfl (by simp [step, hp]) (by simp [step, hp]) (by simp [hp]) (by simp [hp]) (by simp [step, hp]) (by simp [step, hp])
  | read f => exact hsame _ rfl (by simp [step, hp, St.at]) (by simp [step, hp, St.at]) (by simp [hp]) (by simp [hp]) (by simp [step, hp, St.at]) (by simp [step, hp, St.at])
  | write f v => exact hsame _ rfl (by simp [step, hp, St.at]) (by simp [step, hp, St.at]) (by simp [hp]) (by simp [hp]) (by simp [step, hp, St.at]) (by simp [step, hp, St.at])
  | testCount f =>
    have hc : (step n t s).collected = s.collected ∧ (step n t s).serviceTime = s.serviceTime ∧ (step n t s).pc t ≠ .collect ∧ (step n t s).pc t ≠ .setTime := by
      simp only [step, hp]; split <;> (try split) <;> simp [St.at]
    exact hsame _ rfl hc.1 hc.2.1 (by simp [hp]) (by simp [hp]) hc.2.2.1 hc.2.2.2
  | testTime =>
    have hc : (step n t s).collected = s.collected ∧ (step n t s).serviceTime = s.serviceTime ∧ (step n t s).pc t ≠ .collect ∧ (step n t s).pc t ≠ .setTime := by
      simp only [step, hp]; split <;> (try split) <;> simp [St.at]
    exact hsame _ rfl hc.1 hc.2.1 (by simp [hp]) (by simp [hp]) hc.2.2.1 hc.2.2.2
  | acquire =>
    have hc : (step n t s).collected = s.collected ∧ (step n t s).serviceTime = s.serviceTime ∧ (step n t s).pc t ≠ .collect ∧ (step n t s).pc t ≠ .setTime := by
      simp only [step, hp]; split <;> (try split) <;> simp [St.at]
    exact hsame _ rfl hc.1 hc.2.1 (by simp [hp]) (by simp [hp]) hc.2.2.1 hc.2.2.2
  | setCount => exact hsame _ rfl (by simp [step, hp, St.at]) (by simp [step, hp, St.at]) (by simp [hp]) (by simp [hp]) (by simp [step, hp, St.at]) (by simp [step, hp, St.at])
  | release r => exact hsame _ rfl (by simp [step, hp, St.at]) (by simp [step, hp, St.at]) (by simp [hp]) (by simp [hp]) (by simp [step, hp, St.at]) (by simp [step, hp, St.at])
  | again =>
    have hin : Inside (s.pc t) := by rw [hp]; exact Or.inl rfl
    have hnone : ∀ u, s.pc u ≠ .collect ∧ s.pc u ≠ .setTime := by
      intro u
      by_cases hu : u = t
      · subst hu; simp [hp]
      · have := honly hin u hu
        exact ⟨fun x => this (by rw [x]; exact Or.inr (Or.inl rfl)), fun x => this (by rw [x]; exact Or.inr (Or.inr (Or.inl rfl)))⟩
    have hg := h.gate hnone
    by_cases hlt : n < s.serviceTime
    · exact hsame _ rfl (by simp [step, hp, hlt, St.at]) (by simp [step, hp, hlt, St.at]) (by simp [hp]) (by simp [hp]) (by simp [step, hp, hlt, St.at]) (by simp [step, hp, hlt, St.at])
    · have hc : (step n t s).collected = s.collected := by simp [step, hp, hlt, St.at]
      have hpc : (step n t s).pc t = .collect := by simp [step, hp, hlt, St.at]
      refine ⟨hex, by rw [hc]; exact hpast, by rw [hc]; exact h.apart, ?_, ?_⟩
      · intro hq; exact absurd hpc (hq t).1
      · intro u _ g hgm
        rw [hc] at hgm
        have := hg g hgm
        omega
  | collect =>
    have hr := h.ready t hp
    have hc : (step n t s).collected = n :: s.collected := by simp [step, hp, St.at]
    have hpc : (step n t s).pc t = .setTime := by simp [step, hp, St.at]
    have hin : Inside (s.pc t) := by rw [hp]; exact Or.inr (Or.inl rfl)
    refine ⟨hex, ?_, ?_, ?_, ?_⟩
    · rw [hc]; intro g hg
      rcases List.mem_cons.1 hg with rfl | hg
      · exact Int.le_refl _
      · exact hpast g hg
    · rw [hc, List.pairwise_cons]
      exact ⟨fun g hg => Int.le_trans (hr g hg) hn, h.apart⟩
    · intro hq; exact absurd hpc (hq t).2
    · intro u hu
      by_cases hut : u = t
      · subst hut; rw [hpc] at hu; simp at hu
      · rw [hother u hut] at hu
        exact absurd (by rw [hu]; exact Or.inr (Or.inl rfl)) (honly hin u hut)
  | setTime =>
    have hc : (step n t s).collected = s.collected := by simp [step, hp, St.at]
    have hst : (step n t s).serviceTime = n + period := by simp [step, hp, St.at]
    have hpc : (step n t s).pc t = .setCount := by simp [step, hp, St.at]
    have hin : Inside (s.pc t) := by rw [hp]; exact Or.inr (Or.inr (Or.inl rfl))
    refine ⟨hex, by rw [hc]; exact hpast, by rw [hc]; exact h.apart, ?_, ?_⟩
    · intro _ g hg
      rw [hc] at hg
      have := hpast g hg
      rw [hst]; omega
    · intro u hu
      by_cases hut : u = t
      · subst hut; rw [hpc] at hu; simp at hu
      · rw [hother u hut] at hu
        exact absurd (by rw [hu]; exact Or.inr (Or.inl rfl)) (honly hin u hut)

private theorem timed_call {now n : Int} {s : St} (h : Timed now s) (hn : now ≤ n) (t : Nat) (f : Bool) : Timed n (event n s (.call t f)) := by
  have hex : Excl (event n s (.call t f)) := excl_event h.excl n (.call t f)
  have h1 : (event n s (.call t f)).collected = s.collected ∧ (event n s (.call t f)).serviceTime = s.serviceTime := by
    simp only [event]; split <;> simp [St.at]
  have h2 : ∀ u, ((event n s (.call t f)).pc u = .collect ↔ s.pc u = .collect) ∧ ((event n s (.call t f)).pc u = .setTime ↔ s.pc u = .setTime) := by
    intro u
    simp only [event]
    split
    · rename_i r hr
      by_cases hu : u = t
      · subst hu; simp [St.at, hr]
      · simp [St.at, hu]
    · simp
  refine ⟨hex, ?_, ?_, ?_, ?_⟩
  · rw [h1.1]; exact fun g hg => Int.le_trans (h.past g hg) hn
  · rw [h1.1]; exact h.apart
  · intro hq
    rw [h1.1, h1.2]
    exact h.gate (fun u => ⟨fun x => (hq u).1 ((h2 u).1.2 x), fun x => (hq u).2 ((h2 u).2.2 x)⟩)
  · intro u hu g hg
    rw [h1.1] at hg
    exact Int.le_trans (h.ready u ((h2 u).1.1 hu) g hg) hn

private theorem timed_run {now : Int} {s : St} (h : Timed now s) (es : List (Int × Ev)) (hc : Clock now es) (hn : NoNew es) :
    (run s es).collected.Pairwise (fun b a => a + period ≤ b) := by
  induction es generalizing s now with
  | nil => exact h.apart
  | cons x xs ih =>
    obtain ⟨n, e⟩ := x
    have hx := hn (n, e) (by simp)
    have h' : Timed n (event n s e) := by
      cases e with
      | call t f => exact timed_call h hc.1 t f
      | step t => exact timed_step h hc.1 t
      | initTime => exact absurd rfl hx.1
      | initCount => exact absurd rfl hx.2
    exact ih h' hc.2 (fun y hy => hn y (by simp [hy]))

/-- Half a minute passes between two collections, whatever threads do, unless a jail is created -/
theorem C120_apart {s : St} (h : Quiet s) (he : s.collected = []) {now : Int} {es : List (Int × Ev)} (hc : Clock now es) (hn : NoNew es) :
    (run s es).collected.Pairwise (fun b a => a + 30 ≤ b) := by
  refine timed_run (now := now) ⟨excl_quiet h, by simp [he], by simp [he], by simp [he], by simp [he]⟩ es hc hn

/-! No thread waits for another -/

private def left : Pc → Nat
  | .out _ => 0
  | .release _ => 1
  | .setCount => 2
  | .setTime => 3
  | .collect => 4
  | .again => 5
  | .acquire => 6
  | .testTime => 7
  | .testCount _ => 8
  | .write _ _ => 9
  | .read _ => 10

private theorem left_step (now : Int) (t : Nat) (s : St) : left ((step now t s).pc t) ≤ left (s.pc t) - 1 := by
  unfold step
  cases hp : s.pc t <;> (try dsimp only) <;> (try split) <;> (try split) <;> simp [St.at, left, hp]

/-- After ten steps of its own a thread has left `service`, whatever others do -/
theorem C120_waitfree (s : St) (t : Nat) (es : List (Int × Ev)) (hc : ∀ e ∈ es, ∀ f, e.2 ≠ .call t f) (hg : 10 ≤ given t es) :
    Out ((run s es).pc t) := by
  have hle : ∀ p, left p ≤ 10 := by intro p; cases p <;> simp [left]
  have key : ∀ (es : List (Int × Ev)) (s : St), (∀ e ∈ es, ∀ f, e.2 ≠ .call t f) → left ((run s es).pc t) ≤ left (s.pc t) - given t es := by
    intro es
    induction es with
    | nil => intro s _; simp [run, given]
    | cons x xs ih =>
      obtain ⟨n, e⟩ := x
      intro s hc
      have ih := ih (event n s e) (fun y hy => hc y (by simp [hy]))
      have hx := hc (n, e) (by simp)
      simp only [run]
      cases e with
      | step u =>
        by_cases hu : u = t
        · subst hu
          have h1 := left_step n u s
          have h2 : given u ((n, .step u) :: xs) = given u xs + 1 := by simp [given]
          simp only [event] at ih ⊢
          omega
        · have h2 : given t ((n, .step u) :: xs) = given t xs := by simp [given, hu]
          have h3 : (event n s (.step u)).pc t = s.pc t := by
            have htu : ¬t = u := fun x => hu x.symm
            simp only [event, step]
            cases s.pc u <;> (try dsimp only) <;> (try split) <;> (try split) <;> simp [St.at, htu]
          rw [h3] at ih; omega
      | call u f =>
        have hu : u ≠ t := fun x => hx f (by rw [x])
        have h2 : given t ((n, .call u f) :: xs) = given t xs := by simp [given]
        have h3 : (event n s (.call u f)).pc t = s.pc t := by
          have htu : ¬t = u := fun x => hu x.symm
          simp only [event]; split <;> simp [St.at, htu]
        rw [h3] at ih; omega
      | initTime =>
        have h2 : given t ((n, .initTime) :: xs) = given t xs := by simp [given]
        have h3 : (event n s .initTime).pc t = s.pc t := rfl
        rw [h3] at ih; omega
      | initCount =>
        have h2 : given t ((n, .initCount) :: xs) = given t xs := by simp [given]
        have h3 : (event n s .initCount).pc t = s.pc t := rfl
        rw [h3] at ih; omega
  have h1 := key es s hc
  have h2 := hle (s.pc t)
  have h3 : left ((run s es).pc t) = 0 := by omega
  cases hp : (run s es).pc t <;> rw [hp] at h3 <;> simp [left] at h3
  exact ⟨_, rfl⟩

/-! Calls one after another -/

/-- What one call does if there are no others: `force` counts for the number of calls only, not for the time -/
theorem C120_call {s : St} (h : Quiet s) (now : Int) (t : Nat) (force : Bool) :
    Quiet (alone now t force s) ∧
    (((force = true ∨ s.count ≤ 1) ∧ s.serviceTime ≤ now) →
      (alone now t force s).pc t = .out true ∧ (alone now t force s).collected = now :: s.collected ∧
      (alone now t force s).serviceTime = now + 30 ∧ (alone now t force s).count = 100) ∧
    (¬((force = true ∨ s.count ≤ 1) ∧ s.serviceTime ≤ now) →
      (alone now t force s).pc t = .out false ∧ (alone now t force s).collected = s.collected ∧
      (alone now t force s).serviceTime = s.serviceTime ∧ (alone now t force s).count = s.count - 1) := by
  obtain ⟨r, hr⟩ := h.out t
  have hf := h.free
  have ho : ∀ u, u ≠ t → Out (s.pc u) := fun u _ => h.out u
  have e : List.replicate 10 (now, Ev.step t) = [(now, .step t), (now, .step t), (now, .step t), (now, .step t), (now, .step t), (now, .step t), (now, .step t), (now, .step t), (now, .step t), (now, .step t)] := rfl
  unfold alone
  rw [e]
  simp only [run, event, hr]
  by_cases ht : now < s.serviceTime
  · have ht' : ¬s.serviceTime ≤ now := by omega
    cases force with
    | true =>
      simp [step, St.at, ht, ht', hf]
      refine ⟨?_, rfl⟩
      intro u
      by_cases hu : u = t
      · simp [hu, Out]
      · simpa [hu] using h.out u
    | false =>
      by_cases hcnt : s.count - 1 > 0
      · have h1 : 1 < s.count := by omega
        simp [step, St.at, ht', h1]
        refine ⟨?_, hf⟩
        intro u
        by_cases hu : u = t
        · simp [hu, Out]
        · simpa [hu] using h.out u
      · have h1 : ¬1 < s.count := by omega
        simp [step, St.at, ht, ht', h1]
        refine ⟨?_, hf⟩
        intro u
        by_cases hu : u = t
        · simp [hu, Out]
        · simpa [hu] using h.out u
  · have ht' : s.serviceTime ≤ now := by omega
    cases force with
    | true =>
      simp [step, St.at, ht, ht', hf, period, threshold]
      refine ⟨?_, rfl⟩
      intro u
      by_cases hu : u = t
      · simp [hu, Out]
      · simpa [hu] using h.out u
    | false =>
      by_cases hcnt : s.count - 1 > 0
      · have h1 : 1 < s.count := by omega
        have h2 : ¬s.count ≤ 1 := by omega
        simp [step, St.at, h1, h2]
        refine ⟨?_, hf⟩
        intro u
        by_cases hu : u = t
        · simp [hu, Out]
        · simpa [hu] using h.out u
      · have h1 : ¬1 < s.count := by omega
        have h2 : s.count ≤ 1 := by omega
        simp [step, St.at, ht, ht', hf, h1, h2, period, threshold]
        refine ⟨?_, rfl⟩
        intro u
        by_cases hu : u = t
        · simp [hu, Out]
        · simpa [hu] using h.out u

private theorem calls_snoc (t : Nat) (s : St) (ts : List Int) (x : Int) : calls t s (ts ++ [x]) = alone x t false (calls t s ts) := by
  induction ts generalizing s with
  | nil => rfl
  | cons y ys ih => exact ih _

private theorem calls_quiet {s : St} (h : Quiet s) (t : Nat) (ts : List Int) : Quiet (calls t s ts) := by
  induction ts generalizing s with
  | nil => exact h
  | cons y ys ih => exact ih (C120_call h y t false).1

/-- After a collection the next one is at the first call that is at least the hundredth and at least half a minute later -/
theorem C120_next {s : St} (h : Quiet s) (t : Nat) {last : Int} (hc : s.count = 100) (hs : s.serviceTime = last + 30) (ts : List Int) (now : Int)
    (hno : (calls t s ts).collected = s.collected) :
    ((calls t s (ts ++ [now])).collected = now :: s.collected ↔ 100 ≤ ts.length + 1 ∧ last + 30 ≤ now) ∧
    ((calls t s (ts ++ [now])).collected = s.collected ↔ ¬(100 ≤ ts.length + 1 ∧ last + 30 ≤ now)) := by
  have hlen : ∀ (ts : List Int) (s : St), Quiet s → s.collected.length ≤ (calls t s ts).collected.length ∧
      ((calls t s ts).collected = s.collected → (calls t s ts).count = s.count - ts.length ∧ (calls t s ts).serviceTime = s.serviceTime) := by
    intro ts
    induction ts with
    | nil => intro s _; simp [calls]
    | cons y ys ih =>
      intro s hq
      obtain ⟨q, h1, h2⟩ := C120_call hq y t false
      obtain ⟨ih1, ih2⟩ := ih _ q
      simp only [calls]
      by_cases hx : ((false = true ∨ s.count ≤ 1) ∧ s.serviceTime ≤ y)
      · obtain ⟨-, a, -, -⟩ := h1 hx
        rw [a] at ih1
        simp only [List.length_cons] at ih1
        refine ⟨by omega, ?_⟩
        intro e; rw [e] at ih1; omega
      · obtain ⟨-, a, b, c⟩ := h2 hx
        rw [a] at ih1 ih2
        refine ⟨ih1, ?_⟩
        intro e
        obtain ⟨i, j⟩ := ih2 e
        rw [i, j, b, c]
        simp only [List.length_cons]
        exact ⟨by omega, trivial⟩
  obtain ⟨hcnt, hst⟩ := (hlen ts s h).2 hno
  have hq := calls_quiet h t ts
  obtain ⟨-, h1, h2⟩ := C120_call hq now t false
  rw [calls_snoc]
  have hne : ∀ l : List Int, now :: l ≠ l := by
    intro l e; have := congrArg List.length e; simp at this
  have hiff : ((false = true ∨ (calls t s ts).count ≤ 1) ∧ (calls t s ts).serviceTime ≤ now) ↔ (100 ≤ ts.length + 1 ∧ last + 30 ≤ now) := by
    rw [hcnt, hst, hc, hs]
    simp only [Bool.false_eq_true, false_or]
    omega
  by_cases hx : (100 ≤ ts.length + 1 ∧ last + 30 ≤ now)
  · obtain ⟨-, a, -, -⟩ := h1 (hiff.2 hx)
    rw [a, hno]
    exact ⟨⟨fun _ => hx, fun _ => rfl⟩, ⟨fun e => absurd e (hne _), fun n => absurd hx n⟩⟩
  · obtain ⟨-, a, -, -⟩ := h2 (fun y => hx (hiff.1 y))
    rw [a, hno]
    exact ⟨⟨fun e => absurd e.symm (hne _), fun n => absurd n hx⟩, ⟨fun _ => hx, fun _ => rfl⟩⟩

/-- If a jail is created, garbage may be collected again at once: the time starts anew for all -/
theorem C120_refuted_new : ∃ es : List (Int × Ev), Clock 1000 es ∧ (∀ e ∈ es, e.1 ≤ 1000) ∧ (run {} es).collected = [1000, 1000] := by
  refine ⟨[(1000, .call 0 true)] ++ List.replicate 9 (1000, .step 0) ++ [(1000, .initTime), (1000, .call 0 true)] ++ List.replicate 9 (1000, .step 0), ?_, ?_, ?_⟩
  · simp [Clock, List.replicate]
  · decide
  · decide +kernel

/-- Subtracting one is not atomic: an old counter may be written after a collection, and fewer than a hundred calls suffice for the next -/
theorem C120_refuted_count : ∃ es : List (Int × Ev), NoNew es ∧ (run { count := 1 } es).count = 0 ∧ (run { count := 1 } es).collected ≠ [] := by
  refine ⟨[(1000, .call 1 false), (1000, .step 1), (1000, .call 0 false)] ++ List.replicate 10 (1000, .step 0) ++ [(1000, .step 1)], ?_, ?_, ?_⟩
  · simp [NoNew, List.replicate]
  · decide +kernel
  · decide +kernel

/-! Examples -/

example : (calls 0 { count := 3 } [1000, 1000]).collected = [] ∧ (calls 0 { count := 3 } [1000, 1000, 1000]).collected = [1000] ∧
    (calls 0 { count := 3 } [1000, 1000, 1000, 1000, 1040]).collected = [1000] ∧ (calls 0 { count := 3 } [1000, 1000, 1000, 1000, 1040]).count = 98 ∧
    (calls 0 { count := 1, serviceTime := 1030 } [1000, 1029, 1030]).collected = [1030] ∧ (calls 0 {} [0]).count = 99 := by
  decide +kernel

example : (alone 1000 0 true {}).pc 0 = .out true ∧ (alone 1010 0 true (alone 1000 0 true {})).pc 0 = .out false ∧
    (alone 1030 0 true (alone 1000 0 true {})).collected = [1030, 1000] := by
  decide +kernel

/-- One thread collects, another one comes and leaves -/
example : (run { count := 1 } ([(5, .call 0 false)] ++ List.replicate 6 (5, .step 0) ++ [(5, .call 1 false)] ++ List.replicate 10 (5, .step 1))).pc 1 = .out false ∧
    (run { count := 1 } ([(5, .call 0 false)] ++ List.replicate 6 (5, .step 0) ++ [(5, .call 1 false)] ++ List.replicate 10 (5, .step 1))).holder = some 0 := by
  decide +kernel

example : Quiet {} := ⟨fun _ => ⟨false, rfl⟩, rfl⟩

end Verif.BgService
