import Verif.Model.EventLoop
import Verif.Spec.EventLoop

set_option linter.unusedSimpArgs false

/-!
# C98 — The server survives errors of connections

For all histories of connections and errors.
-/

namespace Verif.EventLoop

open Spec.EventLoop

/-- An error of `poll` -/
def Poll.isErr : Poll → Bool
  | .ok => false
  | .err _ => true

def Acc.isErr : Acc → Bool
  | .ok => false
  | .err _ => true

/-! ## Examples -/

def bad (code : Int) : Turn := ⟨[], .err (some code), true⟩
def good : Turn := ⟨[.ok], .ok, true⟩

example : run (List.replicate 100 (bad emfile)) init = (.running, ⟨100, 0, 21⟩) := by decide +kernel
example : (run (List.replicate 101 (bad emfile)) init).1 = .critical := by decide +kernel
example : (run (List.replicate 500 (bad 9) ++ [good] ++ List.replicate 300 (bad 9)) init) = (.running, ⟨799, 0, 21⟩) := by decide +kernel
example : (run [bad 9, good, ⟨[.err none, .ok], .ok, false⟩, bad 9] init) = (.stopped, ⟨0, 0, 2⟩) := by decide +kernel
example : Excess [true, true, false, true] 2 := by
  refine ⟨⟨_, List.suffix_refl _, by decide⟩, fun r hr => ?_⟩
  obtain ⟨p, hp⟩ := hr
  rcases p with _ | ⟨a, _ | ⟨b, _ | ⟨c, _ | ⟨d, p⟩⟩⟩⟩ <;> simp at hp
  · subst hp; decide
  · obtain ⟨_, rfl⟩ := hp; decide
  · obtain ⟨_, _, rfl⟩ := hp; decide
  · obtain ⟨_, _, _, rfl⟩ := hp; decide
  · obtain ⟨_, _, _, _, _, rfl⟩ := hp; decide

/-! ## Lemmas -/

theorem excess_nil : Excess [] 0 := by
  refine ⟨⟨[], List.suffix_refl _, rfl⟩, fun r hr => ?_⟩
  rw [List.suffix_nil.1 hr]
  exact Nat.le_refl _

theorem errors_snoc (l : List Bool) (b : Bool) : errors (l ++ [b]) = errors l + (if b then 1 else 0) := by
  cases b <;> simp [errors]

theorem successes_snoc (l : List Bool) (b : Bool) : successes (l ++ [b]) = successes l + (if b then 0 else 1) := by
  cases b <;> simp [successes]

theorem excess_snoc (l : List Bool) (b : Bool) (k : Nat) (h : Excess l k) : Excess (l ++ [b]) (if b then k + 1 else k - 1) := by
  obtain ⟨⟨r, hr, he⟩, hall⟩ := h
  have hrs : ∀ r', r' <:+ l → r' ++ [b] <:+ l ++ [b] := fun r' hr' => by
    obtain ⟨p, hp⟩ := hr'
    exact ⟨p, by rw [← List.append_assoc, hp]⟩
  constructor
  · by_cases hz : b = false ∧ k = 0
    · exact ⟨[], List.nil_suffix, by simp [hz.1, hz.2, errors, successes]⟩
    · refine ⟨r ++ [b], hrs r hr, ?_⟩
      rw [errors_snoc, successes_snoc, he]
      cases b with
      | true => simp; omega
      | false =>
        have : k ≠ 0 := fun hk => hz ⟨rfl, hk⟩
        simp; omega
  · intro r' hr'
    rcases List.eq_nil_or_concat r' with rfl | ⟨q, c, rfl⟩
    · simp [errors, successes]
    · obtain ⟨p, hp⟩ := hr'
      rw [List.concat_eq_append, ← List.append_assoc] at hp
      obtain ⟨h1, h2⟩ := List.append_inj' hp rfl
      have hc : c = b := by simpa using h2
      have := hall q ⟨p, h1⟩
      rw [List.concat_eq_append, errors_snoc, successes_snoc, hc]
      cases b <;> simp <;> omega

/-- The excess is determined by the history. -/
theorem excess_unique (l : List Bool) (k k' : Nat) (h : Excess l k) (h' : Excess l k') : k = k' := by
  obtain ⟨⟨r, hr, he⟩, hall⟩ := h
  obtain ⟨⟨r', hr', he'⟩, hall'⟩ := h'
  have := hall r' hr'
  have := hall' r hr
  omega

theorem handleAccept_count (s : St) (a : Acc) :
    (handleAccept s a).1.listen = s.listen ∧ (handleAccept s a).1.accept = if a.isErr then s.accept + 1 else s.accept - 1 := by
  cases a with
  | ok =>
    unfold handleAccept Acc.isErr
    simp only [Bool.false_eq_true, if_false, true_and]
    split <;> omega
  | err code =>
    unfold handleAccept Acc.isErr
    dsimp only
    split
    · simp
    · split
      · simp
      · split
        · split <;> simp
        · simp

theorem handleAccepts_count (l : List Acc) : ∀ (s : St) (h : List Bool), Excess h s.accept →
    (handleAccepts l s).1.listen = s.listen ∧ Excess (h ++ l.map Acc.isErr) (handleAccepts l s).1.accept := by
  induction l with
  | nil => intro s h hh; simpa [handleAccepts] using hh
  | cons a l ih =>
    intro s h hh
    obtain ⟨h1, h2⟩ := handleAccept_count s a
    have h3 := excess_snoc h a.isErr s.accept hh
    rw [← h2] at h3
    obtain ⟨h4, h5⟩ := ih (handleAccept s a).1 _ h3
    simp only [handleAccepts]
    exact ⟨by rw [h4, h1], by simpa using h5⟩

theorem onError_listen (s : St) (code : Option Int) : (onError s code).2.listen = s.listen + 1 ∧ (onError s code).2.accept = s.accept := by
  unfold onError
  dsimp only
  split
  · split <;> simp
  · split
    · simp
    · split
      · split
        · simp
        · split <;> simp
      · simp

theorem turn_count (s : St) (t : Turn) (hl ha : List Bool) (h1 : Excess hl s.listen) (h2 : Excess ha s.accept)
    (hr : (turn s t).1 = .running) :
    Excess (hl ++ [t.poll.isErr]) (turn s t).2.listen ∧ Excess (ha ++ t.accepts.map Acc.isErr) (turn s t).2.accept := by
  obtain ⟨h3, h4⟩ := handleAccepts_count t.accepts s ha h2
  unfold turn at hr ⊢
  generalize handleAccepts t.accepts s = a at *
  obtain ⟨a, st⟩ := a
  dsimp only at *
  rw [← h3] at h1
  cases hp : t.poll with
  | ok =>
    rw [hp] at hr
    dsimp only at hr ⊢
    have := excess_snoc hl false _ h1
    refine ⟨?_, h4⟩
    simp only [Bool.false_eq_true, if_false] at this
    show Excess (hl ++ [false]) (if a.listen ≠ 0 then a.listen - 1 else a.listen)
    have e : (if a.listen ≠ 0 then a.listen - 1 else a.listen) = a.listen - 1 := by split <;> omega
    rw [e]
    exact this
  | err code =>
    rw [hp] at hr
    dsimp only at hr ⊢
    cases hact : (t.active && !st) with
    | false => rw [hact] at hr; simp at hr
    | true =>
      simp only [hact, if_true]
      obtain ⟨h5, h6⟩ := onError_listen a code
      rw [h5, h6]
      exact ⟨excess_snoc hl true _ h1, h4⟩

theorem run_cons (t : Turn) (l : List Turn) (s : St) : run (t :: l) s = if (turn s t).1 = .running then run l (turn s t).2 else turn s t := by
  simp only [run]
  generalize turn s t = r
  obtain ⟨e, s'⟩ := r
  cases e <;> simp

/-- While the loop runs, all turns before were running -/
theorem run_append (l l' : List Turn) : ∀ s, run (l ++ l') s = if (run l s).1 = .running then run l' (run l s).2 else run l s := by
  induction l with
  | nil => intro s; simp [run]
  | cons t l ih =>
    intro s
    rw [List.cons_append, run_cons, run_cons]
    by_cases h : (turn s t).1 = .running
    · simp only [h, if_true, ih]
    · simp only [h, if_false]

theorem run_count (l : List Turn) : ∀ (s : St) (hl ha : List Bool), Excess hl s.listen → Excess ha s.accept → (run l s).1 = .running →
    Excess (hl ++ l.map (fun t => t.poll.isErr)) (run l s).2.listen ∧ Excess (ha ++ l.flatMap (fun t => t.accepts.map Acc.isErr)) (run l s).2.accept := by
  induction l with
  | nil => intro s hl ha h1 h2 _; simpa [run] using ⟨h1, h2⟩
  | cons t l ih =>
    intro s hl ha h1 h2 hr
    have ht : (turn s t).1 = .running := by
      rw [run_cons] at hr
      by_cases h : (turn s t).1 = .running
      · exact h
      · rw [if_neg h] at hr; exact hr
    have hrun : run (t :: l) s = run l (turn s t).2 := by rw [run_cons, if_pos ht]
    rw [hrun] at hr ⊢
    obtain ⟨h3, h4⟩ := turn_count s t hl ha h1 h2 ht
    have := ih _ _ _ h3 h4 hr
    simpa [List.append_assoc] using this

/-! ## Theorems -/

/-- **C98 (what is counted).** While the loop runs, its two counts are the excess of errors over successes in the recent past. -/
theorem C98_count (l : List Turn) (hr : (run l init).1 = .running) :
    Excess (l.map (fun t => t.poll.isErr)) (run l init).2.listen ∧ Excess (l.flatMap (fun t => t.accepts.map Acc.isErr)) (run l init).2.accept := by
  have := run_count l init [] [] excess_nil excess_nil hr
  simpa using this

/-- The excess with the attempts of the next turn -/
theorem accepts_excess (l : List Turn) (hr : (run l init).1 = .running) (t : Turn) :
    (handleAccepts t.accepts (run l init).2).1.listen = (run l init).2.listen ∧
    Excess (l.flatMap (fun t => t.accepts.map Acc.isErr) ++ t.accepts.map Acc.isErr) (handleAccepts t.accepts (run l init).2).1.accept :=
  handleAccepts_count t.accepts _ _ (C98_count l hr).2

/-- **C98 (when it gives up).** A running loop gives up in a turn exactly if it is to go on, `poll` fails, the excess of errors is more than 100
with this one, and either the process has too many open files, or all errors together are more than 1000. -/
theorem C98_critical (l : List Turn) (hr : (run l init).1 = .running) (t : Turn) (k a : Nat)
    (hk : Excess ((l ++ [t]).map (fun t => t.poll.isErr)) k) (ha : Excess ((l ++ [t]).flatMap (fun t => t.accepts.map Acc.isErr)) a) :
    (run (l ++ [t]) init).1 = .critical ↔
      t.active = true ∧ (handleAccepts t.accepts (run l init).2).2 = false ∧ ∃ c, t.poll = .err (some c) ∧ 100 < k ∧ (c = emfile ∨ 1000 < k + a) := by
  obtain ⟨h1, h2⟩ := accepts_excess l hr t
  have hl := (C98_count l hr).1
  rw [run_append, if_pos hr]
  rw [List.map_append, List.map_cons, List.map_nil] at hk
  rw [List.flatMap_append, List.flatMap_cons, List.flatMap_nil, List.append_nil] at ha
  have hae := excess_unique _ _ _ ha h2
  have hke := excess_unique _ _ _ hk (excess_snoc _ _ _ hl)
  have e : (run [t] (run l init).2).1 = (turn (run l init).2 t).1 := by
    rw [run_cons]
    by_cases h : (turn (run l init).2 t).1 = .running
    · rw [if_pos h, h]; rfl
    · rw [if_neg h]
  rw [e]
  generalize (run l init).2 = s at *
  unfold turn
  generalize handleAccepts t.accepts s = q at *
  obtain ⟨q, st⟩ := q
  dsimp only at *
  cases hp : t.poll with
  | ok =>
    dsimp only
    constructor
    · intro h; split at h <;> cases h
    · rintro ⟨_, _, c, hc, _⟩; cases hc
  | err code =>
    rw [hp] at hke
    simp only [Poll.isErr, if_true] at hke
    dsimp only
    cases hact : t.active <;> cases st
    · simp
    · simp
    · simp only [Bool.not_false, Bool.and_true, if_true, true_and]
      unfold onError
      dsimp only
      rw [h1, ← hae]
      subst hke
      cases code with
      | none =>
        constructor
        · intro h
          split at h
          · cases h
          · split at h
            · cases h
            · split at h <;> cases h
        · rintro ⟨c, hc, _⟩; cases hc
      | some c =>
        by_cases hlt : s.listen + 1 < 20
        · simp [hlt]; omega
        · by_cases h20 : s.listen + 1 = 20
          · simp [hlt, h20]
          · by_cases h100 : s.listen + 1 > 100
            · by_cases hc : c = emfile ∨ s.listen + 1 + a > 1000
              · exact ⟨fun _ => ⟨c, rfl, h100, hc⟩, fun _ => by simp only [hlt, h20, h100, hc, if_true, if_false]⟩
              · constructor
                · intro h; simp only [hlt, h20, h100, hc, if_true, if_false] at h; cases h
                · rintro ⟨c', h1', _, h2'⟩
                  cases h1'
                  exact absurd h2' hc
            · constructor
              · intro h; simp only [hlt, h20, h100, if_false] at h; cases h
              · rintro ⟨c', _, h1', _⟩; omega
    · simp

/-- **C98 (sporadic errors).** If in no stretch of time errors exceed successes by more than 100 (and all errors have a code), the loop goes on
until it is to stop. -/
theorem C98_sporadic (l : List Turn) (hact : ∀ t ∈ l, t.active = true)
    (hcode : ∀ t ∈ l, t.poll ≠ .err none)
    (hpoll : ∀ part, part <:+: l.map (fun t => t.poll.isErr) → errors part ≤ successes part + 100)
    (hacc : ∀ part, part <:+: l.flatMap (fun t => t.accepts.map Acc.isErr) → errors part ≤ successes part + 100) :
    (run l init).1 = .running := by
  have hexp : ∀ n, (run (l.take n) init).1 = .running := by
    intro n
    induction n with
    | zero => rfl
    | succ n ih =>
      by_cases hn : n < l.length
      · rw [List.take_succ_eq_append_getElem hn, run_append, if_pos ih]
        have hmem : l[n] ∈ l := List.getElem_mem hn
        have hl := (C98_count _ ih).1
        obtain ⟨hc1, hc2⟩ := accepts_excess _ ih l[n]
        have hpre : l.take n ++ [l[n]] <+: l := by
          rw [← List.take_succ_eq_append_getElem hn]
          exact List.take_prefix _ _
        generalize hs : (run (l.take n) init).2 = s at *
        -- no stop by an attempt to accept
        have hst : (handleAccepts (l[n]).accepts s).2 = false := by
          have : ∀ (as : List Acc) (s : St) (h : List Bool), Excess h s.accept →
              (∀ p, p <+: h ++ as.map Acc.isErr → ∀ r, r <:+ p → errors r ≤ successes r + 100) → (handleAccepts as s).2 = false := by
            intro as
            induction as with
            | nil => intros; rfl
            | cons a as iha =>
              intro s h hh hb
              have h2 := (handleAccept_count s a).2
              have h3 := excess_snoc h a.isErr s.accept hh
              rw [← h2] at h3
              simp only [handleAccepts]
              rw [iha _ _ h3 (fun p hp r hr => hb p (by simpa using hp) r hr), Bool.or_false]
              have hle : (handleAccept s a).1.accept ≤ 100 := by
                obtain ⟨r, hr, he⟩ := h3.1
                have := hb (h ++ [a.isErr]) ⟨as.map Acc.isErr, by simp⟩ r hr
                omega
              cases a with
              | ok => rfl
              | err code =>
                simp only [Acc.isErr, if_true] at h2
                rw [h2] at hle
                unfold handleAccept
                dsimp only
                split
                · rfl
                · split
                  · rfl
                  · split
                    · omega
                    · rfl
          refine this _ s _ (hs ▸ (C98_count _ ih).2) (fun p hp r hr => hacc r ?_)
          have hinf : (l.take n).flatMap (fun t => t.accepts.map Acc.isErr) ++ (l[n]).accepts.map Acc.isErr <+: l.flatMap (fun t => t.accepts.map Acc.isErr) := by
            obtain ⟨q, hq⟩ := hpre
            refine ⟨q.flatMap (fun t => t.accepts.map Acc.isErr), ?_⟩
            have := congrArg (List.flatMap (fun t => t.accepts.map Acc.isErr)) hq
            rw [List.flatMap_append, List.flatMap_append, List.flatMap_cons, List.flatMap_nil, List.append_nil] at this
            exact this
          exact hr.isInfix.trans (hp.isInfix.trans hinf.isInfix)
        have hlist : (if (l[n]).poll.isErr then s.listen + 1 else s.listen - 1) ≤ 100 := by
          have h3 := excess_snoc _ (l[n]).poll.isErr _ hl
          obtain ⟨r, hr, he⟩ := h3.1
          have := hpoll r ?_
          · omega
          · refine hr.isInfix.trans ?_
            obtain ⟨q, hq⟩ := hpre
            exact (show _ <+: _ from ⟨q.map (fun t => t.poll.isErr), by
              have := congrArg (List.map (fun t => t.poll.isErr)) hq
              rw [List.map_append, List.map_append, List.map_cons, List.map_nil] at this
              exact this⟩ : (l.take n).map (fun t => t.poll.isErr) ++ [(l[n]).poll.isErr] <+: l.map (fun t => t.poll.isErr)).isInfix
        have ht : (turn s l[n]).1 = .running := by
          unfold turn
          dsimp only
          rw [hst, hact _ hmem]
          cases hp : (l[n]).poll with
          | ok => rfl
          | err code =>
            cases code with
            | none => exact absurd hp (hcode _ hmem)
            | some c =>
              rw [hp] at hlist
              simp only [Poll.isErr, if_true] at hlist
              simp only [Bool.not_false, Bool.and_true, if_true]
              unfold onError
              dsimp only
              rw [hc1]
              split
              · rfl
              · split
                · rfl
                · split
                  · omega
                  · rfl
        rw [run_cons, if_pos ht]
        rfl
      · rw [List.take_of_length_le (by omega)] at ih ⊢
        exact ih
  have := hexp l.length
  rwa [List.take_length] at this

/-- **C98 (too many open files).** If every `poll` fails with it, the loop makes exactly 101 attempts. -/
theorem C98_emfile (n : Nat) : (run (List.replicate n ⟨[], .err (some emfile), true⟩) init).1 = if n ≤ 100 then .running else .critical := by
  by_cases h : n ≤ 100
  · rw [if_pos h]
    have : ∀ m, m ≤ 100 → ∃ k, run (List.replicate m ⟨[], .err (some emfile), true⟩) init = (.running, ⟨m, 0, k⟩) := by
      intro m
      induction m with
      | zero => intro _; exact ⟨0, rfl⟩
      | succ m ih =>
        intro hm
        obtain ⟨k, hk⟩ := ih (by omega)
        rw [List.replicate_succ', run_append, hk]
        simp only [if_true, run, turn, handleAccepts, Bool.not_false, Bool.and_true, onError]
        by_cases h1 : m + 1 < 20
        · exact ⟨k + 1, by simp [h1]⟩
        · by_cases h2 : m + 1 = 20
          · exact ⟨k + 2, by simp [h2]⟩
          · refine ⟨k, ?_⟩
            have h3 : ¬(m + 1 > 100) := by omega
            simp [h1, h2, h3]
    obtain ⟨k, hk⟩ := this n h
    rw [hk]
  · rw [if_neg h]
    obtain ⟨m, rfl⟩ : ∃ m, n = 101 + m := ⟨n - 101, by omega⟩
    rw [← List.replicate_append_replicate, run_append]
    have : (run (List.replicate 101 ⟨[], .err (some emfile), true⟩) init).1 = .critical := by decide +kernel
    rw [if_neg (by rw [this]; decide), this]

/-- **C98 (it stops).** Once it is to stop, the loop ends with the turn, whatever `poll` gave. -/
theorem C98_stop (l : List Turn) (t : Turn) (l' : List Turn) (h : t.active = false) (hr : (run l init).1 = .running) :
    (run (l ++ t :: l') init).1 = .stopped := by
  rw [run_append, if_pos hr]
  have ht : (turn (run l init).2 t).1 = .stopped := by
    unfold turn
    rw [h]
    cases t.poll <;> simp
  rw [run_cons, if_neg (by rw [ht]; decide), ht]

/-- **C98 (the log).** No matter how long errors continue, they write at most 22 messages until there was a success. -/
theorem C98_messages (l : List Turn) (h : ∀ t ∈ l, t.accepts = [] ∧ t.poll.isErr = true) : ∀ s, s.listen = 0 →
    (run l s).2.messages ≤ s.messages + 22 := by
  have key : ∀ (l : List Turn), (∀ t ∈ l, t.accepts = [] ∧ t.poll.isErr = true) → ∀ s : St,
      (run l s).2.messages ≤ s.messages + (if s.listen < 20 then 22 - s.listen else 1) := by
    intro l
    induction l with
    | nil => intro _ s; simp [run]
    | cons t l ih =>
      intro h s
      obtain ⟨h1, h2⟩ := h t (List.mem_cons_self ..)
      have ih := ih (fun t ht => h t (List.mem_cons_of_mem _ ht))
      have hturn : (turn s t).2.listen = s.listen + 1 ∧ ((turn s t).1 = .running → (turn s t).2.messages = s.messages + (if s.listen + 1 < 20 then 1 else if s.listen + 1 = 20 then 2 else 0)) ∧
          ((turn s t).1 ≠ .running → (turn s t).2.messages ≤ s.messages + 1) ∨ ((turn s t).1 = .stopped ∧ (turn s t).2 = s) := by
        unfold turn
        rw [h1]
        simp only [handleAccepts, Bool.not_false, Bool.and_true]
        cases hp : t.poll with
        | ok => rw [hp] at h2; cases h2
        | err code =>
          cases hact : t.active with
          | false => right; simp
          | true =>
            left
            simp only [if_true]
            refine ⟨(onError_listen s code).1, ?_, ?_⟩
            · unfold onError
              dsimp only
              intro hh
              by_cases h3 : s.listen + 1 < 20
              · cases code <;> simp_all
              · by_cases h4 : s.listen + 1 = 20
                · simp [h3, h4]
                · by_cases h5 : s.listen + 1 > 100
                  · cases code with
                    | none => simp_all
                    | some c =>
                      by_cases h6 : c = emfile ∨ s.listen + 1 + s.accept > 1000
                      · simp [h3, h4, h5, h6] at hh
                      · simp [h3, h4, h5, h6]
                  · simp [h3, h4, h5]
            · unfold onError
              dsimp only
              intro hh
              by_cases h3 : s.listen + 1 < 20
              · cases code <;> simp_all
              · by_cases h4 : s.listen + 1 = 20
                · simp [h3, h4] at hh
                · by_cases h5 : s.listen + 1 > 100
                  · cases code with
                    | none => simp_all
                    | some c =>
                      by_cases h6 : c = emfile ∨ s.listen + 1 + s.accept > 1000
                      · simp [h3, h4, h5, h6]
                      · simp [h3, h4, h5, h6] at hh
                  · simp [h3, h4, h5] at hh
      rw [run_cons]
      rcases hturn with ⟨ha, hb, hc⟩ | ⟨ha, hb⟩
      · cases he : (turn s t).1 with
        | running =>
          rw [if_pos rfl]
          have := ih (turn s t).2
          rw [hb he, ha] at this
          refine Nat.le_trans this ?_
          repeat' split
          all_goals omega
        | _ =>
          rw [if_neg (by decide)]
          have := hc (by rw [he]; decide)
          refine Nat.le_trans this ?_
          split <;> omega
      · rw [ha, if_neg (by decide), hb]
        split <;> omega
  intro s hs
  have := key l h s
  rw [hs] at this
  simpa using this

/-! ## What does not hold -/

/-- C98: what an error while accepting a connection does: it is counted, it stops the server only if there are more than 100 such errors in excess,
and then only if no more files can be opened or if there are more than 1000 errors in excess of both kinds; a message is written for the first
20 errors in excess, and if the server is stopped -/
theorem C98_accept (s : St) (code : Option Int) :
    handleAccept s (.err code) =
      ({ s with accept := s.accept + 1,
                messages := s.messages + (if s.accept + 1 ≤ 20 ∨ (100 < s.accept + 1 ∧ (code = some emfile ∨ 1000 < s.listen + (s.accept + 1))) then 1 else 0) },
       decide (100 < s.accept + 1 ∧ (code = some emfile ∨ 1000 < s.listen + (s.accept + 1)))) := by
  unfold handleAccept
  dsimp only
  by_cases h1 : s.accept + 1 < 20
  · rw [if_pos h1, if_pos (Or.inl (by omega)), decide_eq_false (by omega)]
  · rw [if_neg h1]
    by_cases h2 : s.accept + 1 = 20
    · rw [if_pos h2, if_pos (Or.inl (by omega)), decide_eq_false (by omega)]
    · rw [if_neg h2]
      by_cases h3 : s.accept + 1 > 100
      · rw [if_pos h3]
        by_cases h4 : code = some emfile ∨ s.listen + (s.accept + 1) > 1000
        · rw [if_pos h4, if_pos (Or.inr ⟨h3, h4⟩), decide_eq_true (And.intro h3 h4)]
        · rw [if_neg h4, if_neg (by rintro (h | h); omega; exact h4 h.2), decide_eq_false (fun h => h4 h.2)]
          rfl
      · rw [if_neg h3, if_neg (by omega), decide_eq_false (by omega)]
        rfl

example : (handleAccept ⟨3, 100, 20⟩ (.err (some emfile))) = (⟨3, 101, 21⟩, true) := by decide +kernel
example : (handleAccept ⟨900, 100, 20⟩ (.err (some 9))) = (⟨900, 101, 21⟩, true) := by decide +kernel
example : (handleAccept ⟨3, 100, 20⟩ (.err (some 9))) = (⟨3, 101, 20⟩, false) := by decide +kernel

/-- **C98, refuted: no single error ends the loop.** One exception without arguments does. -/
theorem C98_refuted_args : (run [⟨[], .err none, true⟩] init).1 = .crashed := by decide +kernel

/-- **C98, refuted: errors in a row are limited.** An error of another kind may last: as long as all are at most 1000, the loop goes on without
a message. -/
theorem C98_refuted_silent : ∀ n, 20 ≤ n → n ≤ 1000 → run (List.replicate n (bad 9)) init = (.running, ⟨n, 0, 21⟩) := by
  intro n
  induction n with
  | zero => intro h; omega
  | succ n ih =>
    intro h1 h2
    by_cases h : n + 1 = 20
    · have : n = 19 := by omega
      subst this
      decide +kernel
    · rw [List.replicate_succ', run_append, ih (by omega) (by omega)]
      simp only [if_true, run, turn, bad, handleAccepts, Bool.not_false, Bool.and_true, onError]
      have a1 : ¬(n + 1 < 20) := by omega
      have a3 : ¬(n + 1 > 1000) := by omega
      by_cases a4 : n + 1 > 100
      · simp [a1, h, a3, a4, emfile]
      · simp [a1, h, a4]

end Verif.EventLoop
