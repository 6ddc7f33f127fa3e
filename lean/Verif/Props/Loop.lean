import Verif.Props.Actions

/-! # The main loop of the actions (C21, C22) -/

namespace Verif

open Actions Spec.Act Spec.Ban

/-- What happens in a jail: a producer puts a ticket into the queue, or the thread of the actions executes an iteration. -/
inductive LoopOp where
  /-- `putFailTicket` (jail.py 205-213), by the filter or the server -/
  | put (t : Ticket)
  /-- an iteration of the loop at a time -/
  | iter (now : Int)

/-- One event. The queue is a FIFO `queue.Queue` (jail.py 211, 221). -/
def LoopOp.step (env : Env) (l : Loop) : LoopOp → Loop
  | .put t => { l with queue := l.queue ++ [t] }
  | .iter now => Actions.iter env now l

/-- Any interleaving. -/
def LoopOp.run (env : Env) (l : Loop) (ops : List LoopOp) : Loop := ops.foldl (LoopOp.step env) l

/-- tickets put into the queue -/
def LoopOp.puts : List LoopOp → List Ticket
  | [] => []
  | .put t :: ops => t :: LoopOp.puts ops
  | .iter _ :: ops => LoopOp.puts ops

/-- `Processed env s ts s'`: from `s`, the ban loop got the tickets `ts` one after the other, with expiry checks in
between, and ended in `s'`. -/
inductive Processed (env : Env) (s : Actions) : List Ticket → Actions → Prop where
  | nil : Processed env s [] s
  | ban {ts s'} (now : Int) (ra : List String) (t : Ticket) :
      Processed env s ts s' → Processed env s (ts ++ [t]) (s'.checkBanOne env now ra t).s
  | expiry {ts s'} (now : Int) (n : Nat) :
      Processed env s ts s' → Processed env s ts (s'.checkUnBan env now n).2

theorem checkBanLoop_processed (env : Env) (now : Int) (s : Actions) (ts0 : List Ticket) (ts : List Ticket)
    (ra : List String) (cnt : Nat) (s' : Actions) (h : Processed env s ts0 s') :
    ∃ taken, ts = taken ++ (checkBanLoop env now ts ra cnt s').2.2.1 ∧
      Processed env s (ts0 ++ taken) (checkBanLoop env now ts ra cnt s').2.2.2 ∧
      ((checkBanLoop env now ts ra cnt s').2.1 = false → taken = ts) ∧ (ts ≠ [] → taken ≠ []) := by
  induction ts generalizing ra cnt s' ts0 with
  | nil => exact ⟨[], rfl, by simpa [checkBanLoop] using h, fun _ => rfl, fun h => absurd rfl h⟩
  | cons t ts ih =>
    have h1 : Processed env s (ts0 ++ [t]) (s'.checkBanOne env now ra t).s := .ban now ra t h
    simp only [checkBanLoop]
    by_cases hr : (s'.checkBanOne env now ra t).raised = true
    · rw [if_pos hr]
      refine ⟨[t], rfl, h1, ?_, fun _ => by simp⟩
      intro hc; dsimp only at hc; cases hc
    · rw [if_neg hr]
      obtain ⟨taken, e1, e2, e3, _⟩ := ih (ts0 ++ [t]) (s'.checkBanOne env now ra t).rebanacts
        (cnt + (s'.checkBanOne env now ra t).cnt) _ h1
      refine ⟨t :: taken, ?_, ?_, ?_, fun _ => by simp⟩
      · rw [List.cons_append, ← e1]
      · rw [List.append_assoc] at e2; exact e2
      · intro hf; rw [e3 hf]

theorem iter_processed (env : Env) (now : Int) (s : Actions) (ts : List Ticket) (l : Loop) (h : Processed env s ts l.s) :
    ∃ taken, l.queue = taken ++ (Actions.iter env now l).queue ∧ taken.length ≤ 10 ∧
      Processed env s (ts ++ taken) (Actions.iter env now l).s ∧ (l.queue ≠ [] → taken ≠ []) := by
  by_cases hq : l.queue = []
  · refine ⟨[], ?_, by simp, ?_, fun h => absurd hq h⟩
    · unfold Actions.iter; simp [hq]
    · unfold Actions.iter
      simp only [hq, ne_eq, not_true, if_false, Bool.false_eq_true]
      simp only [true_or, if_true, List.append_nil]
      exact .expiry now _ h
  · obtain ⟨taken, e1, e2, _, e4⟩ := checkBanLoop_processed env now s ts (l.queue.take banPrecedence) [] 0 l.s h
    have hne : l.queue.take banPrecedence ≠ [] := by
      intro hc; rw [List.take_eq_nil_iff] at hc; rcases hc with hc | hc
      · cases hc
      · exact hq hc
    have hlen : taken.length ≤ 10 := by
      have := congrArg List.length e1
      rw [List.length_take, List.length_append] at this
      have hp : banPrecedence = 10 := rfl
      omega
    unfold Actions.iter
    rw [if_pos hq]
    generalize checkBanLoop env now (l.queue.take banPrecedence) [] 0 l.s = r at *
    obtain ⟨n, b, left, s1⟩ := r
    dsimp only at e1 e2 ⊢
    have hqueue : l.queue = taken ++ (left ++ l.queue.drop banPrecedence) := by
      rw [← List.append_assoc, ← e1, List.take_append_drop]
    refine ⟨taken, ?_, hlen, ?_, fun _ => e4 hne⟩
    · cases b with
      | true => exact hqueue
      | false =>
        simp only [Bool.false_eq_true, if_false]
        split <;> exact hqueue
    · cases b with
      | true => exact e2
      | false =>
        simp only [Bool.false_eq_true, if_false]
        split
        · exact .expiry now _ e2
        · exact e2

/-- **C21.** In every interleaving of producers and the ban loop, and for every environment (even with exceptions leaving
a batch): the tickets waiting at first followed by all tickets put are exactly the tickets the loop got, in the order it got
them, followed by those still waiting. Nothing is lost, duplicated or reordered. -/
theorem C21_fifo (env : Env) (ops : List LoopOp) (l : Loop) :
    ∃ got, l.queue ++ LoopOp.puts ops = got ++ (LoopOp.run env l ops).queue ∧
      Processed env l.s got (LoopOp.run env l ops).s := by
  have key : ∀ (ops : List LoopOp) (l' : Loop) (ts : List Ticket), Processed env l.s ts l'.s →
      ∃ got, l'.queue ++ LoopOp.puts ops = got ++ (LoopOp.run env l' ops).queue ∧
        Processed env l.s (ts ++ got) (LoopOp.run env l' ops).s := by
    intro ops
    induction ops with
    | nil => intro l' ts h; exact ⟨[], by simp [LoopOp.puts, LoopOp.run], by simpa [LoopOp.run] using h⟩
    | cons op ops ih =>
      intro l' ts h
      cases op with
      | put t =>
        obtain ⟨got, e1, e2⟩ := ih { l' with queue := l'.queue ++ [t] } ts h
        refine ⟨got, ?_, e2⟩
        simp only [LoopOp.puts]
        dsimp only at e1
        rw [List.append_assoc, List.singleton_append] at e1
        exact e1
      | iter now =>
        obtain ⟨taken, t1, _, t3, _⟩ := iter_processed env now l.s ts l' h
        obtain ⟨got, e1, e2⟩ := ih (Actions.iter env now l') (ts ++ taken) t3
        refine ⟨taken ++ got, ?_, ?_⟩
        · simp only [LoopOp.puts]
          rw [t1, List.append_assoc, e1, List.append_assoc]; rfl
        · rw [← List.append_assoc]; exact e2
  obtain ⟨got, e1, e2⟩ := key ops l [] .nil
  exact ⟨got, e1, by simpa using e2⟩

/-- **C21 (progress).** Every iteration with waiting tickets takes between one and ten of them. -/
theorem C21_progress (env : Env) (now : Int) (l : Loop) (h : l.queue ≠ []) :
    ∃ taken, l.queue = taken ++ (Actions.iter env now l).queue ∧ 1 ≤ taken.length ∧ taken.length ≤ 10 := by
  obtain ⟨taken, e1, e2, _, e4⟩ := iter_processed env now l.s [] l .nil
  exact ⟨taken, e1, List.length_pos_iff.2 (e4 h), e2⟩

/-! ## C22 -/

/-- The call is a new ban (its notice in the log). -/
def isNewBan : Call → Bool
  | .logBan _ _ => true
  | _ => false

/-- The call is an expiry check. -/
def isExpiry : Call → Bool
  | .expiry _ => true
  | _ => false

/-- number of new bans since the last expiry check -/
def bansSinceExpiry (trace : List Call) : Nat :=
  ((trace.reverse.takeWhile (fun c => !(isExpiry c))).filter isNewBan).length

theorem since_append (a b : List Call) (h : ∀ c ∈ b, isExpiry c = false) :
    bansSinceExpiry (a ++ b) = bansSinceExpiry a + (b.filter isNewBan).length := by
  unfold bansSinceExpiry
  rw [List.reverse_append, List.takeWhile_append_of_pos (by
    intro c hc; rw [h c (List.mem_reverse.1 hc)]; rfl), List.filter_append, List.length_append, List.filter_reverse,
    List.length_reverse]
  omega

theorem since_expiry (a b : List Call) (n : Nat) (h : ∀ c ∈ b, isExpiry c = false) :
    bansSinceExpiry (a ++ Call.expiry n :: b) = (b.filter isNewBan).length := by
  have e : a ++ Call.expiry n :: b = (a ++ [Call.expiry n]) ++ b := by simp
  rw [e, since_append _ _ h]
  unfold bansSinceExpiry
  simp [isExpiry]

theorem unbanCalls_plain (acts : List String) (ids : List Fid) :
    (∀ c ∈ unbanCalls acts ids, isExpiry c = false) ∧ (unbanCalls acts ids).filter isNewBan = [] := by
  have : ∀ c ∈ unbanCalls acts ids, isExpiry c = false ∧ isNewBan c = false := by
    intro c hc
    simp only [unbanCalls, List.mem_flatMap, List.mem_map] at hc
    obtain ⟨x, _, a, _, rfl⟩ := hc
    exact ⟨rfl, rfl⟩
  exact ⟨fun c hc => (this c hc).1, List.filter_eq_nil_iff.2 (fun c hc => by simp [(this c hc).2])⟩

theorem checkBanOne_calls (env : Env) (now : Int) (s : Actions) (ra : List String) (t : Ticket) :
    ∃ cs, (s.checkBanOne env now ra t).s.trace = s.trace ++ cs ∧ (∀ c ∈ cs, isExpiry c = false) ∧
      (cs.filter isNewBan).length ≤ (s.checkBanOne env now ra t).cnt ∧ (s.checkBanOne env now ra t).cnt ≤ 1 := by
  by_cases he : ends t s.bm.banTime < now
  · rw [C17_expired env now s ra t he]
    exact ⟨[], by simp, by simp, by simp, by simp⟩
  · by_cases hb : Banned s.bm t.id
    · obtain ⟨h1, ⟨checks, rebans, _, h2⟩, _⟩ := C17_already env now s ra t (by omega) hb
      refine ⟨checks.map Call.check ++ rebans.map (fun a => Call.reban a t.id), ?_, ?_, ?_, h1⟩
      · rw [h2, List.append_assoc]
      · intro c hc
        simp only [List.mem_append, List.mem_map] at hc
        rcases hc with ⟨a, _, rfl⟩ | ⟨a, _, rfl⟩ <;> rfl
      · rw [List.filter_eq_nil_iff.2]
        · simp
        · intro c hc
          simp only [List.mem_append, List.mem_map] at hc
          rcases hc with ⟨a, _, rfl⟩ | ⟨a, _, rfl⟩ <;> simp [isNewBan]
    · obtain ⟨h1, _, _, h2, _⟩ := C17_new_ban env now s ra t (by omega) hb
      refine ⟨_, h2, ?_, ?_, by rw [h1]; exact Nat.le_refl 1⟩
      · intro c hc
        simp only [banCalls, List.mem_append, List.mem_cons, List.mem_map] at hc
        rcases hc with hc | rfl | ⟨a, _, rfl⟩
        · split at hc
          · simp only [List.mem_singleton] at hc; subst hc; rfl
          · cases hc
        · rfl
        · rfl
      · rw [h1]
        unfold banCalls
        rw [List.filter_append, List.filter_cons_of_pos rfl, List.length_append, List.length_cons]
        have e1 : ((banners s.actions.items t.restored).map (fun a => Call.ban a t.id)).filter isNewBan = [] := by
          rw [List.filter_eq_nil_iff]
          intro c hc
          simp only [List.mem_map] at hc
          obtain ⟨a, _, rfl⟩ := hc
          simp [isNewBan]
        have e2 : (if s.observer = true ∧ t.restored = false then [Call.banFound t.id] else []).filter isNewBan = [] := by
          split <;> rfl
        rw [e1, e2]
        simp

theorem checkBanLoop_calls (env : Env) (now : Int) (ts : List Ticket) (ra : List String) (cnt : Nat) (s : Actions)
    (henv : ChecksReturn env) :
    (checkBanLoop env now ts ra cnt s).2.1 = false ∧
    ∃ cs, (checkBanLoop env now ts ra cnt s).2.2.2.trace = s.trace ++ cs ∧ (∀ c ∈ cs, isExpiry c = false) ∧
      cnt + (cs.filter isNewBan).length ≤ (checkBanLoop env now ts ra cnt s).1 ∧
      (checkBanLoop env now ts ra cnt s).1 ≤ cnt + ts.length := by
  induction ts generalizing ra cnt s with
  | nil => exact ⟨rfl, [], by simp [checkBanLoop], by simp, by simp [checkBanLoop], by simp [checkBanLoop]⟩
  | cons t ts ih =>
    obtain ⟨cs, h1, h2, h3, h4⟩ := checkBanOne_calls env now s ra t
    have hnr : (s.checkBanOne env now ra t).raised = false := by
      unfold checkBanOne
      dsimp only
      split
      · rfl
      · rfl
      · exact alreadyBanned_raised env henv now _ ra t _
    simp only [checkBanLoop]
    rw [hnr]
    simp only [Bool.false_eq_true, if_false]
    obtain ⟨i1, ds, i2, i3, i4, i5⟩ := ih (s.checkBanOne env now ra t).rebanacts (cnt + (s.checkBanOne env now ra t).cnt)
      (s.checkBanOne env now ra t).s
    refine ⟨i1, cs ++ ds, ?_, ?_, ?_, ?_⟩
    · rw [i2, h1, List.append_assoc]
    · intro c hc
      rw [List.mem_append] at hc
      rcases hc with hc | hc
      · exact h2 c hc
      · exact i3 c hc
    · rw [List.filter_append, List.length_append]; omega
    · rw [List.length_cons]; omega

/-- invariant of the loop -/
structure LoopInv (l : Loop) : Prop where
  since : bansSinceExpiry l.s.trace ≤ l.cnt
  cnt : l.cnt ≤ 9
  all : ∀ p, p <+: l.s.trace → bansSinceExpiry p ≤ 19

theorem prefix_append_cases {α : Type} {p a b : List α} (h : p <+: a ++ b) : p <+: a ∨ ∃ q, q <+: b ∧ p = a ++ q := by
  obtain ⟨q, hq⟩ := h
  rcases List.append_eq_append_iff.1 hq with ⟨as, h1, h2⟩ | ⟨bs, h1, h2⟩
  · exact .inl ⟨as, h1.symm⟩
  · exact .inr ⟨bs, ⟨q, h2.symm⟩, h1⟩

theorem iter_inv (env : Env) (henv : ChecksReturn env) (now : Int) (l : Loop) (h : LoopInv l) :
    LoopInv (Actions.iter env now l) := by
  have hgen : ∀ (n : Nat) (s1 : Actions) (cs : List Call), s1.trace = l.s.trace ++ cs → (∀ c ∈ cs, isExpiry c = false) →
      (cs.filter isNewBan).length ≤ n → n ≤ 10 → ∀ q : List Ticket,
      LoopInv (if n = 0 ∨ banPrecedence ≤ l.cnt + n then
        { cnt := 0, queue := q, s := (s1.checkUnBan env now (unbanLimit n)).2 }
        else { cnt := l.cnt + n, queue := q, s := s1 }) := by
    intro n s1 cs ht hcs hlog hn q
    have hsince : bansSinceExpiry s1.trace ≤ l.cnt + n := by
      rw [ht, since_append _ _ hcs]; have := h.since; omega
    have hall : ∀ p, p <+: s1.trace → bansSinceExpiry p ≤ 19 := by
      intro p hp
      rw [ht] at hp
      rcases prefix_append_cases hp with hp | ⟨r, hr, rfl⟩
      · exact h.all p hp
      · rw [since_append _ _ (fun c hc => hcs c (hr.subset hc))]
        have h1 : (r.filter isNewBan).length ≤ (cs.filter isNewBan).length := (hr.sublist.filter isNewBan).length_le
        have := h.since
        have := h.cnt
        omega
    have hb : banPrecedence = 10 := rfl
    split
    · have hex := (C18_expiry env now s1 (unbanLimit n)).2.2.1
      have hu := unbanCalls_plain s1.actions.keys ((s1.bm.unBanList now (unbanLimit n)).1.map Ticket.id)
      refine ⟨?_, by simp, ?_⟩
      · dsimp only
        rw [hex, since_expiry _ _ _ hu.1, hu.2]; simp
      · dsimp only
        rw [hex]
        intro p hp
        rcases prefix_append_cases hp with hp | ⟨r, hr, rfl⟩
        · exact hall p hp
        · cases r with
          | nil => rw [List.append_nil]; exact hall _ (List.prefix_refl _)
          | cons c r =>
            rw [List.cons_prefix_cons] at hr
            obtain ⟨rfl, hr⟩ := hr
            rw [since_expiry _ _ _ (fun c hc => hu.1 c (hr.subset hc))]
            have : (r.filter isNewBan).length ≤ _ := (hr.sublist.filter isNewBan).length_le
            rw [hu.2] at this
            have h0 : (r.filter isNewBan).length ≤ 0 := this
            omega
    · rename_i hc
      exact ⟨hsince, by dsimp only; omega, hall⟩
  unfold Actions.iter
  by_cases hq : l.queue = []
  · simp only [hq, ne_eq, not_true, if_false, Bool.false_eq_true]
    exact hgen 0 l.s [] (by simp) (by simp) (by simp) (by omega) _
  · obtain ⟨h1, cs, h2, h3, h4, h5⟩ := checkBanLoop_calls env now (l.queue.take banPrecedence) [] 0 l.s henv
    have hlen : (l.queue.take banPrecedence).length ≤ 10 := by
      rw [List.length_take]; exact Nat.min_le_left _ _
    rw [if_pos hq]
    generalize checkBanLoop env now (l.queue.take banPrecedence) [] 0 l.s = r at *
    obtain ⟨n, b, left, s1⟩ := r
    dsimp only at *
    subst h1
    simp only [Bool.false_eq_true, if_false]
    exact hgen n s1 cs h2 h3 (by omega) (by omega) _

/-- **C22.** If consistency checks raise no exceptions: in every interleaving of producers and the ban loop, at every moment
(every prefix of the trace of the calls), at most 19 addresses were newly banned since the last expiry check (or the
start). -/
theorem C22_not_starved_partial (env : Env) (henv : ChecksReturn env) (queue : List Ticket) (s : Actions) (hs : s.trace = [])
    (ops : List LoopOp) (p : List Call) (hp : p <+: (LoopOp.run env ⟨0, queue, s⟩ ops).s.trace) :
    bansSinceExpiry p ≤ 19 := by
  have key : ∀ (ops : List LoopOp) (l : Loop), LoopInv l → LoopInv (LoopOp.run env l ops) := by
    intro ops
    induction ops with
    | nil => intro l h; exact h
    | cons op ops ih =>
      intro l h
      apply ih
      cases op with
      | put t => exact ⟨h.since, h.cnt, h.all⟩
      | iter now => exact iter_inv env henv now l h
  refine (key ops ⟨0, queue, s⟩ ⟨?_, by simp, ?_⟩).all p hp
  · dsimp only; rw [hs]; exact Nat.le_refl 0
  · intro p hp
    dsimp only at hp
    rw [hs, List.prefix_nil] at hp
    rw [hp]; exact Nat.zero_le _

/-- tickets of `n` new addresses followed by one of an address banned before, five seconds later -/
def exBurst (n k : Nat) : List Ticket :=
  (List.range n).map (fun i => exTicket (toString (10 * k + i)) 1000 none) ++ [exTicket "a" (1000 + 5 * k) none]

/-- **The condition of C22 is needed**: if consistency checks raise exceptions, the batch is left early, its bans are not
counted and no expiry check is made: here 27 addresses are banned in three iterations without any expiry check. -/
theorem C22_refuted_when_checks_raise :
    let env : Env := fun tr => match tr.getLast? with
      | some (.check _) => { raised := true }
      | _ => {}
    let l := LoopOp.run env ⟨0, exTicket "a" 1000 none :: (exBurst 8 1 ++ exBurst 9 2 ++ exBurst 9 3), exActs⟩
      [.iter 1000, .iter 1010, .iter 1020]
    bansSinceExpiry l.s.trace = 27 ∧ l.s.trace.filter isExpiry = [] := by decide +kernel

/-- **C22 (idle).** An iteration that banned nothing performs an expiry check of up to 20 bans. -/
theorem C22_idle_check (env : Env) (now : Int) (l : Loop) (h : l.queue = []) :
    (Actions.iter env now l).s = (l.s.checkUnBan env now 20).2 := by
  unfold Actions.iter
  simp only [h, ne_eq, not_true, if_false, Bool.false_eq_true]
  simp only [true_or, if_true]
  rfl

/-- **C22 (limit).** An expiry check in the loop may release up to twice as many bans as were just made, at least one and
never more than 20. -/
theorem C22_limit (n : Nat) : 1 ≤ unbanLimit n ∧ unbanLimit n ≤ 20 ∧ (n ≤ 10 → 2 * n ≤ unbanLimit n) ∧
    (0 < n → n ≤ 10 → unbanLimit n = 2 * n) := by
  have h : unbanMaxCount = 20 := rfl
  unfold unbanLimit
  rw [h]
  dsimp only
  split <;> omega

/-- twelve tickets in two batches: ten bans, an expiry check, then two bans -/
example :
    let ts := (List.range 12).map (fun i => exTicket (toString i) 1000 none)
    let l := LoopOp.run exEnv ⟨0, ts, Actions.init false false⟩ [.iter 1000, .put (exTicket "x" 1000 none), .iter 1000]
    l.s.trace.filter isExpiry = [.expiry 20] ∧ bansSinceExpiry l.s.trace = 3 ∧ l.queue = [] ∧ l.cnt = 3 := by decide

end Verif
