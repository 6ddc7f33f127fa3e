import Verif.Props.Loop
import Verif.Props.Applied

/-! # Further properties of the actions of a jail (C15, C17, C20, C48, C49) -/

namespace Verif

open Actions Spec.Act Spec.Ban

/-- **C15 (status).** The status of a jail reports the number of bans in the list, the number of bans accepted so far, and
the banned addresses. -/
theorem C15_status (s : Actions) :
    s.status.1 = s.bm.banList.items.length ∧ s.status.2.1 = s.bm.banTotal ∧ s.status.2.2 = s.bm.banList.items.map Prod.fst := by
  refine ⟨?_, rfl, rfl⟩
  simp [status, BanManager.getBanList, Dict.keys]

example : let s := (checkBanLoop exEnv 1000 [exTicket "a" 1000 none, exTicket "b" 1000 none] [] 0 exActs).2.2.2
    s.status = (2, 2, ["a", "b"]) := by decide

/-! ## tickets of already banned addresses -/

/-- **C17 (running ban not marked).** If the running ban is not yet marked as executed (its first execution is still in
progress or was interrupted), every action re-bans the address, in order, up to the first failing one; only if all succeed
this counts as a ban and the running ban is marked. -/
theorem C17_unmarked (env : Env) (now : Int) (s : Actions) (ra : List String) (t old : Ticket) (hb : old.banned = false) :
    let r := alreadyBanned env now s ra t old
    r.raised = false ∧ r.rebanacts = ra ∧
    ∃ done, done <+: s.actions.keys ∧ r.s.trace = s.trace ++ done.map (fun a => Call.reban a t.id) ∧
      (r.cnt = 1 → done = s.actions.keys) ∧
      ((∀ p q a, done = p ++ a :: q → (env (s.trace ++ (p ++ [a]).map (fun a => Call.reban a t.id))).raised = false) →
        done = s.actions.keys ∧ r.cnt = 1) ∧
      (r.cnt = 0 → ∃ p a, done = p ++ [a] ∧ (env (s.trace ++ done.map (fun a => Call.reban a t.id))).raised = true) := by
  intro r
  have key : ∀ (l : List String) (s : Actions),
      ∃ done, done <+: l ∧ (rebanLoop env t.id l s).2.trace = s.trace ++ done.map (fun a => Call.reban a t.id) ∧
        (((rebanLoop env t.id l s).1 = true ∧ done = l) ∨
         ((rebanLoop env t.id l s).1 = false ∧ ∃ p a, done = p ++ [a] ∧
           (env (s.trace ++ done.map (fun a => Call.reban a t.id))).raised = true)) := by
    intro l
    induction l with
    | nil => intro s; exact ⟨[], List.prefix_refl _, by simp [rebanLoop], .inl ⟨rfl, rfl⟩⟩
    | cons n l ih =>
      intro s
      simp only [rebanLoop]
      have ho := call_outcome env s n (.reban n t.id)
      have ht := call_trace env s n (.reban n t.id)
      by_cases hr : (s.call env n (.reban n t.id)).1.raised = true
      · rw [if_pos hr]
        refine ⟨[n], ?_, ht, .inr ⟨rfl, [], n, rfl, ?_⟩⟩
        · exact ⟨l, rfl⟩
        · rw [ho] at hr; exact hr
      · rw [if_neg hr]
        obtain ⟨done, h1, h2, h3⟩ := ih (s.call env n (.reban n t.id)).2
        refine ⟨n :: done, ?_, ?_, ?_⟩
        · exact List.cons_prefix_cons.2 ⟨rfl, h1⟩
        · rw [h2, ht]; simp
        · rcases h3 with ⟨h3, h4⟩ | ⟨h3, p, a, h4, h5⟩
          · exact .inl ⟨h3, by rw [h4]⟩
          · refine .inr ⟨h3, n :: p, a, by rw [h4]; rfl, ?_⟩
            rw [ht] at h5
            simpa using h5
  have hr : r = ⟨(s.reBan env t.id []).1, false, ra, (s.reBan env t.id []).2⟩ := by
    show alreadyBanned env now s ra t old = _
    unfold alreadyBanned
    rw [if_neg (by simp [hb])]
  obtain ⟨done, h1, h2, h3⟩ := key s.actions.keys s
  rw [hr]
  refine ⟨rfl, rfl, done, h1, ?_⟩
  unfold reBan
  rw [if_pos rfl]
  dsimp only
  generalize rebanLoop env t.id s.actions.keys s = q at *
  obtain ⟨b, s1⟩ := q
  rcases h3 with ⟨h3, h4⟩ | ⟨h3, p, a, h4, h5⟩
  · dsimp only at h2 h3
    subst h3
    refine ⟨?_, fun _ => h4, fun _ => ⟨h4, rfl⟩, fun h => by cases h⟩
    dsimp only
    rw [markBanned_trace]; exact h2
  · dsimp only at h2 h3
    subst h3
    refine ⟨h2, fun h => (by cases h), fun hall => ?_, fun _ => ⟨p, a, h4, h5⟩⟩
    have := hall p [] a h4
    rw [← h4] at this
    rw [h5] at this; cases this

/-- When a repeated ticket triggers a consistency check: the running ban has the current epoch and is more than three
seconds older than the ticket, nothing was found to be re-banned in this batch, and the last check was more than three
seconds ago. -/
def CheckDue (s : Actions) (now : Int) (ra : List String) (t old : Ticket) : Prop :=
  old.banEpoch = s.banEpoch ∧ old.time + 3 < t.time ∧ ra = [] ∧ s.lastCheck + 3 < now

/-- **C17 (quiet).** If no check is due and the running ban is marked and not older than the current epoch, a repeated
ticket causes nothing at all. -/
theorem C17_quiet (env : Env) (now : Int) (s : Actions) (ra : List String) (t old : Ticket) (hb : old.banned = true)
    (hep : s.banEpoch ≤ old.banEpoch) (hc : ¬ CheckDue s now ra t old) :
    alreadyBanned env now s ra t old = ⟨0, false, ra, s⟩ := by
  unfold alreadyBanned
  rw [if_pos hb]
  dsimp only
  have hc' : ¬ (old.banEpoch = s.banEpoch ∧ 3 < t.time - old.time ∧ ra = [] ∧ s.lastCheck + 3 < now) := by
    intro h; exact hc ⟨h.1, by omega, h.2.2.1, h.2.2.2⟩
  rw [if_neg hc']
  simp only [Bool.false_eq_true, if_false]
  rw [if_neg (by omega)]

theorem checkLoop_exact (env : Env) (l : List (String × Action)) (s s' : Actions) (h : checkLoop env l s = (false, s')) :
    s'.trace = s.trace ++ ((l.filter (fun kv => kv.2.canCheck)).map (fun kv => Call.check kv.1)) ∧ Same s s' := by
  induction l generalizing s with
  | nil => simp only [checkLoop, Prod.mk.injEq, true_and] at h; subst h; simp [Same.refl]
  | cons kv l ih =>
    obtain ⟨n, a⟩ := kv
    simp only [checkLoop] at h
    by_cases hc : a.canCheck = true
    · rw [if_pos hc] at h
      have ht := call_trace env s n (.check n)
      have hs := call_same env s n (.check n)
      by_cases hr : (s.call env n (.check n)).1.raised = true
      · rw [if_pos hr] at h; simp at h
      · rw [if_neg hr] at h
        obtain ⟨h1, h2⟩ := ih _ h
        refine ⟨?_, hs.trans h2⟩
        rw [h1, ht, List.filter_cons_of_pos (by exact hc)]; simp
    · rw [if_neg hc] at h
      obtain ⟨h1, h2⟩ := ih s h
      exact ⟨by rw [h1, List.filter_cons_of_neg (by exact hc)], h2⟩

/-- **C17 (consistency check).** When a check is due and no check raises an exception, every action that supports it gets
exactly one consistency check, in order, before anything else; the time of the check is noted, so the next one is at least
three seconds later. If no environment was found broken (the epoch is unchanged), nothing else happens. -/
theorem C17_check_due (env : Env) (henv : ChecksReturn env) (now : Int) (s : Actions) (ra : List String) (t old : Ticket)
    (hb : old.banned = true) (hc : CheckDue s now ra t old) :
    let r := alreadyBanned env now s ra t old
    ∃ rest, r.s.trace = s.trace ++ (s.actions.items.filter (fun kv => kv.2.canCheck)).map (fun kv => Call.check kv.1) ++ rest ∧
      (∀ c ∈ rest, ∃ a, c = .reban a t.id) ∧ r.raised = false ∧
      (r.s.banEpoch = s.banEpoch → rest = [] ∧ r.s.lastCheck = now ∧ r.cnt = 0) := by
  intro r
  have hc' : old.banEpoch = s.banEpoch ∧ 3 < t.time - old.time ∧ ra = [] ∧ s.lastCheck + 3 < now :=
    ⟨hc.1, by have := hc.2.1; omega, hc.2.2.1, hc.2.2.2⟩
  have hn := checkLoop_noraise env henv s.actions.items { s with lastCheck := now }
  cases hq : checkLoop env s.actions.items { s with lastCheck := now } with
  | mk b s1 =>
    rw [hq] at hn
    dsimp only at hn
    subst hn
    obtain ⟨h1, h2⟩ := checkLoop_exact env _ _ _ hq
    have hr : r = if old.banEpoch < s1.banEpoch then
        (let ra' := if ra = [] then (s1.actions.items.filter (fun kv => decide (old.banEpoch < kv.2.banEpoch))).map Prod.fst
          else ra
        ⟨(s1.reBan env t.id ra').1, false, ra', (s1.reBan env t.id ra').2⟩) else ⟨0, false, ra, s1⟩ := by
      show alreadyBanned env now s ra t old = _
      unfold alreadyBanned
      rw [if_pos hb]
      dsimp only
      rw [if_pos hc', hq]
      simp
    rw [hr]
    by_cases he : old.banEpoch < s1.banEpoch
    · rw [if_pos he]
      dsimp only
      generalize (if ra = [] then (s1.actions.items.filter (fun kv => decide (old.banEpoch < kv.2.banEpoch))).map Prod.fst
          else ra) = ra'
      obtain ⟨k1, k2, _, done, k4, k5, _⟩ := reBan_spec env s1 t.id ra'
      refine ⟨done.map (fun a => Call.reban a t.id), by rw [k5, h1], ?_, rfl, ?_⟩
      · intro c hc
        obtain ⟨a, _, rfl⟩ := List.mem_map.1 hc
        exact ⟨a, rfl⟩
      · intro hep
        exfalso
        have h3 : s1.banEpoch ≤ (s1.reBan env t.id ra').2.banEpoch := reBan_epoch env s1 t.id ra'
        have := hc.1
        omega
    · rw [if_neg he]
      exact ⟨[], by rw [h1]; simp, by simp, rfl, fun _ => ⟨rfl, h2.lastCheck, rfl⟩⟩

/-! ## C20: explicit ban -/

/-- **C20 (banip).** Banning addresses explicitly, pairwise different and none banned, with a default ban time that is
permanent or not negative: every one is banned from now on for the default ban time of the jail, with all calls of C17. -/
theorem C20_banip (env : Env) (now : Int) (s : Actions) (ips : List Fid) (hd : ips.Nodup)
    (hn : ∀ x ∈ ips, x ∉ s.bm.banList.keys) (hbt : s.bm.banTime = -1 ∨ 0 ≤ s.bm.banTime) (hnow : now < 2 ^ 47) :
    let r := s.addBannedIP env now ips
    r.1 = ips.length ∧ r.2.1 = false ∧ r.2.2.2.bm.banList.keys = s.bm.banList.keys ++ ips ∧
    r.2.2.2.trace = s.trace ++ ips.flatMap (fun x => banCalls s.actions.items s.observer (Ticket.new x now [])) := by
  intro r
  have hmap : (ips.map (fun ip => { Ticket.new ip now [] with isBan := true })).map Ticket.id = ips := by
    rw [List.map_map]
    conv => rhs; rw [← List.map_id ips]
    rfl
  obtain ⟨h1, h2, _, h4, h5⟩ := C17_batch env now (ips.map (fun ip => { Ticket.new ip now [] with isBan := true })) s [] 0
    (by
      intro t ht
      obtain ⟨x, _, rfl⟩ := List.mem_map.1 ht
      show now ≤ if (none : Option Int).getD s.bm.banTime = -1 then 2 ^ 47 - 1 else now + (none : Option Int).getD s.bm.banTime
      simp only [Option.getD_none]
      split <;> omega)
    (by
      intro t ht
      obtain ⟨x, hx, rfl⟩ := List.mem_map.1 ht
      rw [banned_iff_mem]
      exact hn x hx)
    (by rw [hmap]; exact hd)
  refine ⟨?_, h2, ?_, ?_⟩
  · show (checkBanLoop _ _ _ _ _ _).1 = _
    rw [h1]; simp
  · show (checkBanLoop _ _ _ _ _ _).2.2.2.bm.banList.keys = _
    rw [h5, hmap]
  · show (checkBanLoop _ _ _ _ _ _).2.2.2.trace = _
    rw [h4, List.flatMap_map]; rfl

/-- **C20 (banip, time).** The ban made explicitly starts now. -/
theorem C20_banip_time (env : Env) (now : Int) (s : Actions) (x : Fid) (hn : x ∉ s.bm.banList.keys)
    (hbt : s.bm.banTime = -1 ∨ 0 ≤ s.bm.banTime) (hnow : now < 2 ^ 47) :
    ∃ t, (s.addBannedIP env now [x]).2.2.2.bm.banList.get? x = some t ∧ t.time = now ∧ t.banTime = none ∧
      t.banned = true ∧ t.restored = false := by
  have he : now ≤ ends { Ticket.new x now [] with isBan := true } s.bm.banTime := by
    show now ≤ if (none : Option Int).getD s.bm.banTime = -1 then 2 ^ 47 - 1 else now + (none : Option Int).getD s.bm.banTime
    simp only [Option.getD_none]
    split <;> omega
  have h := C17_new_ban env now s [] { Ticket.new x now [] with isBan := true } he (by rw [banned_iff_mem]; exact hn)
  obtain ⟨h1, h2, h3, _, _, _, ⟨t', hg, ht', _⟩, _⟩ := h
  have hr : (s.addBannedIP env now [x]).2.2.2 = (s.checkBanOne env now [] { Ticket.new x now [] with isBan := true }).s := by
    show (checkBanLoop env now [{ Ticket.new x now [] with isBan := true }] [] 0 s).2.2.2 = _
    simp only [checkBanLoop]
    rw [h2]
    simp
  rw [hr]
  refine ⟨t', hg, ?_, ?_, ?_, ?_⟩ <;> rw [ht'] <;> rfl

/-! ## C48: start -/

/-- **C48.** When the thread of the actions starts, every configured action gets exactly one start, in configured order,
whatever the results are; no ban is touched. -/
theorem C48_start (env : Env) (s : Actions) :
    (startLoop env s.actions.keys s).trace = s.trace ++ s.actions.keys.map Call.start ∧
    (startLoop env s.actions.keys s).bm = s.bm ∧ config (startLoop env s.actions.keys s) = config s := by
  have : ∀ l s, (startLoop env l s).trace = s.trace ++ l.map Call.start ∧ Same s (startLoop env l s) := by
    intro l
    induction l with
    | nil => intro s; simp [startLoop, Same.refl]
    | cons n l ih =>
      intro s
      simp only [startLoop]
      obtain ⟨h1, h2⟩ := ih (s.call env n (.start n)).2
      refine ⟨?_, (call_same env s n _).trans h2⟩
      rw [h1, call_trace]; simp
  obtain ⟨h1, h2⟩ := this s.actions.keys s
  exact ⟨h1, h2.bm, h2.config⟩

example : (startLoop exEnv exActs.actions.keys exActs).trace = [.start "fw", .start "mail"] := by decide

/-! ## C49: prolongation -/

/-- **C49.** Telling the actions that a ban was prolonged: if the address is banned, exactly the actions that support it
get one prolongation, in order (a restored ban skips those marked `norestored`), whatever the results; if it is not banned
(any more), nothing happens. The ban list is not changed. -/
theorem C49_prolong (env : Env) (s : Actions) (t : Ticket) :
    (s.prolongBan env t).trace = s.trace ++ (if t.id ∈ s.bm.banList.keys then
      ((s.actions.items.filter (fun kv => !(t.restored && kv.2.norestored) && kv.2.prolongable)).map
        (fun kv => Call.prolong kv.1 t.id)) else []) ∧
    (s.prolongBan env t).bm = s.bm := by
  unfold prolongBan BanManager.inBanList
  by_cases h : t.id ∈ s.bm.banList.keys
  · rw [if_pos ((Dict.contains_iff _ _).2 h), if_pos h]
    obtain ⟨done, h1, h2, h3⟩ := prolongLoop_spec env t.id t.restored s.actions.items s
    refine ⟨?_, h3.bm⟩
    rw [h2, h1, List.map_map]; rfl
  · rw [if_neg (fun hc => h ((Dict.contains_iff _ _).1 hc)), if_neg h]
    simp

example :
    let s := (checkBanLoop exEnv 1000 [exTicket "a" 1000 none] [] 0
      { exActs with actions := exActs.actions.insert "ipset" { prolongable := true } }).2.2.2
    (s.prolongBan exEnv (exTicket "a" 1000 none)).trace = s.trace ++ [.prolong "ipset" "a"] ∧
      (s.prolongBan exEnv (exTicket "b" 1000 none)).trace = s.trace := by decide

end Verif
