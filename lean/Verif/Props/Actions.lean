import Verif.Lemmas.Actions
import Verif.Props.BanManager

/-! # Properties of the actions of a jail (C17–C22, C46) -/

namespace Verif

open Actions Spec.Act Spec.Ban

/-- no consistency check raises an exception -/
def ChecksReturn (env : Env) : Prop := ∀ tr a, (env (tr ++ [.check a])).raised = false

theorem ends_isBan (t : Ticket) (d : Int) : ends { t with isBan := true } d = ends t d := rfl

/-! ## C17 -/

/-- **C17.** For every environment: a ticket that has not ended and whose address is not banned is banned, and the calls
made are exactly: the observer is told (unless the ban is a restored one), the notice is logged, and every configured
action — except, for a restored ban, those marked `norestored` — gets exactly one ban for the address, in configured order,
whatever the results of these calls are. The address is appended to the ban list with its ticket marked as banned. -/
theorem C17_new_ban (env : Env) (now : Int) (s : Actions) (ra : List String) (t : Ticket)
    (he : now ≤ ends t s.bm.banTime) (hb : ¬ Banned s.bm t.id) :
    let r := s.checkBanOne env now ra t
    r.cnt = 1 ∧ r.raised = false ∧ r.rebanacts = ra ∧
    r.s.trace = s.trace ++ banCalls s.actions.items s.observer t ∧
    r.s.bm.banList.keys = s.bm.banList.keys ++ [t.id] ∧ r.s.bm.banTotal = s.bm.banTotal + 1 ∧
    (∃ t', r.s.bm.banList.get? t.id = some t' ∧
      t' = { t with isBan := true, banCount := t.banCount + 1, banned := true, banEpoch := t'.banEpoch } ∧
      (r.s.banEpoch ≠ 0 → t'.banEpoch = r.s.banEpoch)) ∧
    config r.s = config s := by
  intro r
  have hk := C10_new_ban s.bm now { t with isBan := true } he hb
  obtain ⟨h1, h2, h3, _, _⟩ := hk
  have hr : r = ⟨1, false, ra, newBan env { s with bm := (s.bm.addBanTicket now { t with isBan := true }).2 } t⟩ := by
    show s.checkBanOne env now ra t = _
    unfold checkBanOne
    dsimp only
    rw [h1]
  obtain ⟨k1, k2, k3⟩ := newBan_spec env { s with bm := (s.bm.addBanTicket now { t with isBan := true }).2 } t
  rw [hr]
  refine ⟨rfl, rfl, rfl, k3, ?_, ?_, ?_, k1.config⟩
  · rw [k2.keys]; simp only [Dict.keys, h2]; simp
  · rw [k2.banTotal]; exact h3
  · dsimp only
    have hget : (s.bm.addBanTicket now { t with isBan := true }).2.banList.get? t.id
        = some { t with isBan := true, banCount := t.banCount + 1 } := by
      rw [Dict.get?_eq_some_iff, h2]; simp
    unfold newBan
    dsimp only
    generalize hs1 : (if (s.observer && !t.restored) = true then
      { { s with bm := (s.bm.addBanTicket now { t with isBan := true }).2 } with trace := s.trace ++ [.banFound t.id] }
      else { s with bm := (s.bm.addBanTicket now { t with isBan := true }).2 }) = s1
    have hbm : s1.bm = (s.bm.addBanTicket now { t with isBan := true }).2 := by rw [← hs1]; split <;> rfl
    have hbl := (banLoop_spec env t.id t.restored s1.actions.items
      { s1 with trace := s1.trace ++ [.logBan t.id t.restored] }).2.bm
    generalize banLoop env t.id t.restored s1.actions.items
      { s1 with trace := s1.trace ++ [.logBan t.id t.restored] } = s2 at *
    unfold markBanned
    rw [updTicket_get?, hbl]
    dsimp only
    rw [hbm, hget]
    simp only [Option.map_some, if_true]
    refine ⟨_, rfl, rfl, ?_⟩
    rw [(updTicket_trace s2 t.id _).2.2.2.2.1]
    intro h
    rw [if_pos h]

/-- **C17 (expired).** A ticket that has already ended changes nothing and causes no call. -/
theorem C17_expired (env : Env) (now : Int) (s : Actions) (ra : List String) (t : Ticket)
    (he : ends t s.bm.banTime < now) : s.checkBanOne env now ra t = ⟨0, false, ra, s⟩ := by
  unfold checkBanOne
  rw [C10_expired s.bm now { t with isBan := true } he]

/-- **C17 (already banned).** A ticket of an already banned address never executes a ban (nor unban, flush, stop): the
only calls are consistency checks and re-bans of that very address. The set of banned addresses and the total stay. -/
theorem C17_already (env : Env) (now : Int) (s : Actions) (ra : List String) (t : Ticket)
    (he : now ≤ ends t s.bm.banTime) (hb : Banned s.bm t.id) :
    let r := s.checkBanOne env now ra t
    r.cnt ≤ 1 ∧
    (∃ checks rebans : List String, checks.Sublist s.actions.keys ∧
      r.s.trace = s.trace ++ checks.map Call.check ++ rebans.map (fun a => Call.reban a t.id)) ∧
    r.s.bm.banList.keys = s.bm.banList.keys ∧ r.s.bm.banTotal = s.bm.banTotal ∧ config r.s = config s := by
  intro r
  obtain ⟨old, hold⟩ := hb
  have hbm := BanManager.addBan_old s.bm now { t with isBan := true } old (by rw [ends_isBan]; omega) hold
  have hmem : t.id ∈ s.bm.banList.keys := (Dict.mem_keys_iff _ _).2 ⟨_, hold⟩
  have hr : ∃ old', r = alreadyBanned env now { s with bm := (s.bm.addBanTicket now { t with isBan := true }).2 } ra t old' := by
    show ∃ old', s.checkBanOne env now ra t = _
    unfold checkBanOne
    dsimp only
    by_cases hlt : ends old s.bm.banTime < ends { t with isBan := true } s.bm.banTime
    · rw [if_pos hlt] at hbm
      rw [hbm]
      exact ⟨_, rfl⟩
    · rw [if_neg hlt] at hbm
      rw [hbm]
      exact ⟨_, rfl⟩
  have hkeys : (s.bm.addBanTicket now { t with isBan := true }).2.banList.keys = s.bm.banList.keys ∧
      (s.bm.addBanTicket now { t with isBan := true }).2.banTotal = s.bm.banTotal := by
    rw [hbm]
    split
    · exact ⟨Dict.keys_insert_of_mem _ hmem _, rfl⟩
    · exact ⟨rfl, rfl⟩
  obtain ⟨old', hr⟩ := hr
  obtain ⟨k1, k2, k3, checks, rebans, k4, k5⟩ := alreadyBanned_spec env now
    { s with bm := (s.bm.addBanTicket now { t with isBan := true }).2 } ra t old'
  rw [hr]
  exact ⟨k3, ⟨checks, rebans, k4, k5⟩, by rw [k2.keys]; exact hkeys.1, by rw [k2.banTotal]; exact hkeys.2, k1.config⟩

/-- **C17 (re-ban).** If the running ban was made before the environment of some action was found broken (its epoch is
older than that of the jail), it is banned again: with the actions whose environment was invalidated later than the ban
(with all actions if there is none). The first failing re-ban stops it; otherwise the ban is brought to the current epoch
and counts as one ban. -/
theorem C17_reban (env : Env) (now : Int) (s : Actions) (t old : Ticket) (hb : old.banned = true)
    (hep : old.banEpoch < s.banEpoch) :
    let broken := (s.actions.items.filter (fun kv => decide (old.banEpoch < kv.2.banEpoch))).map Prod.fst
    let todo := if broken = [] then s.actions.keys else broken
    let r := alreadyBanned env now s [] t old
    ∃ done, done <+: todo ∧ r.s.trace = s.trace ++ done.map (fun a => Call.reban a t.id) ∧ (r.cnt = 1 → done = todo) := by
  intro broken todo r
  have hr : r = ⟨(s.reBan env t.id broken).1, false, broken, (s.reBan env t.id broken).2⟩ := by
    show alreadyBanned env now s [] t old = _
    unfold alreadyBanned
    rw [if_pos hb]
    dsimp only
    rw [if_neg (fun h => absurd h.1 (by omega) :
      ¬ (old.banEpoch = s.banEpoch ∧ 3 < t.time - old.time ∧ ([] : List String) = [] ∧ s.lastCheck + 3 < now))]
    simp only [Bool.false_eq_true, if_false, if_pos hep, if_true]
    rfl
  obtain ⟨_, _, _, done, h1, h2, h3⟩ := reBan_spec env s t.id broken
  rw [hr]
  exact ⟨done, h1, h2, h3⟩

theorem config_of_items {s s' : Actions} (h : config s' = config s) (r : Bool) :
    banners s'.actions.items r = banners s.actions.items r := by
  rw [← banners_config, ← banners_config, h]

theorem banCalls_config {s s' : Actions} (h : config s' = config s) (o : Bool) (t : Ticket) :
    banCalls s'.actions.items o t = banCalls s.actions.items o t := by
  unfold banCalls; rw [config_of_items h]

/-- the default ban time and the observer are not touched by processing a ticket -/
theorem checkBanOne_frame (env : Env) (now : Int) (s : Actions) (ra : List String) (t : Ticket) :
    SameCfg s (s.checkBanOne env now ra t).s ∧ (s.checkBanOne env now ra t).s.bm.banTime = s.bm.banTime := by
  have hbt : (s.bm.addBanTicket now { t with isBan := true }).2.banTime = s.bm.banTime := by
    unfold BanManager.addBanTicket
    dsimp only
    split
    · rfl
    · split
      · split <;> rfl
      · rfl
  unfold checkBanOne
  dsimp only
  split
  · obtain ⟨k1, k2, _⟩ := newBan_spec env { s with bm := (s.bm.addBanTicket now { t with isBan := true }).2 } t
    exact ⟨⟨k1.config, k1.observer, k1.hasDb, k1.reloading⟩, by rw [k2.banTime]; exact hbt⟩
  · exact ⟨⟨rfl, rfl, rfl, rfl⟩, hbt⟩
  · rename_i old _ _
    obtain ⟨k1, k2, _⟩ := alreadyBanned_spec env now
      { s with bm := (s.bm.addBanTicket now { t with isBan := true }).2 } ra t old
    exact ⟨⟨k1.config, k1.observer, k1.hasDb, k1.reloading⟩, by rw [k2.banTime]; exact hbt⟩

/-- **C17 (batch).** A batch of tickets of pairwise different addresses, none banned and none ended, bans all of them, one
after the other in order, with exactly the calls of C17 for each. -/
theorem C17_batch (env : Env) (now : Int) (ts : List Ticket) (s : Actions) (ra : List String) (cnt : Nat)
    (he : ∀ t ∈ ts, now ≤ ends t s.bm.banTime) (hb : ∀ t ∈ ts, ¬ Banned s.bm t.id)
    (hd : (ts.map Ticket.id).Nodup) :
    let r := checkBanLoop env now ts ra cnt s
    r.1 = cnt + ts.length ∧ r.2.1 = false ∧ r.2.2.1 = [] ∧
    r.2.2.2.trace = s.trace ++ ts.flatMap (banCalls s.actions.items s.observer) ∧
    r.2.2.2.bm.banList.keys = s.bm.banList.keys ++ ts.map Ticket.id := by
  induction ts generalizing s ra cnt with
  | nil => simp [checkBanLoop]
  | cons t ts ih =>
    simp only [List.map_cons, List.nodup_cons] at hd
    obtain ⟨h1, h2, h3, h4, h5, _, _, h8⟩ := C17_new_ban env now s ra t (he t List.mem_cons_self) (hb t List.mem_cons_self)
    obtain ⟨f1, f2⟩ := checkBanOne_frame env now s ra t
    have hstep : checkBanLoop env now (t :: ts) ra cnt s = checkBanLoop env now ts ra (cnt + 1) (s.checkBanOne env now ra t).s := by
      simp only [checkBanLoop]
      rw [h2, h1, h3]
      simp
    dsimp only
    rw [hstep]
    obtain ⟨i1, i2, i3, i4, i5⟩ := ih (s.checkBanOne env now ra t).s ra (cnt + 1)
      (fun t' ht' => by rw [f2]; exact he t' (List.mem_cons_of_mem _ ht'))
      (fun t' ht' => by
        intro hc
        obtain ⟨d, hd'⟩ := hc
        have : t'.id ∈ (s.checkBanOne env now ra t).s.bm.banList.keys := (Dict.mem_keys_iff _ _).2 ⟨_, hd'⟩
        rw [h5, List.mem_append] at this
        rcases this with h | h
        · exact hb t' (List.mem_cons_of_mem _ ht') ((Dict.mem_keys_iff _ _).1 h)
        · simp only [List.mem_singleton] at h
          exact hd.1 (h ▸ List.mem_map_of_mem (f := Ticket.id) ht'))
      hd.2
    refine ⟨by rw [i1, List.length_cons]; omega, i2, i3, ?_, ?_⟩
    · rw [i4, h4, List.flatMap_cons, List.append_assoc, f1.observer]
      congr 2
      have : banCalls (s.checkBanOne env now ra t).s.actions.items s.observer = banCalls s.actions.items s.observer := by
        funext t'
        exact banCalls_config h8 _ t'
      rw [this]
    · rw [i5, h5]; simp

/-- two actions, one of them not for restored bans -/
def exActs : Actions :=
  { Actions.init true true with
    actions := ⟨[("fw", { canFlush := true, canCheck := true }), ("mail", { norestored := true })], by decide⟩ }

/-- an environment in which every ban command of "fw" fails -/
def exEnv : Env := fun tr => match tr.getLast? with
  | some (.ban "fw" _) => { raised := true }
  | _ => {}

example : (checkBanLoop exEnv 1000 [exTicket "a" 1000 none, { exTicket "b" 1000 none with restored := true }] [] 0 exActs).2.2.2.trace
    = [.banFound "a", .logBan "a" false, .ban "fw" "a", .ban "mail" "a", .logBan "b" true, .ban "fw" "b"] := by decide


/-! ## C18 -/

/-- **C18 (expiry).** For every environment: an expiry check executes, for each released ban in order, exactly one unban per
configured action in configured order, whatever the results of the calls are; nothing else is called. -/
theorem C18_expiry (env : Env) (now : Int) (s : Actions) (n : Nat) :
    let r := s.checkUnBan env now n
    r.1 = (s.bm.unBanList now n).1.length ∧ r.2.bm = (s.bm.unBanList now n).2 ∧
    r.2.trace = s.trace ++ Call.expiry n :: unbanCalls s.actions.keys ((s.bm.unBanList now n).1.map Ticket.id) ∧
    config r.2 = config s := by
  intro r
  obtain ⟨h1, h2⟩ := unbanTickets_spec env none (s.bm.unBanList now n).1
    { s with bm := (s.bm.unBanList now n).2, trace := s.trace ++ [.expiry n] }
  refine ⟨rfl, h2.bm, ?_, h2.config⟩
  show (unbanTickets env none _ _).trace = _
  rw [h1]
  simp

/-- **C18 (flush).** For every environment: flushing the jail (when no consistency check raises an exception) empties the
ban list and makes exactly these calls: one flush for every action that supports flushing, in order (and possibly a
consistency check after a failed one), then the removal from the database if requested, then, for every ban in order, one
unban with every action that is left. Left are exactly the actions that cannot flush, whose flush returned false, or whose
flush raised an exception and that have no consistency check. -/
theorem C18_flush (env : Env) (s : Actions) (db : Bool) (n : Nat) (s' : Actions)
    (h : s.flushBan env db none = (n, false, s')) :
    n = s.bm.banList.size ∧ s'.bm.banList.items = [] ∧ s'.bm.banTotal = s.bm.banTotal ∧ config s' = config s ∧
    ∃ fl left, s'.trace = s.trace ++ fl ++ (if db = true ∧ s.hasDb = true then [Call.dbDel none] else []) ++
        unbanCalls left (s.bm.banList.values.map Ticket.id) ∧
      (∀ c ∈ fl, isFlushOrCheck c = true) ∧
      fl.filter isFlush = (s.actions.items.filter (fun kv => kv.2.canFlush)).map (fun kv => Call.flush kv.1) ∧
      left.Sublist s.actions.keys ∧
      ∀ kv ∈ s.actions.items, (kv.1 ∈ left ↔ (kv.2.canFlush = false ∨
        ∃ p q, fl = p ++ Call.flush kv.1 :: q ∧
          (((env (s.trace ++ p ++ [Call.flush kv.1])).raised = true ∧ kv.2.canCheck = false) ∨
           ((env (s.trace ++ p ++ [Call.flush kv.1])).raised = false ∧
            (env (s.trace ++ p ++ [Call.flush kv.1])).ret = false)))) := by
  unfold flushBan at h
  dsimp only [BanManager.flushBanList] at h
  obtain ⟨hs, fl, htr, hall, hrest⟩ := flushLoop_spec env s.actions.items s.actions.nodup []
    { s with bm := { s.bm with banList := Dict.empty } }
  simp only [Option.getD_none] at h
  generalize flushLoop env s.actions.items [] { s with bm := { s.bm with banList := Dict.empty } } = r at *
  obtain ⟨left, b, s1⟩ := r
  cases b with
  | true => simp at h
  | false =>
    obtain ⟨hf, add, hadd, hsub, hiff⟩ := hrest rfl
    simp only [List.nil_append] at hadd
    subst hadd
    simp only [Prod.mk.injEq, true_and] at h
    obtain ⟨hn, hs'⟩ := h
    dsimp only at hs htr
    generalize hs2 : (if (db && s1.hasDb) = true then { s1 with trace := s1.trace ++ [.dbDel none] } else s1) = s2 at hs'
    have h2 : s2.bm = s1.bm ∧ config s2 = config s1 ∧
        s2.trace = s1.trace ++ (if db = true ∧ s.hasDb = true then [Call.dbDel none] else []) := by
      rw [← hs2]
      have e : s1.hasDb = s.hasDb := hs.hasDb
      rw [e]
      by_cases hd : (db && s.hasDb) = true
      · rw [if_pos hd]
        have : db = true ∧ s.hasDb = true := by simpa using hd
        rw [if_pos this]; exact ⟨rfl, rfl, rfl⟩
      · rw [if_neg hd]
        have : ¬ (db = true ∧ s.hasDb = true) := by simpa using hd
        rw [if_neg this]; exact ⟨rfl, rfl, by simp⟩
    obtain ⟨k1, k2⟩ := unbanTickets_spec env (some left) s.bm.banList.values s2
    rw [hs'] at k1 k2
    refine ⟨?_, ?_, ?_, ?_, fl, left, ?_, hall, hf, hsub, hiff⟩
    · rw [← hn]; simp [Dict.size, Dict.values]
    · rw [k2.bm, h2.1, hs.bm]; rfl
    · rw [k2.bm, h2.1, hs.bm]
    · rw [k2.config, h2.2.1, hs.config]; rfl
    · rw [k1, h2.2.2, htr]; rfl

/-- **C18 (flush succeeds).** A flush never raises an exception if consistency checks do not. -/
theorem C18_flush_returns (env : Env) (henv : ChecksReturn env) (s : Actions) (db : Bool)
    (acts : Option (List (String × Action))) : (s.flushBan env db acts).2.1 = false := by
  have key : ∀ (l : List (String × Action)) (left : List String) (s : Actions), (flushLoop env l left s).2.1 = false := by
    intro l
    induction l with
    | nil => intro left s; rfl
    | cons hd l ih =>
      intro left s
      obtain ⟨n, a⟩ := hd
      simp only [flushLoop]
      split
      · split
        · split
          · rw [call_outcome, henv]
            simp only [Bool.false_eq_true, if_false]
            exact ih _ _
          · exact ih _ _
        · split <;> exact ih _ _
      · exact ih _ _
  unfold flushBan
  dsimp only
  cases acts with
  | none =>
    dsimp only
    have := key (Option.getD none s.actions.items) [] { s with bm := s.bm.flushBanList.2 }
    simp only [BanManager.flushBanList] at this ⊢
    generalize flushLoop env _ _ _ = r at *
    obtain ⟨l, b, s1⟩ := r
    simp only at this
    subst this
    rfl
  | some acts =>
    dsimp only
    have := key (Option.getD (some acts) s.actions.items) [] { s with bm := s.bm }
    generalize flushLoop env _ _ _ = r at *
    obtain ⟨l, b, s1⟩ := r
    simp only at this
    subst this
    rfl

/-- **C18 has a gap in the code**: if the flush of an action raises an exception (its command failed) and its environment
is checked afterwards, its bans are neither flushed nor unbanned one by one: with the ban of "a" in place and a failing
flush, no unban of "a" with "fw" is ever executed, although the ban list is emptied. -/
theorem C18_refuted_when_flush_fails :
    let env : Env := fun tr => match tr.getLast? with
      | some (.flush _) => { raised := true }
      | _ => {}
    let s := (checkBanLoop env 1000 [exTicket "a" 1000 none] [] 0 exActs).2.2.2
    let r := s.flushBan env false none
    r.2.1 = false ∧ r.2.2.bm.banList.items = [] ∧
      r.2.2.trace = s.trace ++ [.flush "fw", .check "fw", .unban "mail" "a"] := by decide

/-- flush of two bans: "fw" flushes, "mail" unbans one by one -/
example :
    let s := (checkBanLoop exEnv 1000 [exTicket "a" 1000 none, exTicket "b" 1000 none] [] 0 exActs).2.2.2
    (s.flushBan exEnv true none).2.2.trace = s.trace ++ [.flush "fw", .dbDel none, .unban "mail" "a", .unban "mail" "b"] ∧
      (s.flushBan exEnv true none).2.1 = false := by decide

/-! ## C19 -/

theorem stopLoop_spec (env : Env) (l : List String) (s : Actions) :
    (stopLoop env l s).trace = s.trace ++ l.map Call.stop ∧ (stopLoop env l s).bm = s.bm ∧
    (stopLoop env l s).actions.keys = s.actions.keys.filter (fun k => decide (k ∉ l)) := by
  induction l generalizing s with
  | nil => exact ⟨by simp [stopLoop], rfl, (List.filter_eq_self.2 (by simp)).symm⟩
  | cons n l ih =>
    simp only [stopLoop]
    have hs := call_same env s n (.stop n)
    have ht := call_trace env s n (.stop n)
    obtain ⟨h1, h2, h3⟩ := ih { (s.call env n (.stop n)).2 with actions := (s.call env n (.stop n)).2.actions.erase n }
    refine ⟨?_, ?_, ?_⟩
    · rw [h1, ht]; simp
    · rw [h2]; exact hs.bm
    · rw [h3]
      simp only [Dict.keys_erase, hs.keys, List.filter_filter, List.mem_cons, not_or]
      apply List.filter_congr
      intro k _
      simp [Bool.and_comm]

/-- **C19.** For every environment in which consistency checks raise no exception: when the thread of the actions ends, the
ban list is empty, no action is left, and the last calls are one stop per action, in reverse order of configuration,
whatever the results of any of the calls are; before them, only the calls of the flush of C18 are made. -/
theorem C19_stop_partial (env : Env) (henv : ChecksReturn env) (s : Actions) :
    let r := s.shutdown env
    r.1 = false ∧ r.2.bm.banList.items = [] ∧ r.2.actions.items = [] ∧
    r.2.trace = (s.flushBan env false none).2.2.trace ++ s.actions.keys.reverse.map Call.stop := by
  intro r
  have hf := C18_flush_returns env henv s false none
  have hr : r = (false, (s.flushBan env false none).2.2.stopActions env none) := by
    show s.shutdown env = _
    unfold shutdown
    generalize s.flushBan env false none = q at *
    obtain ⟨q1, q2, q3⟩ := q
    simp only at hf
    subst hf
    rfl
  obtain ⟨_, h2, _, h4, _⟩ := C18_flush env s false (s.flushBan env false none).1 (s.flushBan env false none).2.2
    (by
      generalize s.flushBan env false none = q at *
      obtain ⟨q1, q2, q3⟩ := q
      simp only at hf
      subst hf
      rfl)
  have hkeys : (s.flushBan env false none).2.2.actions.keys = s.actions.keys := by
    rw [← config_keys, ← config_keys, h4]
  rw [hr]
  unfold stopActions
  obtain ⟨k1, k2, k3⟩ := stopLoop_spec env (s.flushBan env false none).2.2.actions.keys.reverse (s.flushBan env false none).2.2
  refine ⟨rfl, ?_, ?_, ?_⟩
  · show (stopLoop env _ _).bm.banList.items = []
    rw [Option.getD_none, k2]; exact h2
  rotate_left
  · show (stopLoop env _ _).trace = _
    rw [Option.getD_none, k1, hkeys]

  have : (stopLoop env (s.flushBan env false none).2.2.actions.keys.reverse (s.flushBan env false none).2.2).actions.keys = [] := by
    rw [k3, List.filter_eq_nil_iff]
    intro a ha
    simp [ha]
  exact List.map_eq_nil_iff.1 this

/-- **C19 has a gap in the code**: an exception raised by the consistency check after a failed flush leaves the thread:
no action is stopped and the bans of the remaining actions are not removed. -/
theorem C19_refuted_when_check_raises :
    let env : Env := fun tr => match tr.getLast? with
      | some (.flush _) => { raised := true }
      | some (.check _) => { raised := true }
      | _ => {}
    let s := (checkBanLoop env 1000 [exTicket "a" 1000 none] [] 0 exActs).2.2.2
    (s.shutdown env).1 = true ∧ (s.shutdown env).2.trace = s.trace ++ [.flush "fw", .check "fw"] := by decide

example :
    let s := (checkBanLoop exEnv 1000 [exTicket "a" 1000 none] [] 0 exActs).2.2.2
    (s.shutdown exEnv).2.trace = s.trace ++ [.flush "fw", .unban "mail" "a", .stop "mail", .stop "fw"] := by decide

end Verif
