import Verif.Lemmas.BanManager

/-! # Properties of the ban manager (C10–C16) -/

namespace Verif

open BanManager Spec.Ban

/-! ## C10 -/

/-- **C10 (new ban).** A ban that has not yet ended, of an address that is not banned, is accepted: the address is then
banned with the given ticket (its ban count increased by one), it is listed last, the total grows by one, and nothing
else changes except the cached next unban time. -/
theorem C10_new_ban (s : BanManager) (now : Int) (t : Ticket) (he : now ≤ ends t s.banTime) (hb : ¬ Banned s t.id) :
    (s.addBanTicket now t).1 = .banned ∧
    (s.addBanTicket now t).2.banList.items = s.banList.items ++ [(t.id, { t with banCount := t.banCount + 1 })] ∧
    (s.addBanTicket now t).2.banTotal = s.banTotal + 1 ∧ (s.addBanTicket now t).2.banTime = s.banTime ∧
    (s.addBanTicket now t).2.nextUnban = min s.nextUnban (ends t s.banTime) := by
  have hn : s.banList.get? t.id = none := by
    cases hg : s.banList.get? t.id with
    | none => rfl
    | some d => exact absurd ⟨d, hg⟩ hb
  rw [addBan_new s now t (by omega) hn]
  refine ⟨rfl, ?_, rfl, rfl, ?_⟩
  · exact Dict.items_insert_of_not_mem _ ((Dict.get?_eq_none_iff _ _).1 hn) _
  · simp only; split <;> omega

/-- **C10 (expired).** A ban that has already ended is refused and changes nothing. -/
theorem C10_expired (s : BanManager) (now : Int) (t : Ticket) (he : ends t s.banTime < now) :
    s.addBanTicket now t = (.expired, s) := addBan_expired s now t he

/-- **C10 (second ban).** A ban of an already banned address is reported as 'already banned', does not count, touches no
other address and keeps the list in order. The running ban keeps its address, start time and ban count. If the second
ban ends later than the running one, the running one is prolonged so that it ends no earlier than both; otherwise it is
unchanged. -/
theorem C10_second_ban (s : BanManager) (now : Int) (t old : Ticket) (he : now ≤ ends t s.banTime)
    (hmax : ends t s.banTime ≤ 2 ^ 47 - 1) (hold : s.banList.get? t.id = some old) :
    ∃ old', (s.addBanTicket now t).1 = .already old' (decide (ends old s.banTime < ends t s.banTime)) ∧
      (s.addBanTicket now t).2.banList.get? t.id = some old' ∧
      (s.addBanTicket now t).2.banList.keys = s.banList.keys ∧
      (∀ x, x ≠ t.id → (s.addBanTicket now t).2.banList.get? x = s.banList.get? x) ∧
      (s.addBanTicket now t).2.banTotal = s.banTotal ∧ (s.addBanTicket now t).2.banTime = s.banTime ∧
      (s.addBanTicket now t).2.nextUnban = s.nextUnban ∧
      old' = { old with banTime := old'.banTime } ∧
      ends old s.banTime ≤ ends old' s.banTime ∧ ends t s.banTime ≤ ends old' s.banTime ∧
      (ends t s.banTime ≤ ends old s.banTime → old' = old) := by
  rw [addBan_old s now t old (by omega) hold]
  by_cases hlt : ends old s.banTime < ends t s.banTime
  · rw [if_pos hlt]
    have hp := prolong_ends old t s.banTime hmax
    refine ⟨old.setBanTime (prolongTime old t s.banTime), by rw [decide_eq_true hlt], by simp, ?_, ?_, rfl, rfl, rfl, rfl,
      by omega, hp, by omega⟩
    · exact Dict.keys_insert_of_mem _ ((Dict.mem_keys_iff _ _).2 ⟨_, hold⟩) _
    · intro x hx; exact Dict.get?_insert_ne _ hx _
  · rw [if_neg hlt]
    exact ⟨old, by rw [decide_eq_false hlt], hold, rfl, fun _ _ => rfl, rfl, rfl, rfl, rfl, by omega, by omega, fun _ => rfl⟩

/-- **C10 (exact end).** If the second ban is permanent the running ban becomes permanent; if it starts no earlier than
the running one, and has a non-negative ban time, the prolonged ban ends exactly when the second ban ends. -/
theorem C10_prolong_exact (s : BanManager) (now : Int) (t old : Ticket) (he : now ≤ ends t s.banTime)
    (hold : s.banList.get? t.id = some old) (hlt : ends old s.banTime < ends t s.banTime) :
    ∃ old', (s.addBanTicket now t).2.banList.get? t.id = some old' ∧
      (Permanent t s.banTime → Permanent old' s.banTime) ∧
      (old.time ≤ t.time → 0 ≤ effective t s.banTime → ends old' s.banTime = ends t s.banTime) := by
  rw [addBan_old s now t old (by omega) hold]
  rw [if_pos hlt]
  refine ⟨old.setBanTime (prolongTime old t s.banTime), by simp only [Dict.get?_insert_self], ?_, ?_⟩
  · intro hp
    simp only [Permanent] at hp
    simp only [Permanent, effective_setBanTime, prolongTime, hp, ne_eq, not_true, if_false]
  · intro hle h0
    rw [ends_setBanTime]
    have hdef : ends t s.banTime = if effective t s.banTime = -1 then 2 ^ 47 - 1 else t.time + effective t s.banTime := rfl
    have hne : effective t s.banTime ≠ -1 := by omega
    rw [if_neg hne] at hdef
    unfold prolongTime
    rw [if_pos hne, hdef]
    by_cases hd : 0 < t.time - old.time
    · simp only [if_pos hd]; rw [if_neg (by omega)]; omega
    · simp only [if_neg hd]; rw [if_neg hne]; omega

/-- **C10 (uniqueness).** The ban list never lists an address twice. -/
theorem C10_unique (s : BanManager) : (s.getBanList false).Nodup := s.banList.keys_nodup

/-- a ticket for examples -/
def exTicket (id : Fid) (time : Int) (bt : Option Int) : Ticket := { Ticket.new id time [] with banTime := bt }

/-- a running ban 1000..1600 and a second one 1300..1900: prolonged to 1900 -/
example :
    let s := ((BanManager.init.addBanTicket 1000 (exTicket "a" 1000 none))).2
    (s.addBanTicket 1300 (exTicket "a" 1300 none)).1
      = .already { exTicket "a" 1000 (some 900) with banCount := 1 } true := by decide

/-! ## C11 -/

/-- **C11.** An expiry check releases only bans whose end is strictly before the time of the check, and only bans that
were in the list, each at most once and in list order. -/
theorem C11_no_early_unban (s : BanManager) (time : Int) (n : Nat) :
    (∀ t ∈ (s.unBanList time n).1, ends t s.banTime < time) ∧ (s.unBanList time n).1.Sublist s.banList.values := by
  rw [unBanList_fst]
  constructor
  · intro t ht
    rw [List.mem_map] at ht
    obtain ⟨kv, hkv, rfl⟩ := ht
    unfold releasedItems at hkv
    split at hkv
    · cases hkv
    · have := List.mem_of_mem_take hkv
      simp only [due, List.mem_filter, decide_eq_true_eq] at this
      exact this.2
  · exact (releasedItems_sublist s time n).map _

/-- **C11 (history).** Over any history: every ban in the list after a check at `time` that was due is still there only
because of the limit, and every ban not due stays. -/
theorem C11_undue_stays (s : BanManager) (time : Int) (n : Nat) (x : Fid) (t : Ticket)
    (h : s.banList.get? x = some t) (hnd : time ≤ ends t s.banTime) :
    (s.unBanList time n).2.banList.get? x = some t := by
  rw [mem_unBanList]
  refine ⟨h, ?_⟩
  intro hc
  unfold releasedItems at hc
  split at hc
  · cases hc
  · have := List.mem_of_mem_take hc
    simp only [due, List.mem_filter, decide_eq_true_eq] at this
    omega

/-! ## C12 -/

/-- Operations that do not shorten running bans behind the back of the manager. -/
def NoShortening (s : BanManager) : BanManager.Op → Prop
  | .setBanTime v => ∀ x t, s.banList.get? x = some t → ends t s.banTime ≤ ends t v
  | .setTicketBanTime x v => ∀ t, s.banList.get? x = some t → ends t s.banTime ≤ ends (t.setBanTime v) s.banTime
  | .add _ t => ends t s.banTime ≤ 2 ^ 47 - 1
  | _ => True

/-- histories in which every operation is non-shortening at its moment -/
def NoShorteningRun : BanManager → List BanManager.Op → Prop
  | _, [] => True
  | s, op :: ops => NoShortening s op ∧ NoShorteningRun (s.step op).2 ops

theorem nextOk_step (s : BanManager) (op : BanManager.Op) (hop : NoShortening s op) (h : NextOk s) :
    NextOk (s.step op).2 := by
  cases op with
  | add now t =>
    simp only [BanManager.step]
    simp only [NoShortening] at hop
    by_cases hx : ends t s.banTime < now
    · rw [addBan_expired s now t hx]; exact h
    · cases hg : s.banList.get? t.id with
      | none =>
        rw [addBan_new s now t hx hg]
        intro x d hd
        simp only [Dict.get?_insert] at hd ⊢
        split at hd
        · cases hd; rw [ends_incr]; split <;> omega
        · have := h _ _ hd; split <;> omega
      | some old =>
        rw [addBan_old s now t old hx hg]
        split
        · intro x d hd
          simp only [Dict.get?_insert] at hd ⊢
          split at hd
          · cases hd
            have h1 := h _ _ hg
            have h2 := prolong_ends old t s.banTime hop
            omega
          · exact h _ _ hd
        · exact h
  | unban time n => exact nextOk_unBanList s time n h
  | pop fid =>
    intro x d hd
    simp only [BanManager.step, BanManager.getTicketByID, Dict.get?_erase] at hd ⊢
    split at hd
    · cases hd
    · exact h _ _ hd
  | flush => intro x d hd; simp [BanManager.step, BanManager.flushBanList] at hd
  | setBanTime v =>
    intro x d hd
    have h1 := h x d hd
    have h2 := hop x d hd
    simp only [BanManager.step] at hd ⊢; omega
  | setTicketBanTime fid v =>
    simp only [BanManager.step]
    split
    · rename_i t ht
      intro x d hd
      simp only [Dict.get?_insert] at hd ⊢
      split at hd
      · cases hd
        have h1 := h _ _ ht
        have h2 := hop _ ht
        omega
      · exact h _ _ hd
    · exact h

/-- **C12 (invariant).** From start, in every history without shortening, the cached next unban time never lags. -/
theorem C12_next_unban_ok (ops : List BanManager.Op) (h : NoShorteningRun BanManager.init ops) :
    NextOk (BanManager.init.run ops).2 := by
  have gen : ∀ (ops : List BanManager.Op) (s : BanManager), NoShorteningRun s ops → NextOk s → NextOk (s.run ops).2 := by
    intro ops
    induction ops with
    | nil => intro s _ h; exact h
    | cons op ops ih => intro s hr h; rw [run_cons]; exact ih _ hr.2 (nextOk_step s op hr.1 h)
  exact gen ops _ h (by intro x t ht; cases ht)

/-- **C12 (release).** In every history without shortening, an expiry check with limit `n` releases exactly the first
`max 1 n` due bans in list order (all of them if there are fewer), and what stays in the list is exactly the rest, in
order. -/
theorem C12_due_released (ops : List BanManager.Op) (hops : NoShorteningRun BanManager.init ops) (time : Int) (n : Nat) :
    let s := (BanManager.init.run ops).2
    (s.unBanList time n).1 = ((due s time).take (max 1 n)).map Prod.snd ∧
    (s.unBanList time n).2.banList.items =
      s.banList.items.filter (fun kv => decide (kv.1 ∉ ((due s time).take (max 1 n)).map Prod.fst)) := by
  intro s
  have h := C12_next_unban_ok ops hops
  have hrel : releasedItems s time n = (due s time).take (max 1 n) := by
    unfold releasedItems
    split
    · rename_i hlt
      have : due s time = [] := by
        unfold due
        rw [List.filter_eq_nil_iff]
        intro kv hkv
        have := h kv.1 kv.2 ((Dict.get?_eq_some_iff _ _ _).2 hkv)
        simp only [decide_eq_true_eq]
        have h' : s.nextUnban ≤ ends kv.2 s.banTime := this
        omega
      rw [this]; simp
    · rfl
  rw [unBanList_fst, unBanList_items, hrel]
  exact ⟨rfl, rfl⟩

/-- repeated checks at the same time -/
def checks (time : Int) (n : Nat) : Nat → BanManager → BanManager
  | 0, s => s
  | k + 1, s => checks time n k (s.unBanList time n).2

theorem due_unBanList (s : BanManager) (h : NextOk s) (time : Int) (n : Nat) :
    (due (s.unBanList time n).2 time).length = (due s time).length - max 1 n := by
  have hrel : releasedItems s time n = (due s time).take (max 1 n) := by
    unfold releasedItems
    split
    · rename_i hlt
      have : due s time = [] := by
        unfold due
        rw [List.filter_eq_nil_iff]
        intro kv hkv
        have := h kv.1 kv.2 ((Dict.get?_eq_some_iff _ _ _).2 hkv)
        simp only [decide_eq_true_eq]
        omega
      rw [this]; simp
    · rfl
  have hd : due (s.unBanList time n).2 time =
      (due s time).filter (fun kv => decide (kv.1 ∉ ((due s time).take (max 1 n)).map Prod.fst)) := by
    unfold due
    rw [(unBanList_cfg s time n).1, unBanList_items, hrel, List.filter_filter, List.filter_filter]
    apply List.filter_congr
    intro a _
    rw [Bool.and_comm]; rfl
  rw [hd]
  have hnd : ((due s time).map Prod.fst).Nodup := Dict.nodup_filter _ s.banList.nodup _
  generalize due s time = l at *
  generalize max 1 n = m
  clear hd hrel
  have hsplit : l = l.take m ++ l.drop m := (List.take_append_drop m l).symm
  have hf : l.filter (fun kv => decide (kv.1 ∉ (l.take m).map Prod.fst)) = l.drop m := by
    have hdis : ∀ a ∈ l.drop m, a.1 ∉ (l.take m).map Prod.fst := by
      intro a ha hc
      rw [hsplit, List.map_append, List.nodup_append] at hnd
      exact hnd.2.2 a.1 hc a.1 (List.mem_map_of_mem (f := Prod.fst) ha) rfl
    have e1 : (l.take m).filter (fun kv => decide (kv.1 ∉ (l.take m).map Prod.fst)) = [] := by
      rw [List.filter_eq_nil_iff]
      intro a ha
      simp only [decide_eq_true_eq, Decidable.not_not]
      exact List.mem_map_of_mem (f := Prod.fst) ha
    have e2 : (l.drop m).filter (fun kv => decide (kv.1 ∉ (l.take m).map Prod.fst)) = l.drop m := by
      rw [List.filter_eq_self]
      intro a ha
      simp only [decide_eq_true_eq]
      exact hdis a ha
    have e3 : l.filter (fun kv => decide (kv.1 ∉ (l.take m).map Prod.fst)) =
        (l.take m ++ l.drop m).filter (fun kv => decide (kv.1 ∉ (l.take m).map Prod.fst)) := by
      rw [← hsplit]
    rw [e3, List.filter_append, e1, e2, List.nil_append]
  rw [hf, List.length_drop]

/-- **C12 (drain).** In every history without shortening: with a limit of `n ≥ 1` per check, after `k` checks with
`k * n` at least the number of due bans, no due ban is left. -/
theorem C12_drain (ops : List BanManager.Op) (hops : NoShorteningRun BanManager.init ops) (time : Int) (n k : Nat)
    (hn : 0 < n) (hk : (due (BanManager.init.run ops).2 time).length ≤ k * n) :
    due (checks time n k (BanManager.init.run ops).2) time = [] := by
  have h := C12_next_unban_ok ops hops
  generalize (BanManager.init.run ops).2 = s at *
  induction k generalizing s with
  | zero => simp only [Nat.zero_mul, Nat.le_zero] at hk; exact List.eq_nil_of_length_eq_zero hk
  | succ k ih =>
    simp only [checks]
    apply ih
    · rw [due_unBanList s h]
      rw [Nat.succ_mul] at hk
      omega
    · exact nextOk_unBanList s time n h

/-- **C12 is false without the side condition**: lowering the default ban time leaves due bans in place (the cached next
unban time is not corrected). The ban of 1000..1600 ends at 1010 after the default is lowered to 10, yet a check at 1100
releases nothing. -/
theorem C12_refuted_when_lowered :
    let s := (BanManager.init.run [.add 1000 (exTicket "a" 1000 none), .setBanTime 10]).2
    (due s 1100).length = 1 ∧ (s.unBanList 1100 20).1 = [] := by decide

/-- hypotheses of C12 are met by a non-trivial history -/
example : NoShorteningRun BanManager.init
    [.add 1000 (exTicket "a" 1000 none), .add 1001 (exTicket "b" 1001 (some 5)), .add 1002 (exTicket "a" 1002 (some (-1))),
     .unban 1010 20, .setBanTime 10000] := by
  refine ⟨?_, ?_, ?_, trivial, ?_, trivial⟩
  · show ends _ _ ≤ _; decide
  · show ends _ _ ≤ _; decide
  · show ends _ _ ≤ _; decide
  intro x t h
  rw [Dict.get?_eq_some_iff] at h
  revert h
  have : ((((BanManager.init.step (.add 1000 (exTicket "a" 1000 none))).2.step (.add 1001 (exTicket "b" 1001 (some 5)))).2.step
      (.add 1002 (exTicket "a" 1002 (some (-1))))).2.step (.unban 1010 20)).2.banList.items
      = [("a", { exTicket "a" 1000 (some (-1)) with banCount := 1 })] := by decide
  rw [this]
  simp only [List.mem_singleton, Prod.mk.injEq]
  rintro ⟨_, rfl⟩
  decide

/-! ## C13 -/

/-- **C13.** A permanent ban is never released by an expiry check at any representable time. -/
theorem C13_permanent_stays (s : BanManager) (time : Int) (n : Nat) (x : Fid) (t : Ticket)
    (h : s.banList.get? x = some t) (hp : Permanent t s.banTime) (ht : time ≤ 2 ^ 47 - 1) :
    (s.unBanList time n).2.banList.get? x = some t ∧ ∀ t' ∈ (s.unBanList time n).1, ¬ Permanent t' s.banTime := by
  constructor
  · apply C11_undue_stays s time n x t h
    unfold ends; rw [if_pos (show effective t s.banTime = -1 from hp)]; exact ht
  · intro t' ht' hp'
    have := (C11_no_early_unban s time n).1 t' ht'
    unfold ends at this; rw [if_pos (show effective t' s.banTime = -1 from hp')] at this; omega

/-- `isTimedOut` agrees: a permanent ban is never timed out, another one exactly when its end has passed. -/
theorem C13_isTimedOut (t : Ticket) (time d : Int) :
    t.isTimedOut time d = true ↔ (¬ Permanent t d ∧ t.time + effective t d < time) := by
  unfold Ticket.isTimedOut Permanent
  simp only [bt_eq]
  split <;> simp_all

example : let s := (BanManager.init.run [.add 1000 (exTicket "a" 1000 (some (-1))), .add 1000 (exTicket "b" 1000 none)]).2
    (s.unBanList 100000000 20).1.map Ticket.id = ["b"] ∧ (s.unBanList 100000000 20).2.getBanList true = ["a"] := by decide

/-! ## C14, C15 -/

/-- number of occurrences of an address -/
def occurs (x : Fid) (l : List Fid) : Nat := (l.filter (fun y => decide (y = x))).length

theorem occurs_append (x : Fid) (a b : List Fid) : occurs x (a ++ b) = occurs x a + occurs x b := by
  simp [occurs, List.filter_append]

theorem occurs_nodup (x : Fid) (l : List Fid) (h : l.Nodup) : occurs x l = if x ∈ l then 1 else 0 := by
  induction l with
  | nil => simp [occurs]
  | cons a l ih =>
    rw [List.nodup_cons] at h
    have ih' := ih h.2
    unfold occurs at *
    rw [List.filter_cons]
    by_cases e : a = x
    · subst e
      simp only [decide_true, if_true, List.length_cons, ih', h.1, if_false, List.mem_cons, true_or]
    · have e' : ¬ x = a := fun h => e h.symm
      simp only [e, decide_false, Bool.false_eq_true, if_false, ih', List.mem_cons, e', false_or]

/-- 1 if banned -/
def bannedNum (s : BanManager) (x : Fid) : Nat := if x ∈ s.banList.keys then 1 else 0

theorem released_ids (s : BanManager) (hk : BanManager.KeyId s) (l : List (Fid × Ticket)) (hl : l.Sublist s.banList.items) :
    (l.map Prod.snd).map Ticket.id = l.map Prod.fst := by
  rw [List.map_map]
  apply List.map_congr_left
  intro kv hkv
  exact hk kv.1 kv.2 ((Dict.get?_eq_some_iff _ _ _).2 (hl.subset hkv))

theorem conserve_step (s : BanManager) (hk : BanManager.KeyId s) (op : BanManager.Op) (x : Fid) :
    bannedNum s x + occurs x (s.step op).1.accepted = bannedNum (s.step op).2 x + occurs x (s.step op).1.released ∧
    (s.step op).2.banTotal = s.banTotal + (s.step op).1.accepted.length ∧
    s.size + (s.step op).1.accepted.length = (s.step op).2.size + (s.step op).1.released.length := by
  cases op with
  | add now t =>
    simp only [BanManager.step]
    by_cases hx : ends t s.banTime < now
    · rw [addBan_expired s now t hx]; simp [occurs]
    · cases hg : s.banList.get? t.id with
      | none =>
        rw [addBan_new s now t hx hg]
        have hni := (Dict.get?_eq_none_iff _ _).1 hg
        have hit := Dict.items_insert_of_not_mem s.banList hni t.incrBanCount
        have hkeys : (s.banList.insert t.id t.incrBanCount).keys = s.banList.keys ++ [t.id] := by
          simp only [Dict.keys, hit]; simp
        refine ⟨?_, by simp, ?_⟩
        · simp only [bannedNum, hkeys, if_true]
          by_cases e : x = t.id
          · subst e
            simp [hni, occurs]
          · have e' : ¬ t.id = x := fun h => e h.symm
            simp [occurs, e, e']
        · simp only [BanManager.size, Dict.size, hit, if_true]; simp
      | some old =>
        rw [addBan_old s now t old hx hg]
        have hmem : t.id ∈ s.banList.keys := (Dict.mem_keys_iff _ _).2 ⟨_, hg⟩
        split
        · have hkeys := Dict.keys_insert_of_mem s.banList hmem (old.setBanTime (prolongTime old t s.banTime))
          refine ⟨by simp [occurs, bannedNum, hkeys], by simp, ?_⟩
          simp only [BanManager.size, Dict.size_eq_keys_length, hkeys]; simp
        · simp [occurs]
  | unban time n =>
    simp only [BanManager.step]
    have hkeys : (s.unBanList time n).2.banList.keys =
        s.banList.keys.filter (fun k => decide (k ∉ (releasedItems s time n).map Prod.fst)) := by
      simp only [Dict.keys, unBanList_items]
      rw [List.filter_map]; rfl
    have hsub := releasedItems_sublist s time n
    have hids := released_ids s hk _ hsub
    have hnd : ((releasedItems s time n).map Prod.fst).Nodup :=
      List.Sublist.nodup (hsub.map Prod.fst) s.banList.nodup
    refine ⟨?_, by simp [(unBanList_cfg s time n).2], ?_⟩
    · rw [unBanList_fst, hids, occurs_nodup x _ hnd]
      simp only [bannedNum, hkeys, List.mem_filter, decide_eq_true_eq, occurs]
      by_cases h1 : x ∈ s.banList.keys
      · by_cases h2 : x ∈ (releasedItems s time n).map Prod.fst
        · simp [h1, h2]
        · simp [h1, h2]
      · have h2 : x ∉ (releasedItems s time n).map Prod.fst := fun h => h1 ((hsub.map Prod.fst).subset h)
        simp [h1, h2]
    · simp only [BanManager.size, Dict.size_eq_keys_length, hkeys, unBanList_fst, hids, List.length_nil, Nat.add_zero]
      have hs := hsub.map Prod.fst
      generalize (releasedItems s time n).map Prod.fst = r at *
      have hkn : s.banList.keys.Nodup := s.banList.nodup
      have hs' : r.Sublist s.banList.keys := hs
      generalize s.banList.keys = ks at *
      clear hkeys hids hsub hs
      induction hs' with
      | slnil => rfl
      | cons a hs ih =>
        rename_i r ks
        rw [List.nodup_cons] at hkn
        have hna : a ∉ r := fun h => hkn.1 (hs.subset h)
        rw [List.filter_cons]
        simp only [hna, not_false_eq_true, decide_true, if_true, List.length_cons]
        have := ih hnd hkn.2
        omega
      | cons_cons a hs ih =>
        rename_i r ks
        rw [List.nodup_cons] at hkn hnd
        rw [List.filter_cons]
        simp only [List.mem_cons, true_or, not_true, decide_false, Bool.false_eq_true, if_false, List.length_cons]
        have := ih hnd.2 hkn.2
        have hcong : ks.filter (fun k => decide (¬(k = a ∨ k ∈ r))) = ks.filter (fun k => decide (k ∉ r)) := by
          apply List.filter_congr
          intro k hkk
          have : ¬ k = a := fun e => hkn.1 (e ▸ hkk)
          simp [this]
        rw [hcong]
        omega
  | pop fid =>
    simp only [BanManager.step, BanManager.getTicketByID]
    cases hg : s.banList.get? fid with
    | none =>
      have hni := (Dict.get?_eq_none_iff _ _).1 hg
      rw [Dict.erase_items_of_not_mem _ hni]
      simp [occurs, BanManager.size, bannedNum]
    | some t =>
      have hid := hk _ _ hg
      have hmem : fid ∈ s.banList.keys := (Dict.mem_keys_iff _ _).2 ⟨_, hg⟩
      refine ⟨?_, by simp, ?_⟩
      · simp only [bannedNum, Dict.keys_erase, List.mem_filter, decide_eq_true_eq, Option.toList_some, List.map_cons,
          List.map_nil, hid, occurs]
        by_cases e : x = fid
        · subst e; simp [hmem]
        · have e' : ¬ fid = x := fun h => e h.symm
          simp [e, e']
      · simp only [BanManager.size, Dict.size_eq_keys_length, Dict.keys_erase, Option.toList_some, List.map_cons,
          List.map_nil, List.length_cons, List.length_nil]
        have hkn : s.banList.keys.Nodup := s.banList.nodup
        generalize s.banList.keys = ks at *
        clear hg
        induction ks with
        | nil => cases hmem
        | cons a ks ih =>
          rw [List.nodup_cons] at hkn
          rw [List.filter_cons]
          by_cases e : a = fid
          · subst e
            simp only [ne_eq, not_true, decide_false, Bool.false_eq_true, if_false, List.length_cons]
            have : ks.filter (fun j => decide (¬ j = a)) = ks := by
              rw [List.filter_eq_self]
              intro b hb
              simp only [decide_eq_true_eq]
              exact fun e => hkn.1 (e ▸ hb)
            rw [this]
          · have hm' : fid ∈ ks := by
              rcases List.mem_cons.1 hmem with h | h
              · exact absurd h.symm e
              · exact h
            simp only [ne_eq, e, not_false_eq_true, decide_true, if_true, List.length_cons]
            have := ih hm' hkn.2
            simp only [ne_eq] at this
            omega
  | flush =>
    simp only [BanManager.step, BanManager.flushBanList]
    have hids := released_ids s hk s.banList.items (List.Sublist.refl _)
    refine ⟨?_, by simp, ?_⟩
    · simp only [Dict.values, hids]
      have := occurs_nodup x s.banList.keys s.banList.nodup
      simp only [Dict.keys] at this
      rw [this]
      simp [bannedNum, Dict.keys, Dict.empty, occurs]
    · simp [BanManager.size, Dict.size, Dict.values, Dict.empty]
  | setBanTime v => exact ⟨rfl, rfl, rfl⟩
  | setTicketBanTime fid v =>
    simp only [BanManager.step]
    split
    · rename_i t ht
      have hmem : fid ∈ s.banList.keys := (Dict.mem_keys_iff _ _).2 ⟨_, ht⟩
      have hkeys := Dict.keys_insert_of_mem s.banList hmem (t.setBanTime v)
      simp [occurs, bannedNum, BanManager.size, Dict.size_eq_keys_length, hkeys]
    · simp [occurs, bannedNum, BanManager.size]

theorem conserve_run (ops : List BanManager.Op) (s : BanManager) (hk : BanManager.KeyId s) (x : Fid) :
    bannedNum s x + occurs x (s.run ops).1.accepted = bannedNum (s.run ops).2 x + occurs x (s.run ops).1.released ∧
    (s.run ops).2.banTotal = s.banTotal + (s.run ops).1.accepted.length ∧
    s.size + (s.run ops).1.accepted.length = (s.run ops).2.size + (s.run ops).1.released.length := by
  induction ops generalizing s with
  | nil => simp [BanManager.run, occurs]
  | cons op ops ih =>
    obtain ⟨h1, h2, h3⟩ := conserve_step s hk op x
    obtain ⟨i1, i2, i3⟩ := ih (s.step op).2 (BanManager.keyId_step s op hk)
    rw [run_cons]
    simp only [occurs_append, List.length_append]
    refine ⟨by omega, by omega, by omega⟩

/-- **C14.** In every history from start and for every address: the number of times it was accepted as newly banned
equals the number of times its ban was released (by expiry, explicit unban or flush), plus one if it is banned now.
Hence every accepted ban is still active or was released exactly once. -/
theorem C14_conservation (ops : List BanManager.Op) (x : Fid) :
    occurs x (BanManager.init.run ops).1.accepted =
      occurs x (BanManager.init.run ops).1.released +
        (if x ∈ (BanManager.init.run ops).2.getBanList false then 1 else 0) := by
  have h := (conserve_run ops BanManager.init BanManager.keyId_init x).1
  have h0 : bannedNum BanManager.init x = 0 := by simp [bannedNum, BanManager.init, Dict.keys, Dict.empty]
  rw [h0] at h
  simp only [bannedNum] at h
  simp only [BanManager.getBanList, Bool.false_eq_true, if_false]
  omega

/-- **C14 (release operations).** An explicit unban returns and removes exactly the ban of the given address; a flush
returns all bans in order and leaves an empty list. -/
theorem C14_release (s : BanManager) (x : Fid) :
    (s.getTicketByID x).1 = s.banList.get? x ∧
    (∀ y, (s.getTicketByID x).2.banList.get? y = if y = x then none else s.banList.get? y) ∧
    (s.getTicketByID x).2.banTotal = s.banTotal ∧
    s.flushBanList.1 = s.banList.items.map Prod.snd ∧ s.flushBanList.2.banList.items = [] ∧
    s.flushBanList.2.banTotal = s.banTotal :=
  ⟨rfl, fun y => Dict.get?_erase _ _ y, rfl, rfl, rfl, rfl⟩

/-- **C15.** In every history from start the total equals the number of accepted bans, and the number of current bans
equals accepted minus released ones. -/
theorem C15_totals (ops : List BanManager.Op) :
    (BanManager.init.run ops).2.banTotal = (BanManager.init.run ops).1.accepted.length ∧
    (BanManager.init.run ops).2.size + (BanManager.init.run ops).1.released.length =
      (BanManager.init.run ops).1.accepted.length := by
  obtain ⟨_, h2, h3⟩ := conserve_run ops BanManager.init BanManager.keyId_init ""
  have e1 : BanManager.init.banTotal = 0 := rfl
  have e2 : BanManager.init.size = 0 := rfl
  omega

/-- a history with bans, a refused ban, an expiry, an explicit unban -/
def exBanOps : List BanManager.Op :=
  [.add 1000 (exTicket "a" 1000 none), .add 1001 (exTicket "b" 1001 (some 5)), .add 1002 (exTicket "a" 1002 none),
   .unban 1010 20, .add 1020 (exTicket "b" 1020 none), .pop "a"]

example : (BanManager.init.run exBanOps).1.accepted = ["a", "b", "b"] ∧
    (BanManager.init.run exBanOps).1.released = ["b", "a"] ∧ (BanManager.init.run exBanOps).2.getBanList true = ["b"] := by
  decide

/-! ## C16 -/

theorem insertByEnd_perm (p : Ticket × Int) (l : List (Ticket × Int)) : (insertByEnd p l).Perm (p :: l) := by
  induction l with
  | nil => exact List.Perm.refl _
  | cons q l ih =>
    simp only [insertByEnd]
    split
    · exact List.Perm.refl _
    · exact (List.Perm.cons q ih).trans (List.Perm.swap p q l)

theorem sortByEnd_perm (l : List (Ticket × Int)) : (sortByEnd l).Perm l := by
  induction l with
  | nil => exact List.Perm.refl _
  | cons p l ih => exact (insertByEnd_perm p _).trans (List.Perm.cons p ih)

theorem insertByEnd_sorted (p : Ticket × Int) (l : List (Ticket × Int))
    (h : l.Pairwise (fun a b => a.2 ≤ b.2)) : (insertByEnd p l).Pairwise (fun a b => a.2 ≤ b.2) := by
  induction l with
  | nil => simp [insertByEnd]
  | cons q l ih =>
    rw [List.pairwise_cons] at h
    simp only [insertByEnd]
    split
    · rename_i hle
      rw [List.pairwise_cons]
      refine ⟨?_, List.pairwise_cons.2 h⟩
      intro a ha
      rcases List.mem_cons.1 ha with rfl | ha
      · exact hle
      · have := h.1 a ha; omega
    · rename_i hle
      rw [List.pairwise_cons]
      refine ⟨?_, ih h.2⟩
      intro a ha
      have := (insertByEnd_perm p l).subset ha
      rcases List.mem_cons.1 this with rfl | ha
      · omega
      · exact h.1 a ha

theorem sortByEnd_sorted (l : List (Ticket × Int)) : (sortByEnd l).Pairwise (fun a b => a.2 ≤ b.2) := by
  induction l with
  | nil => exact List.Pairwise.nil
  | cons p l ih => exact insertByEnd_sorted p _ ih

/-- **C16.** In every history from start the reported list is the list of addresses of a rearrangement of all current
bans that is ordered by end of ban; in particular it contains every banned address exactly once. -/
theorem C16_ordered_list (ops : List BanManager.Op) :
    let s := (BanManager.init.run ops).2
    (∃ l : List Ticket, s.getBanList true = l.map Ticket.id ∧ l.Perm s.banList.values ∧
      l.Pairwise (fun a b => ends a s.banTime ≤ ends b s.banTime)) ∧
    (s.getBanList true).Perm s.banList.keys ∧ (s.getBanList true).Nodup := by
  intro s
  have hk : BanManager.KeyId s := BanManager.keyId_run _ ops BanManager.keyId_init
  have hp := sortByEnd_perm (s.banList.values.map (fun t => (t, t.getEndOfBanTime s.banTime)))
  have hs := sortByEnd_sorted (s.banList.values.map (fun t => (t, t.getEndOfBanTime s.banTime)))
  have hids := released_ids s hk s.banList.items (List.Sublist.refl _)
  have hperm : (s.getBanList true).Perm s.banList.keys := by
    simp only [BanManager.getBanList, if_true]
    refine (hp.map (fun p => p.1.id)).trans ?_
    rw [List.map_map]
    have : s.banList.values.map ((fun p : Ticket × Int => p.1.id) ∘ fun t => (t, t.getEndOfBanTime s.banTime)) = s.banList.keys := by
      rw [← show (s.banList.items.map Prod.snd).map Ticket.id = s.banList.keys from hids]
      rfl
    rw [this]
  refine ⟨⟨(sortByEnd (s.banList.values.map (fun t => (t, t.getEndOfBanTime s.banTime)))).map Prod.fst, ?_, ?_, ?_⟩,
    hperm, hperm.nodup_iff.2 s.banList.nodup⟩
  · simp only [BanManager.getBanList, if_true, List.map_map]; rfl
  · have := hp.map Prod.fst
    rw [List.map_map] at this
    refine this.trans ?_
    have e : s.banList.values.map (Prod.fst ∘ fun t => (t, t.getEndOfBanTime s.banTime)) = s.banList.values := by
      rw [show (Prod.fst ∘ fun t : Ticket => (t, t.getEndOfBanTime s.banTime)) = id from rfl, List.map_id]
    rw [e]
  · rw [List.pairwise_map]
    have hmem : ∀ p ∈ sortByEnd (s.banList.values.map (fun t => (t, t.getEndOfBanTime s.banTime))),
        p.2 = ends p.1 s.banTime := by
      intro p hpm
      have := hp.subset hpm
      rw [List.mem_map] at this
      obtain ⟨t, _, rfl⟩ := this
      exact eob_eq t s.banTime
    refine List.Pairwise.imp_of_mem ?_ hs
    intro a b ha hb hab
    rw [← hmem a ha, ← hmem b hb]; exact hab

example : (BanManager.init.run [.add 1000 (exTicket "a" 1000 none), .add 1000 (exTicket "b" 1000 (some (-1))),
    .add 1000 (exTicket "c" 1000 (some 5))]).2.getBanList true = ["c", "a", "b"] := by decide

end Verif
