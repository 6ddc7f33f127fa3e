import Verif.Spec.BanManager
import Verif.Py.List

/-! Auxiliary lemmas about the model of the ban manager. -/

namespace Verif.BanManager

open Verif Spec.Ban

theorem eob_eq (t : Ticket) (d : Int) : t.getEndOfBanTime d = ends t d := by
  unfold Ticket.getEndOfBanTime ends Ticket.getBanTime effective Ticket.MAX_TIME
  cases t.banTime <;> simp

theorem bt_eq (t : Ticket) (d : Int) : t.getBanTime d = effective t d := by
  unfold Ticket.getBanTime effective
  cases t.banTime <;> simp

theorem ends_incr (t : Ticket) (d : Int) : ends t.incrBanCount d = ends t d := rfl

theorem effective_setBanTime (t : Ticket) (b d : Int) : effective (t.setBanTime b) d = b := rfl

theorem ends_setBanTime (t : Ticket) (b d : Int) :
    ends (t.setBanTime b) d = if b = -1 then 2 ^ 47 - 1 else t.time + b := rfl

/-- tickets are stored under their id -/
def KeyId (s : BanManager) : Prop := ∀ x t, s.banList.get? x = some t → t.id = x

/-! ### the search loop -/

/-- due part of a list of items -/
abbrev dueOf (time d : Int) (l : List (Fid × Ticket)) : List (Fid × Ticket) :=
  l.filter (fun kv => decide (ends kv.2 d < time))

theorem loop_found (time d old : Int) (n : Nat) (l acc : List (Fid × Ticket)) (nxt : Int)
    (hacc : acc.length < max 1 n) :
    (unBanLoop time d old n l acc nxt).1 = acc ++ (dueOf time d l).take (max 1 n - acc.length) := by
  induction l generalizing acc nxt with
  | nil => simp [unBanLoop]
  | cons a l ih =>
    obtain ⟨fid, t⟩ := a
    simp only [unBanLoop, eob_eq]
    by_cases hlt : ends t d < time
    · simp only [hlt, if_true, dueOf, List.filter_cons, decide_true]
      have hlen : (acc ++ [(fid, t)]).length = acc.length + 1 := by simp
      split
      · rename_i hge
        rw [hlen] at hge
        have : max 1 n - acc.length = 1 := by omega
        rw [this]; simp
      · rename_i hge
        rw [hlen] at hge
        rw [ih _ _ (by omega), hlen]
        have : max 1 n - acc.length = (max 1 n - (acc.length + 1)) + 1 := by omega
        rw [this, List.take_succ_cons]
        simp [dueOf]
    · simp only [hlt, if_false, dueOf, List.filter_cons, decide_false, Bool.false_eq_true]
      split <;> exact ih _ _ hacc

/-- next unban time computed by a complete search -/
theorem loop_next (time d old : Int) (n : Nat) (l acc : List (Fid × Ticket)) (nxt : Int)
    (hacc : acc.length < max 1 n) :
    (unBanLoop time d old n l acc nxt).2 = old ∨
    ((acc ++ dueOf time d l).length < max 1 n ∧ (unBanLoop time d old n l acc nxt).2 ≤ nxt ∧
     (∀ kv ∈ l, ¬ ends kv.2 d < time → (unBanLoop time d old n l acc nxt).2 ≤ ends kv.2 d)) := by
  induction l generalizing acc nxt with
  | nil => right; simp [unBanLoop]; exact hacc
  | cons a l ih =>
    obtain ⟨fid, t⟩ := a
    simp only [unBanLoop, eob_eq]
    by_cases hlt : ends t d < time
    · simp only [hlt, if_true, dueOf, List.filter_cons, decide_true]
      split
      · left; rfl
      · rename_i hge
        rcases ih (acc ++ [(fid, t)]) nxt (by omega) with h | ⟨h1, h2, h3⟩
        · left; exact h
        · right
          refine ⟨by simpa using h1, h2, ?_⟩
          intro kv hkv hn
          rcases List.mem_cons.1 hkv with rfl | hkv
          · exact absurd hlt hn
          · exact h3 kv hkv hn
    · simp only [hlt, if_false, dueOf, List.filter_cons, decide_false, Bool.false_eq_true]
      split
      · rename_i hnx
        rcases ih acc (ends t d) hacc with h | ⟨h1, h2, h3⟩
        · left; exact h
        · right
          refine ⟨h1, by omega, ?_⟩
          intro kv hkv hn
          rcases List.mem_cons.1 hkv with rfl | hkv
          · exact h2
          · exact h3 kv hkv hn
      · rename_i hnx
        rcases ih acc nxt hacc with h | ⟨h1, h2, h3⟩
        · left; exact h
        · right
          refine ⟨h1, h2, ?_⟩
          intro kv hkv hn
          rcases List.mem_cons.1 hkv with rfl | hkv
          · simp only; omega
          · exact h3 kv hkv hn

/-! ### `unBanList` -/

/-- tickets released by `unBanList`, as items -/
def releasedItems (s : BanManager) (time : Int) (n : Nat) : List (Fid × Ticket) :=
  if time < s.nextUnban then [] else (due s time).take (max 1 n)

theorem unBanList_fst (s : BanManager) (time : Int) (n : Nat) :
    (s.unBanList time n).1 = (releasedItems s time n).map Prod.snd := by
  unfold unBanList releasedItems
  split
  · rfl
  · have h := loop_found time s.banTime s.nextUnban n s.banList.items [] Ticket.MAX_TIME (by simp; omega)
    simp only [List.nil_append, List.length_nil, Nat.sub_zero] at h
    generalize unBanLoop time s.banTime s.nextUnban n s.banList.items [] Ticket.MAX_TIME = r at *
    obtain ⟨found, nxt⟩ := r
    simp only at h ⊢
    rw [h]; rfl

theorem releasedItems_sublist (s : BanManager) (time : Int) (n : Nat) :
    (releasedItems s time n).Sublist s.banList.items := by
  unfold releasedItems; split
  · exact List.nil_sublist _
  · exact (List.take_sublist _ _).trans List.filter_sublist

/-- the list after the check: released items are gone, the rest is unchanged and in order -/
theorem unBanList_items (s : BanManager) (time : Int) (n : Nat) :
    (s.unBanList time n).2.banList.items =
      s.banList.items.filter (fun kv => decide (kv.1 ∉ (releasedItems s time n).map Prod.fst)) := by
  unfold unBanList
  split
  · rename_i h
    simp only [releasedItems, h, if_true]
    symm
    rw [List.filter_eq_self]
    intro a _; simp
  · rename_i hle
    have h := loop_found time s.banTime s.nextUnban n s.banList.items [] Ticket.MAX_TIME (by simp; omega)
    simp only [List.nil_append, List.length_nil, Nat.sub_zero] at h
    have hrel : releasedItems s time n = (dueOf time s.banTime s.banList.items).take (max 1 n) := by
      simp [releasedItems, hle, due, dueOf]
    rw [← h] at hrel
    rw [hrel]
    generalize unBanLoop time s.banTime s.nextUnban n s.banList.items [] Ticket.MAX_TIME = r at *
    obtain ⟨found, nxt⟩ := r
    simp only
    split
    · split
      · rw [Dict.foldl_erase_items]
      · simp only [Dict.filter]
        apply List.filter_congr
        intro a _
        by_cases hm : a.1 ∈ found.map Prod.fst
        · simp [hm]
        · simp [hm]
    · rename_i h0
      have : found = [] := List.eq_nil_of_length_eq_zero (by omega)
      rw [this]
      symm
      rw [List.filter_eq_self]
      intro a _; simp

theorem unBanList_cfg (s : BanManager) (time : Int) (n : Nat) :
    (s.unBanList time n).2.banTime = s.banTime ∧ (s.unBanList time n).2.banTotal = s.banTotal := by
  unfold unBanList
  split
  · exact ⟨rfl, rfl⟩
  · generalize unBanLoop time s.banTime s.nextUnban n s.banList.items [] Ticket.MAX_TIME = r
    obtain ⟨found, nxt⟩ := r
    exact ⟨rfl, rfl⟩

theorem mem_unBanList (s : BanManager) (time : Int) (n : Nat) (x : Fid) (t : Ticket) :
    (s.unBanList time n).2.banList.get? x = some t ↔
      s.banList.get? x = some t ∧ (x, t) ∉ releasedItems s time n := by
  rw [Dict.get?_eq_some_iff, Dict.get?_eq_some_iff, unBanList_items, List.mem_filter]
  constructor
  · rintro ⟨h1, h2⟩
    refine ⟨h1, ?_⟩
    intro hc
    simp only [decide_eq_true_eq] at h2
    exact h2 (List.mem_map_of_mem (f := Prod.fst) hc)
  · rintro ⟨h1, h2⟩
    refine ⟨h1, ?_⟩
    simp only [decide_eq_true_eq, List.mem_map, not_exists, not_and]
    intro kv hkv e
    apply h2
    have hm := (releasedItems_sublist s time n).subset hkv
    have e1 := (Dict.get?_eq_some_iff s.banList kv.1 kv.2).2 hm
    rw [e] at e1
    have e2 := (Dict.get?_eq_some_iff s.banList x t).2 h1
    rw [e2] at e1
    cases e1
    rw [← e]; exact hkv

theorem nextOk_unBanList (s : BanManager) (time : Int) (n : Nat) (h : NextOk s) :
    NextOk (s.unBanList time n).2 := by
  intro x t ht
  rw [(unBanList_cfg s time n).1]
  have hm := (mem_unBanList s time n x t).1 ht
  have hold := h x t hm.1
  have hit := (Dict.get?_eq_some_iff _ _ _).1 hm.1
  have hrel := hm.2
  unfold releasedItems at hrel
  unfold unBanList
  split
  · exact hold
  · rename_i hle
    rw [if_neg hle] at hrel
    have hn := loop_next time s.banTime s.nextUnban n s.banList.items [] Ticket.MAX_TIME (by simp; omega)
    generalize unBanLoop time s.banTime s.nextUnban n s.banList.items [] Ticket.MAX_TIME = r at *
    obtain ⟨found, nxt⟩ := r
    simp only at hn ⊢
    rcases hn with hn | ⟨h1, h2, h3⟩
    · rw [hn]; exact hold
    · apply h3 (x, t) hit
      intro hlt
      apply hrel
      rw [List.nil_append] at h1
      have : (due s time).take (max 1 n) = due s time := List.take_of_length_le (by unfold due; exact Nat.le_of_lt h1)
      rw [this]
      simp only [due, List.mem_filter, decide_eq_true_eq]
      exact ⟨hit, hlt⟩

/-! ### `addBanTicket` -/

theorem addBan_expired (s : BanManager) (now : Int) (t : Ticket) (h : ends t s.banTime < now) :
    s.addBanTicket now t = (.expired, s) := by
  unfold addBanTicket; simp only [eob_eq, h, if_true]

theorem addBan_new (s : BanManager) (now : Int) (t : Ticket) (h : ¬ ends t s.banTime < now)
    (hn : s.banList.get? t.id = none) :
    s.addBanTicket now t = (.banned, { s with
      banList := s.banList.insert t.id t.incrBanCount
      banTotal := s.banTotal + 1
      nextUnban := if ends t s.banTime < s.nextUnban then ends t s.banTime else s.nextUnban }) := by
  unfold addBanTicket; simp only [eob_eq, h, if_false, hn]

/-- ban time set by a prolongation -/
def prolongTime (old t : Ticket) (d : Int) : Int :=
  if effective t d ≠ -1 then
    (if 0 < t.time - old.time then effective t d + (t.time - old.time) else effective t d)
  else effective t d

theorem addBan_old (s : BanManager) (now : Int) (t old : Ticket) (h : ¬ ends t s.banTime < now)
    (hn : s.banList.get? t.id = some old) :
    s.addBanTicket now t =
      if ends old s.banTime < ends t s.banTime then
        (.already (old.setBanTime (prolongTime old t s.banTime)) true,
          { s with banList := s.banList.insert t.id (old.setBanTime (prolongTime old t s.banTime)) })
      else (.already old false, s) := by
  unfold addBanTicket; simp only [eob_eq, bt_eq, h, if_false, hn]
  split <;> rfl

theorem prolong_ends (old t : Ticket) (d : Int) (hmax : ends t d ≤ 2 ^ 47 - 1) :
    ends t d ≤ ends (old.setBanTime (prolongTime old t d)) d := by
  rw [ends_setBanTime]
  unfold prolongTime
  have hdef : ends t d = if effective t d = -1 then 2 ^ 47 - 1 else t.time + effective t d := rfl
  by_cases hp : effective t d = -1
  · simp only [hp, ne_eq, not_true, if_false, if_true]
    exact hmax
  · simp only [ne_eq, hp, not_false_eq_true, if_true]
    rw [if_neg hp] at hdef
    by_cases hd : 0 < t.time - old.time
    · simp only [hd, if_true]
      split
      · exact hmax
      · rw [hdef]; omega
    · simp only [hd, if_false, hp]
      rw [hdef]; omega

/-! ### invariants over runs -/

theorem keyId_step (s : BanManager) (op : Op) (h : KeyId s) : KeyId (s.step op).2 := by
  cases op with
  | add now t =>
    simp only [step]
    by_cases hx : ends t s.banTime < now
    · rw [addBan_expired s now t hx]; exact h
    · cases hg : s.banList.get? t.id with
      | none =>
        rw [addBan_new s now t hx hg]
        intro x d hd
        simp only [Dict.get?_insert] at hd
        split at hd
        · rename_i e; cases hd; rw [e]; rfl
        · exact h _ _ hd
      | some old =>
        rw [addBan_old s now t old hx hg]
        split
        · intro x d hd
          simp only [Dict.get?_insert] at hd
          split at hd
          · rename_i e; cases hd; rw [e]; exact (h t.id old hg : old.id = t.id)
          · exact h _ _ hd
        · exact h
  | unban time n =>
    intro x d hd
    exact h _ _ ((mem_unBanList s time n x d).1 hd).1
  | pop fid =>
    intro x d hd
    simp only [step, getTicketByID, Dict.get?_erase] at hd
    split at hd
    · cases hd
    · exact h _ _ hd
  | flush => intro x d hd; simp [step, flushBanList] at hd
  | setBanTime v => exact h
  | setTicketBanTime fid v =>
    simp only [step]
    split
    · rename_i t ht
      intro x d hd
      simp only [Dict.get?_insert] at hd
      split at hd
      · rename_i e; cases hd; rw [e]; exact (h fid t ht : t.id = fid)
      · exact h _ _ hd
    · exact h

theorem run_nil (s : BanManager) : s.run [] = (⟨[], []⟩, s) := rfl

theorem run_cons (s : BanManager) (op : Op) (ops : List Op) :
    s.run (op :: ops) = (⟨(s.step op).1.accepted ++ ((s.step op).2.run ops).1.accepted,
      (s.step op).1.released ++ ((s.step op).2.run ops).1.released⟩, ((s.step op).2.run ops).2) := rfl

theorem keyId_run (s : BanManager) (ops : List Op) (h : KeyId s) : KeyId (s.run ops).2 := by
  induction ops generalizing s with
  | nil => exact h
  | cons op ops ih => rw [run_cons]; exact ih _ (keyId_step s op h)

theorem keyId_init : KeyId init := by intro x d hd; cases hd

end Verif.BanManager
