import Verif.Py.List
import Verif.Spec.Database

/-! # Lemmas about the database -/

namespace Verif.Db

open Verif.Spec.Database

theorem opt_filter_true {α : Type} (o : Option α) : o.filter (fun _ => true) = o := by cases o <;> rfl

theorem run_append (s : Db) (a b : List Op) : s.run (a ++ b) = (s.run a).run b := by simp [run]

theorem lastN_of_le {α : Type} (n : Nat) (l : List α) (h : l.length ≤ n) : lastN n l = l := by
  unfold lastN
  rw [List.take_of_length_le (by simpa using h), List.reverse_reverse]

theorem lastN_eq_drop {α : Type} (n : Nat) (l : List α) : lastN n l = l.drop (l.length - n) := by
  unfold lastN
  rw [List.take_reverse, List.reverse_reverse]

theorem isRecordOf_row (s : Db) (jail : String) (d : Int) (t : Ticket) : IsRecordOf s.maxMatches jail d t (s.row jail d t) := by
  refine ⟨rfl, rfl, rfl, ?_, rfl, rfl, ?_⟩
  · show t.getBanTime d = _
    unfold Ticket.getBanTime
    cases t.banTime <;> rfl
  · show (storedData s.maxMatches t).lines.getD [] = _
    unfold storedData
    cases t.matches' with
    | none => simp [lastN]
    | some ms =>
      simp only [Option.getD_some]
      by_cases h0 : ms = []
      · subst h0; simp [lastN]
      · rw [if_neg h0]
        by_cases hm : s.maxMatches = 0
        · simp [hm, lastN]
        · rw [if_pos hm]
          by_cases hl : s.maxMatches < ms.length
          · rw [if_pos hl, lastN_eq_drop]; rfl
          · rw [if_neg hl, lastN_of_le _ _ (by omega)]; rfl

/-- Attributes that no operation changes. -/
theorem delBan_fold_cfg (ips : List Fid) (s : Db) (j : String) :
    (ips.foldl (fun s ip => s.delBan1 j ip) s).maxMatches = s.maxMatches ∧
    (ips.foldl (fun s ip => s.delBan1 j ip) s).purgeAge = s.purgeAge ∧
    (ips.foldl (fun s ip => s.delBan1 j ip) s).outDatedFactor = s.outDatedFactor ∧
    (ips.foldl (fun s ip => s.delBan1 j ip) s).jails = s.jails ∧
    (ips.foldl (fun s ip => s.delBan1 j ip) s).logs = s.logs ∧
    (ips.foldl (fun s ip => s.delBan1 j ip) s).merged = s.merged := by
  induction ips generalizing s with
  | nil => exact ⟨rfl, rfl, rfl, rfl, rfl, rfl⟩
  | cons a l ih => exact ih (s.delBan1 j a)

theorem delBan_cfg (s : Db) (j : String) (ips : List Fid) :
    (s.delBan j ips).maxMatches = s.maxMatches ∧ (s.delBan j ips).purgeAge = s.purgeAge ∧
    (s.delBan j ips).outDatedFactor = s.outDatedFactor ∧ (s.delBan j ips).jails = s.jails ∧
    (s.delBan j ips).logs = s.logs ∧ (s.delBan j ips).merged = s.merged := by
  unfold delBan
  by_cases h : ips = []
  · rw [if_pos h]; exact ⟨rfl, rfl, rfl, rfl, rfl, rfl⟩
  · rw [if_neg h]; exact delBan_fold_cfg ips s j

theorem addBan_eq (s : Db) (j : String) (d : Int) (t : Ticket) :
    (s.addBan j d t).2 = { s with
      merged := s.merged.erase (t.id, j)
      bans := if s.jails.contains j then s.bans ++ [s.row j d t] else s.bans
      bips := if s.jails.contains j then s.bips.insert (t.id, j) (s.row j d t) else s.bips } := by
  unfold addBan
  by_cases h : s.jails.contains j = true
  · simp only [h, if_true]; rfl
  · simp only [h, if_false, Bool.false_eq_true]

theorem addBan_fst (s : Db) (j : String) (d : Int) (t : Ticket) : (s.addBan j d t).1 = s.jails.contains j := by
  unfold addBan
  by_cases h : s.jails.contains j = true
  · simp [h]
  · simp [h]

theorem step_cfg (s : Db) (op : Op) : (s.step op).maxMatches = s.maxMatches ∧ (s.step op).purgeAge = s.purgeAge ∧
    (s.step op).outDatedFactor = s.outDatedFactor := by
  cases op with
  | addJail n => exact ⟨rfl, rfl, rfl⟩
  | delJail n =>
    show (s.delJail n).maxMatches = _ ∧ (s.delJail n).purgeAge = _ ∧ (s.delJail n).outDatedFactor = _
    unfold delJail; by_cases h : s.jails.contains n = true <;> simp [h]
  | addBan j d t =>
    show (s.addBan j d t).2.maxMatches = _ ∧ (s.addBan j d t).2.purgeAge = _ ∧ (s.addBan j d t).2.outDatedFactor = _
    rw [addBan_eq]; exact ⟨rfl, rfl, rfl⟩
  | delBan j ips => exact ⟨(delBan_cfg s j ips).1, (delBan_cfg s j ips).2.1, (delBan_cfg s j ips).2.2.1⟩
  | merged ip j =>
    show (s.getBansMerged ip j).2.maxMatches = _ ∧ (s.getBansMerged ip j).2.purgeAge = _ ∧ (s.getBansMerged ip j).2.outDatedFactor = _
    unfold getBansMerged; cases s.merged.get? (ip, j) <;> exact ⟨rfl, rfl, rfl⟩
  | purge now => exact ⟨rfl, rfl, rfl⟩
  | addLog j p pos md5 =>
    show (s.addLog j p pos md5).2.maxMatches = _ ∧ (s.addLog j p pos md5).2.purgeAge = _ ∧ (s.addLog j p pos md5).2.outDatedFactor = _
    unfold addLog
    simp only []
    split
    · split <;> exact ⟨rfl, rfl, rfl⟩
    · exact ⟨rfl, rfl, rfl⟩
  | updateLog j p pos md5 =>
    show ((s.updateLog j p pos md5).getD s).maxMatches = _ ∧ ((s.updateLog j p pos md5).getD s).purgeAge = _ ∧
      ((s.updateLog j p pos md5).getD s).outDatedFactor = _
    unfold updateLog; split <;> exact ⟨rfl, rfl, rfl⟩

theorem run_cfg (s : Db) (ops : List Op) : (s.run ops).maxMatches = s.maxMatches ∧ (s.run ops).purgeAge = s.purgeAge ∧
    (s.run ops).outDatedFactor = s.outDatedFactor := by
  induction ops generalizing s with
  | nil => exact ⟨rfl, rfl, rfl⟩
  | cons op ops ih =>
    have h := ih (s.step op)
    have h1 := step_cfg s op
    exact ⟨h.1.trans h1.1, h.2.1.trans h1.2.1, h.2.2.trans h1.2.2⟩

/-- The removal of several addresses, on both tables. -/
theorem delBan_fold (ips : List Fid) (s : Db) (j : String) :
    (ips.foldl (fun s ip => s.delBan1 j ip) s).bans = s.bans.filter (fun r => !(decide (r.jail = j) && ips.contains r.ip)) ∧
    ∀ ip jail, (ips.foldl (fun s ip => s.delBan1 j ip) s).bips.get? (ip, jail)
      = if j = jail ∧ ip ∈ ips then none else s.bips.get? (ip, jail) := by
  induction ips generalizing s with
  | nil =>
    refine ⟨?_, ?_⟩
    · simp only [List.contains_nil, Bool.and_false, Bool.not_false, List.foldl_nil]
      exact (List.filter_eq_self.2 (fun _ _ => rfl)).symm
    · intro ip jail; simp
  | cons a l ih =>
    obtain ⟨h1, h2⟩ := ih (s.delBan1 j a)
    refine ⟨?_, ?_⟩
    · simp only [List.foldl_cons]
      rw [h1]
      show (s.bans.filter _).filter _ = _
      rw [List.filter_filter]
      apply List.filter_congr
      intro r _
      by_cases e1 : r.jail = j <;> by_cases e2 : r.ip = a <;> simp [e1, e2]
    · intro ip jail
      simp only [List.foldl_cons]
      rw [h2]
      show (if _ then none else (s.bips.filter _).get? (ip, jail)) = _
      rw [Dict.get?_filter]
      by_cases e1 : j = jail
      · by_cases e2 : ip ∈ l
        · simp [e1, e2]
        · by_cases e3 : ip = a
          · simp [e1, e3]
          · simp [e1, e2, e3, opt_filter_true]
      · have e1' : ¬ jail = j := fun h => e1 h.symm
        simp [e1, e1', opt_filter_true]

theorem delBan_bans (s : Db) (j : String) (ips : List Fid) :
    (s.delBan j ips).bans = s.bans.filter (fun r => !(decide (j = r.jail) && (ips.isEmpty || ips.contains r.ip))) := by
  unfold delBan
  by_cases h : ips = []
  · rw [if_pos h]; subst h
    show s.bans.filter _ = _
    apply List.filter_congr
    intro r _
    simp [eq_comm]
  · rw [if_neg h, (delBan_fold ips s j).1]
    apply List.filter_congr
    intro r _
    have : ips.isEmpty = false := by cases ips with | nil => exact absurd rfl h | cons a l => rfl
    simp [this, eq_comm]

theorem delBan_bips (s : Db) (j : String) (ips : List Fid) (ip : Fid) (jail : String) :
    (s.delBan j ips).bips.get? (ip, jail) = if j = jail ∧ (ips = [] ∨ ip ∈ ips) then none else s.bips.get? (ip, jail) := by
  unfold delBan
  by_cases h : ips = []
  · rw [if_pos h]; subst h
    show (s.bips.filter _).get? _ = _
    rw [Dict.get?_filter]
    by_cases e1 : j = jail
    · simp [e1]
    · have e1' : ¬ jail = j := fun h => e1 h.symm
      simp [e1, e1', opt_filter_true]
  · rw [if_neg h, (delBan_fold ips s j).2]
    simp [h]

theorem purge_bips (s : Db) (now : Int) (k : Fid × String) :
    (s.purge now).bips.get? k = (s.bips.get? k).filter (fun r => !(decide (r.time < now - s.purgeAge) && decide (r.banTime ≠ -1) &&
      decide (r.time + r.banTime * s.outDatedFactor < now - s.purgeAge))) := by
  show (s.bips.filter _).get? k = _
  rw [Dict.get?_filter]

theorem outdated_iff (s : Db) (r : BanRow) (now : Int) :
    (!(decide (r.time < now - s.purgeAge) && decide (r.banTime ≠ -1) &&
      decide (r.time + r.banTime * s.outDatedFactor < now - s.purgeAge))) = true ↔ ¬ Outdated s r now := by
  unfold Outdated
  simp only [Bool.not_eq_true', Bool.and_eq_false_iff, decide_eq_false_iff_not, Classical.not_and_iff_not_or_not]
  rw [or_assoc]

/-- The current record after one operation. -/
theorem bips_step (s : Db) (op : Op) (ip : Fid) (jail : String) (r : BanRow) :
    (s.step op).bips.get? (ip, jail) = some r ↔
      (∃ d t, op = .addBan jail d t ∧ t.id = ip ∧ s.jails.contains jail = true ∧ r = s.row jail d t) ∨
      (s.bips.get? (ip, jail) = some r ∧ ¬ Removes op ip jail ∧ (Replaces op ip jail → s.jails.contains jail = false) ∧
        ∀ now, op = .purge now → ¬ Outdated s r now) := by
  cases op with
  | addBan j d t =>
    show (s.addBan j d t).2.bips.get? (ip, jail) = some r ↔ _
    rw [addBan_eq]
    show (if s.jails.contains j = true then _ else s.bips).get? (ip, jail) = some r ↔ _
    constructor
    · intro h
      by_cases hj : s.jails.contains j = true
      · rw [if_pos hj, Dict.get?_insert] at h
        by_cases hk : (ip, jail) = (t.id, j)
        · rw [if_pos hk] at h
          obtain ⟨e1, e2⟩ := Prod.mk.inj hk
          subst e2
          exact Or.inl ⟨d, t, rfl, e1.symm, hj, (Option.some.inj h).symm⟩
        · rw [if_neg hk] at h
          refine Or.inr ⟨h, ?_, ?_, ?_⟩
          · rintro ⟨ips, e, _⟩; cases e
          · rintro ⟨d', t', e, e2⟩; cases e; exact absurd (by rw [e2]) hk
          · intro now e; cases e
      · rw [if_neg hj] at h
        refine Or.inr ⟨h, ?_, ?_, ?_⟩
        · rintro ⟨ips, e, _⟩; cases e
        · rintro ⟨d', t', e, e2⟩; cases e; simpa using hj
        · intro now e; cases e
    · rintro (⟨d', t', e, e1, hj, hr⟩ | ⟨h, _, h2, _⟩)
      · cases e
        rw [if_pos hj, ← e1, Dict.get?_insert_self, hr]
      · by_cases hj : s.jails.contains j = true
        · rw [if_pos hj, Dict.get?_insert]
          by_cases hk : (ip, jail) = (t.id, j)
          · obtain ⟨e1, e2⟩ := Prod.mk.inj hk
            subst e2
            have := h2 ⟨d, t, rfl, e1.symm⟩
            rw [hj] at this; cases this
          · rw [if_neg hk]; exact h
        · rw [if_neg hj]; exact h
  | delBan j ips =>
    show (s.delBan j ips).bips.get? (ip, jail) = some r ↔ _
    rw [delBan_bips]
    constructor
    · intro h
      by_cases hc : j = jail ∧ (ips = [] ∨ ip ∈ ips)
      · rw [if_pos hc] at h; cases h
      · rw [if_neg hc] at h
        refine Or.inr ⟨h, ?_, ?_, ?_⟩
        · rintro ⟨ips', e, hi⟩; cases e; exact hc ⟨rfl, hi⟩
        · rintro ⟨d', t', e, e2⟩; cases e
        · intro now e; cases e
    · rintro (⟨d', t', e, _⟩ | ⟨h, h1, _⟩)
      · cases e
      · have hc : ¬ (j = jail ∧ (ips = [] ∨ ip ∈ ips)) := by
          rintro ⟨rfl, hi⟩; exact h1 ⟨ips, rfl, hi⟩
        rw [if_neg hc]; exact h
  | purge now =>
    show (s.purge now).bips.get? (ip, jail) = some r ↔ _
    rw [purge_bips]
    constructor
    · intro h
      rw [Option.filter_eq_some_iff] at h
      refine Or.inr ⟨h.1, ?_, ?_, ?_⟩
      · rintro ⟨ips', e, hi⟩; cases e
      · rintro ⟨d', t', e, e2⟩; cases e
      · intro n e; injection e with e; subst e; exact (outdated_iff s r _).1 h.2
    · rintro (⟨d', t', e, _⟩ | ⟨h, _, _, h3⟩)
      · cases e
      · rw [Option.filter_eq_some_iff]
        exact ⟨h, (outdated_iff s r now).2 (h3 now rfl)⟩
  | addJail n =>
    constructor
    · intro h; exact Or.inr ⟨h, (by rintro ⟨_, e, _⟩; cases e), (by rintro ⟨_, _, e, _⟩; cases e), (by intro _ e; cases e)⟩
    · rintro (⟨_, _, e, _⟩ | ⟨h, _⟩)
      · cases e
      · exact h
  | delJail n =>
    have e0 : (s.step (.delJail n)).bips = s.bips := by
      show (s.delJail n).bips = _; unfold delJail; split <;> rfl
    rw [e0]
    constructor
    · intro h; exact Or.inr ⟨h, (by rintro ⟨_, e, _⟩; cases e), (by rintro ⟨_, _, e, _⟩; cases e), (by intro _ e; cases e)⟩
    · rintro (⟨_, _, e, _⟩ | ⟨h, _⟩)
      · cases e
      · exact h
  | merged i j =>
    have e0 : (s.step (.merged i j)).bips = s.bips := by
      show (s.getBansMerged i j).2.bips = _; unfold getBansMerged; cases s.merged.get? (i, j) <;> rfl
    rw [e0]
    constructor
    · intro h; exact Or.inr ⟨h, (by rintro ⟨_, e, _⟩; cases e), (by rintro ⟨_, _, e, _⟩; cases e), (by intro _ e; cases e)⟩
    · rintro (⟨_, _, e, _⟩ | ⟨h, _⟩)
      · cases e
      · exact h
  | addLog j p pos md5 =>
    have e0 : (s.step (.addLog j p pos md5)).bips = s.bips := by
      show (s.addLog j p pos md5).2.bips = _
      unfold addLog; simp only []; split
      · split <;> rfl
      · rfl
    rw [e0]
    constructor
    · intro h; exact Or.inr ⟨h, (by rintro ⟨_, e, _⟩; cases e), (by rintro ⟨_, _, e, _⟩; cases e), (by intro _ e; cases e)⟩
    · rintro (⟨_, _, e, _⟩ | ⟨h, _⟩)
      · cases e
      · exact h
  | updateLog j p pos md5 =>
    have e0 : (s.step (.updateLog j p pos md5)).bips = s.bips := by
      show ((s.updateLog j p pos md5).getD s).bips = _
      unfold updateLog; split <;> rfl
    rw [e0]
    constructor
    · intro h; exact Or.inr ⟨h, (by rintro ⟨_, e, _⟩; cases e), (by rintro ⟨_, _, e, _⟩; cases e), (by intro _ e; cases e)⟩
    · rintro (⟨_, _, e, _⟩ | ⟨h, _⟩)
      · cases e
      · exact h

/-- Rows only of jails in the database (the foreign keys), and each under its own key. -/
structure Ok (s : Db) : Prop where
  bips : ∀ ip jail r, s.bips.get? (ip, jail) = some r → r.ip = ip ∧ r.jail = jail ∧ s.jails.contains jail = true
  bans : ∀ r ∈ s.bans, s.jails.contains r.jail = true

theorem ok_init : Ok init := ⟨fun _ _ _ h => (by cases h), fun _ h => (by cases h)⟩

theorem purge_jails (s : Db) (now : Int) (n : String) (b : Bool) :
    (s.purge now).jails.get? n = some b ↔ s.jails.get? n = some b ∧
      (b = true ∨ (∃ r ∈ s.bans, r.jail = n ∧ now - s.purgeAge ≤ r.time) ∨
        (∃ ip r, s.bips.get? (ip, n) = some r ∧ ¬ Outdated s r now)) := by
  have e : (s.purge now).jails.get? n = (s.jails.get? n).filter (fun _ => !(s.jails.get? n == some false &&
      !((s.bans.filter (fun r => !decide (r.time < now - s.purgeAge))).any (fun r => decide (r.jail = n))) &&
      !((s.purge now).bips.items.any (fun kv => decide (kv.1.2 = n))))) := by
    show (s.jails.filter _).get? n = _
    rw [Dict.get?_filter]
    rfl
  rw [e, Option.filter_eq_some_iff]
  have hb : (s.bans.filter (fun r => !decide (r.time < now - s.purgeAge))).any (fun r => decide (r.jail = n)) = true ↔
      ∃ r ∈ s.bans, r.jail = n ∧ now - s.purgeAge ≤ r.time := by
    simp only [List.any_eq_true, List.mem_filter, Bool.not_eq_true', decide_eq_false_iff_not, decide_eq_true_eq]
    constructor
    · rintro ⟨r, ⟨h1, h2⟩, h3⟩; exact ⟨r, h1, h3, by omega⟩
    · rintro ⟨r, h1, h2, h3⟩; exact ⟨r, ⟨h1, by omega⟩, h2⟩
  have hp : (s.purge now).bips.items.any (fun kv => decide (kv.1.2 = n)) = true ↔
      ∃ ip r, s.bips.get? (ip, n) = some r ∧ ¬ Outdated s r now := by
    simp only [List.any_eq_true, decide_eq_true_eq]
    constructor
    · rintro ⟨⟨⟨ip, j⟩, r⟩, h1, h2⟩
      simp only at h2
      subst h2
      have h := (Dict.get?_eq_some_iff _ _ _).2 h1
      rw [purge_bips, Option.filter_eq_some_iff] at h
      exact ⟨ip, r, h.1, (outdated_iff s r now).1 h.2⟩
    · rintro ⟨ip, r, h1, h2⟩
      have h : (s.purge now).bips.get? (ip, n) = some r := by
        rw [purge_bips, Option.filter_eq_some_iff]
        exact ⟨h1, (outdated_iff s r now).2 h2⟩
      exact ⟨((ip, n), r), (Dict.get?_eq_some_iff _ _ _).1 h, rfl⟩
  rw [← hb, ← hp]
  constructor
  · rintro ⟨h1, h2⟩
    refine ⟨h1, ?_⟩
    rw [h1] at h2
    cases b with
    | true => exact Or.inl rfl
    | false =>
      simp only [beq_self_eq_true, Bool.true_and, Bool.not_and, Bool.not_not, Bool.or_eq_true] at h2
      exact Or.inr h2
  · rintro ⟨h1, h2⟩
    refine ⟨h1, ?_⟩
    rw [h1]
    rcases h2 with h2 | h2 | h2
    · subst h2; rfl
    · rw [h2]; simp
    · rw [h2]; simp

theorem jails_step_contains (s : Db) (op : Op) (n : String) (hp : ∀ now, op ≠ .purge now) (h : s.jails.contains n = true) :
    (s.step op).jails.contains n = true := by
  have ins : ∀ (d : Dict String Bool) m b, d.contains n = true → (d.insert m b).contains n = true := by
    intro d m b h
    unfold Dict.contains at h ⊢
    rw [Dict.get?_insert]
    by_cases e : n = m
    · rw [if_pos e]; rfl
    · rw [if_neg e]; exact h
  cases op with
  | addJail m => exact ins _ _ _ h
  | delJail m =>
    show (s.delJail m).jails.contains n = true
    unfold delJail; split
    · exact ins _ _ _ h
    · exact h
  | addBan j d t =>
    show (s.addBan j d t).2.jails.contains n = true
    rw [addBan_eq]; exact h
  | delBan j ips =>
    show (s.delBan j ips).jails.contains n = true
    rw [(delBan_cfg s j ips).2.2.2.1]; exact h
  | merged i j =>
    show (s.getBansMerged i j).2.jails.contains n = true
    unfold getBansMerged; cases s.merged.get? (i, j) <;> exact h
  | purge now => exact absurd rfl (hp now)
  | addLog j p pos md5 =>
    show (s.addLog j p pos md5).2.jails.contains n = true
    unfold addLog; simp only []; split
    · split <;> exact h
    · exact h
  | updateLog j p pos md5 =>
    show ((s.updateLog j p pos md5).getD s).jails.contains n = true
    unfold updateLog; split <;> exact h

theorem bans_step (s : Db) (op : Op) :
    (s.step op).bans = s.bans.filter (fun r => survives s r [op]) ++
      (match op with
        | .addBan j d t => if s.jails.contains j then [s.row j d t] else []
        | _ => []) := by
  have self : ∀ l : List BanRow, l = l.filter (fun _ => true) := fun l => (List.filter_eq_self.2 (fun _ _ => rfl)).symm
  cases op with
  | addJail m => simp only [survives, List.all_cons, List.all_nil, Bool.and_true, List.append_nil]; exact self _
  | delJail m =>
    simp only [survives, List.all_cons, List.all_nil, Bool.and_true, List.append_nil]
    rw [← self]
    show (s.delJail m).bans = _; unfold delJail; split <;> rfl
  | addBan j d t =>
    simp only [survives, List.all_cons, List.all_nil, Bool.and_true]
    rw [← self]
    show (s.addBan j d t).2.bans = _
    rw [addBan_eq]
    by_cases h : s.jails.contains j = true
    · simp [h]
    · simp [h]
  | delBan j ips =>
    simp only [survives, List.all_cons, List.all_nil, Bool.and_true, List.append_nil]
    exact delBan_bans s j ips
  | merged i j =>
    simp only [survives, List.all_cons, List.all_nil, Bool.and_true, List.append_nil]
    rw [← self]
    show (s.getBansMerged i j).2.bans = _; unfold getBansMerged; cases s.merged.get? (i, j) <;> rfl
  | purge now =>
    simp only [survives, List.all_cons, List.all_nil, Bool.and_true, List.append_nil]
    show s.bans.filter _ = _
    apply List.filter_congr
    intro r _
    by_cases h : r.time < now - s.purgeAge
    · have h' : ¬ now - s.purgeAge ≤ r.time := by omega
      simp [h, h']
    · have h' : now - s.purgeAge ≤ r.time := by omega
      simp [h, h']
  | addLog j p pos md5 =>
    simp only [survives, List.all_cons, List.all_nil, Bool.and_true, List.append_nil]
    rw [← self]
    show (s.addLog j p pos md5).2.bans = _
    unfold addLog; simp only []; split
    · split <;> rfl
    · rfl
  | updateLog j p pos md5 =>
    simp only [survives, List.all_cons, List.all_nil, Bool.and_true, List.append_nil]
    rw [← self]
    show ((s.updateLog j p pos md5).getD s).bans = _
    unfold updateLog; split <;> rfl

theorem contains_of_get? {K V : Type} [DecidableEq K] {d : Dict K V} {k : K} {v : V} (h : d.get? k = some v) : d.contains k = true := by
  unfold Dict.contains; rw [h]; rfl

theorem get?_of_contains {K V : Type} [DecidableEq K] {d : Dict K V} {k : K} (h : d.contains k = true) : ∃ v, d.get? k = some v := by
  unfold Dict.contains at h; exact Option.isSome_iff_exists.1 h

theorem ok_step (s : Db) (h : Ok s) (op : Op) : Ok (s.step op) := by
  by_cases hp : ∃ now, op = .purge now
  · obtain ⟨now, rfl⟩ := hp
    refine ⟨?_, ?_⟩
    · intro ip jail r hr
      have h1 := (bips_step s (.purge now) ip jail r).1 hr
      rcases h1 with ⟨_, _, e, _⟩ | ⟨h1, _, _, h2⟩
      · cases e
      · obtain ⟨a, b, c⟩ := h.bips ip jail r h1
        obtain ⟨v, hv⟩ := get?_of_contains c
        refine ⟨a, b, contains_of_get? (v := v) ?_⟩
        exact (purge_jails s now jail v).2 ⟨hv, Or.inr (Or.inr ⟨ip, r, h1, h2 now rfl⟩)⟩
    · intro r hr
      rw [bans_step] at hr
      simp only [List.append_nil, List.mem_filter, survives, List.all_cons, List.all_nil, Bool.and_true, decide_eq_true_eq] at hr
      obtain ⟨v, hv⟩ := get?_of_contains (h.bans r hr.1)
      exact contains_of_get? (v := v) ((purge_jails s now r.jail v).2 ⟨hv, Or.inr (Or.inl ⟨r, hr.1, rfl, hr.2⟩)⟩)
  · have hp' : ∀ now, op ≠ .purge now := fun now e => hp ⟨now, e⟩
    refine ⟨?_, ?_⟩
    · intro ip jail r hr
      rcases (bips_step s op ip jail r).1 hr with ⟨d, t, e, e1, hj, hr'⟩ | ⟨h1, _⟩
      · subst hr'
        exact ⟨e1, rfl, jails_step_contains s op jail hp' hj⟩
      · obtain ⟨a, b, c⟩ := h.bips ip jail r h1
        exact ⟨a, b, jails_step_contains s op jail hp' c⟩
    · intro r hr
      rw [bans_step] at hr
      rcases List.mem_append.1 hr with hr | hr
      · exact jails_step_contains s op _ hp' (h.bans r (List.mem_filter.1 hr).1)
      · cases op with
        | addBan j d t =>
          by_cases hj : s.jails.contains j = true
          · simp only [hj, if_true, List.mem_singleton] at hr
            subst hr
            exact jails_step_contains s _ _ hp' hj
          · simp [hj] at hr
        | _ => simp at hr

theorem ok_run (s : Db) (h : Ok s) (ops : List Op) : Ok (s.run ops) := by
  induction ops generalizing s with
  | nil => exact h
  | cons op ops ih => exact ih _ (ok_step s h op)

theorem outdated_congr {s s' : Db} (h1 : s'.purgeAge = s.purgeAge) (h2 : s'.outDatedFactor = s.outDatedFactor) (r : BanRow) (now : Int) :
    Outdated s' r now ↔ Outdated s r now := by unfold Outdated; rw [h1, h2]

/-- The current record after a history. -/
theorem bips_run (s : Db) (hs : Ok s) (ops : List Op) (ip : Fid) (jail : String) (r : BanRow) :
    (s.run ops).bips.get? (ip, jail) = some r ↔
      (∃ pre post d t, ops = pre ++ .addBan jail d t :: post ∧ t.id = ip ∧ ((s.run pre).addBan jail d t).1 = true ∧
        r = s.row jail d t ∧ Kept s r ip jail post) ∨
      (s.bips.get? (ip, jail) = some r ∧ Kept s r ip jail ops) := by
  induction ops using list_snoc_induction with
  | nil =>
    constructor
    · intro h; exact Or.inr ⟨h, fun _ h => (by cases h)⟩
    · rintro (⟨pre, post, d, t, e, _⟩ | ⟨h, _⟩)
      · have := congrArg List.length e; simp at this
      · exact h
  | snoc ops op ih =>
    have hstep : (s.run (ops ++ [op])) = (s.run ops).step op := by rw [run_append]; rfl
    rw [hstep, bips_step, ih]
    have cfg := run_cfg s ops
    have hrow : ∀ d t, (s.run ops).row jail d t = s.row jail d t := by
      intro d t; unfold row; rw [cfg.1]
    have hout : ∀ r now, Outdated (s.run ops) r now ↔ Outdated s r now := fun r now => outdated_congr cfg.2.1 cfg.2.2 r now
    constructor
    · rintro (⟨d, t, e, e1, hj, hr⟩ | ⟨hr, h1, h2, h3⟩)
      · exact Or.inl ⟨ops, [], d, t, by rw [e], e1, by rw [addBan_fst]; exact hj, by rw [hr, hrow], fun _ h => (by cases h)⟩
      · have hjail : (s.run ops).jails.contains jail = true := by
          exact ((ok_run s hs ops).bips ip jail r (ih.2 hr)).2.2
        have hop : ¬ Removes op ip jail ∧ ¬ Replaces op ip jail ∧ ∀ now, op = .purge now → ¬ Outdated s r now := by
          refine ⟨h1, ?_, fun now e => fun ho => h3 now e ((hout r now).2 ho)⟩
          intro hc; have := h2 hc; rw [hjail] at this; cases this
        rcases hr with ⟨pre, post, d, t, e, e1, ha, hrr, hk⟩ | ⟨h, hk⟩
        · refine Or.inl ⟨pre, post ++ [op], d, t, by rw [e]; simp, e1, ha, hrr, ?_⟩
          intro o ho
          rcases List.mem_append.1 ho with ho | ho
          · exact hk o ho
          · rw [List.mem_singleton.1 ho]; exact hop
        · refine Or.inr ⟨h, ?_⟩
          intro o ho
          rcases List.mem_append.1 ho with ho | ho
          · exact hk o ho
          · rw [List.mem_singleton.1 ho]; exact hop
    · rintro (⟨pre, post, d, t, e, e1, ha, hrr, hk⟩ | ⟨h, hk⟩)
      · rcases append_eq_snoc_cases e with ⟨e2, _⟩ | ⟨q', e2, e3⟩
        · cases e2
        · cases q' with
          | nil =>
            simp only [List.nil_append, List.cons.injEq] at e2
            obtain ⟨e4, e5⟩ := e2
            subst e5
            rw [List.append_nil] at e3
            subst e3
            rw [addBan_fst] at ha
            exact Or.inl ⟨d, t, e4.symm, e1, ha, by rw [hrr, hrow]⟩
          | cons a q' =>
            simp only [List.cons_append, List.cons.injEq] at e2
            obtain ⟨e4, e5⟩ := e2
            subst e4
            have hop := hk op (by rw [e5]; simp)
            refine Or.inr ⟨Or.inl ⟨pre, q', d, t, e3, e1, ha, hrr, ?_⟩, hop.1, fun hc => absurd hc hop.2.1, ?_⟩
            · intro o ho; exact hk o (by rw [e5]; simp [ho])
            · intro now e ho; exact hop.2.2 now e ((hout r now).1 ho)
      · have hop := hk op (by simp)
        refine Or.inr ⟨Or.inr ⟨h, fun o ho => hk o (by simp [ho])⟩, hop.1, fun hc => absurd hc hop.2.1, ?_⟩
        intro now e ho; exact hop.2.2 now e ((hout r now).1 ho)

end Verif.Db
