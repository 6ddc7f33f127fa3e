import Verif.Lemmas.Database

/-!
# Properties of the database: C27 (current bans), C28 (purge), C29 (log positions), C53 (merged bans)
-/

namespace Verif

open Spec.Database

/-! ## C27 -/

/-- C27: a current record of an address in a jail is the record of the latest accepted ban of it, since when it was neither removed,
replaced nor (being outdated) purged. -/
theorem C27_current (ops : List Db.Op) (ip : Fid) (jail : String) (r : BanRow)
    (h : (Db.init.run ops).bips.get? (ip, jail) = some r) :
    ∃ pre post d t, ops = pre ++ .addBan jail d t :: post ∧ t.id = ip ∧ ((Db.init.run pre).addBan jail d t).1 = true ∧
      IsRecordOf 10 jail d t r ∧ Kept Db.init r ip jail post := by
  rcases (Db.bips_run Db.init Db.ok_init ops ip jail r).1 h with ⟨pre, post, d, t, e, e1, ha, hr, hk⟩ | ⟨h, _⟩
  · refine ⟨pre, post, d, t, e, e1, ha, ?_, hk⟩
    rw [hr]; exact Db.isRecordOf_row Db.init jail d t
  · cases h

/-- C27, conversely: an accepted ban which is neither removed nor replaced later is the current record, if it is not outdated at any purge
— whatever the database contained at the beginning. -/
theorem C27_latest (s : Db) (hs : Db.Ok s) (pre post : List Db.Op) (jail : String) (d : Int) (t : Ticket)
    (ha : ((s.run pre).addBan jail d t).1 = true)
    (hp : ∀ op ∈ post, ¬ Removes op t.id jail ∧ ¬ Replaces op t.id jail) :
    ∃ r, IsRecordOf s.maxMatches jail d t r ∧
      ((∀ now, .purge now ∈ post → ¬ Outdated s r now) →
        (s.run (pre ++ .addBan jail d t :: post)).bips.get? (t.id, jail) = some r) := by
  refine ⟨s.row jail d t, Db.isRecordOf_row s jail d t, fun hk => ?_⟩
  refine (Db.bips_run s hs _ t.id jail _).2 (Or.inl ⟨pre, post, d, t, rfl, rfl, ha, rfl, ?_⟩)
  intro op ho
  exact ⟨(hp op ho).1, (hp op ho).2, fun now e => hk now (e ▸ ho)⟩

/-- C27: after a removal nothing is left of the address in the jail — neither a current record nor one in the history — and other jails
and addresses are not touched. -/
theorem C27_removed (s : Db) (jail : String) (ips : List Fid) (ip : Fid) (j : String) :
    ((s.delBan jail ips).bips.get? (ip, j) = if j = jail ∧ (ips = [] ∨ ip ∈ ips) then none else s.bips.get? (ip, j)) ∧
    ∀ r, r ∈ (s.delBan jail ips).bans ↔ r ∈ s.bans ∧ ¬ (r.jail = jail ∧ (ips = [] ∨ r.ip ∈ ips)) := by
  refine ⟨?_, ?_⟩
  · rw [Db.delBan_bips]
    by_cases e : jail = j
    · simp [e]
    · have e' : ¬ j = jail := fun h => e h.symm
      simp [e, e']
  · intro r
    rw [Db.delBan_bans, List.mem_filter]
    by_cases e : jail = r.jail
    · simp [e]
    · have e' : ¬ r.jail = jail := fun h => e h.symm
      simp [e, e']

/-- The records added to the history table by the operations, which survive the rest of them. -/
def recorded (s : Db) : List Db.Op → List BanRow
  | [] => []
  | op :: ops =>
    (match op with
      | .addBan j d t => if s.jails.contains j ∧ survives s (s.row j d t) ops then [s.row j d t] else []
      | _ => []) ++ recorded (s.step op) ops

/-- C27: the history table consists of what was recorded, in order, one record per accepted ban, without what was removed or purged later. -/
theorem C27_history (s : Db) (ops : List Db.Op) :
    (s.run ops).bans = s.bans.filter (fun r => survives s r ops) ++ recorded s ops := by
  induction ops generalizing s with
  | nil =>
    simp only [Db.run, List.foldl_nil, recorded, survives, List.all_nil, List.append_nil]
    exact (List.filter_eq_self.2 (fun _ _ => rfl)).symm
  | cons op ops ih =>
    show ((s.step op).run ops).bans = _
    rw [ih, Db.bans_step, List.filter_append, List.filter_filter]
    have hsv : ∀ r, survives (s.step op) r ops = survives s r ops := by
      intro r; unfold survives; rw [(Db.step_cfg s op).2.1]
    rw [List.append_assoc]
    have e1 : s.bans.filter (fun r => survives (s.step op) r ops && survives s r [op])
        = s.bans.filter (fun r => survives s r (op :: ops)) := by
      apply List.filter_congr
      intro r _
      rw [hsv]
      simp only [survives, List.all_cons, List.all_nil, Bool.and_true]
      rw [Bool.and_comm]
    rw [e1]
    congr 1
    cases op with
    | addBan j d t =>
      simp only [recorded]
      by_cases hj : s.jails.contains j = true
      · by_cases hv : survives s (s.row j d t) ops = true
        · simp [hj, hv, hsv]
        · simp [hj, hv, hsv]
      · simp [hj]
    | _ => simp [recorded]

/-- C27: without removals and purges the history only grows, by one record per accepted ban. -/
theorem C27_grows (s : Db) (ops : List Db.Op) (h : ∀ op ∈ ops, (∀ j ips, op ≠ .delBan j ips) ∧ ∀ now, op ≠ .purge now) :
    ∃ l, (s.run ops).bans = s.bans ++ l := by
  refine ⟨recorded s ops, ?_⟩
  rw [C27_history]
  congr 1
  apply List.filter_eq_self.2
  intro r _
  unfold survives
  rw [List.all_eq_true]
  intro op ho
  cases op with
  | delBan j ips => exact absurd rfl ((h _ ho).1 j ips)
  | purge now => exact absurd rfl ((h _ ho).2 now)
  | _ => rfl

/-- C27: a ban is accepted exactly if its jail is in the database; one whose jail is not leaves both tables as they are. -/
theorem C27_accepted (s : Db) (jail : String) (d : Int) (t : Ticket) :
    ((s.addBan jail d t).1 = true ↔ jail ∈ s.jails.keys) ∧
    ((s.addBan jail d t).1 = false → (s.addBan jail d t).2.bans = s.bans ∧ (s.addBan jail d t).2.bips = s.bips) := by
  rw [Db.addBan_fst, Dict.contains_iff]
  refine ⟨Iff.rfl, fun h => ?_⟩
  rw [Db.addBan_eq]
  simp [h]

/-- C27: a jail that was added and not disabled since is in the database, whatever is purged. -/
theorem C27_jail_enabled (s : Db) (jail : String) (post : List Db.Op) (h : ∀ op ∈ post, op ≠ .delJail jail) :
    ((s.addJail jail).run post).jails.get? jail = some true := by
  have key : ∀ (ops : List Db.Op) (s : Db), s.jails.get? jail = some true → (∀ op ∈ ops, op ≠ .delJail jail) →
      (s.run ops).jails.get? jail = some true := by
    intro ops
    induction ops with
    | nil => intro s h _; exact h
    | cons op ops ih =>
      intro s hs hop
      refine ih (s.step op) ?_ (fun o ho => hop o (List.mem_cons_of_mem _ ho))
      have hne := hop op List.mem_cons_self
      cases op with
      | addJail m =>
        show (s.jails.insert m true).get? jail = _
        rw [Dict.get?_insert]; split
        · rfl
        · exact hs
      | delJail m =>
        show (s.delJail m).jails.get? jail = _
        unfold Db.delJail; split
        · show (s.jails.insert m false).get? jail = _
          rw [Dict.get?_insert_ne _ (fun e => hne (by rw [e]))]; exact hs
        · exact hs
      | addBan j d t => show (s.addBan j d t).2.jails.get? jail = _; rw [Db.addBan_eq]; exact hs
      | delBan j ips => show (s.delBan j ips).jails.get? jail = _; rw [(Db.delBan_cfg s j ips).2.2.2.1]; exact hs
      | merged i j =>
        show (s.getBansMerged i j).2.jails.get? jail = _
        unfold Db.getBansMerged; cases s.merged.get? (i, j) <;> exact hs
      | purge now => exact (Db.purge_jails s now jail true).2 ⟨hs, Or.inl rfl⟩
      | addLog j p pos md5 =>
        show (s.addLog j p pos md5).2.jails.get? jail = _
        unfold Db.addLog; simp only []; split
        · split <;> exact hs
        · exact hs
      | updateLog j p pos md5 =>
        show ((s.updateLog j p pos md5).getD s).jails.get? jail = _
        unfold Db.updateLog; split <;> exact hs
  exact key post _ (Dict.get?_insert_self _ _ _) h

/-- C27: what the database answers about an address in one jail, and over all jails: the sum of the ban counts and ban times and the
moment of the latest ban. -/
theorem C27_get_ban (s : Db) (ip : Fid) (jail : String) :
    s.getBan ip jail false = (s.bips.get? (ip, jail)).map (fun r => (r.count, r.time, r.banTime)) ∧
    (s.getBan ip jail true = none ↔ ∀ j, s.bips.get? (ip, j) = none) ∧
    ∀ n tm bt, s.getBan ip jail true = some (n, tm, bt) →
      n = ((s.bips.items.filter (fun kv => decide (kv.1.1 = ip))).map (fun kv => kv.2.count)).sum ∧
      bt = ((s.bips.items.filter (fun kv => decide (kv.1.1 = ip))).map (fun kv => kv.2.banTime)).sum ∧
      (∃ j r, s.bips.get? (ip, j) = some r ∧ r.time = tm) ∧
      ∀ j r, s.bips.get? (ip, j) = some r → r.time ≤ tm := by
  refine ⟨rfl, ?_, ?_⟩
  · show (match s.bips.items.filter (fun kv => decide (kv.1.1 = ip)) with
      | [] => none
      | r :: rs => some _) = none ↔ _
    cases hf : s.bips.items.filter (fun kv => decide (kv.1.1 = ip)) with
    | nil =>
      simp only [true_iff]
      intro j
      cases hg : s.bips.get? (ip, j) with
      | none => rfl
      | some r =>
        have := (Dict.get?_eq_some_iff _ _ _).1 hg
        have hm : ((ip, j), r) ∈ s.bips.items.filter (fun kv => decide (kv.1.1 = ip)) := List.mem_filter.2 ⟨this, by simp⟩
        rw [hf] at hm; cases hm
    | cons a l =>
      simp only [reduceCtorEq, false_iff]
      intro hc
      obtain ⟨⟨i, j⟩, r⟩ := a
      have hm : ((i, j), r) ∈ s.bips.items.filter (fun kv => decide (kv.1.1 = ip)) := by rw [hf]; simp
      obtain ⟨h1, h2⟩ := List.mem_filter.1 hm
      simp only [decide_eq_true_eq] at h2
      subst h2
      have := (Dict.get?_eq_some_iff _ _ _).2 h1
      rw [hc j] at this; cases this
  · intro n tm bt h
    have h' : (match s.bips.items.filter (fun kv => decide (kv.1.1 = ip)) with
      | [] => none
      | r :: rs => some (((r :: rs).map (fun kv => kv.2.count)).sum, rs.foldl (fun m kv => max m kv.2.time) r.2.time,
          ((r :: rs).map (fun kv => kv.2.banTime)).sum)) = some (n, tm, bt) := h
    cases hf : s.bips.items.filter (fun kv => decide (kv.1.1 = ip)) with
    | nil => rw [hf] at h'; cases h'
    | cons a l =>
      rw [hf] at h'
      have h'' := Option.some.inj h'
      simp only [Prod.mk.injEq] at h''
      obtain ⟨e1, e2, e3⟩ := h''
      refine ⟨e1.symm, e3.symm, ?_⟩
      have fold : ∀ (l : List ((Fid × String) × BanRow)) (m : Int),
          (l.foldl (fun m kv => max m kv.2.time) m = m ∨ ∃ kv ∈ l, kv.2.time = l.foldl (fun m kv => max m kv.2.time) m) ∧
          m ≤ l.foldl (fun m kv => max m kv.2.time) m ∧ ∀ kv ∈ l, kv.2.time ≤ l.foldl (fun m kv => max m kv.2.time) m := by
        intro l
        induction l with
        | nil => intro m; exact ⟨Or.inl rfl, Int.le_refl _, fun _ h => (by cases h)⟩
        | cons b l ih =>
          intro m
          obtain ⟨i1, i2, i3⟩ := ih (max m b.2.time)
          refine ⟨?_, ?_, ?_⟩
          · rcases i1 with i1 | ⟨kv, hk, e⟩
            · simp only [List.foldl_cons]
              rw [i1]
              by_cases hc : b.2.time ≤ m
              · left; omega
              · right; exact ⟨b, List.mem_cons_self, by omega⟩
            · right; exact ⟨kv, List.mem_cons_of_mem _ hk, e⟩
          · simp only [List.foldl_cons]; omega
          · intro kv hk
            simp only [List.foldl_cons]
            rcases List.mem_cons.1 hk with rfl | hk
            · omega
            · exact i3 kv hk
      obtain ⟨f1, f2, f3⟩ := fold l a.2.time
      rw [e2] at f1 f2 f3
      have mem : ∀ j r, s.bips.get? (ip, j) = some r ↔ ((ip, j), r) ∈ a :: l := by
        intro j r
        rw [Dict.get?_eq_some_iff, ← hf, List.mem_filter]; simp
      have key : ∀ kv ∈ a :: l, kv.1.1 = ip := by
        intro kv hk; rw [← hf, List.mem_filter] at hk; simpa using hk.2
      refine ⟨?_, ?_⟩
      · rcases f1 with f1 | ⟨kv, hk, e⟩
        · obtain ⟨⟨i, j⟩, r⟩ := a
          have : i = ip := key _ List.mem_cons_self
          subst this
          exact ⟨j, r, (mem j r).2 List.mem_cons_self, f1.symm⟩
        · obtain ⟨⟨i, j⟩, r⟩ := kv
          have : i = ip := key _ (List.mem_cons_of_mem _ hk)
          subst this
          exact ⟨j, r, (mem j r).2 (List.mem_cons_of_mem _ hk), e⟩
      · intro j r hr
        rcases List.mem_cons.1 ((mem j r).1 hr) with e | hk
        · rw [← e] at f2; exact f2
        · exact f3 _ hk

/-! ## C28 -/

/-- C28: a permanent ban is never purged. -/
theorem C28_permanent (s : Db) (now : Int) (ip : Fid) (jail : String) (r : BanRow) (h : s.bips.get? (ip, jail) = some r)
    (hp : r.banTime = -1) : (s.purge now).bips.get? (ip, jail) = some r := by
  rw [Db.purge_bips, h]; simp [hp]

/-- C28: a ban that has not ended is not purged (purge age not negative, factor at least 1). -/
theorem C28_running (s : Db) (now : Int) (ip : Fid) (jail : String) (r : BanRow) (h : s.bips.get? (ip, jail) = some r)
    (ha : 0 ≤ s.purgeAge) (hf : 1 ≤ s.outDatedFactor) (hb : 0 ≤ r.banTime) (hr : now ≤ r.time + r.banTime) :
    (s.purge now).bips.get? (ip, jail) = some r := by
  rw [Db.purge_bips, h, Option.filter_eq_some_iff]
  refine ⟨rfl, (Db.outdated_iff s r now).2 ?_⟩
  rintro ⟨_, _, h3⟩
  have : r.banTime * 1 ≤ r.banTime * s.outDatedFactor := Int.mul_le_mul_of_nonneg_left hf hb
  omega

/-- C28: a record younger than the purge age is not purged, neither as current record nor from the history. -/
theorem C28_young (s : Db) (now : Int) :
    (∀ ip jail r, s.bips.get? (ip, jail) = some r → now - s.purgeAge ≤ r.time → (s.purge now).bips.get? (ip, jail) = some r) ∧
    ∀ r ∈ s.bans, now - s.purgeAge ≤ r.time → r ∈ (s.purge now).bans := by
  refine ⟨?_, ?_⟩
  · intro ip jail r h hy
    rw [Db.purge_bips, h, Option.filter_eq_some_iff]
    refine ⟨rfl, (Db.outdated_iff s r now).2 ?_⟩
    rintro ⟨h1, _⟩; omega
  · intro r hr hy
    show r ∈ s.bans.filter _
    rw [List.mem_filter]
    exact ⟨hr, by have : ¬ r.time < now - s.purgeAge := by omega
                  simp [this]⟩

/-- C28: what is purged is older than the purge age; a purged current record is not of a permanent ban, and its ban has ended before the
purge age already (the ban time counted `outDatedFactor` times). What is not purged stays as it is. -/
theorem C28_only_old (s : Db) (now : Int) :
    (∀ ip jail r, s.bips.get? (ip, jail) = some r → (s.purge now).bips.get? (ip, jail) ≠ some r →
      (s.purge now).bips.get? (ip, jail) = none ∧ r.time < now - s.purgeAge ∧ r.banTime ≠ -1 ∧
      r.time + r.banTime * s.outDatedFactor < now - s.purgeAge) ∧
    (∀ ip jail r, (s.purge now).bips.get? (ip, jail) = some r → s.bips.get? (ip, jail) = some r) ∧
    (∀ r ∈ s.bans, r ∉ (s.purge now).bans → r.time < now - s.purgeAge) ∧
    (s.purge now).bans.Sublist s.bans := by
  refine ⟨?_, ?_, ?_, ?_⟩
  · intro ip jail r h hn
    rw [Db.purge_bips, h] at hn ⊢
    have : ¬ ¬ Outdated s r now := by
      intro hc
      exact hn (Option.filter_eq_some_iff.2 ⟨rfl, (Db.outdated_iff s r now).2 hc⟩)
    have ho : Outdated s r now := Classical.not_not.1 this
    refine ⟨?_, ho⟩
    rw [Option.filter_some, if_neg]
    intro hc
    exact (Db.outdated_iff s r now).1 hc ho
  · intro ip jail r h
    rw [Db.purge_bips, Option.filter_eq_some_iff] at h
    exact h.1
  · intro r hr hn
    apply Classical.byContradiction
    intro hc
    exact hn ((C28_young s now).2 r hr (by omega))
  · exact List.filter_sublist

/-- C28: outdated records are purged, so that the database does not grow for ever: afterwards all of the history is within the purge age and
no outdated current record is left. -/
theorem C28_complete (s : Db) (now : Int) :
    (∀ r ∈ (s.purge now).bans, now - s.purgeAge ≤ r.time) ∧
    ∀ ip jail r, (s.purge now).bips.get? (ip, jail) = some r → ¬ Outdated s r now := by
  refine ⟨?_, ?_⟩
  · intro r hr
    have hr' : r ∈ s.bans.filter (fun r => !decide (r.time < now - s.purgeAge)) := hr
    have := (List.mem_filter.1 hr').2
    simp at this; omega
  · intro ip jail r h
    rw [Db.purge_bips, Option.filter_eq_some_iff] at h
    exact (Db.outdated_iff s r now).1 h.2

/-- C28: a purge removes a jail exactly if it is disabled and nothing of it is left. -/
theorem C28_jails (s : Db) (now : Int) (n : String) (b : Bool) :
    (s.purge now).jails.get? n = some b ↔ s.jails.get? n = some b ∧
      (b = true ∨ (∃ r ∈ (s.purge now).bans, r.jail = n) ∨ ∃ ip r, (s.purge now).bips.get? (ip, n) = some r) := by
  rw [Db.purge_jails]
  have e1 : (∃ r ∈ (s.purge now).bans, r.jail = n) ↔ ∃ r ∈ s.bans, r.jail = n ∧ now - s.purgeAge ≤ r.time := by
    constructor
    · rintro ⟨r, hr, e⟩
      have hr' : r ∈ s.bans.filter (fun r => !decide (r.time < now - s.purgeAge)) := hr
      exact ⟨r, (List.mem_filter.1 hr').1, e, (C28_complete s now).1 r hr⟩
    · rintro ⟨r, hr, e, hy⟩; exact ⟨r, (C28_young s now).2 r hr hy, e⟩
  have e2 : (∃ ip r, (s.purge now).bips.get? (ip, n) = some r) ↔ ∃ ip r, s.bips.get? (ip, n) = some r ∧ ¬ Outdated s r now := by
    constructor
    · rintro ⟨ip, r, h⟩
      exact ⟨ip, r, (C28_only_old s now).2.1 ip n r h, (C28_complete s now).2 ip n r h⟩
    · rintro ⟨ip, r, h, ho⟩
      refine ⟨ip, r, ?_⟩
      rw [Db.purge_bips, h, Option.filter_eq_some_iff]
      exact ⟨rfl, (Db.outdated_iff s r now).2 ho⟩
  rw [e1, e2]

/-- C28: no record is left without its jail, after any history. -/
theorem C28_no_orphans (ops : List Db.Op) :
    (∀ r ∈ (Db.init.run ops).bans, r.jail ∈ (Db.init.run ops).jails.keys) ∧
    ∀ ip jail r, (Db.init.run ops).bips.get? (ip, jail) = some r → r.ip = ip ∧ r.jail = jail ∧ jail ∈ (Db.init.run ops).jails.keys := by
  have h := Db.ok_run _ Db.ok_init ops
  refine ⟨fun r hr => (Dict.contains_iff _ _).1 (h.bans r hr), ?_⟩
  intro ip jail r hr
  obtain ⟨a, b, c⟩ := h.bips ip jail r hr
  exact ⟨a, b, (Dict.contains_iff _ _).1 c⟩

/-! ## C29 -/

/-- The stored position and first line of a log stay as stored last. -/
theorem C29_stored (s : Db) (pre post : List Db.Op) (jail path : String) (pos : Int) (md5 : String)
    (hj : jail ∈ (s.run pre).jails.keys)
    (hu : ∀ op ∈ post, ∀ q m, op ≠ .updateLog jail path q m)
    (hp : ∀ a b now, post = a ++ .purge now :: b →
      (s.run (pre ++ .updateLog jail path pos (some md5) :: a)).jails.get? jail = some true) :
    (s.run (pre ++ .updateLog jail path pos (some md5) :: post)).logs.get? (jail, path) = some (some md5, pos) := by
  have key : ∀ post : List Db.Op, (∀ op ∈ post, ∀ q m, op ≠ .updateLog jail path q m) →
      (∀ a b now, post = a ++ .purge now :: b →
        (s.run (pre ++ .updateLog jail path pos (some md5) :: a)).jails.get? jail = some true) →
      (s.run (pre ++ .updateLog jail path pos (some md5) :: post)).logs.get? (jail, path) = some (some md5, pos) := by
    intro post
    induction post using list_snoc_induction with
    | nil =>
      intro _ _
      rw [Db.run_append]
      show (((s.run pre).updateLog jail path pos (some md5)).getD (s.run pre)).logs.get? (jail, path) = _
      unfold Db.updateLog
      rw [if_pos (Or.inr ((Dict.contains_iff _ _).2 hj))]
      exact Dict.get?_insert_self _ _ _
    | snoc post op ih =>
      intro hu hp
      have ih' := ih (fun o ho => hu o (by simp [ho])) (fun a b now e => hp a (b ++ [op]) now (by rw [e]; simp))
      have e : s.run (pre ++ .updateLog jail path pos (some md5) :: (post ++ [op]))
          = (s.run (pre ++ .updateLog jail path pos (some md5) :: post)).step op := by
        rw [show pre ++ .updateLog jail path pos (some md5) :: (post ++ [op])
          = (pre ++ .updateLog jail path pos (some md5) :: post) ++ [op] by simp, Db.run_append]; rfl
      rw [e]
      generalize hS : s.run (pre ++ .updateLog jail path pos (some md5) :: post) = S at ih'
      cases op with
      | addJail m => exact ih'
      | delJail m => show (S.delJail m).logs.get? _ = _; unfold Db.delJail; split <;> exact ih'
      | addBan j d t => show (S.addBan j d t).2.logs.get? _ = _; rw [Db.addBan_eq]; exact ih'
      | delBan j ips => show (S.delBan j ips).logs.get? _ = _; rw [(Db.delBan_cfg S j ips).2.2.2.2.1]; exact ih'
      | merged i j => show (S.getBansMerged i j).2.logs.get? _ = _; unfold Db.getBansMerged; cases S.merged.get? (i, j) <;> exact ih'
      | purge now =>
        have hen : S.jails.get? jail = some true := by rw [← hS]; exact hp post [] now (by simp)
        show (S.logs.filter _).get? (jail, path) = _
        rw [Dict.get?_filter, ih', Option.filter_eq_some_iff]
        refine ⟨rfl, ?_⟩
        show (!(S.jails.get? jail == some false && _ && _)) = true
        rw [hen]; rfl
      | addLog j p q m =>
        show (S.addLog j p q m).2.logs.get? _ = _
        unfold Db.addLog
        simp only []
        by_cases hk : (j, p) = (jail, path)
        · rw [hk, ih']
          have : ¬ ((some (some md5, pos) : Option (Option String × Int)).bind Prod.fst = none ∧ (q ≠ 0 ∨ m ≠ none)) := by
            rintro ⟨h, _⟩; cases h
          rw [if_neg this]; exact ih'
        · split
          · split
            · show (S.logs.insert (j, p) (m, q)).get? _ = _
              rw [Dict.get?_insert_ne _ (fun h => hk h.symm)]; exact ih'
            · exact ih'
          · exact ih'
      | updateLog j p q m =>
        show ((S.updateLog j p q m).getD S).logs.get? _ = _
        unfold Db.updateLog
        have hk : ¬ (j, p) = (jail, path) := by
          intro h
          obtain ⟨h1, h2⟩ := Prod.mk.inj h
          subst h1; subst h2
          exact hu _ (by simp) q m rfl
        split
        · show (S.logs.insert (j, p) (m, q)).get? _ = _
          rw [Dict.get?_insert_ne _ (fun h => hk h.symm)]; exact ih'
        · exact ih'
  exact key post hu hp

/-- C29: the position of a log stored last is given back when the log is added again with an unchanged first line, and none if the first
line changed — whatever happens in between, unless the jail was purged meanwhile. -/
theorem C29_position (s : Db) (pre post : List Db.Op) (jail path : String) (pos : Int) (md5 : String)
    (hj : jail ∈ (s.run pre).jails.keys)
    (hu : ∀ op ∈ post, ∀ q m, op ≠ .updateLog jail path q m)
    (hp : ∀ a b now, post = a ++ .purge now :: b →
      (s.run (pre ++ .updateLog jail path pos (some md5) :: a)).jails.get? jail = some true)
    (pos' : Int) (md5' : Option String) :
    ((s.run (pre ++ .updateLog jail path pos (some md5) :: post)).addLog jail path pos' md5').1
      = some (if md5' = some md5 ∨ md5' = none then some pos else none) := by
  have h := C29_stored s pre post jail path pos md5 hj hu hp
  unfold Db.addLog
  simp only [h]
  have e0 : ¬ ((some (some md5, pos) : Option (Option String × Int)).bind Prod.fst = none ∧ (pos' ≠ 0 ∨ md5' ≠ none)) := by
    rintro ⟨h, _⟩; cases h
  rw [if_neg e0]
  show some _ = some _
  congr 1
  cases md5' with
  | none => simp
  | some m =>
    by_cases hm : m = md5
    · simp [hm]
    · simp [hm]

/-- C29: a log not known for the jail is read from the beginning. -/
theorem C29_unknown (s : Db) (jail path : String) (pos : Int) (md5 : Option String) (h : s.logs.get? (jail, path) = none)
    (hj : jail ∈ s.jails.keys) : (s.addLog jail path pos md5).1 = some none := by
  unfold Db.addLog
  simp only [h]
  have hc := (Dict.contains_iff _ _).2 hj
  split
  · simp
  · simp

/-- C29: a purge while the jail is disabled and without bans forgets the positions of its logs. -/
theorem C29_purged (s : Db) (now : Int) (jail path : String) (hj : s.jails.get? jail = some false)
    (hb : ∀ r ∈ (s.purge now).bans, r.jail ≠ jail) (hp : ∀ ip, (s.purge now).bips.get? (ip, jail) = none) :
    (s.purge now).logs.get? (jail, path) = none := by
  show (s.logs.filter _).get? (jail, path) = none
  rw [Dict.get?_filter]
  have hb' : ((s.bans.filter (fun r => !decide (r.time < now - s.purgeAge))).any (fun r => decide (r.jail = jail))) = false := by
    rw [List.any_eq_false]
    intro r hr; simpa using hb r hr
  have hp' : (s.purge now).bips.items.any (fun kv => decide (kv.1.2 = jail)) = false := by
    rw [List.any_eq_false]
    rintro ⟨⟨ip, j⟩, r⟩ hr
    simp only [decide_eq_true_eq]
    intro e; subst e
    have := (Dict.get?_eq_some_iff _ _ _).2 hr
    rw [hp ip] at this; cases this
  cases s.logs.get? (jail, path) with
  | none => rfl
  | some v =>
    rw [Option.filter_some, if_neg]
    intro hc
    have hc' : (!(s.jails.get? jail == some false &&
      !((s.bans.filter (fun r => !decide (r.time < now - s.purgeAge))).any (fun r => decide (r.jail = jail))) &&
      !((s.purge now).bips.items.any (fun kv => decide (kv.1.2 = jail))))) = true := hc
    rw [hj, hb', hp'] at hc'
    cases hc'

/-! ## C53 -/

/-- The lines recorded with a ban. -/
def linesOf (r : BanRow) : List String := r.data.lines.getD []

theorem Db.mem_insDesc (r : BanRow) (l : List BanRow) : (Db.insDesc r l).Perm (r :: l) := by
  induction l with
  | nil => exact List.Perm.refl _
  | cons a l ih =>
    unfold Db.insDesc
    split
    · exact List.Perm.refl _
    · exact (List.Perm.cons a ih).trans (List.Perm.swap r a l)

theorem Db.sorted_insDesc (r : BanRow) (l : List BanRow) (h : l.Pairwise (fun a b => b.time ≤ a.time)) :
    (Db.insDesc r l).Pairwise (fun a b => b.time ≤ a.time) := by
  induction l with
  | nil => simp [Db.insDesc]
  | cons a l ih =>
    unfold Db.insDesc
    rw [List.pairwise_cons] at h
    split
    · rw [List.pairwise_cons, List.pairwise_cons]
      refine ⟨?_, h.1, h.2⟩
      intro b hb
      rcases List.mem_cons.1 hb with rfl | hb
      · omega
      · have := h.1 b hb; omega
    · rw [List.pairwise_cons]
      refine ⟨?_, ih h.2⟩
      intro b hb
      rcases List.mem_cons.1 ((Db.mem_insDesc r l).mem_iff.1 hb) with rfl | hb
      · omega
      · exact h.1 b hb

theorem Db.bansOf_perm (s : Db) (ip : Fid) (jail : String) :
    (s.bansOf ip jail).Perm (s.bans.filter (fun r => decide (r.jail = jail) && decide (r.ip = ip))) := by
  unfold Db.bansOf
  generalize s.bans.filter _ = l
  have : ∀ (l acc : List BanRow), (l.foldl (fun l r => Db.insDesc r l) acc).Perm (acc ++ l) := by
    intro l
    induction l with
    | nil => intro acc; simp
    | cons a l ih =>
      intro acc
      refine (ih _).trans ?_
      refine (List.Perm.append_right l (Db.mem_insDesc a acc)).trans ?_
      exact List.perm_middle.symm
  simpa using this l []

theorem Db.bansOf_sorted (s : Db) (ip : Fid) (jail : String) : (s.bansOf ip jail).Pairwise (fun a b => b.time ≤ a.time) := by
  unfold Db.bansOf
  generalize s.bans.filter _ = l
  have : ∀ (l acc : List BanRow), acc.Pairwise (fun a b => b.time ≤ a.time) →
      (l.foldl (fun l r => Db.insDesc r l) acc).Pairwise (fun a b => b.time ≤ a.time) := by
    intro l
    induction l with
    | nil => intro acc h; exact h
    | cons a l ih => intro acc h; exact ih _ (Db.sorted_insDesc a acc h)
  exact this l [] List.Pairwise.nil

theorem Db.mergeRow_lines (M : Nat) (X : List String) (n : Nat) (r : BanRow) :
    Db.mergeRow M (lastN M X, n) r = (lastN M (linesOf r ++ X), n + r.data.failures.getD 1) := by
  unfold Db.mergeRow
  simp only [Prod.mk.injEq, and_true]
  have hlen : (lastN M X).length = min M X.length := by unfold lastN; simp
  rw [hlen]
  show (if 0 < M - min M X.length then if (linesOf r).length ≤ M - min M X.length then linesOf r ++ lastN M X
    else (linesOf r).drop ((linesOf r).length - (M - min M X.length)) ++ lastN M X else lastN M X) = lastN M (linesOf r ++ X)
  by_cases h : X.length < M
  · have e : lastN M X = X := Db.lastN_of_le M X (by omega)
    rw [if_pos (by omega), e]
    by_cases h2 : (linesOf r).length ≤ M - min M X.length
    · rw [if_pos h2, Db.lastN_of_le]; simp; omega
    · rw [if_neg h2, Db.lastN_eq_drop, List.drop_append_of_le_length (by simp; omega)]
      congr 2
      simp; omega
  · rw [if_neg (by omega), Db.lastN_eq_drop, Db.lastN_eq_drop, List.drop_append]
    have e1 : (linesOf r).drop ((linesOf r ++ X).length - M) = [] := by
      apply List.drop_eq_nil_of_le; simp; omega
    rw [e1, List.nil_append]
    congr 1
    simp; omega

/-- C53: the merged information about an address in a jail: the number of failures over all its recorded bans, and the newest lines of
these bans in order of time. `rows` are the records of the address in the jail, newest first. -/
theorem C53_merged (s : Db) (ip : Fid) (jail : String) :
    ∃ rows : List BanRow, rows.Perm (s.bans.filter (fun r => decide (r.jail = jail) && decide (r.ip = ip))) ∧
      rows.Pairwise (fun a b => b.time ≤ a.time) ∧
      (s.mergedOf ip jail = none ↔ rows = []) ∧
      ∀ t, s.mergedOf ip jail = some t → t.id = ip ∧ t.failures = (rows.map (fun r => r.data.failures.getD 1)).sum ∧
        t.matches' = some (lastN s.maxMatches (rows.reverse.map linesOf).flatten) ∧
        (∃ r ∈ rows, r.time = t.time) ∧ ∀ r ∈ rows, t.time ≤ r.time := by
  refine ⟨s.bansOf ip jail, Db.bansOf_perm s ip jail, Db.bansOf_sorted s ip jail, ?_, ?_⟩
  · unfold Db.mergedOf
    cases hl : (s.bansOf ip jail).getLast? with
    | none => simp [List.getLast?_eq_none_iff.1 hl]
    | some a =>
      simp only [reduceCtorEq, false_iff]
      intro e; rw [e] at hl; cases hl
  · intro t ht
    have hsorted := Db.bansOf_sorted s ip jail
    unfold Db.mergedOf at ht
    cases hl : (s.bansOf ip jail).getLast? with
    | none => rw [hl] at ht; cases ht
    | some a =>
      rw [hl] at ht
      have ht := (Option.some.inj ht).symm
      have fold : ∀ (rows : List BanRow) (X : List String) (n : Nat),
          rows.foldl (Db.mergeRow s.maxMatches) (lastN s.maxMatches X, n)
            = (lastN s.maxMatches ((rows.reverse.map linesOf).flatten ++ X), n + (rows.map (fun r => r.data.failures.getD 1)).sum) := by
        intro rows
        induction rows with
        | nil => intro X n; simp
        | cons r rows ih =>
          intro X n
          simp only [List.foldl_cons]
          rw [Db.mergeRow_lines, ih]
          simp [Nat.add_assoc]
      have hf := fold (s.bansOf ip jail) [] 0
      have e0 : lastN s.maxMatches ([] : List String) = [] := by simp [lastN]
      rw [e0, List.append_nil, Nat.zero_add] at hf
      rw [hf] at ht
      subst ht
      refine ⟨rfl, rfl, rfl, ?_, ?_⟩
      · exact ⟨a, List.mem_of_getLast? hl, rfl⟩
      · intro r hr
        obtain ⟨init, hi⟩ := List.getLast?_eq_some_iff.1 hl
        rw [hi] at hr hsorted
        rcases List.mem_append.1 hr with hr | hr
        · exact (List.pairwise_append.1 hsorted).2.2 r hr a (by simp)
        · rw [List.mem_singleton.1 hr]; exact Int.le_refl _

theorem Db.mergedOf_congr {s s' : Db} (ip : Fid) (jail : String) (h : s'.maxMatches = s.maxMatches)
    (hb : s'.bans.filter (fun r => decide (r.jail = jail) && decide (r.ip = ip))
      = s.bans.filter (fun r => decide (r.jail = jail) && decide (r.ip = ip))) : s'.mergedOf ip jail = s.mergedOf ip jail := by
  have e : s'.bansOf ip jail = s.bansOf ip jail := by unfold Db.bansOf; rw [hb]
  unfold Db.mergedOf
  rw [e, h]

/-- C53 in full: the cached answer is never out of date — after any history the answer is that computed from the present records. Proved for
histories that do not remove bans of the address in the jail; otherwise it fails, see `C53_refuted`. -/
theorem C53_fresh_partial (ops : List Db.Op) (ip : Fid) (jail : String) (h : ∀ op ∈ ops, ¬ Removes op ip jail) :
    ((Db.init.run ops).getBansMerged ip jail).1 = (Db.init.run ops).mergedOf ip jail := by
  have inv : ∀ ops : List Db.Op, (∀ op ∈ ops, ¬ Removes op ip jail) → ∀ t, (Db.init.run ops).merged.get? (ip, jail) = some t →
      t = (Db.init.run ops).mergedOf ip jail := by
    intro ops
    induction ops using list_snoc_induction with
    | nil => intro _ t ht; cases ht
    | snoc ops op ih =>
      intro hop t ht
      have ih' := ih (fun o ho => hop o (by simp [ho]))
      have hr := hop op (by simp)
      have e : Db.init.run (ops ++ [op]) = (Db.init.run ops).step op := by rw [Db.run_append]; rfl
      rw [e] at ht ⊢
      generalize Db.init.run ops = S at ih' ht ⊢
      cases op with
      | addJail m => exact ih' t ht
      | delJail m =>
        revert ht
        show (S.delJail m).merged.get? _ = _ → t = (S.delJail m).mergedOf ip jail
        unfold Db.delJail; split <;> exact ih' t
      | addBan j d t' =>
        revert ht
        show (S.addBan j d t').2.merged.get? _ = _ → t = (S.addBan j d t').2.mergedOf ip jail
        rw [Db.addBan_eq]
        intro ht
        rw [Dict.get?_erase] at ht
        by_cases hk : (ip, jail) = (t'.id, j)
        · rw [if_pos hk] at ht; cases ht
        · rw [if_neg hk] at ht
          rw [ih' t ht]
          refine (Db.mergedOf_congr ip jail ?_ ?_).symm
          · rfl
          show (if S.jails.contains j = true then S.bans ++ [S.row j d t'] else S.bans).filter _ = _
          split
          · rw [List.filter_append]
            have : [S.row j d t'].filter (fun r => decide (r.jail = jail) && decide (r.ip = ip)) = [] := by
              rw [List.filter_eq_nil_iff]
              intro a ha
              rw [List.mem_singleton.1 ha]
              show ¬ (decide (j = jail) && decide (t'.id = ip)) = true
              intro hc
              simp only [Bool.and_eq_true, decide_eq_true_eq] at hc
              exact hk (by rw [hc.1, hc.2])
            rw [this, List.append_nil]
          · rfl
      | delBan j ips =>
        revert ht
        show (S.delBan j ips).merged.get? _ = _ → t = (S.delBan j ips).mergedOf ip jail
        rw [(Db.delBan_cfg S j ips).2.2.2.2.2]
        intro ht
        rw [ih' t ht]
        refine (Db.mergedOf_congr ip jail (Db.delBan_cfg S j ips).1 ?_).symm
        rw [Db.delBan_bans, List.filter_filter]
        apply List.filter_congr
        intro r _
        by_cases e1 : r.jail = jail
        · by_cases e2 : r.ip = ip
          · subst e1; subst e2
            by_cases e3 : j = r.jail
            · subst e3
              have : ¬ (ips = [] ∨ r.ip ∈ ips) := fun hc => hr ⟨ips, rfl, hc⟩
              have h1 : ips ≠ [] := fun hc => this (Or.inl hc)
              have h2 : r.ip ∉ ips := fun hc => this (Or.inr hc)
              simp [h1, h2]
            · simp [e3]
          · simp [e2]
        · simp [e1]
      | merged i j =>
        revert ht
        show (S.getBansMerged i j).2.merged.get? _ = _ → t = (S.getBansMerged i j).2.mergedOf ip jail
        unfold Db.getBansMerged
        cases hg : S.merged.get? (i, j) with
        | some v => exact ih' t
        | none =>
          show (S.merged.insert (i, j) (S.mergedOf i j)).get? _ = _ → t = S.mergedOf ip jail
          rw [Dict.get?_insert]
          by_cases hk : (ip, jail) = (i, j)
          · rw [if_pos hk]
            obtain ⟨e1, e2⟩ := Prod.mk.inj hk
            subst e1; subst e2
            intro ht; exact (Option.some.inj ht).symm
          · rw [if_neg hk]; exact ih' t
      | purge now => cases ht
      | addLog j p pos md5 =>
        revert ht
        show (S.addLog j p pos md5).2.merged.get? _ = _ → t = (S.addLog j p pos md5).2.mergedOf ip jail
        unfold Db.addLog; simp only []; split
        · split <;> exact ih' t
        · exact ih' t
      | updateLog j p pos md5 =>
        revert ht
        show ((S.updateLog j p pos md5).getD S).merged.get? _ = _ → t = ((S.updateLog j p pos md5).getD S).mergedOf ip jail
        unfold Db.updateLog; split <;> exact ih' t
  unfold Db.getBansMerged
  cases hg : (Db.init.run ops).merged.get? (ip, jail) with
  | none => rfl
  | some t => exact inv ops h t hg

/-! ## Examples -/

namespace DatabaseExample

def t1 : Ticket := { id := "192.0.2.1", time := 1000, firstTime := 990, retry := 3, failures := 3, matches' := some ["a", "b", "c"], banCount := 1 }
def t2 : Ticket := { t1 with time := 2000, failures := 2, matches' := some ["d", "e"], banTime := some 1200, banCount := 2 }
def u1 : Ticket := { t1 with id := "192.0.2.2", time := 1500, banTime := some (-1) }

/-- two bans of one address, a permanent one of another, in two jails -/
def history : List Db.Op :=
  [.addJail "ssh", .addJail "web", .addBan "ssh" 600 t1, .addBan "web" 600 u1, .addBan "ssh" 600 t2, .addBan "gone" 600 t1,
    .updateLog "ssh" "/var/log/auth.log" 4711 (some "h1"), .delJail "web"]

/-- the current record is the second ban; the history has three records; the ban in an unknown jail was refused -/
example : (Db.init.run history).bips.get? ("192.0.2.1", "ssh") =
      some { jail := "ssh", ip := "192.0.2.1", time := 2000, banTime := 1200, count := 2, data := ⟨some 2, some ["d", "e"]⟩ } ∧
    (Db.init.run history).bans.length = 3 ∧ (Db.init.run history).bips.get? ("192.0.2.1", "gone") = none := by decide

/-- purge after a day: the permanent ban is kept, and so its disabled jail; a year later as well, while the other record is gone -/
example : ((Db.init.run history).purge 90000).bips.get? ("192.0.2.2", "web") ≠ none ∧
    ((Db.init.run history).purge 90000).bips.get? ("192.0.2.1", "ssh") ≠ none ∧
    ((Db.init.run history).purge 31536000).bips.get? ("192.0.2.2", "web") ≠ none ∧
    ((Db.init.run history).purge 31536000).bips.get? ("192.0.2.1", "ssh") = none ∧
    ((Db.init.run history).purge 31536000).bans = [] := by decide

/-- the history of the current record of `C27_latest` exists: it is neither removed nor outdated -/
example : ((Db.init.run [.addJail "ssh"]).addBan "ssh" 600 t1).1 = true := by decide

/-- log position: same first line, changed first line, log of another jail -/
example : ((Db.init.run history).addLog "ssh" "/var/log/auth.log" 0 (some "h1")).1 = some (some 4711) ∧
    ((Db.init.run history).addLog "ssh" "/var/log/auth.log" 0 (some "h2")).1 = some none ∧
    ((Db.init.run history).addLog "web" "/var/log/auth.log" 0 (some "h1")).1 = some none := by decide

/-- merged information over both bans -/
example : ((Db.init.run history).mergedOf "192.0.2.1" "ssh").map (fun t => (t.failures, t.matches', t.time))
    = some (5, some ["a", "b", "c", "d", "e"], 1000) := by decide

end DatabaseExample

/-- C53 fails for removals: the merged information is still that of the removed bans after all bans of the address were removed, since the
cache entry is not dropped by `delBan` (database.py 606-629). -/
theorem C53_refuted : ∃ (ops : List Db.Op) (ip : Fid) (jail : String),
    (Db.init.run ops).mergedOf ip jail = none ∧
    ((Db.init.run ops).getBansMerged ip jail).1.map (fun t => t.failures) = some 5 :=
  ⟨DatabaseExample.history ++ [.merged "192.0.2.1" "ssh", .delBan "ssh" ["192.0.2.1"]], "192.0.2.1", "ssh", by decide⟩

end Verif
