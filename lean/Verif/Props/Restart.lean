import Verif.Model.Observer
import Verif.Spec.Restart
import Verif.Props.Database
import Verif.Props.Actions

/-!
# Properties C25 and C26: bans survive a restart, and are not recorded again
-/

namespace Verif

open Spec.Database Spec.Restart

theorem Db.ins_perm (r : BanRow) (l : List BanRow) : (Db.ins r l).Perm (r :: l) := by
  induction l with
  | nil => exact List.Perm.refl _
  | cons a l ih =>
    unfold Db.ins
    split
    · exact (List.Perm.cons a ih).trans (List.Perm.swap r a l)
    · exact List.Perm.refl _

theorem Db.sortIp_perm (l : List BanRow) : (Db.sortIp l).Perm l := by
  induction l with
  | nil => exact List.Perm.refl _
  | cons a l ih => exact (Db.ins_perm a _).trans (List.Perm.cons a ih)

theorem corrected_eq (j : JailCfg) (bt : Int) : Db.corrected j.banTime (some j.getMaxBanTime) bt = newBanTime j bt := by
  unfold Db.corrected newBanTime cap JailCfg.getMaxBanTime
  by_cases h2 : bt = -2
  · rw [if_pos h2, if_pos h2]
  · rw [if_neg h2, if_neg h2]
    by_cases hi : j.increment = true
    · rw [if_pos hi, if_pos hi]
      cases hm : j.maxtime with
      | none => simp
      | some m =>
        simp only [Option.getD_some, Option.filter_some, decide_eq_true_eq]
        by_cases h0 : 0 < m
        · rw [if_pos h0]
          by_cases h1 : bt = -1
          · simp [h1, h0]
          · simp only [h1, false_or, if_false]
            by_cases h3 : m < bt
            · rw [if_pos ⟨h0, h3⟩]; omega
            · rw [if_neg (fun h => h3 h.2)]; omega
        · rw [if_neg h0, if_neg (fun h => h0 h.1)]
    · rw [if_neg hi, if_neg hi]
      by_cases h0 : 0 < j.banTime
      · rw [if_pos h0]
        by_cases h1 : bt = -1
        · simp [h1, h0]
        · simp only [h1, false_or, if_false]
          by_cases h3 : j.banTime < bt
          · rw [if_pos ⟨h0, h3⟩]; omega
          · rw [if_neg (fun h => h3 h.2)]; omega
      · rw [if_neg h0]
        show (if 0 < j.banTime ∧ (bt = -1 ∨ j.banTime < bt) then j.banTime else bt) = bt
        rw [if_neg (fun h => h0 h.1)]

theorem cap_pos (j : JailCfg) : ∀ c, cap j = some c → 0 < c := by
  intro c hc
  unfold cap at hc
  split at hc
  · rw [Option.filter_eq_some_iff] at hc; simpa using hc.2
  · split at hc
    · rw [← Option.some.inj hc]; assumption
    · cases hc

/-- A positive or permanent recorded ban that still runs with the new ban time runs with the recorded one. -/
theorem runs_of_new (j : JailCfg) (time bt now : Int) (hbt : -1 ≤ bt) (hp : bt ≠ -1) (h : Runs time (newBanTime j bt) now) :
    now < time + bt := by
  have hn2 : ¬ bt = -2 := by omega
  unfold newBanTime at h
  rw [if_neg hn2] at h
  cases hc : cap j with
  | none =>
    rw [hc] at h
    rcases h with h | h
    · exact absurd h hp
    · exact h.2
  | some c =>
    have := cap_pos j c hc
    rw [hc] at h
    simp only [if_neg hp] at h
    rcases h with h | h <;> omega

theorem restoreOne_iff (j : JailCfg) (now : Int) (ignored : Ticket → Option Bool) (t0 t : Ticket) (bt : Int) (hb : t0.banTime = some bt) :
    j.restoreOne now ignored t0 = some t ↔ t = { t0 with restored := true } ∧ ignored t = some false ∧
      ¬ ((if bt ≠ -1 ∧ 0 < now - t0.time then bt - (now - t0.time) else bt) ≠ -1 ∧
        (if bt ≠ -1 ∧ 0 < now - t0.time then bt - (now - t0.time) else bt) ≤ 0) := by
  have hbt : Ticket.getBanTime { t0 with restored := true } j.banTime = bt := by
    unfold Ticket.getBanTime; simp [hb]
  unfold JailCfg.restoreOne
  simp only [hbt]
  constructor
  · intro h
    cases hi : ignored { t0 with restored := true } with
    | none => rw [hi] at h; cases h
    | some b =>
      rw [hi] at h
      cases b with
      | true => cases h
      | false =>
        simp only [] at h
        generalize hx : (if bt ≠ -1 ∧ 0 < now - t0.time then bt - (now - t0.time) else bt) = x at h ⊢
        by_cases hc : x ≠ -1 ∧ x ≤ 0
        · rw [if_pos hc] at h; cases h
        · rw [if_neg hc] at h
          have := Option.some.inj h
          subst this
          exact ⟨rfl, hi, hc⟩
  · rintro ⟨rfl, hi, hc⟩
    rw [hi]
    simp only []
    rw [if_neg hc]

/-- The tickets put back, exactly. -/
theorem mem_restore (j : JailCfg) (db : Db) (hok : db.Ok) (now : Int) (ignored : Ticket → Option Bool) (t : Ticket) :
    t ∈ j.restoreCurrentBans db now ignored ↔
      ∃ r, db.bips.get? (r.ip, j.name) = some r ∧ r.ip ≠ "" ∧
        (now < r.time + r.banTime ∨ r.banTime ≤ -1) ∧ (j.increment = false → j.banTime = -1 ∨ now - j.banTime < r.time) ∧
        Runs r.time (newBanTime j r.banTime) now ∧ ignored t = some false ∧
        t = { Db.toTicket j.maxMatches r (newBanTime j r.banTime) with restored := true } := by
  unfold JailCfg.restoreCurrentBans Db.getCurrentBans Db.currentRows
  simp only [List.mem_filterMap, (Db.sortIp_perm _).mem_iff, List.mem_map, List.mem_filter]
  constructor
  · rintro ⟨t0, ⟨r, ⟨⟨⟨ip, jl⟩, r'⟩, ⟨hm, hc⟩, rfl⟩, hr⟩, ht⟩
    simp only at hr hc
    have hg := (Dict.get?_eq_some_iff _ _ _).2 hm
    obtain ⟨o1, o2, _⟩ := hok.bips ip jl r' hg
    simp only [Bool.and_eq_true, decide_eq_true_eq, Bool.or_eq_true] at hc
    obtain ⟨⟨hc1, hc2⟩, hc3⟩ := hc
    subst o1
    subst hc1
    by_cases he : r'.ip = ""
    · rw [if_pos he] at hr; cases hr
    · rw [if_neg he, corrected_eq] at hr
      by_cases hs : newBanTime j r'.banTime ≠ -1 ∧ r'.time + newBanTime j r'.banTime ≤ now
      · rw [if_pos hs] at hr; cases hr
      · rw [if_neg hs] at hr
        have hr := Option.some.inj hr
        subst hr
        obtain ⟨e1, hi, hx⟩ := (restoreOne_iff j now ignored _ t (newBanTime j r'.banTime) rfl).1 ht
        have htm : (Db.toTicket j.maxMatches r' (newBanTime j r'.banTime)).time = r'.time := rfl
        rw [htm] at hx
        refine ⟨r', hg, he, hc2, ?_, ?_, hi, e1⟩
        · intro hinc
          rw [if_neg (by simp [hinc])] at hc3
          simpa using hc3
        · unfold Runs
          by_cases hp : newBanTime j r'.banTime = -1
          · exact Or.inl hp
          · right
            have h2 : ¬ r'.time + newBanTime j r'.banTime ≤ now := fun h => hs ⟨hp, h⟩
            by_cases hd : 0 < now - r'.time
            · omega
            · have hd' : ¬ (newBanTime j r'.banTime ≠ -1 ∧ 0 < now - r'.time) := fun h => hd h.2
              rw [if_neg hd'] at hx
              have : ¬ newBanTime j r'.banTime ≤ 0 := fun h => hx ⟨hp, h⟩
              omega
  · rintro ⟨r, hg, he, hc2, hc3, hrun, hi, rfl⟩
    refine ⟨Db.toTicket j.maxMatches r (newBanTime j r.banTime), ⟨r, ⟨((r.ip, j.name), r), ⟨(Dict.get?_eq_some_iff _ _ _).1 hg, ?_⟩, rfl⟩, ?_⟩, ?_⟩
    · simp only [Bool.and_eq_true, decide_eq_true_eq, Bool.or_eq_true]
      refine ⟨⟨trivial, hc2⟩, ?_⟩
      by_cases hinc : j.increment = true
      · rw [if_pos hinc]
      · rw [if_neg hinc]
        have := hc3 (by simpa using hinc)
        simpa using this
    · rw [if_neg he, corrected_eq, if_neg]
      rintro ⟨h1, h2⟩
      rcases hrun with h | ⟨_, h⟩
      · exact h1 h
      · omega
    · refine (restoreOne_iff j now ignored _ _ (newBanTime j r.banTime) rfl).2 ⟨rfl, hi, ?_⟩
      have htm : (Db.toTicket j.maxMatches r (newBanTime j r.banTime)).time = r.time := rfl
      rw [htm]
      rintro ⟨h1, h2⟩
      rcases hrun with h | ⟨h0, h⟩
      · rw [if_neg (fun hc => hc.1 h)] at h1; exact h1 h
      · by_cases hd : 0 < now - r.time
        · rw [if_pos ⟨by omega, hd⟩] at h2; omega
        · rw [if_neg (fun hc => hd hc.2)] at h2; omega

theorem isRestored_toTicket (j : JailCfg) (r : BanRow) :
    IsRestored j r { Db.toTicket j.maxMatches r (newBanTime j r.banTime) with restored := true } := by
  refine ⟨rfl, rfl, rfl, rfl, rfl, rfl, ?_⟩
  show (if j.maxMatches = 0 then none else if j.maxMatches < (r.data.lines.getD []).length
    then some ((r.data.lines.getD []).drop ((r.data.lines.getD []).length - j.maxMatches)) else some (r.data.lines.getD [])) = _
  by_cases h0 : j.maxMatches = 0
  · rw [if_pos h0, if_pos h0]
  · rw [if_neg h0, if_neg h0]
    by_cases hl : j.maxMatches < (r.data.lines.getD []).length
    · rw [if_pos hl]
    · rw [if_neg hl, Nat.sub_eq_zero_of_le (by omega), List.drop_zero]

/-- C25: only current bans still in force are put back, unchanged in address and start, with the recorded end unless the jail limits its ban
time, and none of an ignored address. -/
theorem C25_sound (j : JailCfg) (db : Db) (hok : db.Ok) (now : Int) (ignored : Ticket → Option Bool) (t : Ticket)
    (h : t ∈ j.restoreCurrentBans db now ignored) :
    ∃ r, db.bips.get? (t.id, j.name) = some r ∧ IsRestored j r t ∧ (now < r.time + r.banTime ∨ r.banTime ≤ -1) ∧
      Runs r.time (newBanTime j r.banTime) now ∧ ignored t = some false := by
  obtain ⟨r, h1, _, h3, _, h5, h6, h7⟩ := (mem_restore j db hok now ignored t).1 h
  have hr := isRestored_toTicket j r
  rw [← h7] at hr
  refine ⟨r, ?_, hr, h3, h5, h6⟩
  rw [hr.1]; exact h1

/-- C25: every current ban still in force is put back, unless its address is ignored. -/
theorem C25_complete (j : JailCfg) (hj : SaneJail j) (db : Db) (hok : db.Ok) (now : Int) (ignored : Ticket → Option Bool) (ip : Fid) (r : BanRow)
    (hr : db.bips.get? (ip, j.name) = some r) (hip : ip ≠ "") (hbt : -1 ≤ r.banTime) (hrun : Runs r.time (newBanTime j r.banTime) now)
    (hign : ∀ t, t.id = ip → ignored t = some false) :
    ∃ t ∈ j.restoreCurrentBans db now ignored, IsRestored j r t := by
  obtain ⟨o1, o2, _⟩ := hok.bips ip j.name r hr
  subst o1
  refine ⟨_, (mem_restore j db hok now ignored _).2 ⟨r, hr, hip, ?_, ?_, hrun, hign _ rfl, rfl⟩, isRestored_toTicket j r⟩
  · by_cases hp : r.banTime = -1
    · right; omega
    · left; exact runs_of_new j r.time r.banTime now hbt hp hrun
  · intro hinc
    rcases hj with h | h
    · exact Or.inl h
    · right
      have hcap : cap j = some j.banTime := by
        unfold cap; rw [if_neg (by simp [hinc]), if_pos h]
      have hn2 : ¬ r.banTime = -2 := by omega
      unfold newBanTime at hrun
      rw [if_neg hn2, hcap] at hrun
      simp only [] at hrun
      by_cases hp : r.banTime = -1
      · rw [if_pos hp] at hrun
        rcases hrun with h' | h' <;> omega
      · rw [if_neg hp] at hrun
        rcases hrun with h' | h' <;> omega

/-- C25: the end of a ban put back is the recorded one, if the jail has no limit or the recorded ban time is within it; otherwise the ban ends
when the limit is over. -/
theorem C25_end (j : JailCfg) (r : BanRow) (t : Ticket) (h : IsRestored j r t) (hbt : -1 ≤ r.banTime) (d : Int) :
    ((cap j = none ∨ ∃ c, cap j = some c ∧ r.banTime ≠ -1 ∧ r.banTime ≤ c) →
      Spec.Ban.ends t d = if r.banTime = -1 then 2 ^ 47 - 1 else r.time + r.banTime) ∧
    ∀ c, cap j = some c → (r.banTime = -1 ∨ c < r.banTime) → Spec.Ban.ends t d = r.time + c := by
  obtain ⟨_, h2, h3, _⟩ := h
  unfold Spec.Ban.ends Spec.Ban.effective
  rw [h3, h2]
  simp only [Option.getD_some]
  unfold newBanTime
  have hn2 : ¬ r.banTime = -2 := by omega
  have cpos := cap_pos j
  rw [if_neg hn2]
  refine ⟨?_, ?_⟩
  · rintro (hc | ⟨c, hc, hp, hle⟩)
    · rw [hc]
    · rw [hc]
      simp only [if_neg hp]
      rw [Int.min_eq_left hle, if_neg hp]
  · intro c hc hcc
    have := cpos c hc
    rw [hc]
    simp only []
    by_cases hp : r.banTime = -1
    · rw [if_pos hp, if_neg (by omega)]
    · rw [if_neg hp, Int.min_eq_right (by omega), if_neg (by omega)]

/-- the addresses of the rows selected are pairwise different -/
theorem currentRows_nodup (db : Db) (hok : db.Ok) (jail : String) (f : Option Int) (now : Int) :
    ((db.currentRows jail f now).map BanRow.ip).Nodup := by
  unfold Db.currentRows
  refine (((Db.sortIp_perm _).map BanRow.ip).nodup_iff).2 ?_
  rw [List.map_map]
  have key : ∀ l : List ((Fid × String) × BanRow), (∀ kv ∈ l, kv ∈ db.bips.items) → (l.map Prod.fst).Nodup → (∀ kv ∈ l, kv.1.2 = jail) →
      (l.map (BanRow.ip ∘ Prod.snd)).Nodup := by
    intro l
    induction l with
    | nil => intro _ _ _; exact List.nodup_nil
    | cons a l ih =>
      intro hm hn hj
      simp only [List.map_cons, List.nodup_cons] at hn ⊢
      refine ⟨?_, ih (fun kv hk => hm kv (List.mem_cons_of_mem _ hk)) hn.2 (fun kv hk => hj kv (List.mem_cons_of_mem _ hk))⟩
      intro hc
      obtain ⟨b, hb, e⟩ := List.mem_map.1 hc
      have ha' := (hok.bips a.1.1 a.1.2 a.2 ((Dict.get?_eq_some_iff _ _ _).2 (hm a List.mem_cons_self))).1
      have hb' := (hok.bips b.1.1 b.1.2 b.2 ((Dict.get?_eq_some_iff _ _ _).2 (hm b (List.mem_cons_of_mem _ hb)))).1
      simp only [Function.comp] at e
      apply hn.1
      have hkey : a.1 = b.1 := by
        apply Prod.ext
        · rw [← ha', ← hb', e]
        · rw [hj a List.mem_cons_self, hj b (List.mem_cons_of_mem _ hb)]
      rw [hkey]
      exact List.mem_map_of_mem (f := Prod.fst) hb
  refine key _ (fun kv hk => (List.mem_filter.1 hk).1) ?_ ?_
  · exact Dict.nodup_filter _ db.bips.nodup _
  · intro kv hk
    have := (List.mem_filter.1 hk).2
    simp only [Bool.and_eq_true, decide_eq_true_eq] at this
    exact this.1.1

theorem filterMap_ids_nodup {α : Type} (l : List α) (key : α → Fid) (f : α → Option Ticket) (hf : ∀ a t, f a = some t → t.id = key a)
    (h : (l.map key).Nodup) : ((l.filterMap f).map Ticket.id).Nodup := by
  induction l with
  | nil => exact List.nodup_nil
  | cons a l ih =>
    simp only [List.map_cons, List.nodup_cons] at h
    rw [List.filterMap_cons]
    cases ha : f a with
    | none => exact ih h.2
    | some t =>
      simp only [List.map_cons, List.nodup_cons]
      refine ⟨?_, ih h.2⟩
      intro hc
      obtain ⟨t', ht', e⟩ := List.mem_map.1 hc
      obtain ⟨b, hb, hfb⟩ := List.mem_filterMap.1 ht'
      apply h.1
      rw [← hf a t ha, ← e, hf b t' hfb]
      exact List.mem_map_of_mem hb

/-- C25: each address is put back at most once. -/
theorem C25_once (j : JailCfg) (db : Db) (hok : db.Ok) (now : Int) (ignored : Ticket → Option Bool) :
    ((j.restoreCurrentBans db now ignored).map Ticket.id).Nodup := by
  unfold JailCfg.restoreCurrentBans
  refine filterMap_ids_nodup _ Ticket.id _ ?_ ?_
  · intro a t h
    unfold JailCfg.restoreOne at h
    simp only [] at h
    cases hi : ignored { a with restored := true } with
    | none => rw [hi] at h; cases h
    | some b =>
      rw [hi] at h
      cases b with
      | true => cases h
      | false =>
        simp only [] at h
        generalize (if Ticket.getBanTime { a with restored := true } j.banTime ≠ -1 ∧ 0 < now - a.time then
          Ticket.getBanTime { a with restored := true } j.banTime - (now - a.time)
          else Ticket.getBanTime { a with restored := true } j.banTime) = x at h
        by_cases hc : x ≠ -1 ∧ x ≤ 0
        · rw [if_pos hc] at h; cases h
        · rw [if_neg hc] at h; rw [← Option.some.inj h]
  · unfold Db.getCurrentBans
    refine filterMap_ids_nodup _ BanRow.ip _ ?_ (currentRows_nodup db hok j.name _ now)
    intro r t h
    simp only [] at h
    split at h
    · cases h
    · split at h
      · cases h
      · rw [← Option.some.inj h]; rfl

/-- C25 over whole histories: the latest ban of an address in a jail that was recorded and not removed since is put back at a restart at any
moment it is still in force, whatever happened otherwise — other bans, purges (until the restart), jails switched off and on. -/
theorem C25_history (pre post : List Db.Op) (j : JailCfg) (hj : SaneJail j) (d : Int) (t : Ticket) (now : Int) (ignored : Ticket → Option Bool)
    (ha : ((Db.init.run pre).addBan j.name d t).1 = true)
    (hkeep : ∀ op ∈ post, ¬ Removes op t.id j.name ∧ ¬ Replaces op t.id j.name)
    (hpurge : ∀ n, .purge n ∈ post → n ≤ now)
    (hid : t.id ≠ "") (hbt : -1 ≤ t.banTime.getD d) (hrun : Runs t.time (newBanTime j (t.banTime.getD d)) now)
    (hign : ∀ t', t'.id = t.id → ignored t' = some false) :
    ∃ t' ∈ j.restoreCurrentBans (Db.init.run (pre ++ .addBan j.name d t :: post)) now ignored,
      t'.id = t.id ∧ t'.time = t.time ∧ t'.banTime = some (newBanTime j (t.banTime.getD d)) ∧ t'.banCount = t.banCount ∧
      t'.failures = t.failures ∧ t'.restored = true := by
  obtain ⟨r, hrec, hcur⟩ := C27_latest Db.init Db.ok_init pre post j.name d t ha hkeep
  obtain ⟨e1, e2, e3, e4, e5, e6, e7⟩ := hrec
  have hnot : ∀ n, Db.Op.purge n ∈ post → ¬ Outdated Db.init r n := by
    intro n hn ho
    have hle := hpurge n hn
    obtain ⟨o1, o2, o3⟩ := ho
    have hage : Db.init.purgeAge = 86400 := rfl
    have hfac : Db.init.outDatedFactor = 3 := rfl
    rw [hage] at o1 o3
    rw [hfac] at o3
    rw [e4] at o2 o3
    rw [e3] at o1 o3
    have := runs_of_new j t.time _ now hbt o2 hrun
    omega
  have hget := hcur hnot
  obtain ⟨t', ht', hr'⟩ := C25_complete j hj _ (Db.ok_run _ Db.ok_init _) now ignored t.id r hget hid (by rw [e4]; exact hbt)
    (by rw [e3, e4]; exact hrun) hign
  obtain ⟨r1, r2, r3, r4, r5, r6, _⟩ := hr'
  exact ⟨t', ht', by rw [r1, e2], by rw [r2, e3], by rw [r3, e4], by rw [r4, e5], by rw [r6, e6]; rfl, r5⟩

/-- C25: a ban removed by an unban (of the address, or of all addresses of the jail) and not recorded again is not put back. -/
theorem C25_removed (pre post : List Db.Op) (j : JailCfg) (op : Db.Op) (ip : Fid) (hop : Removes op ip j.name)
    (hpost : ∀ op ∈ post, ¬ Replaces op ip j.name) (now : Int) (ignored : Ticket → Option Bool) :
    ∀ t ∈ j.restoreCurrentBans (Db.init.run (pre ++ op :: post)) now ignored, t.id ≠ ip := by
  intro t ht e
  obtain ⟨r, hr, _⟩ := C25_sound j _ (Db.ok_run _ Db.ok_init _) now ignored t ht
  rw [e] at hr
  rw [show pre ++ op :: post = (pre ++ [op]) ++ post by simp, Db.run_append] at hr
  rcases (Db.bips_run _ (Db.ok_run _ Db.ok_init _) post ip j.name r).1 hr with ⟨a, b, d, t', e1, e2, _⟩ | ⟨h, _⟩
  · exact hpost (.addBan j.name d t') (by rw [e1]; simp) ⟨d, t', rfl, e2⟩
  · rw [Db.run_append] at h
    have h' : ((Db.init.run pre).step op).bips.get? (ip, j.name) = some r := h
    rcases (Db.bips_step _ op ip j.name r).1 h' with ⟨d, t', e1, _⟩ | ⟨_, h2, _⟩
    · obtain ⟨ips, e3, _⟩ := hop
      rw [e3] at e1; cases e1
    · exact h2 hop

/-- C25: a ban whose address is ignored now is not put back. -/
theorem C25_ignored (j : JailCfg) (db : Db) (hok : db.Ok) (now : Int) (ignored : Ticket → Option Bool) (ip : Fid)
    (h : ∀ t, t.id = ip → ignored t ≠ some false) : ∀ t ∈ j.restoreCurrentBans db now ignored, t.id ≠ ip := by
  intro t ht e
  obtain ⟨_, _, _, _, _, hi⟩ := C25_sound j db hok now ignored t ht
  exact h t e hi

/-- C25: a ban that ended is not put back. -/
theorem C25_ended (j : JailCfg) (db : Db) (hok : db.Ok) (now : Int) (ignored : Ticket → Option Bool) (ip : Fid) (r : BanRow)
    (hr : db.bips.get? (ip, j.name) = some r) (hbt : 0 ≤ r.banTime) (hend : r.time + r.banTime ≤ now) :
    ∀ t ∈ j.restoreCurrentBans db now ignored, t.id ≠ ip := by
  intro t ht e
  obtain ⟨r', hr', _, h3, _⟩ := C25_sound j db hok now ignored t ht
  rw [e, hr] at hr'
  have := Option.some.inj hr'
  subst this
  omega

open Actions in
/-- C25, C26: after a restart the bans put back are banned — the ban list is exactly theirs, in order — and every action is executed for
them except those marked `norestored`. Nothing is told to the observer, hence nothing recorded. -/
theorem C25_banned (env : Env) (j : JailCfg) (db : Db) (hok : db.Ok) (now : Int) (ignored : Ticket → Option Bool) (s : Actions)
    (hs : s.bm.banList = Dict.empty) (hnow : now < 2 ^ 47) :
    let ts := j.restoreCurrentBans db now ignored
    let r := checkBanLoop env now ts [] 0 s
    r.2.1 = false ∧ r.2.2.2.bm.banList.keys = ts.map Ticket.id ∧
    r.2.2.2.trace = s.trace ++ ts.flatMap (fun t => .logBan t.id true ::
      ((s.actions.items.filter (fun a => !a.2.norestored)).map (fun a => Call.ban a.1 t.id))) := by
  intro ts r
  have hrest : ∀ t ∈ ts, t.restored = true ∧ now ≤ Spec.Ban.ends t s.bm.banTime := by
    intro t ht
    obtain ⟨r', _, hi, _, hrun, _⟩ := C25_sound j db hok now ignored t ht
    obtain ⟨_, h2, h3, _, h5, _⟩ := hi
    refine ⟨h5, ?_⟩
    unfold Spec.Ban.ends Spec.Ban.effective
    rw [h3, h2]
    simp only [Option.getD_some]
    rcases hrun with h | h
    · rw [if_pos h]; omega
    · rw [if_neg (by omega)]; omega
  obtain ⟨_, b2, _, b4, b5⟩ := C17_batch env now ts s [] 0 (fun t ht => (hrest t ht).2)
    (fun t _ hc => by obtain ⟨t', ht'⟩ := hc; rw [hs] at ht'; cases ht') (C25_once j db hok now ignored)
  refine ⟨b2, ?_, ?_⟩
  · rw [b5, hs]; rfl
  · rw [b4]
    congr 1
    have : ∀ l : List Ticket, (∀ t ∈ l, t.restored = true) → l.flatMap (Spec.Act.banCalls s.actions.items s.observer)
        = l.flatMap (fun t => .logBan t.id true ::
          ((s.actions.items.filter (fun a => !a.2.norestored)).map (fun a => Call.ban a.1 t.id))) := by
      intro l hl
      induction l with
      | nil => rfl
      | cons t l ih =>
        rw [List.flatMap_cons, List.flatMap_cons, ih (fun t ht => hl t (List.mem_cons_of_mem _ ht))]
        congr 1
        have := hl t List.mem_cons_self
        unfold Spec.Act.banCalls Spec.Act.banners
        simp [this]
    exact this ts (fun t ht => (hrest t ht).1)

/-! ## C26 -/

/-- C26: a restored ban is never recorded: the observer leaves the database as it is. -/
theorem C26_restored (j : ObsJail) (db : Option Db) (now : Int) (t : Ticket) (btime : Int) (h : t.restored = true) :
    (Observer.banFound j db now t btime).db = db ∧ (Observer.banFound j db now t btime).ticket = t ∧
    (Observer.banFound j db now t btime).prolongIn = none := by
  unfold Observer.banFound
  rw [if_pos h]
  exact ⟨rfl, rfl, rfl⟩

end Verif
