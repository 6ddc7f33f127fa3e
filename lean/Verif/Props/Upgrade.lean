import Verif.Lemmas.Upgrade
import Verif.Props.Restart

set_option linter.unusedSimpArgs false

/-!
# C90 — the database is upgraded without loss; C91 — a broken database is set aside, not lost
-/

namespace Verif

open Verif.Upgrade Verif.UpgradeSpec Verif.UpgradeLemmas

/-- The upgrade of a database of version 0, 1 or 2: files and bans are all kept, in order; for each address and jail the newest ban is what will be restored. -/
theorem C90_upgrade_old (v : Nat) (t : Tables) (l : List OldBan) (h : Older v t) (hb : t.bans = some (.old l)) :
    (openDb t).1 = true ∧ Ready (openDb t).2 ∧ (openDb t).2.logs = t.logs ∧ ∃ rows bips, (openDb t).2.bans = some (.new rows) ∧ All₂ Same l rows ∧
      (openDb t).2.bips = some bips ∧ ∀ ip jail r, bips.get? (ip, jail) = some r ↔ Newest rows ip jail r := by
  have hv3 : v < 3 := by
    rcases h.bans with ⟨h3, _⟩ | ⟨_, l', h3⟩
    · exact h3
    · rw [hb] at h3; cases h3
  have ho := openDb_older v t h
  rw [ho, upgrade_eq v t h]
  obtain ⟨ls, hl⟩ := h.logs
  refine ⟨rfl, ⟨rfl, by simp [hl], rfl, rfl⟩, rfl, (l.map fun b => ⟨b.jail, b.ip, b.time, -2, 1, b.data⟩), _, ?_, ?_, rfl, ?_⟩
  · simp [hb, hv3, convert]
  · exact all₂_map _ _ (fun a => ⟨rfl, rfl, rfl, rfl, rfl, rfl⟩) l
  · intro ip jail r
    simp only [hb, hv3, convert, if_true, Option.map_some, Option.getD_some]
    exact filled _ ip jail r

/-- The upgrade of a database of version 3: all rows stay as they are. -/
theorem C90_upgrade_v3 (t : Tables) (l : List BanRow) (h : Older 3 t) (hb : t.bans = some (.new l)) :
    (openDb t).1 = true ∧ Ready (openDb t).2 ∧ (openDb t).2.logs = t.logs ∧ (openDb t).2.bans = t.bans ∧ ∃ bips,
      (openDb t).2.bips = some bips ∧ ∀ ip jail r, bips.get? (ip, jail) = some r ↔ Newest l ip jail r := by
  have ho := openDb_older 3 t h
  rw [ho, upgrade_eq 3 t h]
  obtain ⟨ls, hl⟩ := h.logs
  refine ⟨rfl, ⟨rfl, by simp [hl], rfl, rfl⟩, rfl, ?_, _, rfl, ?_⟩
  · simp [hb, newRows]
  · intro ip jail r
    simp only [hb, newRows, Nat.lt_irrefl, if_false]
    exact filled _ ip jail r

/-- After the upgrade of an old database the bans restored for a jail are those of which the newest is not over by the ban time the jail has now, and they get that ban time. -/
theorem C90_restored (v : Nat) (t : Tables) (l : List OldBan) (h : Older v t) (hb : t.bans = some (.old l)) :
    ∃ rows, All₂ Same l rows ∧ ∀ (jail : String) (bantime : Int) (f : Option Int) (now : Int) (correct : Option Int) (m : Nat), 0 < bantime ∨ bantime = -1 → f = none ∨ f = some bantime →
      let restored := (toDb (openDb t).2).getCurrentBans jail bantime f now correct m
      (∀ tk ∈ restored, tk.banTime = some bantime) ∧
      ∀ ip, (∃ tk ∈ restored, tk.id = ip) ↔ ip ≠ "" ∧ ∃ r, Newest rows ip jail r ∧ (bantime = -1 ∨ now < r.time + bantime) := by
  obtain ⟨_, _, _, rows, bips, h1, h2, h3, h4⟩ := C90_upgrade_old v t l h hb
  have hm2 : ∀ r ∈ rows, r.banTime = -2 := by
    clear h1 h3 h4 hb
    induction h2 with
    | nil => simp
    | cons hs _ ih =>
      intro r hr
      rcases List.mem_cons.mp hr with rfl | hr
      · exact hs.2.2.2.2.1
      · exact ih r hr
  refine ⟨rows, h2, ?_⟩
  intro jail bantime f now correct m hbt hf
  have hdb : (toDb (openDb t).2).bips = bips := by simp [toDb, h3]
  have hn2 : ∀ ip j r, bips.get? (ip, j) = some r → r.ip = ip ∧ r.jail = j ∧ r.banTime = -2 := by
    intro ip j r hr
    obtain ⟨a, b, e, e2, e3, _⟩ := (h4 ip j r).mp hr
    exact ⟨e2, e3, hm2 r (by rw [e]; simp)⟩
  have hrow : ∀ r, r ∈ (toDb (openDb t).2).currentRows jail f now ↔ bips.get? (r.ip, jail) = some r ∧ (f = none ∨ bantime = -1 ∨ now < r.time + bantime) := by
    intro r
    unfold Db.currentRows
    rw [(Db.sortIp_perm _).mem_iff, hdb, List.mem_map]
    constructor
    · rintro ⟨⟨⟨ip, j⟩, r'⟩, hk, rfl⟩
      rw [List.mem_filter] at hk
      obtain ⟨hk1, hk2⟩ := hk
      have hg := (Dict.get?_eq_some_iff bips (ip, j) r').mpr hk1
      simp only [Bool.and_eq_true, decide_eq_true_eq] at hk2
      obtain ⟨⟨rfl, _⟩, hk4⟩ := hk2
      obtain ⟨rfl, _⟩ := hn2 ip j r' hg
      refine ⟨hg, ?_⟩
      rcases hf with rfl | rfl
      · exact Or.inl rfl
      · right
        simp only [Bool.or_eq_true, decide_eq_true_eq] at hk4
        dsimp only at hk4 ⊢
        omega
    · rintro ⟨hg, hc⟩
      refine ⟨((r.ip, jail), r), ?_, rfl⟩
      rw [List.mem_filter]
      refine ⟨(Dict.get?_eq_some_iff bips _ r).mp hg, ?_⟩
      have hb2 := (hn2 _ _ r hg).2.2
      rcases hf with rfl | rfl
      · simp [hb2]
      · have : bantime = -1 ∨ now - bantime < r.time := by
          rcases hc with hc | hc | hc
          · cases hc
          · exact Or.inl hc
          · right; omega
        simpa [hb2] using this
  have hcor : Db.corrected bantime correct (-2) = bantime := by simp [Db.corrected]
  dsimp only
  constructor
  · intro tk htk
    unfold Db.getCurrentBans at htk
    rw [List.mem_filterMap] at htk
    obtain ⟨r, hr, hr2⟩ := htk
    have hg := (hrow r).mp hr
    rw [(hn2 _ _ r hg.1).2.2, hcor] at hr2
    split at hr2
    · cases hr2
    · dsimp only at hr2
      split at hr2
      · cases hr2
      · injection hr2 with hr2
        subst hr2
        rfl
  · intro ip
    constructor
    · rintro ⟨tk, htk, rfl⟩
      unfold Db.getCurrentBans at htk
      rw [List.mem_filterMap] at htk
      obtain ⟨r, hr, hr2⟩ := htk
      have hg := (hrow r).mp hr
      rw [(hn2 _ _ r hg.1).2.2, hcor] at hr2
      by_cases hi : r.ip = ""
      · rw [if_pos hi] at hr2; cases hr2
      · rw [if_neg hi] at hr2
        dsimp only at hr2
        split at hr2
        · cases hr2
        · rename_i hc
          injection hr2 with hr2
          subst hr2
          exact ⟨hi, r, (h4 _ _ _).mp hg.1, by omega⟩
    · rintro ⟨hi, r, hr, hc⟩
      have hg := (h4 ip jail r).mpr hr
      obtain ⟨rfl, _, hb2⟩ := hn2 ip jail r hg
      refine ⟨Db.toTicket m r bantime, ?_, rfl⟩
      unfold Db.getCurrentBans
      rw [List.mem_filterMap]
      refine ⟨r, (hrow r).mpr ⟨hg, Or.inr hc⟩, ?_⟩
      rw [hb2, hcor, if_neg hi]
      dsimp only
      rw [if_neg (by omega)]

/-- A database of the current version is taken as it is; one of a later version is refused and not touched. -/
theorem C90_not_touched (t : Tables) (v : Nat) (hv : versionOf t = some v) (h : 4 ≤ v) : (openDb t).2 = t ∧ ((openDb t).1 = true ↔ v = 4) := by
  have hn : t.version.isNone = false := by
    cases hx : t.version with
    | none => simp [versionOf, hx] at hv
    | some l => rfl
  unfold openDb
  rw [hn, hv]
  by_cases h4 : v = 4
  · simp [h4, current]
  · have : v > 4 := by omega
    simp [h4, current, this]

/-- A new file gets all tables, empty, and the current version. -/
theorem C90_new : (openDb emptyTables).1 = true ∧ Fresh (openDb emptyTables).2 := ⟨rfl, fresh_create⟩

/-- What was opened once is opened again without any change. -/
theorem C90_again (t : Tables) (h : (openDb t).1 = true) : versionOf (openDb t).2 = some 4 ∧ openDb (openDb t).2 = (true, (openDb t).2) := by
  have key : versionOf (openDb t).2 = some 4 := by
    unfold openDb at h ⊢
    cases hx : t.version with
    | none => exact (ready_create t (Or.inl hx)).version
    | some l =>
      simp only [hx, Option.isNone_some, Bool.false_eq_true, if_false] at h ⊢
      cases hv : versionOf t with
      | none => rw [hv] at h; cases h
      | some v =>
        rw [hv] at h
        dsimp only at h ⊢
        by_cases h4 : v = current
        · rw [if_pos h4]; rw [hv, h4]; rfl
        · rw [if_neg h4] at h ⊢
          by_cases h5 : v > current
          · rw [if_pos h5] at h; cases h
          · rw [if_neg h5] at h ⊢
            exact of_decide_eq_true h
  refine ⟨key, ?_⟩
  have h1 := C90_not_touched (openDb t).2 4 key (Nat.le_refl _)
  exact Prod.ext (h1.2.mpr rfl) h1.1

/-- An upgrade that is interrupted between two transactions is completed at the next start with the same result, unless it was interrupted between the creation of the table of newest bans and the
filling of it (`k = 3`). -/
theorem C90_interrupted_partial (v k : Nat) (t : Tables) (h : Older v t) (hk : k ≠ 3) : openDb (upgrade k v t) = openDb t := by
  obtain ⟨hv, ho, hb, hp, ⟨ls, hl⟩⟩ := h
  have htake : ∀ n, 4 ≤ n → upgrade n v t = upgrade 4 v t := by
    intro n hn
    unfold upgrade
    rw [List.take_of_length_le (by simpa [transactions] using hn), List.take_of_length_le (by simp [transactions])]
  by_cases h4 : 4 ≤ k
  · rw [htake k h4]
    have hold : Older v t := ⟨hv, ho, hb, hp, ⟨ls, hl⟩⟩
    have ho2 := openDb_older v t hold
    have := C90_again t (by rw [ho2])
    rw [ho2] at this ⊢
    exact this.2
  · obtain ⟨tv, tl, tb, tp⟩ := t
    simp only at hv hb hp hl
    subst hv hp hl
    have hc : v = 0 ∨ v = 1 ∨ v = 2 ∨ v = 3 := by omega
    have hkc : k = 0 ∨ k = 1 ∨ k = 2 := by omega
    have hconv : ∀ l : List OldBan, convert (.new (convert (.old l))) = convert (.old l) := by
      intro l; simp [convert]
    rcases hb with ⟨h3, l, rfl⟩ | ⟨h3, l, rfl⟩
    · have e : ∀ l' : List BanRow, l' = convert (.old l) → openDb ⟨some [2], some ls, some (.new l'), none⟩ = openDb ⟨some [2], some ls, some (.old l), none⟩ := by
        rintro l' rfl
        have hc := hconv l
        show (true, (⟨some [4], some ls, some (.new (convert (.new (convert (.old l))))), some ((sortTime (convert (.new (convert (.old l))))).foldl replaceInto Dict.empty)⟩ : Tables)) = _
        rw [hc]
        rfl
      rcases hc with rfl | rfl | rfl | rfl
      · rcases hkc with rfl | rfl | rfl
        · rfl
        · rfl
        · exact e _ rfl
      · rcases hkc with rfl | rfl | rfl
        · rfl
        · rfl
        · exact e _ rfl
      · rcases hkc with rfl | rfl | rfl
        · rfl
        · rfl
        · exact e _ rfl
      · omega
    · subst h3
      rcases hkc with rfl | rfl | rfl <;> rfl

/-- **Not so** if it was interrupted just there: the bans are still in the file, but none of them is ever restored. -/
theorem C90_refuted_interrupted (v : Nat) (t : Tables) (h : Older v t) :
    openDb (upgrade 3 v t) = (true, upgrade 3 v t) ∧ (upgrade 3 v t).bips = some Dict.empty ∧ newRows (upgrade 3 v t).bans = newRows (openDb t).2.bans ∧
      ∀ jail bantime f now correct m, (toDb (openDb (upgrade 3 v t)).2).getCurrentBans jail bantime f now correct m = [] := by
  have h3 : upgrade 3 v t = ⟨some [4], t.logs, (upgrade 4 v t).bans, some Dict.empty⟩ ∧ openDb t = (true, upgrade 4 v t) := by
    obtain ⟨hv, ho, hb, hp, ⟨ls, hl⟩⟩ := h
    obtain ⟨tv, tl, tb, tp⟩ := t
    simp only at hv hb hp hl
    subst hv hp hl
    have hc : v = 0 ∨ v = 1 ∨ v = 2 ∨ v = 3 := by omega
    rcases hb with ⟨h3, l, rfl⟩ | ⟨h3, l, rfl⟩
    · rcases hc with rfl | rfl | rfl | rfl
      · exact ⟨rfl, rfl⟩
      · exact ⟨rfl, rfl⟩
      · exact ⟨rfl, rfl⟩
      · omega
    · subst h3; exact ⟨rfl, rfl⟩
  rw [h3.2, h3.1]
  refine ⟨rfl, rfl, rfl, ?_⟩
  intro jail bantime f now correct m
  rfl

/-- A crash while a new database is made leaves a file that is opened at the next start — unless the version was not yet written. -/
theorem C90_refuted_created (k : Nat) : (openDb (createUpTo k emptyTables)).1 = true ↔ k = 0 ∨ 5 ≤ k := by
  by_cases h : 5 ≤ k
  · have : createUpTo k emptyTables = create emptyTables := by
      unfold create createUpTo
      rw [List.take_of_length_le (by simpa [creations] using h), List.take_of_length_le (by simp [creations])]
    rw [this]
    simp only [h, or_true, iff_true]
    rfl
  · have hc : k = 0 ∨ k = 1 ∨ k = 2 ∨ k = 3 ∨ k = 4 := by omega
    rcases hc with rfl | rfl | rfl | rfl | rfl <;> simp [openDb, createUpTo, creations, emptyTables, versionOf]

/-- … and no later start gets beyond that. -/
theorem C90_refuted_stuck (t : Tables) (h : t.version = some []) : openDb t = (false, t) := by simp [openDb, h, versionOf]

/-- example: version 2, an address banned twice in one jail and once in another -/
example :
    let d : BanData := ⟨some 3, none⟩
    let t : Tables := ⟨some [2], some [("sshd", "/var/log/auth.log", 100)],
      some (.old [⟨"sshd", "192.0.2.1", 500, d⟩, ⟨"sshd", "192.0.2.1", 300, ⟨some 9, none⟩⟩, ⟨"web", "192.0.2.1", 100, d⟩]), none⟩
    (openDb t).1 = true ∧ (openDb t).2.version = some [4] ∧ ((openDb t).2.bips.getD Dict.empty).get? ("192.0.2.1", "sshd") = some ⟨"sshd", "192.0.2.1", 500, -2, 1, d⟩ ∧
      ((toDb (openDb t).2).getCurrentBans "sshd" 600 none 1000 none 10).map Ticket.id = ["192.0.2.1"] ∧
      (toDb (openDb t).2).getCurrentBans "web" 600 none 1000 none 10 = [] ∧
      (toDb (openDb (upgrade 3 2 t)).2).getCurrentBans "sshd" 600 none 1000 none 10 = [] := by decide +kernel

/-! ## C91 -/

/-- Backups are never removed, whatever happens. -/
theorem C91_backups (e : Outside) (f : Files) : ∃ l, (connect e f).2.backups = f.backups ++ l := by
  unfold connect
  split
  · exact ⟨[], by simp⟩
  · exact ⟨_, rebuild_backups _ _ _⟩
  · dsimp only
    split
    · rw [rebuild_backups]
      dsimp only
      split
      · exact ⟨_, rfl⟩
      · exact ⟨[], by simp⟩
    · dsimp only
      split
      · exact ⟨_, rfl⟩
      · exact ⟨[], by simp⟩

/-- What was in the database before the start is afterwards in the database unchanged, or in a backup; or it was an unfinished new database that got its tables. -/
theorem C91_not_lost (e : Outside) (f : Files) (c : Content) (h : f.main = some c) :
    (connect e f).2.main = some c ∨ c ∈ (connect e f).2.backups ∨ ∃ t, c = .good t ∧ t.version = none ∧ (connect e f).2.main = some (.good (create t)) := by
  unfold connect
  rw [h]
  cases c with
  | corrupt n => dsimp only; right; left; rw [rebuild_backups]; simp
  | good t =>
    dsimp only
    by_cases ho : isOld t = true
    · right; left
      rw [if_pos ho]
      split
      · rw [rebuild_backups]; simp
      · simp
    · have hf : isOld t = false := by simpa using ho
      simp only [hf, Bool.false_and, Bool.false_eq_true, if_false]
      by_cases hn : t.version = none
      · right; right
        exact ⟨t, rfl, hn, by simp [openDb, hn]⟩
      · left
        cases hv : versionOf t with
        | none =>
          have : t.version.isNone = false := by
            cases hx : t.version with
            | none => exact (hn hx).elim
            | some l => rfl
          simp [openDb, hv, this]
        | some v =>
          have : 4 ≤ v := by
            have := mt (isOld_of t v hv).mpr (by simp [hf])
            omega
          rw [(C90_not_touched t v hv this).1]

/-- A database that is not older is opened without a backup. -/
theorem C91_no_backup (e : Outside) (f : Files) (t : Tables) (h : f.main = some (.good t)) (hv : ∀ v, versionOf t = some v → 4 ≤ v) :
    connect e f = ((openDb t).1, ⟨some (.good (openDb t).2), f.backups⟩) := by
  have ho : isOld t = false := by
    unfold isOld
    cases hx : versionOf t with
    | none => rfl
    | some v => exact decide_eq_false (Nat.not_lt.mpr (hv v hx))
  simp [connect, h, ho]

/-- A start that raises no exception leaves a database of the current version. -/
theorem C91_ready (e : Outside) (f : Files) (h : (connect e f).1 = true) : ∃ t, (connect e f).2.main = some (.good t) ∧ versionOf t = some 4 := by
  have hca : ∀ f, (connectAgain e f).1 = true → ∃ t, (connectAgain e f).2.main = some (.good t) ∧ versionOf t = some 4 := by
    intro f hf
    unfold connectAgain at hf ⊢
    split
    · exact ⟨_, rfl, rfl⟩
    · rename_i hm
      rw [hm] at hf
      cases hf
    · rename_i t hm
      rw [hm] at hf
      dsimp only at hf
      split at hf
      · cases hf
      · rename_i hc
        rw [if_neg hc]
        refine ⟨_, rfl, (ready_create _ (Or.inr (Or.inl (C90_again t hf).1))).version⟩
  have hrb : ∀ c f, (rebuild e c f).1 = true → ∃ t, (rebuild e c f).2.main = some (.good t) ∧ versionOf t = some 4 := by
    intro c f hf
    unfold rebuild at hf ⊢
    split
    · rename_i hr
      rw [hr] at hf
      cases hf
    · rename_i c' hr
      rw [hr] at hf
      dsimp only at hf ⊢
      split
      · rename_i he
        rw [if_pos he] at hf
        exact hca f hf
      · rename_i he
        rw [if_neg he] at hf
        split
        · rename_i h1; exact hca _ h1
        · rename_i h1
          rw [if_neg h1] at hf
          exact hca _ hf
  unfold connect at h ⊢
  split
  · exact ⟨_, rfl, rfl⟩
  · rename_i n hm
    rw [hm] at h
    exact hrb _ _ h
  · rename_i t hm
    rw [hm] at h
    dsimp only at h ⊢
    split at h
    · cases h
    · rename_i hc
      rw [if_neg hc]
      exact ⟨_, rfl, (C90_again t h).1⟩

/-- A broken file of which the tool makes a database of the current version: its rows are used, and missing tables are made. -/
theorem C91_repaired (e : Outside) (f : Files) (n : Nat) (t : Tables) (hf : f.main = some (.corrupt n)) (hr : e.restore (.corrupt n) = some (.good t)) (hv : versionOf t = some 4) :
    ∃ t', connect e f = (true, ⟨some (.good t'), f.backups ++ [.corrupt n]⟩) ∧ Ready t' ∧ t'.version = t.version ∧ (∀ l, t.logs = some l → t'.logs = some l) ∧
      (∀ b, t.bans = some b → t'.bans = some b) ∧ ∀ d, t.bips = some d → t'.bips = some d := by
  have he : isEmpty (.good t) = false := by
    cases hx : t.version with
    | none => simp [versionOf, hx] at hv
    | some l =>
      obtain ⟨tv, tl, tb, tp⟩ := t
      simp only at hx
      subst hx
      rfl
  have ho : openDb t = (true, t) := by
    have h1 := C90_not_touched t 4 hv (Nat.le_refl _)
    exact Prod.ext (h1.2.mpr rfl) h1.1
  have hold : isOld t = false := by simp [isOld, hv, current]
  refine ⟨create t, ?_, ready_create t (Or.inr (Or.inl hv)), ?_, ?_, ?_, ?_⟩
  · simp [connect, hf, rebuild, hr, he, connectAgain, ho, hold]
  · rw [create_eq]
    cases hx : t.version with
    | none => simp [versionOf, hx] at hv
    | some l => cases l with
      | nil => simp [versionOf, hx] at hv
      | cons a l => rfl
  · intro l hl; simp [create_eq, hl]
  · intro l hl; simp [create_eq, hl]
  · intro l hl; simp [create_eq, hl]

/-- A broken file of which the tool makes nothing useful — an empty file, another broken one, one of a later version: the start goes on with a new database, and the broken file is kept. -/
theorem C91_recreated (e : Outside) (f : Files) (n : Nat) (c : Content) (hf : f.main = some (.corrupt n)) (hr : e.restore (.corrupt n) = some c)
    (hc : c = .good emptyTables ∨ (∃ m, c = .corrupt m) ∨ ∃ t v, c = .good t ∧ versionOf t = some v ∧ 4 < v) :
    ∃ t', connect e f = (true, ⟨some (.good t'), f.backups ++ [.corrupt n]⟩) ∧ Fresh t' := by
  refine ⟨create emptyTables, ?_, fresh_create⟩
  rcases hc with rfl | ⟨m, rfl⟩ | ⟨t, v, rfl, hv, h4⟩
  · simp [connect, hf, rebuild, hr, isEmpty, emptyTables, connectAgain]
  · simp [connect, hf, rebuild, hr, isEmpty, connectAgain]
  · have he : isEmpty (.good t) = false := by
      cases hx : t.version with
      | none => simp [versionOf, hx] at hv
      | some l =>
        obtain ⟨tv, tl, tb, tp⟩ := t
        simp only at hx
        subst hx
        rfl
    have ho : (openDb t).1 = false := by
      have h1 := C90_not_touched t v hv (by omega)
      cases hx : (openDb t).1 with
      | false => rfl
      | true => have := h1.2.mp hx; omega
    have hold : isOld t = false := by
      cases hx : isOld t with
      | false => rfl
      | true => have := (isOld_of t v hv).mp hx; omega
    simp [connect, hf, rebuild, hr, he, connectAgain, ho, hold]

/-- **Not so** without the tool: the start fails, although nothing hinders a new database; it is made at the next start. -/
theorem C91_refuted_tool (e : Outside) (f : Files) (n : Nat) (hf : f.main = some (.corrupt n)) (hr : e.restore (.corrupt n) = none) :
    connect e f = (false, ⟨none, f.backups ++ [.corrupt n]⟩) ∧ ∃ t', connect e (connect e f).2 = (true, ⟨some (.good t'), f.backups ++ [.corrupt n]⟩) ∧ Fresh t' := by
  have h1 : connect e f = (false, ⟨none, f.backups ++ [.corrupt n]⟩) := by simp [connect, hf, rebuild, hr]
  exact ⟨h1, create emptyTables, by rw [h1]; rfl, fresh_create⟩

/-- **Not so** after a failed upgrade: the tool restores the old file, its upgrade fails again, a new database is made — and the start fails nevertheless. The next start goes on with the new one. -/
theorem C91_refuted_upgrade (e : Outside) (f : Files) (t : Tables) (v : Nat) (hf : f.main = some (.good t)) (ho : Older v t) (hfail : e.fails t = true) (hr : e.restore (.good t) = some (.good t)) :
    ∃ t', connect e f = (false, ⟨some (.good t'), f.backups ++ [.good t]⟩) ∧ Fresh t' ∧ connect e (connect e f).2 = (true, (connect e f).2) := by
  have hold : isOld t = true := (isOld_of t v (by simp [versionOf, ho.version])).mpr ho.old
  have he : isEmpty (.good t) = false := by
    have hx := ho.version
    obtain ⟨tv, tl, tb, tp⟩ := t
    simp only at hx
    subst hx
    rfl
  have h1 : connect e f = (false, ⟨some (.good (create emptyTables)), f.backups ++ [.good t]⟩) := by
    simp [connect, hf, hold, hfail, rebuild, hr, he, connectAgain]
  refine ⟨create emptyTables, h1, fresh_create, ?_⟩
  rw [h1]
  rfl

/-- example: a broken file, the tool makes an empty one of it -/
example : (connect ⟨fun _ => some (.good emptyTables), fun _ => false⟩ ⟨some (.corrupt 7), []⟩).1 = true ∧
    ((connect ⟨fun _ => some (.good emptyTables), fun _ => false⟩ ⟨some (.corrupt 7), []⟩).2.backups.map fun c => match c with
      | .corrupt n => n
      | .good _ => 0) = [7] := by decide +kernel

end Verif
