import Verif.Model.AllJails
import Verif.Props.Actions
import Verif.Props.Unban

set_option linter.unusedSimpArgs false

/-!
# C96 — Commands over all jails

For all jails and their bans, all addresses, and all results of commands of actions.
-/

namespace Verif.AllJails

open Verif.Actions

/-! ## Examples -/

def exampleJail (ips : List Fid) : Actions :=
  { Actions.init false true with bm := (((Actions.init false true).addBannedIP (fun _ => {}) 100 ips).2.2.2).bm, actions := Dict.empty.insert "fw" {} }

def exampleJails : Jails := [("sshd", exampleJail ["a", "b"]), ("apache", exampleJail ["b", "c"]), ("mail", exampleJail [])]

example : banned exampleJails none ["a", "b", "x"] = .names [["sshd"], ["sshd", "apache"], []] := by decide +kernel

example : (unban (fun _ _ => {}) (fun _ => none) exampleJails ["b", "c", "x"]).1 = .count 3 ∧
    banned (unban (fun _ _ => {}) (fun _ => none) exampleJails ["b", "c", "x"]).2 none [] =
      .all [("sshd", .list ["a"]), ("apache", .list []), ("mail", .list [])] := by decide +kernel

example : (unban (fun _ _ => {}) (fun _ => none) exampleJails ["--all"]).1 = .count 4 := by decide +kernel

example : (setUnbanIP (fun _ _ => {}) (fun _ => none) exampleJails (some "sshd") (some ["a", "x"]) false).1 = .missing ["x"] ∧
    banned (setUnbanIP (fun _ _ => {}) (fun _ => none) exampleJails (some "sshd") (some ["a", "x"]) false).2 none [] =
      .all [("sshd", .list ["b"]), ("apache", .list ["b", "c"]), ("mail", .list [])] := by decide +kernel

example : (status exampleJails true).1 = 3 ∧ (status exampleJails true).2.1 = ["apache", "mail", "sshd"] ∧
    (status exampleJails true).2.2.map (fun x => x.2.2.2) = [["b", "c"], [], ["a", "b"]] := by decide +kernel

/-! ## Unban in all jails -/

/-- Nothing is missing if this is not to be reported. -/
theorem removeLoop_missing (rm : Actions → Fid → Option Nat × Actions) (l : List Fid) : ∀ cnt missed s, (removeLoop rm true l cnt missed s).2.1 = missed := by
  induction l with
  | nil => exact fun _ _ _ => rfl
  | cons x l ih =>
    intro cnt missed s
    simp only [removeLoop]
    split
    · exact ih _ _ _
    · exact ih _ _ _

theorem unbanLoop_counts (envs : String → Env) (net : Fid → Option (Fid → Bool)) (value : Option (List Fid)) (k : String × Actions → Nat) (g : String × Actions → Actions)
    (js : Jails) (h : ∀ j ∈ js, unbanJail (envs j.1) net true value j.2 = (.count (k j), g j)) : ∀ cnt,
    unbanLoop envs net true value js cnt = (.count (cnt + (js.map k).sum), js.map (fun j => (j.1, g j))) := by
  induction js with
  | nil => intro cnt; rfl
  | cons j js ih =>
    intro cnt
    obtain ⟨n, s⟩ := j
    have hj := h (n, s) (List.mem_cons_self ..)
    simp only [unbanLoop]
    dsimp only at hj
    rw [hj]
    dsimp only
    rw [ih (fun j hj => h j (List.mem_cons_of_mem _ hj))]
    simp only [List.map_cons, List.sum_cons]
    rw [Nat.add_assoc]

/-- **C96 (each jail on its own).** `unban` of addresses never fails; each jail does what it does for the addresses alone, and the numbers
are added. -/
theorem C96_each (envs : String → Env) (net : Fid → Option (Fid → Bool)) (js : Jails) (ips : List Fid) (h : ips ≠ ["--all"]) :
    unban envs net js ips =
      (.count (js.map (fun j => (j.2.removeBannedIPs (envs j.1) net true true ips).1)).sum,
       js.map (fun j => (j.1, (j.2.removeBannedIPs (envs j.1) net true true ips).2.2))) := by
  unfold unban
  rw [if_neg h]
  show unbanLoop _ _ _ _ _ _ = _
  rw [unbanLoop_counts envs net (some ips) (fun j => (j.2.removeBannedIPs (envs j.1) net true true ips).1)
    (fun j => (j.2.removeBannedIPs (envs j.1) net true true ips).2.2) js ?_ 0, Nat.zero_add]
  intro j _
  unfold unbanJail
  have := removeLoop_missing (removeStr (envs j.1) net true true) ips 0 [] j.2
  simp only [removeBannedIPs, this, ne_eq, not_true, if_false]

/-- **C96 (unban).** After `unban` of addresses none of them is banned in any jail, all other bans of each jail are as and where they were,
the number returned is that of the bans removed in all jails, and for each ban removed every action of the jail is executed. -/
theorem C96_unban (envs : String → Env) (net : Fid → Option (Fid → Bool)) (js : Jails) (ips : List Fid) (h : ips ≠ ["--all"])
    (hplain : ∀ x ∈ ips, net x = none) (hk : ∀ j ∈ js, BanManager.KeyId j.2.bm) :
    (unban envs net js ips).1 = .count (js.map (fun j => (j.2.bm.banList.keys.filter (fun x => decide (x ∈ ips))).length)).sum ∧
    (unban envs net js ips).2.map (fun j => (j.1, j.2.bm.banList.items)) =
      js.map (fun j => (j.1, j.2.bm.banList.items.filter (fun kv => decide (kv.1 ∉ ips)))) ∧
    (unban envs net js ips).2.map (fun j => j.2.trace) =
      js.map (fun j => j.2.trace ++ removeCalls j.2.actions.keys j.2.hasDb j.2.bm.banList.keys ips) := by
  rw [C96_each envs net js ips h]
  have hs : ∀ j ∈ js, _ := fun j hj => C20_unban (envs j.1) net j.2 true true ips hplain (hk j hj)
  refine ⟨?_, ?_, ?_⟩
  · dsimp only
    congr 2
    exact List.map_congr_left (fun j hj => (hs j hj).1)
  · dsimp only
    rw [List.map_map]
    refine List.map_congr_left (fun j hj => ?_)
    simp only [Function.comp]
    rw [(hs j hj).2.2.1]
  · dsimp only
    rw [List.map_map]
    refine List.map_congr_left (fun j hj => ?_)
    simp only [Function.comp]
    rw [(hs j hj).2.2.2.1, Bool.true_and]

/-- **C96 (unban of a subnet or name).** `unban` of a text for a set of addresses, itself not banned, removes exactly the bans of the set in
all jails. -/
theorem C96_unban_set (envs : String → Env) (net : Fid → Option (Fid → Bool)) (js : Jails) (ip : Fid) (h : ip ≠ "--all") (p : Fid → Bool)
    (hnet : net ip = some p) (hk : ∀ j ∈ js, BanManager.KeyId j.2.bm) (hip : ∀ j ∈ js, ip ∉ j.2.bm.banList.keys) :
    (unban envs net js [ip]).1 = .count (js.map (fun j => (j.2.bm.banList.keys.filter p).length)).sum ∧
    (unban envs net js [ip]).2.map (fun j => (j.1, j.2.bm.banList.items)) =
      js.map (fun j => (j.1, j.2.bm.banList.items.filter (fun kv => !(p kv.1)))) := by
  rw [C96_each envs net js [ip] (by simpa using h)]
  have hs : ∀ j ∈ js, (j.2.removeBannedIPs (envs j.1) net true true [ip]).1 = (j.2.bm.banList.keys.filter p).length ∧
      (j.2.removeBannedIPs (envs j.1) net true true [ip]).2.2.bm.banList.items = j.2.bm.banList.items.filter (fun kv => !(p kv.1)) := by
    intro j hj
    obtain ⟨h1, h2, _⟩ := C20_unban_set (envs j.1) net j.2 true true ip p hnet (hip j hj) (hk j hj)
    unfold removeBannedIPs
    simp only [removeLoop]
    generalize removeStr (envs j.1) net true true j.2 ip = r at h1 h2 ⊢
    obtain ⟨a, b⟩ := r
    dsimp only at h1 h2
    by_cases he : j.2.bm.banList.keys.filter p = []
    · rw [if_pos he, if_pos rfl] at h1
      subst h1
      simp only [removeLoop, he, List.length_nil, true_and]
      exact h2
    · rw [if_neg he] at h1
      subst h1
      simp only [removeLoop, Nat.zero_add, true_and]
      exact h2
  refine ⟨?_, ?_⟩
  · dsimp only
    congr 2
    exact List.map_congr_left (fun j hj => (hs j hj).1)
  · dsimp only
    rw [List.map_map]
    refine List.map_congr_left (fun j hj => ?_)
    simp only [Function.comp]
    rw [(hs j hj).2]

/-- **C96 (unban --all).** If no consistency check of an action raises, no jail has a ban after it, and the number returned is that of all
bans. -/
theorem C96_all (envs : String → Env) (henv : ∀ n, ChecksReturn (envs n)) (net : Fid → Option (Fid → Bool)) (js : Jails) :
    (unban envs net js ["--all"]).1 = .count (js.map (fun j => j.2.bm.banList.size)).sum ∧
    (unban envs net js ["--all"]).2.map (fun j => (j.1, j.2.bm.banList.items)) = js.map (fun j => (j.1, [])) := by
  have hs : ∀ j ∈ js, _ := fun (j : String × Actions) (_ : j ∈ js) =>
    C18_flush (envs j.1) j.2 true (j.2.flushBan (envs j.1) true none).1 (j.2.flushBan (envs j.1) true none).2.2
      (by rw [← C18_flush_returns (envs j.1) (henv j.1) j.2 true none])
  unfold unban
  rw [if_pos rfl]
  have e : setUnbanIP envs net js none none true = unbanLoop envs net true none js 0 := rfl
  rw [e, unbanLoop_counts envs net none (fun j => (j.2.flushBan (envs j.1) true none).1) (fun j => (j.2.flushBan (envs j.1) true none).2.2) js ?_ 0, Nat.zero_add]
  · refine ⟨?_, ?_⟩
    · dsimp only
      congr 2
      exact List.map_congr_left (fun j hj => (hs j hj).1)
    · dsimp only
      rw [List.map_map]
      refine List.map_congr_left (fun j hj => ?_)
      simp only [Function.comp]
      rw [(hs j hj).2.1]
  · intro j _
    unfold unbanJail
    dsimp only
    rw [C18_flush_returns (envs j.1) (henv j.1) j.2 true none]
    rfl

/-! ## Unban in one jail -/

/-- **C96 (no name).** Without name of a jail it is the same as `unban`, whether or not missing addresses are to be reported: over all jails they never are. -/
theorem C96_nameless (envs : String → Env) (net : Fid → Option (Fid → Bool)) (js : Jails) (ips : List Fid) (h : ips ≠ ["--all"]) (ifexists : Bool) :
    setUnbanIP envs net js none (some ips) ifexists = unban envs net js ips ∧
    setUnbanIP envs net js none none ifexists = unban envs net js ["--all"] := by
  constructor
  · unfold unban; rw [if_neg h]; rfl
  · unfold unban; rw [if_pos rfl]; rfl

/-- **C96 (other jails).** The command for one jail does not change others; for a jail that does not exist nothing is changed. -/
theorem C96_other (envs : String → Env) (net : Fid → Option (Fid → Bool)) (js : Jails) (n : String) (value : Option (List Fid)) (ifexists : Bool) :
    (n ∉ js.map (·.1) → setUnbanIP envs net js (some n) value ifexists = (.unknown, js)) ∧
    (setUnbanIP envs net js (some n) value ifexists).2.map (·.1) = js.map (·.1) ∧
    ∀ (k : Nat) (j : String × Actions), js[k]? = some j → j.1 ≠ n → (setUnbanIP envs net js (some n) value ifexists).2[k]? = some j := by
  unfold setUnbanIP
  dsimp only
  cases hf : js.find? (fun j => j.1 == n) with
  | none => exact ⟨fun _ => rfl, rfl, fun k j h _ => h⟩
  | some j0 =>
    dsimp only
    refine ⟨fun h => ?_, ?_, ?_⟩
    · exfalso
      apply h
      have h1 := List.mem_of_find?_eq_some hf
      have h2 := List.find?_some hf
      exact List.mem_map.2 ⟨j0, h1, eq_of_beq h2⟩
    · unfold update
      rw [List.map_map]
      refine List.map_congr_left (fun j _ => ?_)
      simp only [Function.comp]
      split <;> rfl
    · intro k j hk hn
      unfold update
      rw [List.getElem?_map, hk, Option.map_some, if_neg hn]

/-- **C96 (one jail).** For one jail, the addresses given leave its ban list; if absent ones are to be reported, the command fails exactly
if one is not banned, and says which; the others are unbanned nevertheless. -/
theorem C96_one (envs : String → Env) (net : Fid → Option (Fid → Bool)) (js : Jails) (hn : (js.map (·.1)).Nodup) (n : String) (s : Actions)
    (hs : (n, s) ∈ js) (ips : List Fid) (hd : ips.Nodup) (hplain : ∀ x ∈ ips, net x = none) (hk : BanManager.KeyId s.bm) (ifexists : Bool) :
    let r := setUnbanIP envs net js (some n) (some ips) ifexists
    (∃ s', (n, s') ∈ r.2 ∧ s'.bm.banList.items = s.bm.banList.items.filter (fun kv => decide (kv.1 ∉ ips))) ∧
    r.1 = if ifexists = false ∧ ∃ x ∈ ips, x ∉ s.bm.banList.keys then .missing (ips.filter (fun x => decide (x ∉ s.bm.banList.keys)))
      else .count (s.bm.banList.keys.filter (fun x => decide (x ∈ ips))).length := by
  intro r
  have hfind : js.find? (fun j => j.1 == n) = some (n, s) := by
    clear r
    induction js with
    | nil => cases hs
    | cons j js ih =>
      rw [List.map_cons, List.nodup_cons] at hn
      rcases List.mem_cons.1 hs with h | h
      · subst h; rw [List.find?_cons_of_pos (by simp)]
      · rw [List.find?_cons_of_neg, ih hn.2 h]
        intro he
        exact hn.1 (List.mem_map.2 ⟨(n, s), h, (eq_of_beq he).symm⟩)
  obtain ⟨h1, h2, h3, _⟩ := C20_unban (envs n) net s true ifexists ips hplain hk
  have hr : r = ((unbanJail (envs n) net ifexists (some ips) s).1, update js n (fun _ => (unbanJail (envs n) net ifexists (some ips) s).2)) := by
    show setUnbanIP _ _ _ _ _ _ = _
    unfold setUnbanIP
    dsimp only
    rw [hfind]
  rw [C20_missing_nodup _ _ hd] at h2
  constructor
  · refine ⟨(unbanJail (envs n) net ifexists (some ips) s).2, ?_, h3⟩
    rw [hr]
    exact List.mem_map.2 ⟨(n, s), hs, by simp⟩
  · rw [hr]
    unfold unbanJail
    dsimp only
    rw [h2, h1]
    cases ifexists with
    | true => simp
    | false =>
      simp only [Bool.false_eq_true, if_false, true_and, ne_eq]
      by_cases hx : ∃ x ∈ ips, x ∉ s.bm.banList.keys
      · rw [if_pos hx, if_pos]
        intro he
        obtain ⟨x, h4, h5⟩ := hx
        have := List.filter_eq_nil_iff.1 he x h4
        exact this (by simpa using h5)
      · rw [if_neg hx, if_neg]
        intro he
        apply he
        rw [List.filter_eq_nil_iff]
        intro x hxi
        have : x ∈ s.bm.banList.keys := Classical.byContradiction (fun h => hx ⟨x, hxi, h⟩)
        simpa using this

/-! ## Query -/

/-- **C96 (banned).** `banned` with addresses says for each of them exactly the jails in which it is banned, in order. -/
theorem C96_banned (js : Jails) (ids : List Fid) (h : ids ≠ []) :
    ∃ l, banned js none ids = .names l ∧ l.length = ids.length ∧
      ∀ (k : Nat) (x : Fid) (ns : List String), ids[k]? = some x → l[k]? = some ns →
        ns = (js.filter (fun j => decide (x ∈ j.2.bm.banList.keys))).map (·.1) := by
  refine ⟨_, by unfold banned; dsimp only; rw [if_pos h], by simp, ?_⟩
  intro k x ns hk hl
  rw [List.getElem?_map, hk, Option.map_some] at hl
  simp only [Option.some.injEq] at hl
  rw [← hl]
  congr 2
  funext j
  unfold getBanned BanManager.getBanList
  by_cases hm : x ∈ j.2.bm.banList.keys
  · simp [hm]
  · simp [hm]

/-- **C96 (banned, all).** Without addresses it gives the ban list of each jail. -/
theorem C96_banned_all (js : Jails) : banned js none [] = .all (js.map (fun j => (j.1, .list j.2.bm.banList.keys))) := by
  unfold banned getBanned BanManager.getBanList
  simp

/-- **C96 (banned, one jail).** For one jail it gives the ban list, 0 or 1 for an address, a list of these for several. -/
theorem C96_banned_jail (js : Jails) (hn : (js.map (·.1)).Nodup) (n : String) (s : Actions) (hs : (n, s) ∈ js) :
    banned js (some n) [] = .jail (.list s.bm.banList.keys) ∧
    (∀ x, banned js (some n) [x] = .jail (.flag (if x ∈ s.bm.banList.keys then 1 else 0))) ∧
    ∀ x y ids, banned js (some n) (x :: y :: ids) = .jail (.flags ((x :: y :: ids).map (fun i => if i ∈ s.bm.banList.keys then 1 else 0))) := by
  have hfind : js.find? (fun j => j.1 == n) = some (n, s) := by
    induction js with
    | nil => cases hs
    | cons j js ih =>
      rw [List.map_cons, List.nodup_cons] at hn
      rcases List.mem_cons.1 hs with h | h
      · subst h; rw [List.find?_cons_of_pos (by simp)]
      · rw [List.find?_cons_of_neg, ih hn.2 h]
        intro he
        exact hn.1 (List.mem_map.2 ⟨(n, s), h, (eq_of_beq he).symm⟩)
  unfold banned
  dsimp only
  rw [hfind]
  refine ⟨by simp [getBanned, BanManager.getBanList], fun x => ?_, fun x y ids => ?_⟩
  · simp [getBanned, BanManager.getBanList]
  · simp [getBanned, Actions.getBanned, BanManager.getBanList]

/-- **C96 (unban is seen).** After `unban` of addresses, `banned` names no jail for them, and for any other address the same as before. -/
theorem C96_seen (envs : String → Env) (net : Fid → Option (Fid → Bool)) (js : Jails) (ips : List Fid) (h : ips ≠ ["--all"])
    (hplain : ∀ x ∈ ips, net x = none) (hk : ∀ j ∈ js, BanManager.KeyId j.2.bm) (x : Fid) :
    banned (unban envs net js ips).2 none [x] = if x ∈ ips then .names [[]] else banned js none [x] := by
  have hb : ∀ js : Jails, banned js none [x] = .names [((js.map (fun j => (j.1, j.2.bm.banList.items))).filter
      (fun j => decide (x ∈ j.2.map Prod.fst))).map (·.1)] := by
    intro js
    obtain ⟨l, h1, h2, h3⟩ := C96_banned js [x] (by simp)
    rw [h1]
    cases l with
    | nil => cases h2
    | cons a l =>
      cases l with
      | cons => cases h2
      | nil =>
        rw [h3 0 x a rfl rfl, List.filter_map, List.map_map]
        rfl
  rw [hb, hb, (C96_unban envs net js ips h hplain hk).2.1]
  by_cases hx : x ∈ ips
  · rw [if_pos hx]
    congr 2
    rw [List.map_eq_nil_iff, List.filter_eq_nil_iff]
    intro j hj
    obtain ⟨j0, _, rfl⟩ := List.mem_map.1 hj
    simp only [decide_eq_true_eq, List.mem_map, List.mem_filter, not_exists]
    rintro kv ⟨⟨_, h1⟩, rfl⟩
    exact h1 hx
  · rw [if_neg hx]
    congr 2
    rw [List.filter_map, List.filter_map, List.map_map, List.map_map]
    have : (fun j : String × List (Fid × Ticket) => decide (x ∈ j.2.map Prod.fst)) ∘ (fun j : String × Actions => (j.1, j.2.bm.banList.items.filter (fun kv => decide (kv.1 ∉ ips)))) =
        (fun j : String × List (Fid × Ticket) => decide (x ∈ j.2.map Prod.fst)) ∘ (fun j : String × Actions => (j.1, j.2.bm.banList.items)) := by
      funext j
      simp only [Function.comp, decide_eq_decide, List.mem_map, List.mem_filter]
      constructor
      · rintro ⟨kv, ⟨h1, _⟩, h2⟩; exact ⟨kv, h1, h2⟩
      · rintro ⟨kv, h1, h2⟩; exact ⟨kv, ⟨h1, by simpa [h2] using hx⟩, h2⟩
    rw [this]
    rfl

/-! ## Status -/

theorem insertBy_perm (j : String × Actions) (js : Jails) : (insertBy j js).Perm (j :: js) := by
  induction js with
  | nil => exact .refl _
  | cons k js ih =>
    simp only [insertBy]
    split
    · exact .refl _
    · exact (ih.cons k).trans (.swap j k js)

theorem sorted_perm (js : Jails) : (sorted js).Perm js := by
  have : ∀ (js r : Jails), (js.foldl (fun r j => insertBy j r) r).Perm (r ++ js) := by
    intro js
    induction js with
    | nil => intro r; simp
    | cons j js ih =>
      intro r
      rw [List.foldl_cons]
      refine (ih _).trans (((insertBy_perm j r).append_right js).trans ?_)
      rw [List.cons_append]
      exact List.perm_middle.symm
  simpa [sorted] using this js []

theorem insertBy_sorted (j : String × Actions) (js : Jails) (h : js.Pairwise (fun a b => a.1 ≤ b.1)) :
    (insertBy j js).Pairwise (fun a b => a.1 ≤ b.1) := by
  induction js with
  | nil => simp [insertBy]
  | cons k js ih =>
    rw [List.pairwise_cons] at h
    simp only [insertBy]
    by_cases hlt : j.1 < k.1
    · rw [if_pos hlt, List.pairwise_cons]
      refine ⟨?_, List.pairwise_cons.2 h⟩
      intro a ha
      have hjk : j.1 ≤ k.1 := Std.le_of_lt hlt
      rcases List.mem_cons.1 ha with rfl | ha
      · exact hjk
      · exact String.le_trans hjk (h.1 a ha)
    · rw [if_neg hlt, List.pairwise_cons]
      refine ⟨?_, ih h.2⟩
      intro a ha
      rcases List.mem_cons.1 ((insertBy_perm j js).mem_iff.1 ha) with rfl | ha
      · exact String.not_lt.1 hlt
      · exact h.1 a ha

theorem sorted_sorted (js : Jails) : (sorted js).Pairwise (fun a b => a.1 ≤ b.1) := by
  have : ∀ (js r : Jails), r.Pairwise (fun a b => a.1 ≤ b.1) → (js.foldl (fun r j => insertBy j r) r).Pairwise (fun a b => a.1 ≤ b.1) := by
    intro js
    induction js with
    | nil => exact fun r h => h
    | cons j js ih => exact fun r h => ih _ (insertBy_sorted j r h)
  exact this js [] .nil

/-- **C96 (status).** `status` shows the number of jails and each of them once, sorted by name; with `--all` also the state of each. -/
theorem C96_status (js : Jails) (all : Bool) :
    (status js all).1 = js.length ∧ (status js all).2.1.Perm (js.map (·.1)) ∧ (status js all).2.1.Pairwise (· ≤ ·) ∧
    (all = true → (status js all).2.2.Perm (js.map (fun j => (j.1, j.2.bm.banList.size, j.2.bm.banTotal, j.2.bm.banList.keys))) ∧ (status js all).2.2.map (·.1) = (status js all).2.1) := by
  unfold status
  dsimp only
  refine ⟨(sorted_perm js).length_eq, (sorted_perm js).map _, ?_, ?_⟩
  · rw [List.pairwise_map]
    exact sorted_sorted js
  · rintro rfl
    rw [if_pos rfl]
    refine ⟨((sorted_perm js).map (fun j => (j.1, j.2.status))).trans (List.Perm.of_eq ?_), by simp [List.map_map, Function.comp_def]⟩
    refine List.map_congr_left (fun j _ => ?_)
    simp [Actions.status, BanManager.getBanList, Dict.size, Dict.keys]

/-! ## What does not hold -/

/-- **C96, refuted: `unban --all` unbans in all jails.** If a flush fails and the following consistency check of an action raises, the bans
of the jails after it stay; and in the jail itself the list is empty, though nothing was unbanned. -/
theorem C96_refuted_all : ∃ (envs : String → Env) (js : Jails), (unban envs (fun _ => none) js ["--all"]).1 = .raised ∧
    banned (unban envs (fun _ => none) js ["--all"]).2 none [] = .all [("one", .list []), ("two", .list ["b"])] ∧
    (unban envs (fun _ => none) js ["--all"]).2.map (fun j => j.2.trace.filter (fun c => match c with | .unban .. => true | _ => false)) = [[], []] ∧
    banned js none [] = .all [("one", .list ["a"]), ("two", .list ["b"])] := by
  refine ⟨fun _ _ => { raised := true },
    [("one", { exampleJail ["a"] with actions := Dict.empty.insert "fw" { canFlush := true, canCheck := true } }), ("two", exampleJail ["b"])], ?_, ?_, ?_, ?_⟩ <;>
    decide +kernel

end Verif.AllJails
