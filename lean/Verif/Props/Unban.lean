import Verif.Props.Actions

/-! # Explicit unban (C20) -/

namespace Verif

open Actions Spec.Act Spec.Ban

/-- the record of an address is deleted from the database, if there is one and this is requested -/
def dbCalls (on : Bool) (x : Fid) : List Call := if on = true then [Call.dbDel (some x)] else []

theorem items_erase_filter (d : Dict Fid Ticket) (k : Fid) :
    (d.erase k).items = d.items.filter (fun kv => decide (kv.1 ≠ k)) := rfl

theorem removeObj_spec (env : Env) (s : Actions) (db ife : Bool) (x : Fid) (hk : BanManager.KeyId s.bm) :
    (s.removeObj env db ife x).1 = (if x ∈ s.bm.banList.keys then some 1 else if ife = true then some 0 else none) ∧
    (s.removeObj env db ife x).2.bm = { s.bm with banList := s.bm.banList.erase x } ∧
    (s.removeObj env db ife x).2.trace = s.trace ++ dbCalls (db && s.hasDb) x ++
      (if x ∈ s.bm.banList.keys then s.actions.keys.map (fun a => Call.unban a x) else []) ∧
    SameCfg s (s.removeObj env db ife x).2 := by
  have hdb : (s.dbDelete db x).bm = s.bm ∧ (s.dbDelete db x).trace = s.trace ++ dbCalls (db && s.hasDb) x ∧
      (s.dbDelete db x).actions = s.actions ∧ SameCfg s (s.dbDelete db x) := by
    unfold dbDelete dbCalls
    split
    · exact ⟨rfl, rfl, rfl, ⟨rfl, rfl, rfl, rfl⟩⟩
    · exact ⟨rfl, by simp, rfl, ⟨rfl, rfl, rfl, rfl⟩⟩
  unfold removeObj
  dsimp only
  generalize s.dbDelete db x = s1 at *
  obtain ⟨h1, h2, h3, h4⟩ := hdb
  unfold BanManager.getTicketByID
  dsimp only
  rw [h1]
  cases hg : s.bm.banList.get? x with
  | some t =>
    have hm : x ∈ s.bm.banList.keys := (Dict.mem_keys_iff _ _).2 ⟨_, hg⟩
    have hid : t.id = x := hk x t hg
    dsimp only
    rw [hid]
    obtain ⟨k1, k2⟩ := unBan_spec env { s1 with bm := { s.bm with banList := s.bm.banList.erase x } } x none
    rw [if_pos hm, if_pos hm]
    refine ⟨rfl, k2.bm, ?_, ?_⟩
    · rw [k1]; simp only [Option.getD_none]; rw [h2, h3]
    · exact ⟨k2.config.trans h4.config, k2.observer.trans h4.observer, k2.hasDb.trans h4.hasDb, k2.reloading.trans h4.reloading⟩
  | none =>
    have hm : x ∉ s.bm.banList.keys := (Dict.get?_eq_none_iff _ _).1 hg
    dsimp only
    rw [if_neg hm, if_neg hm]
    exact ⟨rfl, rfl, by rw [h2]; simp, ⟨h4.config, h4.observer, h4.hasDb, h4.reloading⟩⟩

theorem removeStr_plain (env : Env) (net : Fid → Option (Fid → Bool)) (db ife : Bool) (s : Actions) (x : Fid)
    (h : net x = none) : removeStr env net db ife s x = s.removeObj env db ife x := by
  unfold removeStr removeObj
  dsimp only
  rw [h]
  generalize (s.dbDelete db x).bm.getTicketByID x = q
  obtain ⟨q1, q2⟩ := q
  cases q1 <;> simp

theorem keyId_erase {b : BanManager} (h : BanManager.KeyId b) (x : Fid) :
    BanManager.KeyId { b with banList := b.banList.erase x } := by
  intro y t hy
  dsimp only at hy
  rw [Dict.get?_erase] at hy
  by_cases e : y = x
  · rw [if_pos e] at hy; cases hy
  · rw [if_neg e] at hy; exact h y t hy

/-- the elements of a list that are not in the given set when reached, each element found being taken out of the set -/
def notFound (set : List Fid) : List Fid → List Fid
  | [] => []
  | x :: l => if x ∈ set then notFound (set.filter (fun y => decide (y ≠ x))) l else x :: notFound set l

/-- the calls of an explicit unban: for each address in order its record is deleted; the first time a banned address is
reached, it is unbanned with every action in order -/
def removeCalls (acts : List String) (on : Bool) (set : List Fid) : List Fid → List Call
  | [] => []
  | x :: l =>
    dbCalls on x ++
    if x ∈ set then acts.map (fun a => Call.unban a x) ++ removeCalls acts on (set.filter (fun y => decide (y ≠ x))) l
    else removeCalls acts on set l

theorem removeLoop_spec (env : Env) (db ife ife' : Bool) (rm : Actions → Fid → Option Nat × Actions) (l : List Fid)
    (hrm : ∀ s, ∀ x ∈ l, rm s x = s.removeObj env db ife x) (hife : ife' = ife) (cnt : Nat) (missed : List Fid) (s : Actions)
    (hk : BanManager.KeyId s.bm) :
    let r := removeLoop rm ife' l cnt missed s
    r.1 = cnt + (s.bm.banList.keys.filter (fun x => decide (x ∈ l))).length ∧
    r.2.1 = missed ++ (if ife = true then [] else notFound s.bm.banList.keys l) ∧
    r.2.2.bm.banList.items = s.bm.banList.items.filter (fun kv => decide (kv.1 ∉ l)) ∧
    r.2.2.trace = s.trace ++ removeCalls s.actions.keys (db && s.hasDb) s.bm.banList.keys l ∧
    SameCfg s r.2.2 ∧ BanManager.KeyId r.2.2.bm ∧ r.2.2.bm.banTotal = s.bm.banTotal ∧ r.2.2.bm.banTime = s.bm.banTime := by
  subst hife
  induction l generalizing cnt missed s with
  | nil =>
    refine ⟨?_, ?_, ?_, ?_, SameCfg.refl s, hk, rfl, rfl⟩
    · have e : s.bm.banList.keys.filter (fun x => decide (x ∈ ([] : List Fid))) = [] :=
        List.filter_eq_nil_iff.2 (by simp)
      rw [e]; simp [removeLoop]
    · cases ife' <;> simp [removeLoop, notFound]
    · simp only [removeLoop]; rw [List.filter_eq_self.2 (by simp)]
    · simp [removeLoop, removeCalls]
  | cons x l ih =>
    dsimp only
    simp only [removeLoop]
    rw [hrm s x List.mem_cons_self]
    obtain ⟨h1, h2, h3, h4⟩ := removeObj_spec env s db ife' x hk
    generalize s.removeObj env db ife' x = q at *
    obtain ⟨q1, s1⟩ := q
    dsimp only at h1 h2 h3 h4
    have hk1 : BanManager.KeyId s1.bm := by rw [h2]; exact keyId_erase hk x
    have hkeys1 : s1.bm.banList.keys = s.bm.banList.keys.filter (fun y => decide (y ≠ x)) := by
      rw [h2]; exact Dict.keys_erase _ _
    have hitems : ∀ p : List (Fid × Ticket), (p.filter (fun kv => decide (kv.1 ≠ x))).filter (fun kv => decide (kv.1 ∉ l))
        = p.filter (fun kv => decide (kv.1 ∉ x :: l)) := by
      intro p
      rw [List.filter_filter]
      apply List.filter_congr
      intro a _
      simp [List.mem_cons, not_or, Bool.and_comm]
    have ih' := fun cnt missed => ih cnt missed s1 hk1 (fun s y hy => hrm s y (List.mem_cons_of_mem _ hy))
    have hi1 : s1.bm.banList.items = s.bm.banList.items.filter (fun kv => decide (kv.1 ≠ x)) := by rw [h2]; rfl
    have ht1 : s1.bm.banTotal = s.bm.banTotal := by rw [h2]
    have ht2 : s1.bm.banTime = s.bm.banTime := by rw [h2]
    dsimp only at ih'
    rw [hkeys1, h4.keys, h4.hasDb, h3, hi1, hitems, ht1, ht2] at ih'
    have hlen : ∀ p : List Fid, p.Nodup → (p.filter (fun y => decide (y ∈ x :: l))).length =
        (if x ∈ p then 1 else 0) + ((p.filter (fun y => decide (y ≠ x))).filter (fun y => decide (y ∈ l))).length := by
      intro p
      induction p with
      | nil => intro _; rfl
      | cons a p ihp =>
        intro hp
        rw [List.nodup_cons] at hp
        have := ihp hp.2
        by_cases e : a = x
        · subst e
          rw [if_neg hp.1] at this
          rw [List.filter_cons_of_pos (by simp), List.filter_cons_of_neg (by simp), if_pos List.mem_cons_self,
            List.length_cons, this]
          omega
        · have e' : ¬ x = a := fun h => e h.symm
          have hx : (x ∈ a :: p) ↔ x ∈ p := by simp [e']
          simp only [hx]
          by_cases hl : a ∈ l
          · rw [List.filter_cons_of_pos (by simp [hl]), List.filter_cons_of_pos (by simp [e]), List.filter_cons_of_pos (by simp [hl])]
            simp only [List.length_cons]; omega
          · rw [List.filter_cons_of_neg (by simp [hl, e]), List.filter_cons_of_pos (by simp [e]), List.filter_cons_of_neg (by simp [hl])]
            exact this
    have hlen' := hlen _ s.bm.banList.keys_nodup
    by_cases hm : x ∈ s.bm.banList.keys
    · rw [if_pos hm] at h1 ih' hlen'
      subst h1
      dsimp only
      obtain ⟨i1, i2, i3, i4, i5, i6, i7, i8⟩ := ih' (cnt + 1) missed
      refine ⟨?_, ?_, i3, ?_, h4.trans i5, i6, i7, i8⟩
      · rw [i1, hlen']; omega
      · rw [i2]; simp only [notFound]; rw [if_pos hm]
      · rw [i4]; simp only [removeCalls]; rw [if_pos hm]; simp
    · have hf : s.bm.banList.keys.filter (fun y => decide (y ≠ x)) = s.bm.banList.keys := by
        rw [List.filter_eq_self]
        intro a ha
        simp only [ne_eq, decide_not, Bool.not_eq_true', decide_eq_false_iff_not]
        intro e; subst e; exact hm ha
      rw [hf] at ih' hlen'
      rw [if_neg hm] at h1 ih' hlen'
      cases hi : ife' with
      | true =>
        rw [hi, if_pos rfl] at h1
        subst h1
        dsimp only
        obtain ⟨i1, i2, i3, i4, i5, i6, i7, i8⟩ := ih' (cnt + 0) missed
        rw [hi] at i1 i2 i3 i4 i5 i6 i7 i8
        refine ⟨?_, ?_, i3, ?_, h4.trans i5, i6, i7, i8⟩
        · rw [i1, hlen']; omega
        · rw [i2]; rfl
        · rw [i4]; simp only [removeCalls]; rw [if_neg hm]; simp
      | false =>
        rw [hi, if_neg (by simp)] at h1
        subst h1
        dsimp only
        obtain ⟨i1, i2, i3, i4, i5, i6, i7, i8⟩ := ih' cnt (missed ++ [x])
        rw [hi] at i1 i2 i3 i4 i5 i6 i7 i8
        simp only [Bool.false_eq_true, if_false] at i1 i2 i3 i4 i5 i6 i7 i8 ⊢
        refine ⟨?_, ?_, i3, ?_, h4.trans i5, i6, i7, i8⟩
        · rw [i1, hlen']; omega
        · rw [i2]; simp only [notFound]; rw [if_neg hm]; simp
        · rw [i4]; simp only [removeCalls]; rw [if_neg hm]; simp

/-- **C20.** Explicit unban of a list of addresses (possibly with repetitions), for every environment: exactly the given
addresses leave the ban list, everything else stays as and where it was; the returned number is the number of addresses
of the list that were banned; an address is reported as missing (only if this is requested) exactly if it is not banned
when it is reached; the record of every given address is deleted from the database; each address that was banned gets
one unban per action. -/
theorem C20_unban (env : Env) (net : Fid → Option (Fid → Bool)) (s : Actions) (db ifexists : Bool) (ips : List Fid)
    (hplain : ∀ x ∈ ips, net x = none) (hk : BanManager.KeyId s.bm) :
    let r := s.removeBannedIPs env net db ifexists ips
    r.1 = (s.bm.banList.keys.filter (fun x => decide (x ∈ ips))).length ∧
    r.2.1 = (if ifexists = true then [] else notFound s.bm.banList.keys ips) ∧
    r.2.2.bm.banList.items = s.bm.banList.items.filter (fun kv => decide (kv.1 ∉ ips)) ∧
    r.2.2.trace = s.trace ++ removeCalls s.actions.keys (db && s.hasDb) s.bm.banList.keys ips ∧
    config r.2.2 = config s ∧ r.2.2.bm.banTotal = s.bm.banTotal := by
  obtain ⟨h1, h2, h3, h4, h5, _, h7, _⟩ := removeLoop_spec env db ifexists ifexists (removeStr env net db ifexists) ips
    (fun s x hx => removeStr_plain env net db ifexists s x (hplain x hx)) rfl 0 [] s hk
  refine ⟨?_, ?_, h3, h4, h5.config, h7⟩
  · show (removeLoop _ _ _ _ _ _).1 = _
    rw [h1, Nat.zero_add]
  · show (removeLoop _ _ _ _ _ _).2.1 = _
    rw [h2, List.nil_append]

/-- without repetitions, the addresses reported are those not banned -/
theorem C20_missing_nodup (set : List Fid) (ips : List Fid) (h : ips.Nodup) :
    notFound set ips = ips.filter (fun x => decide (x ∉ set)) := by
  induction ips generalizing set with
  | nil => rfl
  | cons x l ih =>
    rw [List.nodup_cons] at h
    simp only [notFound]
    by_cases hx : x ∈ set
    · rw [if_pos hx, ih _ h.2, List.filter_cons_of_neg (by simp [hx])]
      apply List.filter_congr
      intro a ha
      have : a ≠ x := fun e => h.1 (e ▸ ha)
      simp [List.mem_filter, this]
    · rw [if_neg hx, ih _ h.2, List.filter_cons_of_pos (by simp [hx])]

/-- **C20 (subnet or name).** Unban of a text that is itself not banned and denotes a set of addresses: exactly the banned
addresses of the set leave the ban list, their number is returned, each gets its record deleted and one unban per action.
If none is banned, the list stays, and the result is zero or (if requested) 'not banned'. -/
theorem C20_unban_set (env : Env) (net : Fid → Option (Fid → Bool)) (s : Actions) (db ifexists : Bool) (ip : Fid)
    (p : Fid → Bool) (hnet : net ip = some p) (hip : ip ∉ s.bm.banList.keys) (hk : BanManager.KeyId s.bm) :
    let hit := s.bm.banList.keys.filter p
    let r := removeStr env net db ifexists s ip
    r.1 = (if hit = [] then (if ifexists = true then some 0 else none) else some hit.length) ∧
    r.2.bm.banList.items = s.bm.banList.items.filter (fun kv => !(p kv.1)) ∧
    r.2.trace = s.trace ++ dbCalls (db && s.hasDb) ip ++
      hit.flatMap (fun x => dbCalls (db && s.hasDb) x ++ s.actions.keys.map (fun a => Call.unban a x)) := by
  intro hit r
  have hdb : (s.dbDelete db ip).bm = s.bm ∧ (s.dbDelete db ip).trace = s.trace ++ dbCalls (db && s.hasDb) ip ∧
      (s.dbDelete db ip).actions = s.actions ∧ (s.dbDelete db ip).hasDb = s.hasDb := by
    unfold dbDelete dbCalls
    split
    · exact ⟨rfl, rfl, rfl, rfl⟩
    · exact ⟨rfl, by simp, rfl, rfl⟩
  have hgn : s.bm.banList.get? ip = none := (Dict.get?_eq_none_iff _ _).2 hip
  have hr : r = (let s1 := { s.dbDelete db ip with bm := s.bm }
      if hit ≠ [] then
        ((if (removeLoop (fun s ip => s.removeObj env db ifexists ip) ifexists hit 0 [] s1).2.1 = []
          then some (removeLoop (fun s ip => s.removeObj env db ifexists ip) ifexists hit 0 [] s1).1 else none),
         (removeLoop (fun s ip => s.removeObj env db ifexists ip) ifexists hit 0 [] s1).2.2)
      else (if ifexists then some 0 else none, s1)) := by
    show removeStr env net db ifexists s ip = _
    unfold removeStr
    dsimp only [BanManager.getTicketByID]
    rw [hdb.1, hgn, hnet, Dict.erase_items_of_not_mem _ hip]
    rfl
  have hkeysnd : hit.Nodup := List.Sublist.nodup List.filter_sublist s.bm.banList.keys_nodup
  have hsub : ∀ x ∈ hit, x ∈ s.bm.banList.keys := fun x hx => (List.mem_filter.1 hx).1
  obtain ⟨h1, h2, h3, h4, _⟩ := removeLoop_spec env db ifexists ifexists (fun s ip => s.removeObj env db ifexists ip) hit
    (fun s x _ => rfl) rfl 0 [] { s.dbDelete db ip with bm := s.bm } hk
  have hmiss : (removeLoop (fun s ip => s.removeObj env db ifexists ip) ifexists hit 0 [] { s.dbDelete db ip with bm := s.bm }).2.1 = [] := by
    rw [h2]
    have : notFound s.bm.banList.keys hit = [] := by
      rw [C20_missing_nodup _ _ hkeysnd, List.filter_eq_nil_iff]
      intro a ha; simp [hsub a ha]
    rw [this]; simp
  have hitems : s.bm.banList.items.filter (fun kv => decide (kv.1 ∉ hit)) = s.bm.banList.items.filter (fun kv => !(p kv.1)) := by
    apply List.filter_congr
    intro kv hkv
    have : kv.1 ∈ s.bm.banList.keys := List.mem_map_of_mem (f := Prod.fst) hkv
    by_cases hp : p kv.1 = true
    · simp [hit, List.mem_filter, this, hp]
    · simp only [Bool.not_eq_true] at hp
      simp [hit, List.mem_filter, this, hp]
  have hcalls : ∀ (l set : List Fid), l.Nodup → (∀ x ∈ l, x ∈ set) →
      removeCalls s.actions.keys (db && s.hasDb) set l =
        l.flatMap (fun x => dbCalls (db && s.hasDb) x ++ s.actions.keys.map (fun a => Call.unban a x)) := by
    intro l
    induction l with
    | nil => intros; rfl
    | cons x l ih =>
      intro set hn hs
      rw [List.nodup_cons] at hn
      simp only [removeCalls, List.flatMap_cons]
      rw [if_pos (hs x List.mem_cons_self), ih _ hn.2]
      · simp
      · intro y hy
        have : y ≠ x := fun e => hn.1 (e ▸ hy)
        simp [List.mem_filter, this, hs y (List.mem_cons_of_mem _ hy)]
  rw [hr]
  dsimp only at h1 h2 h3 h4 hmiss ⊢
  by_cases he : hit = []
  · rw [if_neg (by simp [he]), if_pos he]
    refine ⟨rfl, ?_, ?_⟩
    · rw [← hitems, he]
      exact (List.filter_eq_self.2 (by simp)).symm
    · dsimp only; rw [hdb.2.1, he]; simp
  · rw [if_pos he, if_neg he, if_pos hmiss]
    refine ⟨?_, ?_, ?_⟩
    · rw [h1, Nat.zero_add]
      show some _ = some _
      congr 2
      apply List.filter_congr
      intro a ha
      by_cases hp : p a = true
      · simp [hit, List.mem_filter, ha, hp]
      · simp only [Bool.not_eq_true] at hp
        simp [hit, List.mem_filter, ha, hp]
    · dsimp only; rw [h3]; exact hitems
    · dsimp only; rw [h4, hdb.2.1, hdb.2.2.1, hdb.2.2.2, hcalls _ _ hkeysnd hsub]

/-- **C20 (query).** `banned ip` answers 1 exactly for the addresses that are banned. -/
theorem C20_banned_query (s : Actions) (ids : List Fid) :
    (s.getBanned ids).length = ids.length ∧
    ∀ i (h : i < ids.length), (s.getBanned ids)[i]? = some (if ids[i] ∈ s.bm.banList.keys then 1 else 0) := by
  refine ⟨by simp [getBanned], ?_⟩
  intro i h
  unfold getBanned BanManager.getBanList
  rw [List.getElem?_map, List.getElem?_eq_getElem h]
  by_cases hm : ids[i] ∈ s.bm.banList.keys
  · simp [hm]
  · simp [hm]

/-- unban "b", "x", "b" of the banned "a", "b": one removed; "x" and the second "b" are missing -/
example :
    let s := (checkBanLoop exEnv 1000 [exTicket "a" 1000 none, exTicket "b" 1000 none] [] 0 exActs).2.2.2
    let r := s.removeBannedIPs exEnv (fun _ => none) true false ["b", "x", "b"]
    r.1 = 1 ∧ r.2.1 = ["x", "b"] ∧ r.2.2.bm.banList.keys = ["a"] ∧
      r.2.2.trace = s.trace ++ [.dbDel (some "b"), .unban "fw" "b", .unban "mail" "b", .dbDel (some "x"), .dbDel (some "b")] := by
  decide

/-- unban of a subnet containing "a" and "b" -/
example :
    let s := (checkBanLoop exEnv 1000 [exTicket "a" 1000 none, exTicket "b" 1000 none, exTicket "c" 1000 none] [] 0 exActs).2.2.2
    let r := removeStr exEnv (fun ip => if ip = "net" then some (fun x => x != "c") else none) false true s "net"
    r.1 = some 2 ∧ r.2.bm.banList.keys = ["c"] := by
  decide

end Verif
