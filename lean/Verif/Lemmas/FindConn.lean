import Verif.Lemmas.FindMerge
import Verif.Py.List

/-! # Histories of connections -/

namespace Verif.Find

open Spec.Find

/-- what is written back -/
def final (env : FindEnv) (f : Fail) : Fail :=
  if f.groups.truthy "nofail" then f
  else
    match identify env f.groups with
    | some none => { f with pending := true }
    | some (some (_, some a)) => { f with ip := some a }
    | _ => f

/-- the outcome -/
def outcome (env : FindEnv) (i : Nat) (f : Fail) : Outcome :=
  if f.groups.truthy "nofail" then .done []
  else
    match identify env f.groups with
    | none => .error
    | some none => .done []
    | some (some (fids, _)) => .done (fids.map (fun fid => ⟨i, fid, final env f⟩))

/-- the cache after a match -/
def writeBack (now : Int) (m : String) (known : Option Fail) (conns : Cache String Fail) (keep : Bool) (f : Fail) : Cache String Fail :=
  if keep then (match known with | some _ => modify conns m f | none => conns.set now m f)
  else (match known with | some _ => conns.unset m | none => conns)

theorem handle_conn (env : FindEnv) (now : Int) (s : FindState) (i : Nat) (g : Groups) (lines : List TLine) (m : String) (hm : g.val "mlfid" = some m) :
    handle env now s i g lines
      = (outcome env i (mergeFailure (s.conns.get now m).1 g lines).1,
         FindState.mk s.buffer (writeBack now m (s.conns.get now m).1 (s.conns.get now m).2 (mergeFailure (s.conns.get now m).1 g lines).2
            (final env (mergeFailure (s.conns.get now m).1 g lines).1))) := by
  unfold handle outcome
  rw [hm]
  simp only
  generalize s.conns.get now m = c
  obtain ⟨known, conns⟩ := c
  simp only
  generalize mergeFailure known g lines = p
  obtain ⟨f, keep⟩ := p
  simp only
  by_cases h : f.groups.truthy "nofail" = true
  · rw [if_pos h, if_pos h]
    simp only [final, if_pos h]
    rfl
  · rw [if_neg h, if_neg h]
    simp only [final, if_neg h]
    rcases identify env f.groups with _ | _ | ⟨fids, _ | a⟩ <;> rfl

theorem merge_keep (known : Option Fail) (g : Groups) (lines : List TLine) : (mergeFailure known g lines).2 = !g.truthy "mlfforget" := by
  cases known
  · rw [merge_none]
  · rw [merge_some]

theorem lastHost_cons (env : FindEnv) (e : Ev) (h : List Ev) : lastHost env (e :: h) =
    if status env (e :: h) = .report then
      match ids env (val (e :: h)) with
      | some (some (_, some a)) => some a
      | _ => lastHost env h
    else lastHost env h := rfl

theorem Merged.ids {env : FindEnv} {e : Ev} {h : List Ev} {f : Fail} (r : Merged env e h f) : identify env f.groups = Spec.Find.ids env (val (e :: h)) := by
  rw [identify_eq]
  apply ids_congr
  intro k hk
  apply r.vals
  simp only [List.mem_cons, List.not_mem_nil, or_false] at hk
  simp only [flags, List.mem_cons, List.not_mem_nil, or_false]
  rcases hk with rfl | rfl | rfl | rfl | rfl <;> decide

theorem right_of_merged {env : FindEnv} {e : Ev} {h : List Ev} {f : Fail} (r : Merged env e h f) : Right env (e :: h) e.index (outcome env e.index f) := by
  unfold Right outcome
  have hi := r.ids
  rw [r.nofail]
  cases hx : excused env e h
  · obtain ⟨hl, _⟩ := r.no hx
    rcases hd : Spec.Find.ids env (val (e :: h)) with _ | _ | ⟨fids, o⟩
    · have hs : status env (e :: h) = .report := by rw [status_cons, hx, hd]; rfl
      rw [hs]; simp [hi, hd]
    · have hs : status env (e :: h) = .pending := by rw [status_cons, hx, hd]; rfl
      rw [hs]; simp [hi, hd]
    · have hs : status env (e :: h) = .report := by rw [status_cons, hx, hd]; rfl
      rw [hs]
      simp only [hi, hd, Bool.false_eq_true, if_false]
      refine ⟨_, rfl, ?_, ?_⟩
      · have hh := lastHost_cons env e h
        rw [hs, if_pos rfl, hd] at hh
        have hn := r.nofail
        rw [hx] at hn
        simp only [final, hn, hi, hd, Bool.false_eq_true, if_false]
        cases o with
        | none => exact ⟨r.vals, r.users, r.once, by rw [hh]; exact r.host⟩
        | some a => exact ⟨r.vals, r.users, r.once, by rw [hh]⟩
      · have hn := r.nofail
        rw [hx] at hn
        simp only [final, hn, hi, hd, Bool.false_eq_true, if_false]
        cases o with
        | none => exact hl
        | some a => exact hl
  · have hs : status env (e :: h) = .nofail := by rw [status_cons, hx]; rfl
    rw [hs]; simp

theorem rep_of_merged {env : FindEnv} {e : Ev} {h : List Ev} {f : Fail} (r : Merged env e h f) (hf : e.flag "mlfforget" = false) : Rep env (e :: h) (final env f) := by
  have hi := r.ids
  have hn := r.nofail
  have hh := lastHost_cons env e h
  have hno : ∀ e', e :: h = [e'] → e'.flag "mlfforget" = false := by
    intro e' he; cases he; exact hf
  cases hx : excused env e h
  · obtain ⟨hl, hl'⟩ := r.no hx
    rw [hx] at hn
    have hg : f.groups.truthy "mlfgained" = true → False := by
      intro c; have := r.gained c; rw [hx] at this; cases this
    rcases hd : Spec.Find.ids env (val (e :: h)) with _ | _ | ⟨fids, o⟩
    · have hs : status env (e :: h) = .report := by rw [status_cons, hx, hd]; rfl
      rw [hs, if_pos rfl, hd] at hh
      have hF : final env f = f := by simp [final, hn, hi, hd]
      rw [hF]
      exact ⟨⟨r.vals, r.users, r.once, by rw [hh]; exact r.host⟩, by rw [r.pending, hs]; rfl, by rw [hn, hs]; rfl, fun c => (hg c).elim, hno,
        fun c => by (rw [hs] at c; cases c), fun c => by (rw [hs] at c; cases c), fun _ => hl'⟩
    · have hs : status env (e :: h) = .pending := by rw [status_cons, hx, hd]; rfl
      rw [hs, if_neg (by decide)] at hh
      have hF : final env f = { f with pending := true } := by simp [final, hn, hi, hd]
      rw [hF]
      exact ⟨⟨r.vals, r.users, r.once, by rw [hh]; exact r.host⟩, by rw [hs]; rfl, by rw [hs]; exact hn, fun c => (hg c).elim, hno,
        fun c => by (rw [hs] at c; cases c), fun _ => hl, fun _ => hl'⟩
    · have hs : status env (e :: h) = .report := by rw [status_cons, hx, hd]; rfl
      rw [hs, if_pos rfl, hd] at hh
      cases o with
      | none =>
        have hF : final env f = f := by simp [final, hn, hi, hd]
        rw [hF]
        exact ⟨⟨r.vals, r.users, r.once, by rw [hh]; exact r.host⟩, by rw [r.pending, hs]; rfl, by rw [hn, hs]; rfl, fun c => (hg c).elim, hno,
          fun c => by (rw [hs] at c; cases c), fun c => by (rw [hs] at c; cases c), fun _ => hl'⟩
      | some a =>
        have hF : final env f = { f with ip := some a } := by simp [final, hn, hi, hd]
        rw [hF]
        exact ⟨⟨r.vals, r.users, r.once, hh.symm⟩, by rw [hs]; exact r.pending, by rw [hs]; exact hn, fun c => (hg c).elim, hno,
          fun c => by (rw [hs] at c; cases c), fun c => by (rw [hs] at c; cases c), fun _ => hl'⟩
  · have hs : status env (e :: h) = .nofail := by rw [status_cons, hx]; rfl
    rw [hx] at hn
    rw [hs, if_neg (by decide)] at hh
    have hF : final env f = f := by simp [final, hn]
    rw [hF]
    exact ⟨⟨r.vals, r.users, r.once, by rw [hh]; exact r.host⟩, by rw [r.pending, hs]; rfl, by rw [hn, hs]; rfl, fun _ => hs, hno,
      fun _ => r.yes hx hf, fun c => by (rw [hs] at c; cases c), fun c => absurd hs c⟩

/-- what is remembered of the connections after steps `xs` (newest first) -/
structure Inv (env : FindEnv) (n : Nat) (life : Int) (xs : List Step) (s : FindState) : Prop where
  count : s.conns.maxCount = n
  time : s.conns.maxTime = life
  none : ∀ m, s.conns.cache.get? m = none → kept life m xs = []
  some : ∀ m f t, s.conns.cache.get? m = some (f, t) →
    ∃ y, (kept life m xs).getLast? = some y ∧ t = y.now + life ∧ Rep env ((kept life m xs).map Step.ev) f

theorem ev_eq (x : Step) {g : Groups} (hg : g.val = x.groups.val) : x.ev = ⟨x.index, g.val, x.lines⟩ := by rw [hg]; rfl

theorem Inv.known {env : FindEnv} {n : Nat} {life : Int} {xs : List Step} {s : FindState} (I : Inv env n life xs s) (x : Step) {g : Groups}
    (hg : g.val = x.groups.val) :
    Merged env x.ev ((alive life x.now (kept life x.conn xs)).map Step.ev) (mergeFailure (s.conns.get x.now x.conn).1 g x.lines).1
    ∧ ((s.conns.get x.now x.conn).1 = Option.none ↔ alive life x.now (kept life x.conn xs) = []) := by
  rw [ev_eq x hg]
  unfold Cache.get
  rcases hg : s.conns.cache.get? x.conn with _ | ⟨f, t⟩
  · have := I.none _ hg
    rw [this]
    exact ⟨merged_none env _ _ _, by simp [alive]⟩
  · obtain ⟨y, hy, ht, hr⟩ := I.some _ _ _ hg
    have h0 : kept life x.conn xs ≠ [] := by intro c; rw [c] at hy; cases hy
    simp only [alive, hy, ht]
    by_cases c : x.now < y.now + life
    · rw [if_pos c, if_pos c]
      exact ⟨merged_some env _ _ _ (by simpa using h0) hr, by simp [h0]⟩
    · rw [if_neg c, if_neg c]
      exact ⟨merged_none env _ _ _, by simp⟩

theorem Inv.right {env : FindEnv} {n : Nat} {life : Int} {xs : List Step} {s : FindState} (I : Inv env n life xs s) (x : Step) {g : Groups}
    (hg : g.val = x.groups.val) (hx : x.groups.val "mlfid" = Option.some x.conn) :
    Right env (x.ev :: (alive life x.now (kept life x.conn xs)).map Step.ev) x.index (handle env x.now s x.index g x.lines).1 := by
  rw [handle_conn env x.now s x.index g x.lines x.conn (by rw [hg]; exact hx)]
  exact right_of_merged (I.known x hg).1

theorem get?_evict {K V : Type} [DecidableEq K] (c : Cache K V) (h : c.cache.size < c.maxCount) (t : Int) (k j : K) (v : V) :
    (c.set t k v).cache.get? j = if j = k then some (v, t + c.maxTime) else c.cache.get? j := by
  unfold Cache.set
  rw [if_neg (by omega)]
  simp only [Dict.get?_insert]

theorem alive_getLast? {life now : Int} {h : List Step} {y : Step} (hy : (alive life now h).getLast? = some y) : h.getLast? = some y ∧ alive life now h = h := by
  unfold alive at hy ⊢
  cases hh : h.getLast? with
  | none => rw [hh] at hy; cases hy
  | some z =>
    rw [hh] at hy
    simp only at hy ⊢
    by_cases c : now < z.now + life
    · rw [if_pos c] at hy ⊢
      rw [hh] at hy
      exact ⟨hy, rfl⟩
    · rw [if_neg c] at hy; cases hy

theorem subset_length {l k : List String} (hl : l.Nodup) (h : ∀ a ∈ l, a ∈ k) : l.length ≤ k.length := by
  induction l generalizing k with
  | nil => simp
  | cons a l ih =>
    rw [List.nodup_cons] at hl
    have ha : a ∈ k := h a (by simp)
    have := ih hl.2 (k := k.erase a) (fun b hb => by
      rw [List.mem_erase_of_ne (fun e : b = a => hl.1 (e ▸ hb))]
      exact h b (by simp [hb]))
    rw [List.length_erase_of_mem ha] at this
    have hk : 0 < k.length := List.length_pos_of_mem ha
    simp only [List.length_cons]
    omega

theorem Inv.step {env : FindEnv} {n : Nat} {life : Int} {xs : List Step} {s : FindState} (I : Inv env n life xs s) (x : Step) {g : Groups}
    (hg : g.val = x.groups.val)
    (hx : x.groups.val "mlfid" = Option.some x.conn) (hroom : Room n life xs x) :
    Inv env n life (x :: xs) (handle env x.now s x.index g x.lines).2 := by
  rw [handle_conn env x.now s x.index g x.lines x.conn (by rw [hg]; exact hx), merge_keep]
  obtain ⟨hmer, hnone⟩ := I.known x hg
  have hrep := rep_of_merged hmer
  generalize (mergeFailure (s.conns.get x.now x.conn).1 g x.lines).1 = f at hmer hrep ⊢
  have hkc : ∀ m, x.conn ≠ m → kept life m (x :: xs) = kept life m xs := by
    intro m e; simp only [kept]; rw [if_neg e]
  have hflag : x.ev.flag "mlfforget" = g.truthy "mlfforget" := by rw [ev_eq x hg, flag_eq]
  have hks : kept life x.conn (x :: xs) = if g.truthy "mlfforget" = true then [] else x :: alive life x.now (kept life x.conn xs) := by
    simp only [kept, if_true, hflag]
  have hold : ∀ m ∈ s.conns.cache.keys, kept life m xs ≠ [] := fun m hm => by
    obtain ⟨⟨f, t⟩, hv⟩ := (Dict.mem_keys_iff _ _).1 hm
    obtain ⟨y, hy, _⟩ := I.some m f t hv
    intro c
    rw [c] at hy
    cases hy
  -- the cache after the lookup
  have hc2 : (s.conns.get x.now x.conn).2.maxCount = n ∧ (s.conns.get x.now x.conn).2.maxTime = life
      ∧ (∀ m ∈ (s.conns.get x.now x.conn).2.cache.keys, m ∈ s.conns.cache.keys)
      ∧ (∀ m, x.conn ≠ m → (s.conns.get x.now x.conn).2.cache.get? m = s.conns.cache.get? m)
      ∧ (match (s.conns.get x.now x.conn).1 with
          | Option.none => (s.conns.get x.now x.conn).2.cache.get? x.conn = Option.none
          | Option.some _ => (s.conns.get x.now x.conn).2 = s.conns) := by
    unfold Cache.get
    rcases hg : s.conns.cache.get? x.conn with _ | ⟨k, t⟩
    · exact ⟨I.count, I.time, fun _ h => h, fun _ _ => rfl, hg⟩
    · simp only
      by_cases c : x.now < t
      · rw [if_pos c]
        exact ⟨I.count, I.time, fun _ h => h, fun _ _ => rfl, rfl⟩
      · rw [if_neg c]
        refine ⟨I.count, I.time, ?_, ?_, ?_⟩
        · intro m hm
          simp only [Cache.unset, Dict.keys_erase] at hm
          exact (List.mem_filter.1 hm).1
        · intro m e
          exact Dict.get?_erase_ne _ (fun c => e c.symm)
        · simp only [Cache.unset, Dict.get?_erase, if_true]
  obtain ⟨q1, q2, q3, q4, q5⟩ := hc2
  have hge : (s.conns.get x.now x.conn).1 ≠ Option.none → ∃ v, s.conns.cache.get? x.conn = Option.some v := by
    unfold Cache.get
    rcases s.conns.cache.get? x.conn with _ | v
    · simp
    · intro _; exact ⟨v, rfl⟩
  generalize hK : (s.conns.get x.now x.conn).1 = K at q5 hnone hge ⊢
  generalize (s.conns.get x.now x.conn).2 = C at q1 q2 q3 q4 q5 ⊢
  cases hf : g.truthy "mlfforget"
  · -- kept
    rw [hf, if_neg Bool.false_ne_true] at hks
    have hrep := hrep (by rw [hflag, hf])
    cases K with
    | none =>
      have hal := hnone.1 rfl
      simp only at q5
      have hnk : x.conn ∉ C.cache.keys := (Dict.get?_eq_none_iff _ _).1 q5
      have hsz : C.cache.size < C.maxCount := by
        rw [q1, Dict.size_eq_keys_length]
        obtain ⟨ids, hlen, hids⟩ := hroom
        have := subset_length (l := C.cache.keys) (k := ids) C.cache.keys_nodup
          (fun a ha => hids a (fun e => hnk (e ▸ ha)) (hold a (q3 a ha)))
        omega
      have hget := fun j => get?_evict C hsz x.now x.conn j (final env f)
      rw [q2] at hget
      simp only [writeBack, Bool.not_false, if_true]
      refine ⟨?_, ?_, ?_, ?_⟩
      · simp only [Cache.set]; exact q1
      · simp only [Cache.set]; exact q2
      · intro m hm
        simp only at hm
        rw [hget] at hm
        by_cases e : m = x.conn
        · rw [if_pos e] at hm; cases hm
        · rw [if_neg e, q4 m (fun c => e c.symm)] at hm
          rw [hkc m (fun c => e c.symm)]
          exact I.none m hm
      · intro m f' t hm
        simp only at hm
        rw [hget] at hm
        by_cases e : m = x.conn
        · rw [if_pos e] at hm
          cases hm
          subst e
          rw [hks, hal]
          refine ⟨x, rfl, rfl, ?_⟩
          rw [hal] at hrep
          exact hrep
        · rw [if_neg e, q4 m (fun c => e c.symm)] at hm
          rw [hkc m (fun c => e c.symm)]
          exact I.some m f' t hm
    | some k =>
      simp only at q5
      subst q5
      obtain ⟨⟨k', t⟩, hv⟩ := hge (by simp)
      obtain ⟨y, hy, ht, _⟩ := I.some _ _ _ hv
      have hal : alive life x.now (kept life x.conn xs) ≠ [] := fun c => by
        have := hnone.2 c; cases this
      have hal' : alive life x.now (kept life x.conn xs) = kept life x.conn xs := by
        cases hl : (alive life x.now (kept life x.conn xs)).getLast? with
        | none => exact absurd (List.getLast?_eq_none_iff.1 hl) hal
        | some z => exact (alive_getLast? hl).2
      have hget : ∀ j, (modify s.conns x.conn (final env f)).cache.get? j = if j = x.conn then Option.some (final env f, t) else s.conns.cache.get? j := by
        intro j
        simp only [modify, hv, Dict.get?_insert]
      have hmc : (modify s.conns x.conn (final env f)).maxCount = n ∧ (modify s.conns x.conn (final env f)).maxTime = life := by
        simp only [modify, hv]
        exact ⟨q1, q2⟩
      simp only [writeBack, Bool.not_false, if_true]
      refine ⟨hmc.1, hmc.2, ?_, ?_⟩
      · intro m hm
        simp only at hm
        rw [hget] at hm
        by_cases e : m = x.conn
        · rw [if_pos e] at hm; cases hm
        · rw [if_neg e] at hm
          rw [hkc m (fun c => e c.symm)]
          exact I.none m hm
      · intro m f' t' hm
        simp only at hm
        rw [hget] at hm
        by_cases e : m = x.conn
        · rw [if_pos e] at hm
          cases hm
          subst e
          rw [hks]
          refine ⟨y, ?_, ht, ?_⟩
          · rw [List.getLast?_cons, hal', hy]; rfl
          · exact hrep
        · rw [if_neg e] at hm
          rw [hkc m (fun c => e c.symm)]
          exact I.some m f' t' hm
  · -- forgotten
    rw [hf, if_pos rfl] at hks
    have hget : ∀ j, (writeBack x.now x.conn K C false (final env f)).cache.get? j = if j = x.conn then Option.none else s.conns.cache.get? j := by
      intro j
      cases K with
      | none =>
        simp only [writeBack, Bool.false_eq_true, if_false]
        by_cases e : j = x.conn
        · rw [if_pos e, e]; exact q5
        · rw [if_neg e]; exact q4 j (fun c => e c.symm)
      | some k =>
        simp only at q5
        subst q5
        simp only [writeBack, Bool.false_eq_true, if_false, Cache.unset, Dict.get?_erase]
    have hcc : (writeBack x.now x.conn K C false (final env f)).maxCount = n ∧ (writeBack x.now x.conn K C false (final env f)).maxTime = life := by
      cases K <;> exact ⟨q1, q2⟩
    simp only [Bool.not_true]
    refine ⟨hcc.1, hcc.2, ?_, ?_⟩
    · intro m hm
      simp only at hm
      rw [hget] at hm
      by_cases e : m = x.conn
      · rw [e]; exact hks
      · rw [if_neg e] at hm
        rw [hkc m (fun c => e c.symm)]
        exact I.none m hm
    · intro m f' t' hm
      simp only at hm
      rw [hget] at hm
      by_cases e : m = x.conn
      · rw [if_pos e] at hm; cases hm
      · rw [if_neg e] at hm
        rw [hkc m (fun c => e c.symm)]
        exact I.some m f' t' hm

theorem inv_run {env : FindEnv} (n : Nat) (life : Int) (buffer : List TLine) (xs : List Step)
    (hx : ∀ past x rest, xs = past ++ x :: rest → x.groups.val "mlfid" = some x.conn ∧ Room n life past.reverse x) :
    Inv env n life xs.reverse (run env ⟨buffer, Cache.init n life⟩ xs) := by
  have h : ∀ (ys : List Step) (s : FindState) (zs : List Step), Inv env n life zs s →
      (∀ past x rest, ys = past ++ x :: rest → x.groups.val "mlfid" = some x.conn ∧ Room n life (past.reverse ++ zs) x) →
      Inv env n life (ys.reverse ++ zs) (run env s ys) := by
    intro ys
    induction ys with
    | nil => intro s zs I _; exact I
    | cons y ys ih =>
      intro s zs I hy
      have h0 := hy [] y ys rfl
      have := ih _ (y :: zs) (I.step y rfl h0.1 h0.2) (fun past x rest e => by
        have := hy (y :: past) x rest (by rw [e]; rfl)
        simpa using this)
      simpa [run] using this
  have := h xs ⟨buffer, Cache.init n life⟩ [] ⟨rfl, rfl, fun _ _ => rfl, fun m f t hm => (by cases hm)⟩
    (fun past x rest e => by simpa using hx past x rest e)
  simpa using this

end Verif.Find
