import Verif.Lemmas.FindConn

/-! # Searching a line -/

namespace Verif.Find

open Spec.Find

theorem buf_single (l : TLine) : TLine.buf [l] = whole l := by
  simp [TLine.buf, whole, TLine.text, String.intercalate_singleton]

theorem ignored_iff (env : FindEnv) (t : String) : ignored env t = true ↔ Ignores env t := by
  simp only [ignored, List.any_eq_true, Ignores]
  constructor
  · rintro ⟨r, hr, h⟩
    exact ⟨r, hr, fun c => by rw [c] at h; cases h⟩
  · rintro ⟨r, hr, h⟩
    refine ⟨r, hr, ?_⟩
    cases e : r t
    · exact absurd e h
    · rfl

theorem first_cons_zero {r : Rx} {rs : List Rx} {t : String} {m : RxMatch} (h : r t = some m) : First (r :: rs) t 0 m :=
  ⟨⟨r, rfl, h⟩, fun j hj => absurd hj (by omega)⟩

theorem first_cons_succ {r : Rx} {rs : List Rx} {t : String} {i : Nat} {m : RxMatch} (h : r t = none) (f : First rs t i m) : First (r :: rs) t (i + 1) m := by
  obtain ⟨⟨r', h1, h2⟩, h3⟩ := f
  refine ⟨⟨r', by simpa using h1, h2⟩, ?_⟩
  intro j hj q hq
  cases j with
  | zero => simp at hq; subst hq; exact h
  | succ j => exact h3 j (by omega) q (by simpa using hq)

theorem first_inv {r : Rx} {rs : List Rx} {t : String} {i : Nat} {m : RxMatch} (f : First (r :: rs) t i m) :
    (i = 0 ∧ r t = some m) ∨ (∃ j, i = j + 1 ∧ r t = none ∧ First rs t j m) := by
  obtain ⟨⟨q, h1, h2⟩, h3⟩ := f
  cases i with
  | zero => simp at h1; subst h1; exact Or.inl ⟨rfl, h2⟩
  | succ i =>
    refine Or.inr ⟨i, rfl, h3 0 (by omega) r rfl, ⟨q, by simpa using h1, h2⟩, ?_⟩
    intro j hj q hq
    exact h3 (j + 1) (by omega) q (by simpa using hq)

theorem first_unique {rs : List Rx} {t : String} {i j : Nat} {m k : RxMatch} (f : First rs t i m) (g : First rs t j k) : i = j ∧ m = k := by
  obtain ⟨⟨q, h1, h2⟩, h3⟩ := f
  obtain ⟨⟨q', g1, g2⟩, g3⟩ := g
  have : i = j := by
    rcases Nat.lt_trichotomy i j with c | c | c
    · have := g3 i c q h1; rw [h2] at this; cases this
    · exact c
    · have := h3 j c q' g1; rw [g2] at this; cases this
  subst this
  rw [h1] at g1; cases g1
  rw [h2] at g2; cases g2
  exact ⟨rfl, rfl⟩

theorem first_exists (rs : List Rx) (t : String) : (∃ i m, First rs t i m) ∨ ∀ r ∈ rs, r t = none := by
  induction rs with
  | nil => exact Or.inr (by simp)
  | cons r rs ih =>
    cases h : r t with
    | some m => exact Or.inl ⟨0, m, first_cons_zero h⟩
    | none =>
      rcases ih with ⟨i, m, f⟩ | c
      · exact Or.inl ⟨i + 1, m, first_cons_succ h f⟩
      · refine Or.inr ?_
        intro q hq
        rcases List.mem_cons.1 hq with rfl | hq
        · exact h
        · exact c q hq

theorem loop_none (env : FindEnv) (now : Int) (drop : Bool) (org : List TLine) (pre : Groups) (rs : List Rx) (i : Nat) (s : FindState) (t : String)
    (h : ∀ r ∈ rs, r t = none) : loop env now drop org pre rs i s t = (some [], s) := by
  induction rs generalizing i with
  | nil => rfl
  | cons r rs ih =>
    simp only [loop, h r (by simp)]
    exact ih _ (fun q hq => h q (by simp [hq]))

/-- the rest of the loop after a match -/
def after (env : FindEnv) (now : Int) (drop : Bool) (org : List TLine) (pre : Groups) (i : Nat) (rs : List Rx) (m : RxMatch) (s : FindState) (t : String) :
    Option (List Report) × FindState :=
  if ignored env (if 1 < env.maxLines then TLine.buf (m.parts org).matched else t) then (some [], { s with buffer := (m.parts org).unmatched })
  else if drop then loop env now drop org pre rs (i + 1) s t
  else
    match handle env now { s with buffer := (m.parts org).unmatched } i (pre.update m.groups) (m.parts org).matched with
    | (.error, s) => (none, s)
    | (.done r, s) => (some r, s)
    | (.next, s) => loop env now drop org pre rs (i + 1) s (TLine.buf s.buffer)

theorem loop_first (env : FindEnv) (now : Int) (drop : Bool) (org : List TLine) (pre : Groups) (rs : List Rx) (i k : Nat) (s : FindState) (t : String)
    (m : RxMatch) (h : First rs t i m) : loop env now drop org pre rs k s t = after env now drop org pre (k + i) (rs.drop (i + 1)) m s t := by
  induction rs generalizing i k with
  | nil => obtain ⟨⟨r, h1, _⟩, _⟩ := h; simp at h1
  | cons r rs ih =>
    rcases first_inv h with ⟨rfl, h1⟩ | ⟨j, rfl, h1, hf⟩
    · simp only [loop, h1, after]
      rfl
    · simp only [loop, h1]
      rw [ih j (k + 1) hf]
      simp only [List.drop_succ_cons, Nat.add_assoc, Nat.add_comm 1 j]

theorem loop_dropped (env : FindEnv) (now : Int) (org : List TLine) (pre : Groups) (rs : List Rx) (k : Nat) (s : FindState) (t : String) :
    (loop env now true org pre rs k s t).1 = some [] ∧ (loop env now true org pre rs k s t).2.conns = s.conns := by
  induction rs generalizing k with
  | nil => exact ⟨rfl, rfl⟩
  | cons r rs ih =>
    simp only [loop]
    cases r t with
    | none => exact ih _
    | some m =>
      simp only
      by_cases c : ignored env (if 1 < env.maxLines then TLine.buf (m.parts org).matched else t) = true
      · rw [if_pos c]; exact ⟨rfl, rfl⟩
      · rw [if_neg c]; exact ih _

theorem parts_single (m : RxMatch) (l : TLine) : m.parts [l] = ⟨[l], []⟩ := rfl

/-- the search of a single line -/
theorem find_single (env : FindEnv) (hl : env.maxLines ≤ 1) (now : Int) (drop : Bool) (s : FindState) (l : TLine) :
    (Few env ∧ Ignores env (whole l) ∧ findFailure env now drop s l = (some [], ⟨[l], s.conns⟩))
    ∨ (¬ (Few env ∧ Ignores env (whole l)) ∧ searched env l = none ∧ findFailure env now drop s l = (some [], ⟨[l], s.conns⟩))
    ∨ (¬ (Few env ∧ Ignores env (whole l)) ∧ ∃ t p pre b, searched env l = some (t, p) ∧ Groups.val pre = p ∧
        findFailure env now drop s l = loop env now drop [l] pre env.failRegex 0 ⟨b, s.conns⟩ t) := by
  have hl' : ¬ 1 < env.maxLines := by omega
  unfold findFailure
  simp only [if_neg hl', buf_single]
  by_cases c : env.ignoreRegex.length + 2 < env.failRegex.length ∧ ignored env (whole l) = true
  · rw [if_pos c]
    exact Or.inl ⟨c.1, (ignored_iff _ _).1 c.2, rfl⟩
  · rw [if_neg c]
    have c' : ¬ (Few env ∧ Ignores env (whole l)) := fun d => c ⟨d.1, (ignored_iff _ _).2 d.2⟩
    refine Or.inr ?_
    simp only [searched]
    cases hp : env.prefRegex with
    | none => exact Or.inr ⟨c', _, _, Dict.empty, [l], rfl, rfl, rfl⟩
    | some r =>
      cases hr : r (whole l) with
      | none => exact Or.inl ⟨c', by simp [hr], by simp [hr]⟩
      | some m =>
        refine Or.inr ⟨c', ?_⟩
        simp only [hr, Option.map_some]
        have he : ∀ k, (Groups.val (m.groups.erase "content")) k = if k = "content" then none else m.groups.val k := fun k => Groups.val_erase _ _ _
        cases hc : m.groups.val "content" with
        | none =>
          refine ⟨_, _, m.groups.erase "content", [l], rfl, ?_, ?_⟩
          · funext k
            rw [he]
            split
            · rename_i e; rw [e, hc]
            · rfl
          · rw [if_neg (by rw [Groups.truthy_eq, hc]; simp)]
        | some v =>
          by_cases e : v = ""
          · refine ⟨_, _, m.groups.erase "content", [l], rfl, funext he, ?_⟩
            rw [if_neg (by rw [Groups.truthy_eq, hc]; simp [e]), if_neg (by simp [e])]
          · refine ⟨_, _, m.groups.erase "content", [⟨"", "", v⟩], rfl, funext he, ?_⟩
            rw [if_pos (by rw [Groups.truthy_eq, hc]; simp [e]), if_pos e]
            simp only [Option.getD_some]
            simp [whole]

theorem captured_eq {pre : Groups} {p : Vals} (h : Groups.val pre = p) (g : Groups) : (pre.update g).val = captured p g := by
  funext k
  rw [Groups.val_update, h]
  rfl

/-- no match: nothing happens -/
theorem find_skip (env : FindEnv) (hl : env.maxLines ≤ 1) (now : Int) (drop : Bool) (s : FindState) (l : TLine)
    (h : drop = true ∨ ∀ i v, ¬ Matches env l i v) :
    (findFailure env now drop s l).1 = some [] ∧ (findFailure env now drop s l).2.conns = s.conns := by
  rcases find_single env hl now drop s l with ⟨_, _, e⟩ | ⟨_, _, e⟩ | ⟨c, t, p, pre, b, hs, hp, e⟩
  · rw [e]; exact ⟨rfl, rfl⟩
  · rw [e]; exact ⟨rfl, rfl⟩
  · rw [e]
    rcases h with rfl | h
    · exact loop_dropped _ _ _ _ _ _ _ _
    · rcases first_exists env.failRegex t with ⟨i, m, f⟩ | hn
      · rw [loop_first env now drop [l] pre env.failRegex i 0 _ t m f]
        have hi : Ignores env t := by
          refine Decidable.byContradiction (dec := Classical.propDecidable _) fun hi => ?_
          exact h i _ ⟨t, p, m, hs, f, rfl, hi, c⟩
        unfold after
        rw [if_neg (by omega : ¬ 1 < env.maxLines), if_pos ((ignored_iff _ _).2 hi)]
        exact ⟨rfl, rfl⟩
      · rw [loop_none _ _ _ _ _ _ _ _ _ hn]
        exact ⟨rfl, rfl⟩

/-- a match -/
theorem find_match (env : FindEnv) (hl : env.maxLines ≤ 1) (now : Int) (s : FindState) (l : TLine) (i : Nat) (v : Vals) (h : Matches env l i v) :
    ∃ g : Groups, ∃ pre : Groups, g.val = v ∧ findFailure env now false s l =
      (match handle env now ⟨[], s.conns⟩ i g [l] with
        | (.error, s) => (none, s)
        | (.done r, s) => (some r, s)
        | (.next, s) => loop env now false [l] pre (env.failRegex.drop (i + 1)) (i + 1) s (TLine.buf s.buffer)) := by
  obtain ⟨t, p, m, hs, f, rfl, hi, hc⟩ := h
  rcases find_single env hl now false s l with ⟨c1, c2, _⟩ | ⟨_, c, _⟩ | ⟨_, t', p', pre, b, hs', hp, e⟩
  · exact absurd ⟨c1, c2⟩ hc
  · rw [hs] at c; cases c
  · rw [hs] at hs'
    cases hs'
    refine ⟨pre.update m.groups, pre, captured_eq hp _, ?_⟩
    rw [e, loop_first env now false [l] pre env.failRegex i 0 _ t m f]
    unfold after
    rw [if_neg (by omega : ¬ 1 < env.maxLines), if_neg (fun c => hi ((ignored_iff _ _).1 c)), if_neg (by simp)]
    simp only [parts_single, Nat.zero_add]

/-- a match with a connection -/
theorem find_conn (env : FindEnv) (hl : env.maxLines ≤ 1) (s : FindState) (r : Read) (x : Step) (h : StepOf env r x) :
    ∃ g : Groups, g.val = x.groups.val ∧ (findFailure env r.now r.drop s r.line).1 = answer (handle env x.now ⟨[], s.conns⟩ x.index g x.lines).1
      ∧ (findFailure env r.now r.drop s r.line).2 = (handle env x.now ⟨[], s.conns⟩ x.index g x.lines).2 := by
  obtain ⟨hd, hm, hc, hn, hls⟩ := h
  obtain ⟨g, pre, hg, e⟩ := find_match env hl r.now s r.line x.index _ hm
  refine ⟨g, hg, ?_⟩
  rw [hd, e, hn, hls]
  rw [handle_conn env r.now _ x.index g [r.line] x.conn (by rw [hg]; exact hc)]
  generalize (mergeFailure _ g [r.line]).1 = f
  unfold outcome
  by_cases c : f.groups.truthy "nofail" = true
  · rw [if_pos c]; exact ⟨rfl, rfl⟩
  · rw [if_neg c]
    rcases identify env f.groups with _ | _ | ⟨fids, o⟩ <;> exact ⟨rfl, rfl⟩

theorem Inv.buffer {env : FindEnv} {n : Nat} {life : Int} {xs : List Step} {s : FindState} (I : Inv env n life xs s) {s' : FindState} (h : s'.conns = s.conns) :
    Inv env n life xs s' := by
  obtain ⟨a, b, c, d⟩ := I
  exact ⟨by rw [h]; exact a, by rw [h]; exact b, by rw [h]; exact c, by rw [h]; exact d⟩

theorem inv_lines {env : FindEnv} (hl : env.maxLines ≤ 1) (n : Nat) (life : Int) (buffer : List TLine) (rs : List Read) (xs : List Step) (hs : Steps env rs xs)
    (hx : ∀ past x rest, xs = past ++ x :: rest → Room n life past.reverse x) :
    Inv env n life xs.reverse (runLines env ⟨buffer, Cache.init n life⟩ rs) := by
  have h : ∀ (rs : List Read) (ys : List Step), Steps env rs ys → ∀ (s : FindState) (zs : List Step), Inv env n life zs s →
      (∀ past x rest, ys = past ++ x :: rest → Room n life (past.reverse ++ zs) x) →
      Inv env n life (ys.reverse ++ zs) (runLines env s rs) := by
    intro rs ys st
    induction st with
    | nil => intro s zs I _; exact I
    | @skip r rs xs hskip _ ih =>
      intro s zs I hy
      exact ih _ zs (I.buffer (find_skip env hl r.now r.drop s r.line hskip).2) hy
    | @step r rs x xs hstep _ ih =>
      intro s zs I hy
      have h0 := hy [] x xs rfl
      obtain ⟨g, hg, _, e⟩ := find_conn env hl s r x hstep
      have I' : Inv env n life (x :: zs) (findFailure env r.now r.drop s r.line).2 := by
        rw [e]
        exact Inv.step (I.buffer (s' := ⟨[], s.conns⟩) rfl) x hg hstep.conn h0
      have := ih _ (x :: zs) I' (fun past y rest e => by
        have := hy (x :: past) y rest (by rw [e]; rfl)
        simpa using this)
      simpa [runLines] using this
  have := h rs xs hs ⟨buffer, Cache.init n life⟩ [] ⟨rfl, rfl, fun _ _ => rfl, fun m f t hm => (by cases hm)⟩
    (fun past x rest e => by simpa using hx past x rest e)
  simpa using this

/-- the right answer is determined -/
theorem right_told {env : FindEnv} {h : List Ev} {i : Nat} {o o' : Outcome} (r : Right env h i o) (r' : Right env h i o') :
    told (answer o) = told (answer o') := by
  unfold Right at r r'
  cases hs : status env h <;> rw [hs] at r r'
  · simp only at r r'; rw [r, r']
  · simp only at r r'; rw [r, r']
  · simp only at r r'
    rcases hd : ids env (val h) with _ | _ | ⟨fids, a⟩ <;> rw [hd] at r r'
    · simp only at r r'; rw [r, r']
    · simp only at r r'; rw [r, r']
    · simp only at r r'
      obtain ⟨f, h1, _, h2⟩ := r
      obtain ⟨f', g1, _, g2⟩ := r'
      rw [h1, g1]
      simp [answer, told, h2, g2]

theorem kept_filter (life : Int) (m : String) (xs : List Step) : kept life m (xs.filter (fun x => decide (x.conn = m))) = kept life m xs := by
  induction xs with
  | nil => rfl
  | cons x xs ih =>
    by_cases c : x.conn = m
    · rw [List.filter_cons_of_pos (by simpa using c)]
      simp only [kept, if_pos c, ih]
    · rw [List.filter_cons_of_neg (by simpa using c)]
      simp only [kept, if_neg c, ih]

theorem kept_other (life : Int) {m m' : String} (h : m' ≠ m) (xs : List Step) (hx : ∀ x ∈ xs, x.conn = m) : kept life m' xs = [] := by
  induction xs with
  | nil => rfl
  | cons x xs ih =>
    simp only [kept]
    rw [if_neg (by rw [hx x (by simp)]; exact fun e => h e.symm), ih (fun y hy => hx y (by simp [hy]))]

theorem kept_all (life : Int) (m : String) (xs : List Step) (hx : ∀ x ∈ xs, x.conn = m) (hf : ∀ x ∈ xs, x.ev.flag "mlfforget" = false)
    (ht : ∀ x ∈ xs, ∀ y ∈ xs, x.now < y.now + life) : kept life m xs = xs := by
  induction xs with
  | nil => rfl
  | cons x xs ih =>
    have ih := ih (fun y hy => hx y (by simp [hy])) (fun y hy => hf y (by simp [hy])) (fun y hy z hz => ht y (by simp [hy]) z (by simp [hz]))
    simp only [kept]
    rw [if_pos (hx x (by simp)), hf x (by simp), if_neg Bool.false_ne_true, ih]
    congr 1
    unfold alive
    cases hl : xs.getLast? with
    | none => rw [List.getLast?_eq_none_iff] at hl; exact hl.symm
    | some y => simp only; rw [if_pos (ht x (by simp) y (by simp [List.mem_of_getLast? hl]))]

theorem answers_append (env : FindEnv) (s : FindState) (a b : List Read) : answers env s (a ++ b) = answers env s a ++ answers env (runLines env s a) b := by
  induction a generalizing s with
  | nil => rfl
  | cons r a ih => simp only [List.cons_append, answers, ih]; rfl

theorem steps_of (env : FindEnv) (zs : List (Read × Step)) (h : ∀ z ∈ zs, StepOf env z.1 z.2) : Steps env (zs.map Prod.fst) (zs.map Prod.snd) := by
  induction zs with
  | nil => exact .nil
  | cons z zs ih => exact .step (h z (by simp)) (ih (fun y hy => h y (by simp [hy])))

theorem right_line {env : FindEnv} (hl : env.maxLines ≤ 1) (n : Nat) (life : Int) (buffer : List TLine) (rs : List Read) (xs : List Step) (hs : Steps env rs xs)
    (hx : ∀ past x rest, xs = past ++ x :: rest → Room n life past.reverse x) (r : Read) (x : Step) (hr : StepOf env r x) :
    ∃ o, (findFailure env r.now r.drop (runLines env ⟨buffer, Cache.init n life⟩ rs) r.line).1 = answer o
      ∧ Right env (x.ev :: (alive life x.now (kept life x.conn xs.reverse)).map Step.ev) x.index o := by
  have I := inv_lines hl n life buffer rs xs hs hx
  obtain ⟨g, hg, e, _⟩ := find_conn env hl (runLines env ⟨buffer, Cache.init n life⟩ rs) r x hr
  exact ⟨_, e, (I.buffer (s' := ⟨[], _⟩) rfl).right x hg hr.conn⟩

/-- the lines waiting, if they are not reported yet -/
def left (env : FindEnv) (h : List Ev) : List TLine := if status env h = .report then [] else waiting env h

theorem once_aux {env : FindEnv} (hl : env.maxLines ≤ 1) (n : Nat) (hn : 0 < n) (life : Int) (buffer : List TLine) (m : String)
    (ws : List (Read × Step)) (h : ∀ z ∈ ws, StepOf env z.1 z.2 ∧ z.2.conn = m ∧ z.2.ev.flag "mlfforget" = false ∧ z.2.ev.flag "mlfgained" = false)
    (ht : ∀ x ∈ ws, ∀ y ∈ ws, x.2.now < y.2.now + life)
    (hi : ∀ a b, ws = a ++ b → ids env (val (b.map (fun z => z.2.ev))) = some none ∨ ∃ f fs o, ids env (val (b.map (fun z => z.2.ev))) = some (some (f :: fs, o))) :
    ((answers env ⟨buffer, Cache.init n life⟩ (ws.reverse.map Prod.fst)).map reported).flatten ++ left env (ws.map (fun z => z.2.ev))
      = ws.reverse.map (fun z => z.1.line) := by
  induction ws with
  | nil => rfl
  | cons w ws ih =>
    have ih := ih (fun z hz => h z (by simp [hz])) (fun x hx y hy => ht x (by simp [hx]) y (by simp [hy]))
      (fun a b e => hi (w :: a) b (by rw [e]; rfl))
    obtain ⟨hw, hwm, hwf, hwg⟩ := h w (by simp)
    have hsteps := steps_of env ws.reverse (fun z hz => (h z (by simp [List.mem_reverse.1 hz])).1)
    have hroom : ∀ past x rest, ws.reverse.map Prod.snd = past ++ x :: rest → Room n life past.reverse x := by
      intro past x rest e
      have hc : ∀ y ∈ ws.reverse.map Prod.snd, y.conn = m := by
        intro y hy
        obtain ⟨z, hz, rfl⟩ := List.mem_map.1 hy
        exact (h z (by simp [List.mem_reverse.1 hz])).2.1
      refine ⟨[], by simpa using hn, ?_⟩
      intro m' hm' hk
      have hxm : x.conn = m := hc x (by rw [e]; simp)
      exact absurd (kept_other life (by rw [← hxm]; exact hm') past.reverse (fun y hy => hc y (by rw [e]; simp [List.mem_reverse.1 hy]))) hk
    obtain ⟨o, ho, hright⟩ := right_line hl n life buffer _ _ hsteps hroom w.1 w.2 hw
    have hkept : alive life w.2.now (kept life w.2.conn (ws.reverse.map Prod.snd).reverse) = ws.map Prod.snd := by
      have h1 : (ws.reverse.map Prod.snd).reverse = ws.map Prod.snd := by rw [List.map_reverse, List.reverse_reverse]
      rw [h1, hwm, kept_all life m]
      · unfold alive
        cases hg : (ws.map Prod.snd).getLast? with
        | none => rw [List.getLast?_eq_none_iff] at hg; exact hg.symm
        | some y =>
          obtain ⟨z, hz, rfl⟩ := List.mem_map.1 (List.mem_of_getLast? hg)
          simp only
          rw [if_pos (ht w (by simp) z (by simp [hz]))]
      · intro x hx
        obtain ⟨z, hz, rfl⟩ := List.mem_map.1 hx
        exact (h z (by simp [hz])).2.1
      · intro x hx
        obtain ⟨z, hz, rfl⟩ := List.mem_map.1 hx
        exact (h z (by simp [hz])).2.2.1
      · intro x hx y hy
        obtain ⟨z, hz, rfl⟩ := List.mem_map.1 hx
        obtain ⟨z', hz', rfl⟩ := List.mem_map.1 hy
        exact ht z (by simp [hz]) z' (by simp [hz'])
    rw [hkept] at hright
    have hmap : (ws.map Prod.snd).map Step.ev = ws.map (fun z => z.2.ev) := by rw [List.map_map]; rfl
    rw [hmap] at hright
    have hwait : waiting env (w.2.ev :: ws.map (fun z => z.2.ev)) = left env (ws.map (fun z => z.2.ev)) ++ [w.1.line] := by
      have e : w.2.ev.lines = [w.1.line] := hw.lines
      simp only [waiting, e, left, hwg]
      cases status env (ws.map (fun z => z.2.ev)) <;> simp
    have hkey : reported (answer o) ++ left env (w.2.ev :: ws.map (fun z => z.2.ev)) = left env (ws.map (fun z => z.2.ev)) ++ [w.1.line] := by
      rw [← hwait]
      have hi0 := hi [] (w :: ws) rfl
      rw [List.map_cons] at hi0
      unfold Right at hright
      cases hs : status env (w.2.ev :: ws.map (fun z => z.2.ev)) <;> rw [hs] at hright
      · simp only at hright; rw [hright]; simp [answer, reported, left, hs]
      · simp only at hright; rw [hright]; simp [answer, reported, left, hs]
      · rcases hi0 with hi0 | ⟨f, fs, a, hi0⟩
        · exfalso
          have := status_cons env w.2.ev (ws.map (fun z => z.2.ev))
          rw [hs, hi0] at this
          split at this <;> simp at this
        · rw [hi0] at hright
          obtain ⟨f', h1, _, h2⟩ := hright
          rw [h1]; simp [answer, reported, left, hs, h2]
    rw [List.reverse_cons, List.map_append, answers_append, List.map_append, List.flatten_append, List.map_append, ← ih]
    simp only [List.map_cons, List.map_nil, answers, ho, List.flatten_cons, List.flatten_nil, List.append_nil, List.append_assoc]
    rw [hkey]

/-! ## Several lines -/

theorem takeLine_some {t : String} {ls : List TLine} {n : Nat} {l : TLine} {rest : List TLine} (h : takeLine t ls = some (n, l, rest)) :
    l.text = t ∧ ∃ a b, ls = a ++ l :: b ∧ rest = a ++ b ∧ a.length = n ∧ ∀ x ∈ a, x.text ≠ t := by
  induction ls generalizing n l rest with
  | nil => cases h
  | cons x xs ih =>
    simp only [takeLine] at h
    by_cases c : x.text = t
    · rw [if_pos c] at h
      cases h
      exact ⟨c, [], xs, rfl, rfl, rfl, by simp⟩
    · rw [if_neg c] at h
      cases e : takeLine t xs with
      | none => rw [e] at h; cases h
      | some y =>
        obtain ⟨n', l', r'⟩ := y
        rw [e] at h
        cases h
        obtain ⟨h1, a, b, h2, h3, h4, h5⟩ := ih e
        refine ⟨h1, x :: a, b, by rw [h2]; rfl, by rw [h3]; rfl, by simp [h4], ?_⟩
        intro z hz
        rcases List.mem_cons.1 hz with rfl | hz
        · exact c
        · exact h5 z hz

theorem skipLines_perm (ts : List String) (n : Nat) (p : Parts) :
    ((skipLines ts n p).matched ++ (skipLines ts n p).unmatched).Perm (p.matched ++ p.unmatched) := by
  induction ts generalizing n p with
  | nil => exact List.Perm.refl _
  | cons t ts ih =>
    simp only [skipLines]
    cases e : takeLine t (p.matched.drop n) with
    | none => exact ih n p
    | some y =>
      obtain ⟨m, l, rest⟩ := y
      obtain ⟨_, a, b, h2, h3, _⟩ := takeLine_some e
      refine (ih _ _).trans ?_
      have : p.matched = p.matched.take n ++ (a ++ l :: b) := by rw [← h2, List.take_append_drop]
      conv => rhs; rw [this]
      subst h3
      simp only [List.append_assoc, List.cons_append]
      refine List.Perm.append_left _ (List.Perm.append_left _ ?_)
      rw [← List.append_assoc]
      exact List.perm_append_comm (l₁ := b ++ p.unmatched) (l₂ := [l])

theorem parts_perm (m : RxMatch) (h : m.first ≤ m.last) (org : List TLine) : ((m.parts org).matched ++ (m.parts org).unmatched).Perm org := by
  unfold RxMatch.parts
  split
  · simp
  · simp only
    rw [← List.append_assoc]
    refine ((skipLines_perm _ _ _).append_right _).trans ?_
    simp only
    refine (List.perm_append_comm.append_right _).trans ?_
    have : org.take m.first ++ (org.take m.last).drop m.first = org.take m.last := by
      have := List.take_append_drop m.first (org.take m.last)
      rw [List.take_take, Nat.min_eq_left h] at this
      exact this
    rw [this, List.take_append_drop]

theorem skipLines_sublist (ts : List String) (n : Nat) (p : Parts) : (skipLines ts n p).matched.Sublist p.matched := by
  induction ts generalizing n p with
  | nil => exact List.Sublist.refl _
  | cons t ts ih =>
    simp only [skipLines]
    cases e : takeLine t (p.matched.drop n) with
    | none => exact ih n p
    | some y =>
      obtain ⟨m, l, rest⟩ := y
      obtain ⟨_, a, b, h2, h3, _⟩ := takeLine_some e
      refine (ih _ _).trans ?_
      have : p.matched = p.matched.take n ++ (a ++ l :: b) := by rw [← h2, List.take_append_drop]
      conv => rhs; rw [this]
      subst h3
      exact List.Sublist.append_left (List.Sublist.append_left (List.sublist_cons_self _ _) _) _

theorem takeLine_none {t : String} {ls : List TLine} (h : takeLine t ls = none) : ∀ x ∈ ls, x.text ≠ t := by
  induction ls with
  | nil => simp
  | cons x xs ih =>
    simp only [takeLine] at h
    by_cases c : x.text = t
    · rw [if_pos c] at h; cases h
    · rw [if_neg c] at h
      rw [Option.map_eq_none_iff] at h
      intro y hy
      rcases List.mem_cons.1 hy with rfl | hy
      · exact c
      · exact ih h y hy

theorem sublist_after {t : String} {ts a b : List String} (ha : t ∉ a) (h : (t :: ts).Sublist (a ++ t :: b)) : ts.Sublist b := by
  induction a with
  | nil => exact List.cons_sublist_cons.1 h
  | cons x a ih =>
    rw [List.mem_cons, not_or] at ha
    rw [List.cons_append] at h
    cases h with
    | cons _ h => exact ih ha.2 h
    | cons_cons _ h => exact absurd rfl ha.1

/-- all skipped lines are found, if they are there in that order -/
theorem skipLines_found (ts : List String) (n : Nat) (p : Parts) (h : ts.Sublist ((p.matched.drop n).map TLine.text)) :
    ∃ sk, (skipLines ts n p).unmatched = p.unmatched ++ sk ∧ sk.map TLine.text = ts := by
  induction ts generalizing n p with
  | nil => exact ⟨[], by simp [skipLines], rfl⟩
  | cons t ts ih =>
    simp only [skipLines]
    cases e : takeLine t (p.matched.drop n) with
    | none =>
      have : t ∈ (p.matched.drop n).map TLine.text := h.subset (by simp)
      obtain ⟨x, hx, hxt⟩ := List.mem_map.1 this
      exact absurd hxt (takeLine_none e x hx)
    | some y =>
      obtain ⟨m, l, rest⟩ := y
      obtain ⟨h1, a, b, h2, h3, h4, h5⟩ := takeLine_some e
      have hn : n ≤ p.matched.length := by
        apply Nat.le_of_not_lt
        intro c
        rw [List.drop_eq_nil_of_le (by omega)] at h2
        cases a <;> cases h2
      have hd : (p.matched.take n ++ rest).drop (n + m) = b := by
        rw [h3, ← List.append_assoc]
        apply List.drop_left'
        simp [h4, Nat.min_eq_left hn]
      obtain ⟨sk, g1, g2⟩ := ih (n + m) ⟨p.matched.take n ++ rest, p.unmatched ++ [l]⟩ (by
        simp only
        rw [hd]
        rw [h2, List.map_append, List.map_cons, h1] at h
        refine sublist_after ?_ h
        intro c
        obtain ⟨x, hx, hxt⟩ := List.mem_map.1 c
        exact h5 x hx hxt)
      exact ⟨l :: sk, by rw [g1]; simp, by rw [List.map_cons, g2, h1]⟩

/-- the matches found identify a host and do not name a connection -/
def Simple (env : FindEnv) : Prop :=
  env.prefRegex = none ∧ ∀ r ∈ env.failRegex, ∀ t m, r t = some m → m.first ≤ m.last ∧ m.groups.val "mlfid" = none ∧ ∃ f, ids env m.groups.val = some (some f)

theorem loop_once {env : FindEnv} (now : Int) (drop : Bool) (org : List TLine) (rs : List Rx) (k : Nat) (s : FindState) (t : String)
    (hr : ∀ r ∈ rs, ∀ t m, r t = some m → m.first ≤ m.last ∧ m.groups.val "mlfid" = none ∧ ∃ f, ids env m.groups.val = some (some f)) (hb : s.buffer = org) :
    ∃ lost, (reported (loop env now drop org Dict.empty rs k s t).1 ++ lost ++ (loop env now drop org Dict.empty rs k s t).2.buffer).Perm org := by
  induction rs generalizing k with
  | nil => exact ⟨[], by simp [loop, reported, hb]⟩
  | cons r rs ih =>
    have ih := fun k => ih k (fun q hq => hr q (by simp [hq]))
    simp only [loop]
    cases e : r t with
    | none => exact ih _
    | some m =>
      obtain ⟨hfl, hm, ⟨fids, a⟩, hi⟩ := hr r (by simp) t m e
      have hp := parts_perm m hfl org
      simp only
      by_cases c : ignored env (if 1 < env.maxLines then TLine.buf (m.parts org).matched else t) = true
      · rw [if_pos c]
        exact ⟨(m.parts org).matched, by simpa [reported] using hp⟩
      · rw [if_neg c]
        cases drop
        · rw [if_neg Bool.false_ne_true]
          have hv : (Groups.update Dict.empty m.groups).val = m.groups.val := by
            funext j
            rw [Groups.val_update, Groups.val_empty]
            split
            · rfl
            · rename_i hj
              rw [Groups.val, (Dict.get?_eq_none_iff _ _).2 hj]; rfl
          simp only [handle, hv, hm, identify_eq, hi]
          cases fids with
          | nil => exact ⟨(m.parts org).matched, by simpa [reported] using hp⟩
          | cons f fs => exact ⟨[], by simpa [reported] using hp⟩
        · rw [if_pos rfl]
          exact ih _

theorem find_once {env : FindEnv} (h : Simple env) (now : Int) (drop : Bool) (s : FindState) (l : TLine) :
    ∃ lost, (reported (findFailure env now drop s l).1 ++ lost ++ (findFailure env now drop s l).2.buffer).Perm (s.buffer ++ [l]) := by
  obtain ⟨hp, hr⟩ := h
  have key : ∀ org : List TLine, ∃ lost, (reported (if env.ignoreRegex.length + 2 < env.failRegex.length ∧ ignored env (TLine.buf org) = true
        then (some [], (⟨org, s.conns⟩ : FindState)) else loop env now drop org Dict.empty env.failRegex 0 ⟨org, s.conns⟩ (TLine.buf org)).1 ++ lost
      ++ (if env.ignoreRegex.length + 2 < env.failRegex.length ∧ ignored env (TLine.buf org) = true
        then (some [], (⟨org, s.conns⟩ : FindState)) else loop env now drop org Dict.empty env.failRegex 0 ⟨org, s.conns⟩ (TLine.buf org)).2.buffer).Perm org := by
    intro org
    by_cases c : env.ignoreRegex.length + 2 < env.failRegex.length ∧ ignored env (TLine.buf org) = true
    · simp only [if_pos c]
      exact ⟨[], by simp [reported]⟩
    · simp only [if_neg c]
      exact loop_once now drop org env.failRegex 0 ⟨org, s.conns⟩ (TLine.buf org) hr rfl
  have hsuf : ∃ old, (if 1 < env.maxLines then (s.buffer ++ [l]).drop ((s.buffer ++ [l]).length - env.maxLines) else [l] : List TLine)
      = (if 1 < env.maxLines then (s.buffer ++ [l]).drop ((s.buffer ++ [l]).length - env.maxLines) else [l] : List TLine) ∧
      old ++ (if 1 < env.maxLines then (s.buffer ++ [l]).drop ((s.buffer ++ [l]).length - env.maxLines) else [l] : List TLine) = s.buffer ++ [l] := by
    by_cases c : 1 < env.maxLines
    · rw [if_pos c]; exact ⟨_, rfl, List.take_append_drop _ _⟩
    · rw [if_neg c]; exact ⟨s.buffer, rfl, rfl⟩
  obtain ⟨old, _, ho⟩ := hsuf
  have e : findFailure env now drop s l = (fun org : List TLine => if env.ignoreRegex.length + 2 < env.failRegex.length ∧ ignored env (TLine.buf org) = true
        then (some [], (⟨org, s.conns⟩ : FindState)) else loop env now drop org Dict.empty env.failRegex 0 ⟨org, s.conns⟩ (TLine.buf org))
        (if 1 < env.maxLines then (s.buffer ++ [l]).drop ((s.buffer ++ [l]).length - env.maxLines) else [l] : List TLine) := by
    unfold findFailure
    rw [hp]
  rw [e]
  generalize (if 1 < env.maxLines then (s.buffer ++ [l]).drop ((s.buffer ++ [l]).length - env.maxLines) else [l] : List TLine) = org at ho ⊢
  obtain ⟨lost, hl⟩ := key org
  refine ⟨old ++ lost, ?_⟩
  rw [← ho]
  simp only
  refine List.Perm.trans ?_ (hl.append_left old)
  simp only [← List.append_assoc]
  exact ((List.perm_append_comm).append_right _).append_right _

theorem answers_once {env : FindEnv} (h : Simple env) (s : FindState) (rs : List Read) :
    ∃ lost, (((answers env s rs).map reported).flatten ++ lost ++ (runLines env s rs).buffer).Perm (s.buffer ++ rs.map Read.line) := by
  induction rs generalizing s with
  | nil => exact ⟨[], by simp [answers, runLines]⟩
  | cons r rs ih =>
    obtain ⟨l1, h1⟩ := find_once h r.now r.drop s r.line
    obtain ⟨l2, h2⟩ := ih (findFailure env r.now r.drop s r.line).2
    refine ⟨l1 ++ l2, ?_⟩
    have e : runLines env s (r :: rs) = runLines env (findFailure env r.now r.drop s r.line).2 rs := rfl
    rw [e]
    simp only [answers, List.map_cons, List.flatten_cons]
    have h3 := (h1.append_right (rs.map Read.line))
    simp only [List.append_assoc, List.cons_append, List.nil_append] at h3 ⊢
    refine List.Perm.trans ?_ h3
    refine List.Perm.append_left _ ?_
    have h4 := h2.append_left l1
    refine List.Perm.trans ?_ h4
    simp only [← List.append_assoc]
    refine List.Perm.append_right _ (List.Perm.append_right _ ?_)
    exact List.perm_append_comm

theorem handle_buffer (env : FindEnv) (now : Int) (s : FindState) (i : Nat) (g : Groups) (lines : List TLine) :
    (handle env now s i g lines).2.buffer = s.buffer := by
  cases hm : g.val "mlfid" with
  | none =>
    unfold handle
    rw [hm]
    simp only
    rcases identify env g with _ | _ | ⟨f, a⟩ <;> rfl
  | some m => rw [handle_conn env now s i g lines m hm]

theorem loop_buffer {env : FindEnv} (now : Int) (drop : Bool) (org : List TLine) (pre : Groups) (rs : List Rx) (k : Nat) (s : FindState) (t : String) (N : Nat)
    (hN : org.length ≤ N) (hr : ∀ r ∈ rs, ∀ t m, r t = some m → m.first ≤ m.last) (hb : s.buffer.length ≤ N) :
    (loop env now drop org pre rs k s t).2.buffer.length ≤ N := by
  induction rs generalizing k s t with
  | nil => exact hb
  | cons r rs ih =>
    have ih := fun k s t => ih k s t (fun q hq => hr q (by simp [hq]))
    simp only [loop]
    cases e : r t with
    | none => exact ih _ _ _ hb
    | some m =>
      have hp := (parts_perm m (hr r (by simp) t m e) org).length_eq
      rw [List.length_append] at hp
      have hu : (m.parts org).unmatched.length ≤ N := by omega
      simp only
      by_cases c : ignored env (if 1 < env.maxLines then TLine.buf (m.parts org).matched else t) = true
      · rw [if_pos c]; exact hu
      · rw [if_neg c]
        cases drop
        · rw [if_neg Bool.false_ne_true]
          have hh := handle_buffer env now { s with buffer := (m.parts org).unmatched } k (pre.update m.groups) (m.parts org).matched
          generalize handle env now { s with buffer := (m.parts org).unmatched } k (pre.update m.groups) (m.parts org).matched = o at hh ⊢
          obtain ⟨o, s'⟩ := o
          simp only at hh
          cases o with
          | error => simp only; rw [hh]; exact hu
          | done r => simp only; rw [hh]; exact hu
          | next => simp only; exact ih _ _ _ (by rw [hh]; exact hu)
        · rw [if_pos rfl]
          exact ih _ _ _ hb

theorem find_buffer {env : FindEnv} (hr : ∀ r ∈ env.failRegex, ∀ t m, r t = some m → m.first ≤ m.last) (now : Int) (drop : Bool) (s : FindState) (l : TLine) :
    (findFailure env now drop s l).2.buffer.length ≤ max 1 env.maxLines := by
  unfold findFailure
  simp only
  have ho : (if 1 < env.maxLines then (s.buffer ++ [l]).drop ((s.buffer ++ [l]).length - env.maxLines) else [l] : List TLine).length ≤ max 1 env.maxLines := by
    split
    · rw [List.length_drop]; omega
    · simp only [List.length_singleton]; omega
  generalize (if 1 < env.maxLines then (s.buffer ++ [l]).drop ((s.buffer ++ [l]).length - env.maxLines) else [l] : List TLine) = org at ho ⊢
  by_cases c : env.ignoreRegex.length + 2 < env.failRegex.length ∧ ignored env (TLine.buf org) = true
  · rw [if_pos c]; exact ho
  · rw [if_neg c]
    cases env.prefRegex with
    | none => exact loop_buffer _ _ _ _ _ _ _ _ _ ho hr ho
    | some pr =>
      simp only
      cases pr (TLine.buf org) with
      | none => exact ho
      | some m =>
        simp only
        split
        · exact loop_buffer _ _ _ _ _ _ _ _ _ ho hr (by simp only [List.length_singleton]; omega)
        · exact loop_buffer _ _ _ _ _ _ _ _ _ ho hr ho

theorem buf_eq (ls : List TLine) : TLine.buf ls = textOf ls := by
  induction ls with
  | nil => decide +kernel
  | cons l ls ih =>
    cases ls with
    | nil => rw [buf_single]; rfl
    | cons k ks =>
      have e : textOf (l :: k :: ks) = whole l ++ textOf (k :: ks) := rfl
      rw [e, ← ih]
      simp only [TLine.buf, List.map_cons, String.intercalate_cons_cons, whole, TLine.text, String.append_assoc]

theorem window_eq (n : Nat) (ls : List TLine) : ls.drop (ls.length - n) = lastLines n ls := by
  rw [lastLines, List.take_reverse, List.reverse_reverse]

theorem find_several (env : FindEnv) (hp : env.prefRegex = none) (hm : 1 < env.maxLines) (now : Int) (drop : Bool) (s : FindState) (l : TLine) (w : List TLine)
    (hw : w = lastLines env.maxLines (s.buffer ++ [l])) (hf : ¬ (Few env ∧ Ignores env (textOf w))) :
    findFailure env now drop s l = loop env now drop w Dict.empty env.failRegex 0 ⟨w, s.conns⟩ (textOf w) := by
  unfold findFailure
  simp only [if_pos hm, window_eq, ← hw, hp, buf_eq]
  rw [if_neg (fun c => hf ⟨c.1, (ignored_iff _ _).1 c.2⟩)]

theorem update_empty_val (g : Groups) : (Groups.update Dict.empty g).val = g.val := by
  funext j
  rw [Groups.val_update, Groups.val_empty]
  split
  · rfl
  · rename_i hj
    rw [Groups.val, (Dict.get?_eq_none_iff _ _).2 hj]; rfl

end Verif.Find
