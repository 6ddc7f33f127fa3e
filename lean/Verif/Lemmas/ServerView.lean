import Verif.Model.Server

/-!
# What a command does to one name
-/

namespace Verif

/-- The part of the server that belongs to a name. -/
structure View where
  jail : Option SJail
  mark : Option Bool
  gone : List SJail
  flag : Option (Option Bool)

namespace Server

/-- the part of a name -/
def view (s : Server) (n : String) : View :=
  ⟨s.jails.get? n, s.reloadState.get? n, (s.gone.filter (fun g => g.1 = n)).map (·.2), s.db.map (·.jails.get? n)⟩

end Server

/-- the name a command is about -/
def SCmd.target : SCmd → Option String
  | .add n _ => some n
  | .set n _ => some n
  | .start n => some n
  | .configError => none
  | .invalid => none

namespace View

def del (w : World) (n : String) (v : View) : View :=
  match v.jail with
  | none => v
  | some j => ⟨none, v.mark, v.gone ++ [j.stop w n], v.flag.map (fun f => f.map (fun _ => false))⟩

def new (w : World) (b : String) (v : View) : Bool × View :=
  if v.jail.isSome then (true, v)
  else if w.backendOk b then (false, ⟨some (SJail.new w v.gone.length b v.flag.isSome), v.mark, v.gone, v.flag.map (fun _ => some true)⟩)
  else (true, v)

def add (w : World) (n b : String) (v : View) : Bool × View :=
  match v.mark, v.jail with
  | some true, some j =>
    if j.backend = b then (false, ⟨v.jail, some false, v.gone, v.flag.map (fun _ => some true)⟩)
    else new w b { v.del w n with mark := none }
  | _, _ => new w b v

def start (w : World) (n : String) (v : View) : Bool × View :=
  match v.jail with
  | none => (true, v)
  | some j =>
    if j.alive then (false, ⟨some { j with idle := false }, none, v.gone, v.flag⟩)
    else (false, ⟨some { j.start w n with idle := false }, v.mark, v.gone, v.flag⟩)

def set (w : World) (n : String) (x : Setting) (v : View) : Bool × View :=
  match v.jail with
  | none => (true, v)
  | some j =>
    match j.set w n v.mark.isSome x with
    | none => (true, v)
    | some j => (false, ⟨some j, v.mark, v.gone, v.flag⟩)

def exec (w : World) (n : String) (v : View) : SCmd → Bool × View
  | .add _ b => v.add w n b
  | .set _ x => v.set w n x
  | .start _ => v.start w n
  | .configError => (false, v)
  | .invalid => (true, v)

def run (w : World) (n : String) : List SCmd → View → Bool × View
  | [], v => (false, v)
  | c :: cs, v => if (v.exec w n c).1 then v.exec w n c else run w n cs (v.exec w n c).2

end View

namespace Server

theorem contains_get? {V : Type} (d : Dict String V) (n : String) : d.contains n = (d.get? n).isSome := rfl

theorem get?_delJail_db (d : Db) (m n : String) : (d.delJail m).jails.get? n = if n = m then (d.jails.get? n).map (fun _ => false) else d.jails.get? n := by
  unfold Db.delJail
  split
  · rename_i h
    dsimp only
    rw [Dict.get?_insert]
    split
    · rename_i e
      subst e
      obtain ⟨v, hv⟩ := Option.isSome_iff_exists.1 h
      rw [hv]; rfl
    · rfl
  · rename_i h
    split
    · rename_i e
      subst e
      have : d.jails.get? n = none := by
        cases hg : d.jails.get? n with
        | none => rfl
        | some v => exact absurd (by rw [contains_get?, hg]; rfl) h
      rw [this]; rfl
    · rfl

theorem view_delJail (w : World) (s : Server) (m n : String) :
    (s.delJail w m).2.view n = if n = m then (s.view n).del w n else s.view n := by
  unfold delJail
  cases hj : s.jails.get? m with
  | none =>
    dsimp only
    split
    · rename_i e; subst e; simp [View.del, view, hj]
    · rfl
  | some j =>
    dsimp only
    unfold view
    dsimp only
    rw [Dict.get?_erase, List.filter_append, List.map_append]
    split
    · rename_i e
      subst e
      simp only [View.del, hj, List.filter_cons, decide_true, if_true, List.filter_nil, List.map_cons, List.map_nil, Option.map_map,
        Function.comp_def]
      congr 1
      cases s.db with
      | none => rfl
      | some d => simp [get?_delJail_db]
    · rename_i e
      have e' : ¬ m = n := fun h => e h.symm
      simp only [List.filter_cons, e', decide_false, Bool.false_eq_true, if_false, List.filter_nil, List.map_nil, List.append_nil, Option.map_map,
        Function.comp_def]
      congr 1
      cases s.db with
      | none => rfl
      | some d => simp [get?_delJail_db, e]

theorem view_newJail (w : World) (s : Server) (m b n : String) :
    (s.newJail w m b).2.view n = (if n = m then ((s.view n).new w b).2 else s.view n) ∧ (s.newJail w m b).1 = ((s.view m).new w b).1 := by
  unfold newJail View.new
  cases hj : s.jails.get? m with
  | some j =>
    have : s.jails.contains m = true := by rw [contains_get?, hj]; rfl
    rw [if_pos this]
    constructor
    · split
      · rename_i e; subst e; simp [view, hj]
      · rfl
    · simp [view, hj]
  | none =>
    have : ¬ s.jails.contains m = true := by rw [contains_get?, hj]; exact Bool.false_ne_true
    rw [if_neg this]
    by_cases hb : w.backendOk b = true
    · rw [if_pos hb]
      constructor
      · split
        · rename_i e
          subst e
          simp [view, hj, Dict.get?_insert_self]
          cases s.db with
          | none => simp
          | some d => simp [Db.addJail, Dict.get?_insert_self]
        · rename_i e
          simp [view, Dict.get?_insert_ne _ e]
          cases s.db with
          | none => simp
          | some d => simp [Db.addJail, Dict.get?_insert_ne _ e]
      · simp [view, hj, hb]
    · rw [if_neg hb]
      constructor
      · split
        · rename_i e; subst e; simp [view, hj]
        · rfl
      · simp [view, hj, hb]

theorem view_mark_erase (s : Server) (m n : String) : ({ s with reloadState := s.reloadState.erase m } : Server).view n = if n = m then { s.view n with mark := none } else s.view n := by
  unfold view
  dsimp only
  rw [Dict.get?_erase]
  split <;> rfl

theorem view_addJail (w : World) (s : Server) (m b n : String) :
    (s.addJail w m b).2.view n = (if n = m then ((s.view n).add w n b).2 else s.view n) ∧ (s.addJail w m b).1 = ((s.view m).add w m b).1 := by
  have other : ∀ (hA : s.addJail w m b = s.newJail w m b) (hV : (s.view m).add w m b = (s.view m).new w b),
      (s.addJail w m b).2.view n = (if n = m then ((s.view n).add w n b).2 else s.view n) ∧ (s.addJail w m b).1 = ((s.view m).add w m b).1 := by
    intro hA hV
    rw [hA, hV]
    refine ⟨?_, (view_newJail w s m b n).2⟩
    rw [(view_newJail w s m b n).1]
    split
    · rename_i e; subst e; rw [hV]
    · rfl
  cases hm : s.reloadState.get? m with
  | none =>
    refine other ?_ ?_
    · unfold addJail; rw [hm]
    · unfold View.add; simp only [view, hm]
  | some x =>
    cases x with
    | false =>
      refine other ?_ ?_
      · unfold addJail; rw [hm]
      · unfold View.add; simp only [view, hm]
    | true =>
      cases hj : s.jails.get? m with
      | none =>
        refine other ?_ ?_
        · unfold addJail; rw [hm, hj]
        · unfold View.add; simp only [view, hm, hj]
      | some j =>
        by_cases hb : j.backend = b
        · have e1 : s.addJail w m b = (false, { s with reloadState := s.reloadState.insert m false, db := s.db.map (·.addJail m) }) := by
            unfold addJail; simp only [hm, hj]; rw [if_pos hb]
          have e2 : (s.view m).add w m b = (false, ⟨some j, some false, (s.view m).gone, (s.view m).flag.map (fun _ => some true)⟩) := by
            unfold View.add; simp only [view, hm, hj]; rw [if_pos hb]
          rw [e1, e2]
          refine ⟨?_, rfl⟩
          split
          · rename_i e
            subst e
            rw [e2]
            simp only [view, Dict.get?_insert_self, hj]
            congr 1
            cases s.db with
            | none => rfl
            | some d => simp [Db.addJail, Dict.get?_insert_self]
          · rename_i e
            simp only [view, Dict.get?_insert_ne _ e]
            congr 1
            cases s.db with
            | none => rfl
            | some d => simp [Db.addJail, Dict.get?_insert_ne _ e]
        · have e1 : s.addJail w m b = newJail w { (s.delJail w m).2 with reloadState := (s.delJail w m).2.reloadState.erase m } m b := by
            unfold addJail; simp only [hm, hj]; rw [if_neg hb]
          have e2 : (s.view m).add w m b = View.new w b { (s.view m).del w m with mark := none } := by
            unfold View.add; simp only [view, hm, hj]; rw [if_neg hb]
          rw [e1, e2]
          obtain ⟨v1, v2⟩ := view_newJail w { (s.delJail w m).2 with reloadState := (s.delJail w m).2.reloadState.erase m } m b n
          rw [v1, v2, view_mark_erase, view_mark_erase, view_delJail, view_delJail, if_pos rfl, if_pos rfl]
          refine ⟨?_, rfl⟩
          split
          · rename_i e; subst e; rw [e2]
          · rfl

theorem view_startJail (w : World) (s : Server) (m n : String) :
    (s.startJail w m).2.view n = (if n = m then ((s.view n).start w n).2 else s.view n) ∧ (s.startJail w m).1 = ((s.view m).start w m).1 := by
  unfold startJail View.start
  cases hj : s.jails.get? m with
  | none =>
    dsimp only
    constructor
    · by_cases e : n = m
      · subst e; simp [view, hj]
      · rw [if_neg e]
    · simp [view, hj]
  | some j =>
    dsimp only
    cases ha : j.alive with
    | true =>
      rw [if_pos rfl]
      constructor
      · split
        · rename_i e; subst e; simp [view, hj, ha, Dict.get?_insert_self]
        · rename_i e; simp [view, Dict.get?_insert_ne _ e, Dict.get?_erase, e]
      · simp [view, hj, ha]
    | false =>
      rw [if_neg Bool.false_ne_true]
      constructor
      · split
        · rename_i e; subst e; simp [view, hj, ha, Dict.get?_insert_self]
        · rename_i e; simp [view, Dict.get?_insert_ne _ e]
      · simp [view, hj, ha]

theorem view_setJail (w : World) (s : Server) (m : String) (x : Setting) (n : String) :
    (s.setJail w m x).2.view n = (if n = m then ((s.view n).set w n x).2 else s.view n) ∧ (s.setJail w m x).1 = ((s.view m).set w m x).1 := by
  unfold setJail View.set
  cases hj : s.jails.get? m with
  | none =>
    dsimp only
    constructor
    · by_cases e : n = m
      · subst e; simp [view, hj]
      · rw [if_neg e]
    · simp [view, hj]
  | some j =>
    dsimp only
    rw [contains_get?]
    cases hx : j.set w m (s.reloadState.get? m).isSome x with
    | none =>
      dsimp only
      constructor
      · by_cases e : n = m
        · subst e; simp [view, hj, hx]
        · rw [if_neg e]
      · simp [view, hj, hx]
    | some j' =>
      dsimp only
      constructor
      · by_cases e : n = m
        · subst e; simp [view, hj, hx, Dict.get?_insert_self]
        · rw [if_neg e]; simp [view, Dict.get?_insert_ne _ e]
      · simp [view, hj, hx]

/-- A command changes only the part of its name, and does it by what is there. -/
theorem view_exec (w : World) (s : Server) (c : SCmd) (n : String) :
    (s.exec w c).2.view n = (if c.target = some n then ((s.view n).exec w n c).2 else s.view n) ∧
      ∀ m, c.target = some m → (s.exec w c).1 = ((s.view m).exec w m c).1 := by
  cases c with
  | add m b =>
    obtain ⟨h1, h2⟩ := view_addJail w s m b n
    refine ⟨?_, fun m' h => by cases h; exact h2⟩
    show (s.addJail w m b).2.view n = _
    rw [h1]
    simp only [SCmd.target, Option.some.injEq, eq_comm (a := m), View.exec]
  | set m x =>
    obtain ⟨h1, h2⟩ := view_setJail w s m x n
    refine ⟨?_, fun m' h => by cases h; exact h2⟩
    show (s.setJail w m x).2.view n = _
    rw [h1]
    simp only [SCmd.target, Option.some.injEq, eq_comm (a := m), View.exec]
  | start m =>
    obtain ⟨h1, h2⟩ := view_startJail w s m n
    refine ⟨?_, fun m' h => by cases h; exact h2⟩
    show (s.startJail w m).2.view n = _
    rw [h1]
    simp only [SCmd.target, Option.some.injEq, eq_comm (a := m), View.exec]
  | configError => exact ⟨rfl, fun m h => by cases h⟩
  | invalid => exact ⟨rfl, fun m h => by cases h⟩

/-- Commands without an exception. -/
theorem view_run (w : World) (cs : List SCmd) (s s' : Server) (h : run w cs s = (false, s')) (n : String) :
    View.run w n (cs.filter (fun c => c.target = some n)) (s.view n) = (false, s'.view n) := by
  induction cs generalizing s with
  | nil => simp only [run, Prod.mk.injEq, true_and] at h; subst h; rfl
  | cons c cs ih =>
    unfold run at h
    dsimp only at h
    split at h
    · rename_i e
      rw [h] at e
      cases e
    · rename_i e
      have hi := ih _ h
      obtain ⟨v1, v2⟩ := view_exec w s c n
      by_cases ht : c.target = some n
      · rw [List.filter_cons_of_pos (by simpa using ht), View.run]
        rw [if_pos ht] at v1
        rw [← v2 n ht, if_neg e, ← v1]
        exact hi
      · rw [List.filter_cons_of_neg (by simpa using ht)]
        rw [if_neg ht] at v1
        rw [← v1]
        exact hi

/-- If the commands of each name succeed and no command is invalid, then all commands succeed. -/
theorem run_succeeds (w : World) (cs : List SCmd) (s : Server) (hi : SCmd.invalid ∉ cs)
    (h : ∀ n, (View.run w n (cs.filter (fun c => c.target = some n)) (s.view n)).1 = false) : (run w cs s).1 = false := by
  induction cs generalizing s with
  | nil => rfl
  | cons c cs ih =>
    unfold run
    dsimp only
    have he : (s.exec w c).1 = false := by
      cases ht : c.target with
      | none =>
        cases c with
        | configError => rfl
        | invalid => exact absurd List.mem_cons_self hi
        | add => cases ht
        | set => cases ht
        | start => cases ht
      | some m =>
        have := h m
        rw [List.filter_cons_of_pos (by simpa using ht), View.run] at this
        rw [(view_exec w s c m).2 m ht]
        cases hx : ((s.view m).exec w m c).1 with
        | false => rfl
        | true => rw [hx, if_pos rfl] at this; rw [hx] at this; cases this
    rw [he, if_neg Bool.false_ne_true]
    refine ih _ (fun hm => hi (List.mem_cons_of_mem _ hm)) (fun n => ?_)
    have hn := h n
    obtain ⟨v1, v2⟩ := view_exec w s c n
    by_cases ht : c.target = some n
    · rw [List.filter_cons_of_pos (by simpa using ht), View.run, ← v2 n ht, he, if_neg Bool.false_ne_true] at hn
      rw [v1, if_pos ht]
      exact hn
    · rw [List.filter_cons_of_neg (by simpa using ht)] at hn
      rw [v1, if_neg ht]
      exact hn

/-! ## Begin and end -/

theorem view_markLoop (name : Option String) (l : List (String × SJail)) (hn : (l.map Prod.fst).Nodup) (s : Server) (n : String) :
    (markLoop name l s).view n =
      match Dict.lookup n l with
      | some j => if name = none ∨ name = some n then { s.view n with jail := some j.reloadBegin, mark := some true } else s.view n
      | none => s.view n := by
  induction l generalizing s with
  | nil => rfl
  | cons p l ih =>
    obtain ⟨m, j⟩ := p
    simp only [List.map_cons, List.nodup_cons] at hn
    by_cases e : n = m
    · subst e
      have hno : Dict.lookup n l = none := (Dict.lookup_eq_none_iff n l).2 hn.1
      have hlk : Dict.lookup n ((n, j) :: l) = some j := by simp [Dict.lookup]
      rw [hlk]
      unfold markLoop
      by_cases hm : name = none ∨ name = some n
      · rw [if_pos hm, ih hn.2, hno]
        dsimp only
        rw [if_pos hm]
        simp [view, Dict.get?_insert_self]
      · rw [if_neg hm, ih hn.2, hno]
        dsimp only
        rw [if_neg hm]
    · have hlk : Dict.lookup n ((m, j) :: l) = Dict.lookup n l := by simp [Dict.lookup, Ne.symm e]
      rw [hlk]
      unfold markLoop
      split
      · rw [ih hn.2]
        have : ({ s with jails := s.jails.insert m j.reloadBegin, reloadState := s.reloadState.insert m true } : Server).view n = s.view n := by
          simp [view, Dict.get?_insert_ne _ e]
        rw [this]
      · exact ih hn.2 s

theorem view_delJails (w : World) (ns : List String) (hn : ns.Nodup) (s : Server) (n : String) :
    (delJails w ns s).view n = if n ∈ ns then (s.view n).del w n else s.view n := by
  induction ns generalizing s with
  | nil => rfl
  | cons m ns ih =>
    simp only [List.nodup_cons] at hn
    show (delJails w ns (s.delJail w m).2).view n = _
    rw [ih hn.2, view_delJail]
    by_cases e : n = m
    · subst e
      rw [if_neg hn.1, if_pos rfl, if_pos List.mem_cons_self]
    · rw [if_neg e]
      simp [e]

/-- The part of a name at the end of a reload. -/
def _root_.Verif.View.finish (w : World) (n : String) (v : View) : View :=
  match v.jail with
  | none => v
  | some j => if v.mark.isSome then v.del w n else { v with jail := some (j.reloadEnd w n).2 }

theorem commitLoop_spec (w : World) (l : List (String × SJail)) (hn : (l.map Prod.fst).Nodup) (del : List String) (s s' : Server) (del' : List String)
    (h : commitLoop w l del s = (false, del', s')) :
    del' = del ++ (l.map Prod.fst).filter (fun n => s.reloadState.contains n) ∧ s'.reloadState = s.reloadState ∧
      ∀ n, s'.view n = match Dict.lookup n l with
        | some j => if s.reloadState.contains n then s.view n else { s.view n with jail := some (j.reloadEnd w n).2 }
        | none => s.view n := by
  induction l generalizing s del with
  | nil =>
    simp only [commitLoop, Prod.mk.injEq, true_and] at h
    obtain ⟨rfl, rfl⟩ := h
    exact ⟨by simp, rfl, fun _ => rfl⟩
  | cons p l ih =>
    obtain ⟨m, j⟩ := p
    simp only [List.map_cons, List.nodup_cons] at hn
    unfold commitLoop at h
    split at h
    · rename_i hc
      obtain ⟨h1, h2, h3⟩ := ih hn.2 _ s h
      refine ⟨?_, h2, ?_⟩
      · rw [h1, List.map_cons, List.filter_cons_of_pos (by exact hc), List.append_assoc]; rfl
      · intro n
        rw [h3 n]
        by_cases e : n = m
        · subst e
          have hno : Dict.lookup n l = none := (Dict.lookup_eq_none_iff n l).2 hn.1
          rw [hno]
          simp [Dict.lookup, hc]
        · have hlk : Dict.lookup n ((m, j) :: l) = Dict.lookup n l := by simp [Dict.lookup, Ne.symm e]
          rw [hlk]
    · rename_i hc
      dsimp only at h
      split at h
      · cases h
      · obtain ⟨h1, h2, h3⟩ := ih hn.2 _ _ h
        refine ⟨?_, h2, ?_⟩
        · rw [h1, List.map_cons, List.filter_cons_of_neg (by exact hc)]
        · intro n
          rw [h3 n]
          by_cases e : n = m
          · subst e
            have hno : Dict.lookup n l = none := (Dict.lookup_eq_none_iff n l).2 hn.1
            have hlk : Dict.lookup n ((n, j) :: l) = some j := by simp [Dict.lookup]
            rw [hno, hlk]
            dsimp only
            rw [if_neg hc]
            simp [view, Dict.get?_insert_self]
          · have hlk : Dict.lookup n ((m, j) :: l) = Dict.lookup n l := by simp [Dict.lookup, Ne.symm e]
            have hv : ({ s with jails := s.jails.insert m (j.reloadEnd w m).2 } : Server).view n = s.view n := by
              simp [view, Dict.get?_insert_ne _ e]
            rw [hlk, hv]

theorem commitLoop_ok (w : World) (l : List (String × SJail)) (hn : (l.map Prod.fst).Nodup) (del : List String) (s : Server)
    (h : ∀ p ∈ l, s.reloadState.contains p.1 = false → (p.2.reloadEnd w p.1).1 = false) : (commitLoop w l del s).1 = false := by
  induction l generalizing s del with
  | nil => rfl
  | cons p l ih =>
    obtain ⟨m, j⟩ := p
    simp only [List.map_cons, List.nodup_cons] at hn
    unfold commitLoop
    split
    · exact ih hn.2 _ _ (fun p hp => h p (List.mem_cons_of_mem _ hp))
    · rename_i hc
      dsimp only
      rw [h (m, j) List.mem_cons_self (by simpa using hc), if_neg Bool.false_ne_true]
      exact ih hn.2 _ _ (fun p hp => h p (List.mem_cons_of_mem _ hp))

theorem view_reloadEnd (w : World) (s s' : Server) (h : s.reloadEnd w = (false, s')) :
    s'.reloadState = Dict.empty ∧ ∀ n, s'.view n = { (s.view n).finish w n with mark := none } := by
  unfold reloadEnd at h
  dsimp only at h
  cases hx : commitLoop w s.jails.items [] s with
  | mk b y =>
    obtain ⟨del, s1⟩ := y
    rw [hx] at h
    dsimp only at h
    cases b with
    | true => rw [if_pos rfl] at h; cases h
    | false =>
      rw [if_neg Bool.false_ne_true] at h
      simp only [Prod.mk.injEq, true_and] at h
      obtain ⟨h1, h2, h3⟩ := commitLoop_spec w s.jails.items s.jails.keys_nodup [] s s1 del hx
      rw [List.nil_append] at h1
      subst h
      refine ⟨rfl, ?_⟩
      intro n
      have hnd : del.Nodup := by rw [h1]; exact s.jails.keys_nodup.filter _
      have hv : ({ delJails w del s1 with reloadState := Dict.empty } : Server).view n = { (delJails w del s1).view n with mark := none } := rfl
      rw [hv, view_delJails w del hnd, h3 n]
      have hmem : n ∈ del ↔ (∃ j, s.jails.get? n = some j) ∧ (s.reloadState.get? n).isSome = true := by
        rw [h1, List.mem_filter]
        have : (s.jails.items.map Prod.fst) = s.jails.keys := rfl
        rw [this, Dict.mem_keys_iff]
        rfl
      have hlook : Dict.lookup n s.jails.items = s.jails.get? n := rfl
      rw [hlook]
      unfold View.finish
      have hvj : (s.view n).jail = s.jails.get? n := rfl
      have hvm : (s.view n).mark = s.reloadState.get? n := rfl
      rw [hvj, hvm]
      cases hj : s.jails.get? n with
      | none =>
        have : n ∉ del := fun hm => by
          obtain ⟨⟨j, hj'⟩, _⟩ := hmem.1 hm
          rw [hj] at hj'; cases hj'
        rw [if_neg this]
      | some j =>
        dsimp only
        rw [contains_get?]
        cases hmk : (s.reloadState.get? n).isSome with
        | true =>
          rw [if_pos (hmem.2 ⟨⟨j, hj⟩, hmk⟩), if_pos rfl, if_pos rfl]
        | false =>
          have : n ∉ del := fun hm => by
            have := (hmem.1 hm).2
            rw [hmk] at this; cases this
          rw [if_neg this, if_neg Bool.false_ne_true, if_neg Bool.false_ne_true]

end Server

end Verif
