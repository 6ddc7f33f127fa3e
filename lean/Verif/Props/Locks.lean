import Verif.Model.Locks

set_option linter.unusedSimpArgs false

/-!
# C104 — The threads of the server never wait for each other for ever

For any number of threads, any runs of them, and any schedule.
-/

namespace Verif.Locks

/-! ## Order of the locks -/

/-- Order in which the kinds of locks are taken; the end of a thread of a jail has rank 1. -/
def Kind.rank : Kind → Nat
  | .server => 0 | .jails => 2 | .dates => 3 | .cmd => 4 | .logging => 5 | .queue => 6 | .fail => 7
  | .ban => 8 | .obs => 9 | .db => 10 | .cache => 11 | .log => 12

theorem rank_inj (a b : Kind) (h : a.rank = b.rank) : a = b := by
  cases a <;> cases b <;> first | rfl | (exact absurd h (by decide))

theorem rank_ne_one (a : Kind) : a.rank ≠ 1 := by cases a <;> decide

theorem reentrant_single (a : Kind) (h : a.reentrant = true) : a.single = true := by
  cases a <;> first | rfl | (exact absurd h (by decide))

open Fn in
/-- Lower bound of the ranks of all a function may wait for -/
def low : Fn → Nat
  | nothing => 13
  | log | failIn | cmdIn | setLogTargetIn | filterReload | jailInit => 12
  | cacheOp | dns | templatesIn => 11
  | dbCall | dbIn | filterStop | banFound => 10
  | obsAdd | obsStop | obsStopIn | obsStart | timer => 9
  | banOp | jailStatus => 8
  | failOp => 7
  | queueOp | performBan | addAttempt | failureFound => 6
  | setLogTarget | setSyslogSocket | getLogOption => 5
  | executeCmd | actionCall | checkBan | unBan | flushBan | checkUnBan | removeBannedIP | stopActions
  | actionsReload | actionsRun | ignoreIP | restoreBans | jailStart | prolongBan | observerRun => 4
  | templates | processLine | getFailures | filterRun | filterSet => 3
  | jailsGet | jailsAdd | startJailIn | setUnbanIP | statusIn | setDatabase => 2
  | jailStop | delJail | addJail | stopJailIn | stopAllJailIn => 1
  | _ => 0

/-- What a function may do is in order -/
def Item.ok (f : Fn) : Item → Bool
  | .call g => low f ≤ low g
  | .sec k g => low f ≤ k.rank && (k.rank < low g || (k.rank == low g && k.reentrant))
  | .join => low f ≤ 1

theorem items_ok (f : Fn) : (items f).all (Item.ok f) = true := by cases f <;> decide

theorem item_ok {f : Fn} {i : Item} (h : i ∈ items f) : i.ok f = true := List.all_eq_true.1 (items_ok f) i h

/-! ## Runs in order -/

/-- A thread holding these locks may wait for the lock -/
def OkAcq (held : List Lock) (l : Lock) : Prop := ∀ h ∈ held, h.kind.rank < l.kind.rank ∨ (h = l ∧ l.kind.reentrant = true)

/-- The steps are in order for a thread that holds these locks, and at the end it holds none -/
def Fits : List Lock → List Op → Prop
  | held, [] => held = []
  | held, .work :: r => Fits held r
  | held, .acq l :: r => OkAcq held l ∧ Fits (l :: held) r
  | held, .rel l :: r => ∃ tl, held = l :: tl ∧ Fits tl r
  | held, .join _ :: r => (∀ h ∈ held, h.kind.rank < 1) ∧ Fits held r

/-- A thread that holds the lock may run the function -/
def Below (h : Lock) (f : Fn) : Prop := (h.kind.single = true → h.idx = 0) ∧ (h.kind.rank < low f ∨ (h.kind.rank = low f ∧ h.kind.reentrant = true))

theorem ops_append (p q : Prog) : (p.append q).ops = p.ops ++ q.ops := by
  induction p with
  | done => rfl
  | work r ih => simp [Prog.append, Prog.ops, ih]
  | sec l b r _ ih => simp [Prog.append, Prog.ops, ih]
  | join n r ih => simp [Prog.append, Prog.ops, ih]

theorem below_mono {h : Lock} {f g : Fn} (hb : Below h f) (hl : low f ≤ low g) : Below h g := by
  refine ⟨hb.1, ?_⟩
  rcases hb.2 with hb | ⟨hb, hr⟩
  · exact .inl (by omega)
  · rcases Nat.lt_or_ge (low f) (low g) with hg | hg
    · exact .inl (by omega)
    · exact .inr ⟨by omega, hr⟩

theorem gen_fits {f : Fn} {p : Prog} (hg : Gen f p) : ∀ (held : List Lock) (r : List Op), (∀ h ∈ held, Below h f) → Fits held r →
    Fits held (p.ops ++ r) := by
  induction hg with
  | done => intro held r _ hr; exact hr
  | work _ ih => intro held r hb hr; exact ih held r hb hr
  | call hi _ _ ih1 ih2 =>
    intro held r hb hr
    rw [ops_append, List.append_assoc]
    have := item_ok hi
    simp only [Item.ok, decide_eq_true_eq] at this
    exact ih1 held _ (fun h hh => below_mono (hb h hh) this) (ih2 held r hb hr)
  | @sec f' n g b p' k hi hn _ _ ih1 ih2 =>
    intro held r hb hr
    have hok := item_ok hi
    simp only [Item.ok, Bool.and_eq_true, Bool.or_eq_true, decide_eq_true_eq, beq_iff_eq] at hok
    obtain ⟨h1, h2⟩ := hok
    have hacq : ∀ h ∈ held, h.kind.rank < k.rank ∨ (h = ⟨k, n⟩ ∧ k.reentrant = true) := by
      intro h hh
      obtain ⟨hs, hb'⟩ := hb h hh
      rcases hb' with hb' | ⟨hb', hr'⟩
      · exact .inl (by omega)
      · rcases Nat.lt_or_ge h.kind.rank k.rank with hlt | hge
        · exact .inl hlt
        · have hk : h.kind = k := rank_inj _ _ (by omega)
          subst hk
          have h0 := reentrant_single _ hr'
          refine .inr ⟨?_, hr'⟩
          cases h with
          | mk kk ii =>
            dsimp only at *
            rw [hs h0, hn h0]
    show Fits held ((.acq ⟨k, n⟩ :: (b.ops ++ .rel ⟨k, n⟩ :: p'.ops)) ++ r)
    rw [List.cons_append]
    refine ⟨hacq, ?_⟩
    rw [List.append_assoc]
    refine ih1 _ _ ?_ ⟨held, rfl, ih2 held r hb hr⟩
    have hself : Below ⟨k, n⟩ g := ⟨hn, h2⟩
    intro h hh
    rcases List.mem_cons.1 hh with rfl | hh
    · exact hself
    · rcases hacq h hh with hlt | ⟨rfl, -⟩
      · exact ⟨(hb h hh).1, .inl (by omega)⟩
      · exact hself
  | join hi _ ih =>
    intro held r hb hr
    have hok := item_ok hi
    simp only [Item.ok, decide_eq_true_eq] at hok
    refine ⟨fun h hh => ?_, ih held r hb hr⟩
    have := rank_ne_one h.kind
    rcases (hb h hh).2 with hb' | ⟨hb', -⟩ <;> omega

/-- The steps of a thread of a jail: it waits for no thread, and for no lock before the end of such a thread -/
def JailOk (r : List Op) : Prop := ∀ o ∈ r, (∀ l, o = .acq l → 1 < l.kind.rank) ∧ ∀ n, o ≠ .join n

theorem gen_jail {f : Fn} {p : Prog} (hg : Gen f p) (hf : 1 < low f) : JailOk p.ops := by
  induction hg with
  | done => intro o ho; exact absurd ho (by simp [Prog.ops])
  | work _ ih =>
    intro o ho
    rcases List.mem_cons.1 ho with rfl | ho
    · exact ⟨by simp, by simp⟩
    · exact ih hf o ho
  | call hi _ _ ih1 ih2 =>
    intro o ho
    have := item_ok hi
    simp only [Item.ok, decide_eq_true_eq] at this
    rw [ops_append] at ho
    rcases List.mem_append.1 ho with ho | ho
    · exact ih1 (by omega) o ho
    · exact ih2 hf o ho
  | sec hi _ _ _ ih1 ih2 =>
    intro o ho
    have hok := item_ok hi
    simp only [Item.ok, Bool.and_eq_true, Bool.or_eq_true, decide_eq_true_eq, beq_iff_eq] at hok
    simp only [Prog.ops, List.mem_cons, List.mem_append] at ho
    rcases ho with rfl | ho | rfl | ho
    · refine ⟨fun l hl => ?_, by simp⟩
      injection hl with hl
      subst hl
      exact Nat.lt_of_lt_of_le hf hok.1
    · exact ih1 (by omega) o ho
    · exact ⟨by simp, by simp⟩
    · exact ih2 hf o ho
  | join hi _ _ =>
    have hok := item_ok hi
    simp only [Item.ok, decide_eq_true_eq] at hok
    omega

/-! ## What always holds -/

/-- No lock is held by both threads -/
def Apart (t u : Th) : Prop := ∀ l ∈ t.held, l ∉ u.held

def ThOk (t : Th) : Prop := Fits t.held t.todo ∧ (t.name ≠ none → JailOk t.todo)

structure Inv (c : List Th) : Prop where
  apart : c.Pairwise Apart
  ok : ∀ t ∈ c, ThOk t

theorem apart_symm {t u : Th} (h : Apart t u) : Apart u t := fun l hl hl' => h l hl' hl

theorem pairwise_mid (a b : List Th) (t : Th) :
    (a ++ t :: b).Pairwise Apart ↔ (a ++ b).Pairwise Apart ∧ ∀ u ∈ a ++ b, Apart t u := by
  rw [List.pairwise_append, List.pairwise_append, List.pairwise_cons]
  constructor
  · rintro ⟨ha, ⟨ht, hb⟩, hab⟩
    refine ⟨⟨ha, hb, fun x hx y hy => hab x hx y (List.mem_cons_of_mem _ hy)⟩, fun u hu => ?_⟩
    rcases List.mem_append.1 hu with hu | hu
    · exact apart_symm (hab u hu t (List.mem_cons_self ..))
    · exact ht u hu
  · rintro ⟨⟨ha, hb, hab⟩, ht⟩
    refine ⟨ha, ⟨fun u hu => ht u (List.mem_append_right _ hu), hb⟩, fun x hx y hy => ?_⟩
    rcases List.mem_cons.1 hy with rfl | hy
    · exact apart_symm (ht x (List.mem_append_left _ hx))
    · exact hab x hx y hy

theorem fits_done {held : List Lock} (h : Fits held []) : held = [] := h

theorem jail_tail {o : Op} {r : List Op} (h : JailOk (o :: r)) : JailOk r := fun x hx => h x (List.mem_cons_of_mem _ hx)

theorem next_ok {o : List Th} {t t' : Th} (hn : next o t = some t') (h : ThOk t) : ThOk t' := by
  obtain ⟨name, todo, held⟩ := t
  obtain ⟨h1, h2⟩ := h
  unfold next at hn
  cases todo with
  | nil => exact absurd hn (by simp)
  | cons op r =>
    have h2' : name ≠ none → JailOk r := fun hh => jail_tail (h2 hh)
    cases op with
    | work =>
      simp only [Option.some.injEq] at hn
      subst hn
      exact ⟨h1, h2'⟩
    | acq l =>
      simp only at hn
      split at hn
      · simp only [Option.some.injEq] at hn
        subst hn
        exact ⟨h1.2, h2'⟩
      · exact absurd hn (by simp)
    | rel l =>
      simp only [Option.some.injEq] at hn
      subst hn
      obtain ⟨tl, htl, hf⟩ := h1
      dsimp only at htl
      subst htl
      refine ⟨?_, h2'⟩
      show Fits ((l :: tl).erase l) r
      rw [List.erase_cons_head]
      exact hf
    | join n =>
      simp only at hn
      split at hn
      · simp only [Option.some.injEq] at hn
        subst hn
        exact ⟨h1.2, h2'⟩
      · exact absurd hn (by simp)

theorem next_apart {o : List Th} {t t' : Th} (hn : next o t = some t') (h : ∀ u ∈ o, Apart t u) : ∀ u ∈ o, Apart t' u := by
  obtain ⟨name, todo, held⟩ := t
  unfold next at hn
  cases todo with
  | nil => exact absurd hn (by simp)
  | cons op r =>
    cases op with
    | work =>
      simp only [Option.some.injEq] at hn
      subst hn
      exact h
    | acq l =>
      simp only at hn
      split at hn
      · rename_i hc
        simp only [Option.some.injEq] at hn
        subst hn
        simp only [Bool.and_eq_true, List.all_eq_true, Bool.not_eq_true', List.contains_eq_mem, decide_eq_false_iff_not] at hc
        intro u hu x hx
        rcases List.mem_cons.1 hx with rfl | hx
        · exact hc.1 u hu
        · exact h u hu x hx
      · exact absurd hn (by simp)
    | rel l =>
      simp only [Option.some.injEq] at hn
      subst hn
      intro u hu x hx
      exact h u hu x (List.mem_of_mem_erase hx)
    | join n =>
      simp only at hn
      split at hn
      · simp only [Option.some.injEq] at hn
        subst hn
        exact h
      · exact absurd hn (by simp)

theorem mem_mid {a b : List Th} {t u : Th} : u ∈ a ++ t :: b ↔ u = t ∨ u ∈ a ++ b := by
  simp only [List.mem_append, List.mem_cons]
  constructor
  · rintro (h | h | h)
    · exact .inr (.inl h)
    · exact .inl h
    · exact .inr (.inr h)
  · rintro (h | h | h)
    · exact .inr (.inl h)
    · exact .inl h
    · exact .inr (.inr h)

theorem inv_step {c d : List Th} (hs : Step c d) (h : Inv c) : Inv d := by
  cases hs with
  | @run a b t t' hn =>
    obtain ⟨h1, h2⟩ := h
    rw [pairwise_mid] at h1
    refine ⟨(pairwise_mid ..).2 ⟨h1.1, next_apart hn h1.2⟩, fun u hu => ?_⟩
    rcases mem_mid.1 hu with rfl | hu
    · exact next_ok hn (h2 t (mem_mid.2 (.inl rfl)))
    · exact h2 u (mem_mid.2 (.inr hu))
  | @spawn name f p _ hr hg =>
    obtain ⟨h1, h2⟩ := h
    refine ⟨?_, fun u hu => ?_⟩
    · rw [List.pairwise_append]
      refine ⟨h1, List.pairwise_singleton .., fun x _ y hy l _ hl' => ?_⟩
      rw [List.mem_singleton.1 hy] at hl'
      exact absurd hl' (by simp)
    · rcases List.mem_append.1 hu with hu | hu
      · exact h2 u hu
      · rw [List.mem_singleton.1 hu]
        refine ⟨?_, fun hn => ?_⟩
        · have := gen_fits hg [] [] (by simp) rfl
          simpa using this
        · refine gen_jail hg ?_
          cases name with
          | none => exact absurd rfl hn
          | some n =>
            simp only [runs, Bool.or_eq_true, beq_iff_eq] at hr
            rcases hr with rfl | rfl <;> decide
  | @signal p a t b hn hh hg =>
    obtain ⟨h1, h2⟩ := h
    rw [pairwise_mid] at h1
    refine ⟨(pairwise_mid ..).2 h1, fun u hu => ?_⟩
    rcases mem_mid.1 hu with rfl | hu
    · obtain ⟨h3, -⟩ := h2 t (mem_mid.2 (.inl rfl))
      refine ⟨gen_fits hg _ _ (fun l hl => ?_) h3, fun hne => absurd hn hne⟩
      rw [hh l hl]
      exact ⟨fun _ => rfl, .inr ⟨rfl, rfl⟩⟩
    · exact h2 u (mem_mid.2 (.inr hu))

theorem inv_steps {c d : List Th} (hs : Steps c d) (h : Inv c) : Inv d := by
  induction hs with
  | refl => exact h
  | tail _ hs ih => exact inv_step hs ih

theorem inv_nil : Inv [] := ⟨List.Pairwise.nil, by simp⟩

/-! ## Waiting -/

/-- Rank of what a thread waits for -/
def Th.wait (t : Th) : Nat :=
  match t.todo with
  | .acq l :: _ => l.kind.rank
  | _ => 1

theorem exists_max (P : Th → Prop) (c : List Th) (h : ∃ t ∈ c, P t) : ∃ t ∈ c, P t ∧ ∀ u ∈ c, P u → u.wait ≤ t.wait := by
  induction c with
  | nil => obtain ⟨t, ht, -⟩ := h; exact absurd ht (by simp)
  | cons x c ih =>
    by_cases hc : ∃ t ∈ c, P t
    · obtain ⟨m, hm, hp, hmax⟩ := ih hc
      by_cases hx : P x ∧ m.wait < x.wait
      · refine ⟨x, List.mem_cons_self .., hx.1, fun u hu hpu => ?_⟩
        rcases List.mem_cons.1 hu with rfl | hu
        · exact Nat.le_refl _
        · have := hmax u hu hpu; omega
      · refine ⟨m, List.mem_cons_of_mem _ hm, hp, fun u hu hpu => ?_⟩
        rcases List.mem_cons.1 hu with rfl | hu
        · rcases Nat.lt_or_ge m.wait u.wait with hlt | hge
          · exact absurd ⟨hpu, hlt⟩ hx
          · exact hge
        · exact hmax u hu hpu
    · obtain ⟨t, ht, hpt⟩ := h
      rcases List.mem_cons.1 ht with rfl | ht
      · refine ⟨t, List.mem_cons_self .., hpt, fun u hu hpu => ?_⟩
        rcases List.mem_cons.1 hu with rfl | hu
        · exact Nat.le_refl _
        · exact absurd ⟨u, hu, hpu⟩ hc
      · exact absurd ⟨t, ht, hpt⟩ hc

/-- A thread that cannot make its step waits for a lock (held by another one, or its own and not to be taken twice), or for a thread -/
theorem next_none {o : List Th} {t : Th} (hn : next o t = none) (ht : t.todo ≠ []) :
    (∃ l r, t.todo = .acq l :: r ∧ ((∃ u ∈ o, l ∈ u.held) ∨ (l ∈ t.held ∧ l.kind.reentrant = false))) ∨
    (∃ n r, t.todo = .join n :: r ∧ ∃ u ∈ o, u.name = some n ∧ u.todo ≠ []) := by
  obtain ⟨name, todo, held⟩ := t
  unfold next at hn
  cases todo with
  | nil => exact absurd rfl ht
  | cons op r =>
    cases op with
    | work => exact absurd hn (by simp)
    | rel l => exact absurd hn (by simp)
    | acq l =>
      refine .inl ⟨l, r, rfl, ?_⟩
      by_cases h1 : ∃ u ∈ o, l ∈ u.held
      · exact .inl h1
      · refine .inr ?_
        by_cases h2 : l ∈ held ∧ l.kind.reentrant = false
        · exact h2
        · exfalso
          simp only at hn
          rw [if_pos] at hn
          · exact absurd hn (by simp)
          · simp only [Bool.and_eq_true, Bool.or_eq_true, List.all_eq_true, Bool.not_eq_true', List.contains_eq_mem, decide_eq_false_iff_not]
            refine ⟨fun u hu hl => h1 ⟨u, hu, hl⟩, ?_⟩
            by_cases h3 : l ∈ held
            · refine .inr ?_
              cases h4 : l.kind.reentrant with
              | true => rfl
              | false => exact absurd ⟨h3, h4⟩ h2
            · exact .inl h3
    | join n =>
      refine .inr ⟨n, r, rfl, ?_⟩
      by_cases h1 : ∃ u ∈ o, u.name = some n ∧ u.todo ≠ []
      · exact h1
      · exfalso
        simp only at hn
        rw [if_pos] at hn
        · exact absurd hn (by simp)
        · simp only [List.all_eq_true, Bool.or_eq_true, bne_iff_ne, List.isEmpty_iff]
          intro u hu
          by_cases h2 : u.name = some n
          · refine .inr ?_
            by_cases h3 : u.todo = []
            · exact h3
            · exact absurd ⟨u, hu, h2, h3⟩ h1
          · exact .inl h2

theorem progress {c : List Th} (hi : Inv c) (h : ∃ t ∈ c, t.todo ≠ []) :
    ∃ a t b t', c = a ++ t :: b ∧ next (a ++ b) t = some t' := by
  refine Classical.byContradiction fun hno => ?_
  have stuck : ∀ a t b, c = a ++ t :: b → next (a ++ b) t = none := by
    intro a t b hc
    cases hn : next (a ++ b) t with
    | none => rfl
    | some t' => exact absurd ⟨a, t, b, t', hc, hn⟩ hno
  obtain ⟨m, hm, hmt, hmax⟩ := exists_max (fun t => t.todo ≠ []) c h
  obtain ⟨a, b, hc⟩ := List.append_of_mem hm
  have hsub : ∀ u ∈ a ++ b, u ∈ c := fun u hu => hc ▸ mem_mid.2 (.inr hu)
  have okm := hi.ok m hm
  rcases next_none (stuck a m b hc) hmt with ⟨l, r, htd, hw⟩ | ⟨n, r, htd, u, hu, hun, hut⟩
  · have hwm : m.wait = l.kind.rank := by unfold Th.wait; rw [htd]
    rcases hw with ⟨u, hu, hlu⟩ | ⟨hl, hre⟩
    · -- the holder of the lock
      have huc := hsub u hu
      have oku := hi.ok u huc
      have hut : u.todo ≠ [] := by
        intro he
        have := oku.1
        rw [he] at this
        rw [fits_done this] at hlu
        exact absurd hlu (by simp)
      obtain ⟨a', b', hc'⟩ := List.append_of_mem huc
      have hsub' : ∀ w ∈ a' ++ b', w ∈ c := fun w hw => hc' ▸ mem_mid.2 (.inr hw)
      have hle := hmax u huc hut
      rcases next_none (stuck a' u b' hc') hut with ⟨l', r', htd', hw'⟩ | ⟨n', r', htd', -⟩
      · have hwu : u.wait = l'.kind.rank := by unfold Th.wait; rw [htd']
        have hf := oku.1
        rw [htd'] at hf
        rcases hf.1 l hlu with hlt | ⟨rfl, hre⟩
        · omega
        · -- taken again by its owner
          rcases hw' with ⟨w, hw', hlw⟩ | ⟨-, hre'⟩
          · have hp := hi.apart
            rw [hc', pairwise_mid] at hp
            exact hp.2 w hw' _ hlu hlw
          · rw [hre] at hre'; exact absurd hre' (by simp)
      · have hwu : u.wait = 1 := by unfold Th.wait; rw [htd']
        have hf := oku.1
        rw [htd'] at hf
        have := hf.1 l hlu
        omega
    · have hf := okm.1
      rw [htd] at hf
      rcases hf.1 l hl with hlt | ⟨-, hre'⟩
      · omega
      · rw [hre] at hre'; exact absurd hre' (by simp)
  · have hwm : m.wait = 1 := by unfold Th.wait; rw [htd]
    have huc := hsub u hu
    have oku := hi.ok u huc
    have hj := oku.2 (by rw [hun]; simp)
    obtain ⟨a', b', hc'⟩ := List.append_of_mem huc
    have hle := hmax u huc hut
    rcases next_none (stuck a' u b' hc') hut with ⟨l', r', htd', -⟩ | ⟨n', r', htd', -⟩
    · have hwu : u.wait = l'.kind.rank := by unfold Th.wait; rw [htd']
      have := (hj (.acq l') (by rw [htd']; exact List.mem_cons_self ..)).1 l' rfl
      omega
    · exact (hj (.join n') (by rw [htd']; exact List.mem_cons_self ..)).2 n' rfl

/-! ## Statements -/

/-- C104: whatever threads were started and whatever they did, if some thread has not finished, some thread can make its next step -/
theorem C104_progress {c : List Th} (hs : Steps [] c) (h : ∃ t ∈ c, t.todo ≠ []) :
    ∃ a t b t', c = a ++ t :: b ∧ next (a ++ b) t = some t' := progress (inv_steps hs inv_nil) h

/-- Threads run: no new threads, no signals -/
inductive Run : Nat → List Th → List Th → Prop
  | refl : Run 0 c c
  | tail : Run n c (a ++ t :: b) → next (a ++ b) t = some t' → Run (n + 1) c (a ++ t' :: b)

/-- The steps still to do -/
def left (c : List Th) : Nat := (c.map (·.todo.length)).sum

theorem next_left {o : List Th} {t t' : Th} (hn : next o t = some t') : t.todo.length = t'.todo.length + 1 := by
  obtain ⟨name, todo, held⟩ := t
  unfold next at hn
  cases todo with
  | nil => exact absurd hn (by simp)
  | cons op r =>
    cases op <;> simp only at hn
    case work => simp only [Option.some.injEq] at hn; subst hn; rfl
    case rel => simp only [Option.some.injEq] at hn; subst hn; rfl
    all_goals
      split at hn
      · simp only [Option.some.injEq] at hn; subst hn; rfl
      · exact absurd hn (by simp)

theorem run_steps {n : Nat} {c d e : List Th} (hs : Steps e c) (hr : Run n c d) : Steps e d := by
  induction hr with
  | refl => exact hs
  | tail _ hn ih => exact .tail (ih hs) (.run hn)

theorem run_left {n : Nat} {c d : List Th} (hr : Run n c d) : left c = left d + n := by
  induction hr with
  | refl => rfl
  | tail _ hn ih =>
    have := next_left hn
    simp only [left, List.map_append, List.map_cons, List.sum_append, List.sum_cons] at ih ⊢
    omega

/-- C104: under any schedule all threads come to their end: a schedule that is not to be continued has done all their steps, and none is longer -/
theorem C104_ends {c d : List Th} (n : Nat) (hs : Steps [] c) (hr : Run n c d) :
    n ≤ left c ∧ ((∀ a t b, d = a ++ t :: b → next (a ++ b) t = none) → n = left c ∧ ∀ t ∈ d, t.todo = [] ∧ t.held = []) := by
  have hl := run_left hr
  refine ⟨by omega, fun hno => ?_⟩
  have hd := run_steps hs hr
  have hall : ∀ t ∈ d, t.todo = [] := by
    intro t ht
    refine Classical.byContradiction fun hne => ?_
    obtain ⟨a, t, b, t', hc, hn⟩ := C104_progress hd ⟨t, ht, hne⟩
    rw [hno a t b hc] at hn
    exact absurd hn (by simp)
  have hz : left d = 0 := by
    unfold left
    rw [List.sum_eq_zero_iff_forall_eq_nat]
    intro x hx
    obtain ⟨t, ht, rfl⟩ := List.mem_map.1 hx
    rw [hall t ht]; rfl
  refine ⟨by omega, fun t ht => ⟨hall t ht, ?_⟩⟩
  have := ((inv_steps hd inv_nil).ok t ht).1
  rw [hall t ht] at this
  exact this

/-- C104: a lock is never held by two threads -/
theorem C104_exclusive {a b : List Th} {t u : Th} {x : List Th} (hs : Steps [] (a ++ t :: b ++ u :: x)) (l : Lock) (hl : l ∈ t.held) : l ∉ u.held := by
  have := (inv_steps hs inv_nil).apart
  rw [List.append_assoc] at this
  have := (List.pairwise_append.1 this).2.1
  rw [List.cons_append, List.pairwise_cons] at this
  exact this.1 u (by simp) l hl

/-! ## Which locks are taken -/

/-- Some run of the function takes a lock of the kind -/
def Takes (f : Fn) (k : Kind) : Prop := ∃ p n, Gen f p ∧ Op.acq ⟨k, n⟩ ∈ p.ops

/-- Bounded search for a section -/
def takesB : Nat → Fn → Kind → Bool
  | 0, _, _ => false
  | n + 1, f, k => (items f).any fun i =>
    match i with
    | .call g => takesB n g k
    | .sec k' g => k' == k || takesB n g k
    | .join => false

theorem append_done (p : Prog) : p.append .done = p := by
  induction p with
  | done => rfl
  | work r ih => simp [Prog.append, ih]
  | sec l b r _ ih => simp [Prog.append, ih]
  | join n r ih => simp [Prog.append, ih]

theorem takes_of (n : Nat) : ∀ (f : Fn) (k : Kind), takesB n f k = true → Takes f k := by
  induction n with
  | zero => intro f k h; exact absurd h (by simp [takesB])
  | succ n ih =>
    intro f k h
    simp only [takesB, List.any_eq_true] at h
    obtain ⟨i, hi, hk⟩ := h
    cases i with
    | call g =>
      obtain ⟨p, m, hg, hm⟩ := ih g k hk
      refine ⟨p, m, ?_, hm⟩
      have := Gen.call hi hg .done
      rwa [append_done] at this
    | sec k' g =>
      simp only [Bool.or_eq_true, beq_iff_eq] at hk
      rcases hk with rfl | hk
      · exact ⟨.sec ⟨k', 0⟩ .done .done, 0, .sec hi (fun _ => rfl) .done .done, List.mem_cons_self ..⟩
      · obtain ⟨p, m, hg, hm⟩ := ih g k hk
        exact ⟨.sec ⟨k', 0⟩ p .done, m, .sec hi (fun _ => rfl) hg .done, by simp [Prog.ops, hm]⟩
    | join => exact absurd hk (by simp)

open Fn in
/-- Upper bound of the kinds of locks taken by the functions run in other threads than the main thread -/
def may : Fn → Option (List Kind)
  | nothing => some []
  | log | failIn | cmdIn => some [.log]
  | cacheOp => some [.cache]
  | failOp => some [.fail, .log]
  | banOp => some [.ban]
  | queueOp => some [.queue]
  | obsAdd | obsStopIn | obsStart | timer => some [.obs]
  | obsStop => some [.obs, .log]
  | dbCall | dbIn | filterStop | banFound => some [.db, .cache, .log]
  | executeCmd => some [.cmd, .log]
  | templates => some [.dates, .cache, .log]
  | templatesIn | dns => some [.cache, .log]
  | actionCall | unBan | stopActions | prolongBan => some [.cmd, .db, .cache, .log]
  | flushBan | checkUnBan => some [.cmd, .ban, .db, .cache, .log]
  | checkBan | actionsRun => some [.cmd, .queue, .ban, .obs, .db, .cache, .log]
  | performBan => some [.queue, .fail, .log]
  | ignoreIP => some [.cmd, .cache, .log]
  | processLine | getFailures | filterRun => some [.dates, .cmd, .queue, .fail, .obs, .db, .cache, .log]
  | failureFound => some [.queue, .fail, .db, .cache, .log]
  | observerRun => some [.cmd, .queue, .fail, .obs, .db, .cache, .log]
  | _ => none

def leMay : Option (List Kind) → Option (List Kind) → Bool
  | _, none => true
  | some a, some b => a.all b.contains
  | none, some _ => false

def inMay (k : Kind) : Option (List Kind) → Bool
  | none => true
  | some a => a.contains k

def Item.within (m : Option (List Kind)) : Item → Bool
  | .call g => leMay (may g) m
  | .sec k g => inMay k m && leMay (may g) m
  | .join => m == none

theorem items_within (f : Fn) : (items f).all (Item.within (may f)) = true := by cases f <;> decide

theorem inMay_mono {k : Kind} {a b : Option (List Kind)} (h : leMay a b = true) (hk : inMay k a = true) : inMay k b = true := by
  cases b with
  | none => rfl
  | some b =>
    cases a with
    | none => exact absurd h (by simp [leMay])
    | some a =>
      simp only [leMay, List.all_eq_true, List.contains_eq_mem, decide_eq_true_eq, inMay] at *
      exact h k hk

theorem may_of {f : Fn} {p : Prog} (hg : Gen f p) (k : Kind) (n : Nat) (h : Op.acq ⟨k, n⟩ ∈ p.ops) : inMay k (may f) = true := by
  induction hg with
  | done => exact absurd h (by simp [Prog.ops])
  | work _ ih => exact ih (by simpa [Prog.ops] using h)
  | @call f g q p hi _ _ ih1 ih2 =>
    have := List.all_eq_true.1 (items_within f) _ hi
    rw [ops_append] at h
    rcases List.mem_append.1 h with h | h
    · exact inMay_mono this (ih1 h)
    · exact ih2 h
  | @sec f' m g b p' k' hi _ _ _ ih1 ih2 =>
    have := List.all_eq_true.1 (items_within f') _ hi
    simp only [Item.within, Bool.and_eq_true] at this
    simp only [Prog.ops, List.mem_cons, List.mem_append] at h
    rcases h with h | h | h | h
    · injection h with h; injection h with h1 h2; subst h1; exact this.1
    · exact inMay_mono this.2 (ih1 h)
    · exact absurd h (by simp)
    · exact ih2 h
  | join _ _ ih => exact ih (by simpa [Prog.ops] using h)

/-- C104: which locks the threads take. The threads of jails (and the observer) take neither the lock of the server nor that of the jails, so commands which
hold these can wait for the end of such threads; and the main thread takes all kinds of locks. -/
theorem C104_who (k : Kind) :
    (Takes .filterRun k ↔ k ∈ [Kind.dates, .cmd, .queue, .fail, .obs, .db, .cache, .log]) ∧
    (Takes .actionsRun k ↔ k ∈ [Kind.cmd, .queue, .ban, .obs, .db, .cache, .log]) ∧
    (Takes .observerRun k ↔ k ∈ [Kind.cmd, .queue, .fail, .obs, .db, .cache, .log]) ∧
    (Takes .timer k ↔ k = .obs) ∧ Takes .serverMain k := by
  have up : ∀ f, Takes f k → inMay k (may f) = true := fun f ⟨p, n, hg, hm⟩ => may_of hg k n hm
  refine ⟨⟨fun h => ?_, fun h => ?_⟩, ⟨fun h => ?_, fun h => ?_⟩, ⟨fun h => ?_, fun h => ?_⟩, ⟨fun h => ?_, fun h => ?_⟩, ?_⟩
  · have := up _ h
    simpa [inMay, may] using this
  · refine takes_of 6 _ _ ?_
    revert h
    cases k <;> decide +kernel
  · have := up _ h
    simpa [inMay, may] using this
  · refine takes_of 6 _ _ ?_
    revert h
    cases k <;> decide +kernel
  · have := up _ h
    simpa [inMay, may] using this
  · refine takes_of 6 _ _ ?_
    revert h
    cases k <;> decide +kernel
  · have := up _ h
    simpa [inMay, may] using this
  · exact takes_of 6 _ _ (by subst h; decide +kernel)
  · refine takes_of 6 _ _ ?_
    cases k <;> decide +kernel

/-! ## Signals -/

/-- `add` of a jail; the jail is made inside of the section -/
def addRun : Prog := .sec ⟨.jails, 0⟩ (.work .done) .done

/-- `quit` with one look at the jails -/
def quitRun : Prog := .sec ⟨.server, 0⟩ (.sec ⟨.jails, 0⟩ .done .done) .done

theorem gen_add : Gen .serverMain addRun := by
  have h1 : Gen .jailsAdd addRun := .sec (k := .jails) (g := .jailInit) (by decide) (fun _ => rfl) (.work .done) .done
  have h2 := Gen.call (f := .addJail) (g := .jailsAdd) (by decide) h1 .done
  have h3 := Gen.call (f := .command) (g := .addJail) (by decide) h2 .done
  have h4 := Gen.call (f := .serverMain) (g := .command) (by decide) h3 .done
  rwa [append_done, append_done, append_done] at h4

theorem gen_quit : Gen .quit quitRun := by
  have h0 : Gen .jailsGet (.sec ⟨.jails, 0⟩ .done .done) := .sec (g := .nothing) (by decide) (fun _ => rfl) .done .done
  have h1 : Gen .stopAllJailIn (.sec ⟨.jails, 0⟩ .done .done) := by
    have := Gen.call (f := .stopAllJailIn) (g := .jailsGet) (by decide) h0 .done
    rwa [append_done] at this
  have h2 : Gen .stopAllJail quitRun := .sec (g := .stopAllJailIn) (by decide) (fun _ => rfl) h1 .done
  have h3 := Gen.call (f := .quit) (g := .stopAllJail) (by decide) h2 .done
  rwa [append_done] at h3

/-- C104, what does not hold: that the server can be stopped by a signal at any time. The signal arrives in the main thread while a jail is added: the
handler wants the lock of the jails, which is held by the interrupted code of the same thread, and waits for ever. -/
theorem C104_refuted_signal : ∃ t p t', Steps [] [t] ∧ t.name = none ∧ Gen .quit p ∧
    next [] { t with todo := p.ops ++ t.todo } = some t' ∧ t'.todo ≠ [] ∧ next [] t' = none := by
  refine ⟨⟨none, [.work, .rel ⟨.jails, 0⟩], [⟨.jails, 0⟩]⟩, quitRun,
    ⟨none, [.acq ⟨.jails, 0⟩, .rel ⟨.jails, 0⟩, .rel ⟨.server, 0⟩, .work, .rel ⟨.jails, 0⟩], [⟨.server, 0⟩, ⟨.jails, 0⟩]⟩, ?_, rfl, gen_quit,
    by decide +kernel, by decide, by decide +kernel⟩
  have h1 : Steps [] [⟨none, addRun.ops, []⟩] := .tail .refl (.spawn (name := none) (f := .serverMain) rfl gen_add)
  exact .tail h1 (.run (a := []) (b := []) (t := ⟨none, addRun.ops, []⟩) (by decide +kernel))

/-! ## Examples -/

/-- `stop` of a jail by a client: the main thread has the lock of the server and waits for the filter, the filter waits for the database, which the
observer uses; the timer can do nothing but wait for the observer queue -/
def busy : List Th :=
  [⟨none, [.join 7, .rel ⟨.server, 0⟩], [⟨.server, 0⟩]⟩,
   ⟨some 7, [.acq ⟨.db, 0⟩, .rel ⟨.db, 0⟩], []⟩,
   ⟨none, [.acq ⟨.cache, 2⟩, .rel ⟨.cache, 2⟩, .rel ⟨.db, 0⟩], [⟨.db, 0⟩]⟩]

example : next [busy[1], busy[2]] busy[0] = none := by decide +kernel
example : next [busy[0], busy[2]] busy[1] = none := by decide +kernel
example : next [busy[0], busy[1]] busy[2] = some ⟨none, [.rel ⟨.cache, 2⟩, .rel ⟨.db, 0⟩], [⟨.cache, 2⟩, ⟨.db, 0⟩]⟩ := by decide +kernel
/-- Taken again by its owner -/
example : next [] ⟨none, [.acq ⟨.db, 0⟩], [⟨.db, 0⟩]⟩ = some ⟨none, [], [⟨.db, 0⟩, ⟨.db, 0⟩]⟩ := by decide +kernel
example : next [] ⟨none, [.acq ⟨.ban, 0⟩], [⟨.ban, 0⟩]⟩ = none := by decide +kernel
/-- Two threads that take two locks in different order would wait for ever; no functions of the server have such runs -/
example : next [⟨none, [.acq ⟨.ban, 0⟩], [⟨.fail, 0⟩]⟩] ⟨none, [.acq ⟨.fail, 0⟩], [⟨.ban, 0⟩]⟩ = none ∧
    next [⟨none, [.acq ⟨.fail, 0⟩], [⟨.ban, 0⟩]⟩] ⟨none, [.acq ⟨.ban, 0⟩], [⟨.fail, 0⟩]⟩ = none := by decide +kernel

end Verif.Locks
