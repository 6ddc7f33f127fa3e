import Verif.Spec.TicketData

/-!
# C122 — data of tickets
-/

namespace Verif.TicketData

open TicketDataSpec

private theorem last_nil (k v : Val) : ¬Last [] k v := by
  rintro ⟨a, b, h, _⟩
  simp at h

private theorem last_append (l : List (Val × Val)) (q : Val × Val) (k v : Val) :
    Last (l ++ [q]) k v ↔ q = (k, v) ∨ (q.1 ≠ k ∧ Last l k v) := by
  constructor
  · rintro ⟨a, b, h, hb⟩
    rcases List.eq_nil_or_concat b with rfl | ⟨b', q', rfl⟩
    · have := List.append_inj' h rfl
      simp at this; exact Or.inl this.2
    · rw [List.concat_eq_append] at *
      have h' : l ++ [q] = (a ++ (k, v) :: b') ++ [q'] := by simpa using h
      have := List.append_inj' h' rfl
      simp at this
      obtain ⟨h1, rfl⟩ := this
      exact Or.inr ⟨hb q (by simp), a, b', h1, fun p hp => hb p (by simp [hp])⟩
  · rintro (rfl | ⟨hq, a, b, rfl, hb⟩)
    · exact ⟨l, [], rfl, by simp⟩
    · refine ⟨a, b ++ [q], by simp, fun p hp => ?_⟩
      rcases List.mem_append.1 hp with h | h
      · exact hb p h
      · simp at h; subst h; exact hq

private theorem merge_append (d : Data) (l : List (Val × Val)) (q : Val × Val) :
    merge d (l ++ [q]) = (merge d l).insert q.1 q.2 := by simp [merge]

private theorem merge_merge (d : Data) (l l' : List (Val × Val)) : merge (merge d l) l' = merge d (l ++ l') := by
  simp [merge]

private theorem rev_ind {P : List (Val × Val) → Prop} (h0 : P []) (h1 : ∀ l q, P l → P (l ++ [q])) (l : List (Val × Val)) : P l := by
  generalize hn : l.length = n
  induction n generalizing l with
  | zero => rw [List.length_eq_zero_iff.1 hn]; exact h0
  | succ n ih =>
    rcases List.eq_nil_or_concat l with rfl | ⟨l', q, rfl⟩
    · simp at hn
    · rw [List.concat_eq_append] at *
      exact h1 _ _ (ih l' (by simpa using hn))

private theorem last_items (d : Data) (k v : Val) : Last d.items k v ↔ d.get? k = some v := by
  rw [Dict.get?_eq_some_iff]
  constructor
  · rintro ⟨a, b, h, _⟩; rw [h]; simp
  · intro h
    obtain ⟨a, b, hab⟩ := List.append_of_mem h
    refine ⟨a, b, hab, fun p hp e => ?_⟩
    have hn := d.nodup
    rw [hab, List.map_append, List.map_cons, List.nodup_append] at hn
    exact (List.nodup_cons.1 hn.2.1).1 (List.mem_map.2 ⟨p, hp, e⟩)

private theorem get_merge (d : Data) (l : List (Val × Val)) (k v : Val) :
    (merge d l).get? k = some v ↔ Last (d.items ++ l) k v := by
  induction l using rev_ind with
  | h0 => simp [merge, last_items]
  | h1 l q ih =>
    rw [merge_append, ← List.append_assoc, last_append, ← ih, Dict.get?_insert]
    split
    · rename_i h; subst h
      constructor
      · intro h; left; simp at h; subst h; rfl
      · rintro (h | ⟨h, _⟩)
        · rw [h]
        · exact absurd rfl h
    · rename_i h
      constructor
      · intro h'; exact Or.inr ⟨fun e => h e.symm, h'⟩
      · rintro (h' | ⟨_, h'⟩)
        · exact absurd (by rw [h']) h
        · exact h'

private theorem get_noNone (d : Data) (k v : Val) : (noNone d).get? k = some v ↔ d.get? k = some v ∧ v ≠ .none := by
  rw [Dict.get?_eq_some_iff, Dict.get?_eq_some_iff]
  simp [noNone, Dict.filter]

private theorem last_noNone (d : Data) (l : List (Val × Val)) (k v : Val) (hv : v ≠ .none) :
    Last ((noNone d).items ++ l) k v ↔ Last (d.items ++ l) k v := by
  induction l using rev_ind with
  | h0 => simp only [List.append_nil, last_items, get_noNone]; simp [hv]
  | h1 l q ih => rw [← List.append_assoc, ← List.append_assoc, last_append, last_append, ih]

private theorem put_self {α : Type} (f : Nat → α) (i : Nat) (a : α) : put f i a i = a := by simp [put]

private theorem put_ne {α : Type} (f : Nat → α) {i j : Nat} (a : α) (h : j ≠ i) : put f i a j = f j := by simp [put, h]

/-- Every ticket refers to a dictionary that exists. -/
def Sound (w : World) : Prop := ∀ i < w.nextTk, (w.tk i).data < w.nextDict

/-- After `setData`, a key has a value exactly if the last entry that was given for it (else the one the ticket had) is
not `None`. A dictionary replaces everything, anything else adds to what the ticket had. -/
theorem C122_set (w : World) (i : Nat) (args : Args) (argv : List (Val × Val)) (h : (setData w i args argv).2 = true)
    (k v : Val) :
    ((setData w i args argv).1.data i).get? k = some v ↔ Last (entries (w.data i) argv args) k v ∧ v ≠ .none := by
  cases args with
  | whole d =>
    simp only [setData, World.data, put_self, entries]
    rw [get_noNone, get_merge]
    constructor
    · rintro ⟨h, hv⟩; exact ⟨(last_noNone d argv k v hv).1 h, hv⟩
    · rintro ⟨h, hv⟩; exact ⟨(last_noNone d argv k v hv).2 h, hv⟩
  | flat l =>
    unfold setData at h ⊢
    dsimp only at h ⊢
    split at h
    · cases h
    · rename_i hl
      rw [if_neg hl]
      simp only [World.data, put_self, entries]
      rw [get_noNone, merge_merge, get_merge]

/-- `setData` fails exactly for a single argument that is no dictionary, and then changes nothing. -/
theorem C122_refused (w : World) (i : Nat) (args : Args) (argv : List (Val × Val)) :
    ((setData w i args argv).2 = false ↔ ∃ x, args = .flat [x]) ∧
    ((setData w i args argv).2 = false → (setData w i args argv).1 = w) := by
  cases args with
  | whole d => simp [setData]
  | flat l =>
    by_cases hl : l.length = 1
    · obtain ⟨x, rfl⟩ := List.length_eq_one_iff.1 hl
      simp [setData]
    · constructor
      · simp only [setData, if_neg hl]
        constructor
        · intro h; cases h
        · rintro ⟨x, h⟩; cases h; exact absurd rfl hl
      · simp [setData, if_neg hl]

/-- Lines of a ticket can be set and removed (an empty list stands for none), its counter can be set; other entries stay. Both for
the ticket and all that share its data. -/
theorem C122_inplace (w : World) (i j : Nat) (hs : (w.tk j).data = (w.tk i).data) (ms : List String) (v k : Val) :
    ((step w (.setMatches i ms)).data j).get? k =
      (if k = .text "matches" then if ms = [] then none else some (.lines ms) else (w.data i).get? k) ∧
    ((step w (.setAttempt i v)).data j).get? k = (if k = .text "failures" then some v else (w.data i).get? k) := by
  constructor
  · simp only [step, World.data, hs, put_self]
    unfold withMatches
    split
    · rw [Dict.get?_erase]
    · rw [Dict.get?_insert]
  · simp only [step, World.data, hs, put_self]
    rw [Dict.get?_insert]

/-- Pairs of an argument list: entry `n` is made of arguments `2n` and `2n+1`. -/
theorem C122_pairs (l : List Val) (n : Nat) (k v : Val) :
    (pairs l)[n]? = some (k, v) ↔ l[2 * n]? = some k ∧ l[2 * n + 1]? = some v := by
  induction n generalizing l with
  | zero =>
    match l with
    | [] => simp [pairs]
    | [x] => simp [pairs]
    | x :: y :: l => simp [pairs]
  | succ n ih =>
    match l with
    | [] => simp [pairs]
    | [x] => simp [pairs]
    | x :: y :: l =>
      simp only [pairs, List.getElem?_cons_succ, ih]
      rw [show 2 * (n + 1) = 2 * n + 1 + 1 from by omega]
      simp [List.getElem?_cons_succ]

/-- `getData`: everything, the entries asked for, or one value; the default counts if the key is absent. -/
theorem C122_get (d : Data) (default : Val) :
    getData d .all default = .dict d ∧
    (∀ k, getData d (.name k) default = .val ((d.get? k).getD default)) ∧
    (∀ ks, d.items ≠ [] → ∃ r, getData d (.keys ks) default = .dict r ∧
      ∀ k v, r.get? k = some v ↔ d.get? k = some v ∧ k ∈ ks) ∧
    (∀ p, d.items ≠ [] → ∃ r, getData d (.fn p) default = .dict r ∧
      ∀ k v, r.get? k = some v ↔ d.get? k = some v ∧ p k = true) ∧
    (d.items = [] → (∀ ks, getData d (.keys ks) default = .val default) ∧ ∀ p, getData d (.fn p) default = .val default) := by
  refine ⟨rfl, fun k => ?_, fun ks h => ?_, fun p h => ?_, fun h => ⟨fun ks => ?_, fun p => ?_⟩⟩
  · unfold getData ifAny
    dsimp only
    split
    · rename_i h
      have : d.get? k = none := by unfold Dict.get?; rw [h]; rfl
      rw [this]; rfl
    · rfl
  · refine ⟨d.filter (fun k _ => decide (k ∈ ks)), by simp [getData, ifAny, h], fun k v => ?_⟩
    rw [Dict.get?_eq_some_iff, Dict.get?_eq_some_iff]
    simp [Dict.filter]
  · refine ⟨d.filter (fun k _ => p k), by simp [getData, ifAny, h], fun k v => ?_⟩
    rw [Dict.get?_eq_some_iff, Dict.get?_eq_some_iff]
    simp [Dict.filter]
  · simp [getData, ifAny, h]
  · simp [getData, ifAny, h]

private theorem setData_nextTk (w : World) (i : Nat) (args : Args) (argv : List (Val × Val)) :
    (setData w i args argv).1.nextTk = w.nextTk := by
  unfold setData
  split
  · rfl
  · split <;> rfl

private theorem makeTk_data (w : World) (m : Make) :
    (makeTk w m).data = match m.src with | none => w.nextDict | some j => (w.tk j).data := by
  unfold makeTk
  cases m.src <;> dsimp only <;> split <;> simp [bare, takeOver]

private theorem step_sound (w : World) (op : Op) (hw : Sound w) (hk : Known w.nextTk op) : Sound (step w op) := by
  cases op with
  | make m =>
    intro i hi
    simp only [step] at hi ⊢
    by_cases h : i = w.nextTk
    · subst h
      rw [put_self, makeTk_data]
      cases hs : m.src with
      | none => dsimp only; omega
      | some j => dsimp only; exact Nat.lt_succ_of_lt (hw j (hk j hs))
    · rw [put_ne _ _ h]
      exact Nat.lt_succ_of_lt (hw i (by omega))
  | update a b =>
    intro i hi
    simp only [step] at hi ⊢
    by_cases h : i = a
    · subst h; rw [put_self]; exact hw b hk.2
    · rw [put_ne _ _ h]; exact hw i hi
  | setData a args argv =>
    intro i hi
    simp only [step, setData_nextTk] at hi ⊢
    unfold setData
    split
    · dsimp only
      by_cases h : i = a
      · subst h; rw [put_self]; exact Nat.lt_succ_self _
      · rw [put_ne _ _ h]; exact Nat.lt_succ_of_lt (hw i hi)
    · split
      · exact hw i hi
      · dsimp only
        by_cases h : i = a
        · subst h; rw [put_self]; exact Nat.lt_succ_self _
        · rw [put_ne _ _ h]; exact Nat.lt_succ_of_lt (hw i hi)
  | setAttempt a v => intro i hi; exact hw i hi
  | setMatches a ms => intro i hi; exact hw i hi

private theorem step_nextTk (w : World) (op : Op) :
    (step w op).nextTk = (match op with | .make _ => w.nextTk + 1 | _ => w.nextTk) := by
  cases op <;> simp [step, setData_nextTk]

private theorem valid_cons (w : World) (op : Op) (ops : List Op) (hv : Valid w.nextTk (op :: ops)) :
    Known w.nextTk op ∧ Valid (step w op).nextTk ops := by
  obtain ⟨h1, h2⟩ := hv
  refine ⟨h1, ?_⟩
  rw [step_nextTk]
  cases op <;> exact h2

/-- Histories keep the invariant. -/
theorem C122_sound (w : World) (hw : Sound w) (ops : List Op) (hv : Valid w.nextTk ops) : Sound (run w ops) := by
  induction ops generalizing w with
  | nil => exact hw
  | cons op ops ih =>
    obtain ⟨hk, hv'⟩ := valid_cons w op ops hv
    exact ih _ (step_sound w op hw hk) hv'

private theorem nextTk_mono (w : World) (op : Op) {i : Nat} (h : i < w.nextTk) : i < (step w op).nextTk := by
  rw [step_nextTk]; cases op <;> dsimp only <;> omega

/-- Nobody else refers to the data of ticket `i`. -/
def Own (w : World) (i : Nat) : Prop := ∀ j < w.nextTk, j ≠ i → (w.tk j).data ≠ (w.tk i).data

private theorem step_alone (w : World) (op : Op) (hw : Sound w) (hk : Known w.nextTk op) (i : Nat) (hi : i < w.nextTk)
    (ho : Own w i) (hj : ¬Joins i op) :
    Own (step w op) i ∧ (step w op).data i = if Of i op then alone (w.data i) op else w.data i := by
  have hri := hw i hi
  cases op with
  | make m =>
    have hne : i ≠ w.nextTk := by omega
    refine ⟨fun j hj' hji => ?_, ?_⟩
    · simp only [step] at hj' ⊢
      rw [put_ne _ _ hne]
      by_cases h : j = w.nextTk
      · subst h
        rw [put_self, makeTk_data]
        cases hs : m.src with
        | none => dsimp only; omega
        | some s =>
          dsimp only
          exact ho s (hk s hs) (fun e => hj (by rw [← e]; exact hs))
      · rw [put_ne _ _ h]; exact ho j (by omega) hji
    · simp only [step, World.data, Of, makeDict]
      rw [put_ne _ _ hne, put_ne _ _ (by omega)]; simp
  | update a b =>
    have ha : i ≠ a := fun e => hj (Or.inl e.symm)
    have hb : b ≠ i := fun e => hj (Or.inr e)
    refine ⟨fun j hj' hji => ?_, ?_⟩
    · simp only [step] at hj' ⊢
      rw [put_ne _ _ ha]
      by_cases h : j = a
      · subst h; rw [put_self]; exact ho b hk.2 hb
      · rw [put_ne _ _ h]; exact ho j hj' hji
    · simp only [step, World.data, Of]
      rw [put_ne _ _ ha]; simp [Ne.symm ha]
  | setData a args argv =>
    have hra := hw a hk
    by_cases h : a = i
    · subst h
      simp only [Of, decide_true, if_true]
      cases args with
      | whole d =>
        refine ⟨fun j hj' hji => ?_, ?_⟩
        · simp only [step, setData] at hj' ⊢
          rw [put_self, put_ne _ _ hji]
          have := hw j hj'
          dsimp only; omega
        · simp [step, setData, World.data, put_self, alone]
      | flat l =>
        by_cases hl : l.length = 1
        · simp only [step, setData, if_pos hl, alone]
          exact ⟨ho, trivial⟩
        · refine ⟨fun j hj' hji => ?_, ?_⟩
          · simp only [step, setData, if_neg hl] at hj' ⊢
            rw [put_self, put_ne _ _ hji]
            have := hw j hj'
            dsimp only; omega
          · simp [step, setData, World.data, put_self, alone, hl]
    · have hoa := ho a hk h
      have hia : i ≠ a := fun e => h e.symm
      simp only [Of, h, decide_false]
      cases args with
      | whole d =>
        refine ⟨fun j hj' hji => ?_, ?_⟩
        · simp only [step, setData] at hj' ⊢
          rw [put_ne _ _ hia]
          by_cases hja : j = a
          · subst hja; rw [put_self]; dsimp only; omega
          · rw [put_ne _ _ hja]; exact ho j hj' hji
        · simp only [step, setData, World.data]
          rw [put_ne _ _ hia, put_ne _ _ (by omega)]; simp
      | flat l =>
        by_cases hl : l.length = 1
        · simp only [step, setData, if_pos hl]
          exact ⟨ho, by simp⟩
        · refine ⟨fun j hj' hji => ?_, ?_⟩
          · simp only [step, setData, if_neg hl] at hj' ⊢
            rw [put_ne _ _ hia]
            by_cases hja : j = a
            · subst hja; rw [put_self]; dsimp only; omega
            · rw [put_ne _ _ hja]; exact ho j hj' hji
          · simp only [step, setData, World.data, if_neg hl]
            rw [put_ne _ _ hia, put_ne _ _ (by omega), put_ne _ _ (fun e => hoa e.symm)]; simp
  | setAttempt a v =>
    refine ⟨ho, ?_⟩
    simp only [step, World.data, Of, alone]
    by_cases h : a = i
    · subst h; simp [put_self]
    · rw [put_ne _ _ (fun e => ho a hk h e.symm)]; simp [h]
  | setMatches a ms =>
    refine ⟨ho, ?_⟩
    simp only [step, World.data, Of, alone]
    by_cases h : a = i
    · subst h; simp [put_self]
    · rw [put_ne _ _ (fun e => ho a hk h e.symm)]; simp [h]

private theorem run_alone (w : World) (hw : Sound w) (ops : List Op) (hv : Valid w.nextTk ops) (i : Nat) (hi : i < w.nextTk)
    (ho : Own w i) (hj : ∀ op ∈ ops, ¬Joins i op) :
    (run w ops).data i = (ops.filter (Of i)).foldl alone (w.data i) := by
  induction ops generalizing w with
  | nil => rfl
  | cons op ops ih =>
    obtain ⟨hk, hv'⟩ := valid_cons w op ops hv
    obtain ⟨h1, h2⟩ := step_alone w op hw hk i hi ho (hj op (by simp))
    have := ih (step w op) (step_sound w op hw hk) hv' (nextTk_mono w op hi) h1 (fun o h => hj o (by simp [h]))
    change (run (step w op) ops).data i = _
    rw [this, h2, List.filter_cons]
    cases Of i op <;> simp

private theorem sound_init : Sound init := fun i hi => absurd hi (Nat.not_lt_zero i)

private theorem valid_append (w : World) (a b : List Op) (h : Valid w.nextTk (a ++ b)) :
    Valid w.nextTk a ∧ Valid (run w a).nextTk b := by
  induction a generalizing w with
  | nil => exact ⟨trivial, h⟩
  | cons op a ih =>
    obtain ⟨hk, hv⟩ := valid_cons w op (a ++ b) h
    obtain ⟨h1, h2⟩ := ih _ hv
    refine ⟨⟨hk, ?_⟩, h2⟩
    rw [step_nextTk] at h1
    cases op <;> exact h1

private theorem run_append (w : World) (a b : List Op) : run w (a ++ b) = run (run w a) b := by simp [run]

/-- A ticket made without another one, and from which no other ticket is made or updated: its data are what the calls for it make of
the data it began with, whatever happens to other tickets before and meanwhile. -/
theorem C122_alone (pre post : List Op) (m : Make) (hm : m.src = none) (hv : Valid 0 (pre ++ .make m :: post))
    (hj : ∀ op ∈ post, ¬Joins (run init pre).nextTk op) :
    (run init (pre ++ .make m :: post)).data (run init pre).nextTk =
      (post.filter (Of (run init pre).nextTk)).foldl alone (fresh m.matches' m.extra) := by
  obtain ⟨h1, h2⟩ := valid_append init pre (.make m :: post) hv
  have hw := C122_sound init sound_init pre h1
  rw [run_append]
  generalize run init pre = w at *
  obtain ⟨hk, h3⟩ := valid_cons w _ post h2
  have hd : (step w (.make m)).data w.nextTk = fresh m.matches' m.extra := by
    simp only [step, World.data]
    rw [put_self, makeTk_data, hm]
    simp [makeDict, put_self]
  have ho : Own (step w (.make m)) w.nextTk := by
    intro j hj' hji
    simp only [step] at hj' ⊢
    rw [put_self, put_ne _ _ hji, makeTk_data, hm]
    have := hw j (by omega)
    dsimp only; omega
  rw [← hd]
  exact run_alone _ (step_sound w _ hw hk) post h3 _ (by simp [step]) ho hj

/-- What a new ticket begins with: lines and no failures, unless other values that are not `None` are given. -/
theorem C122_new (ms : List String) (extra : List (Val × Val)) (k v : Val) :
    (fresh ms extra).get? k = some v ↔
      Last ([(.text "matches", .lines ms), (.text "failures", .num 0)] ++ extra.filter (fun p => decide (p.2 ≠ .none))) k v := by
  unfold fresh
  rw [get_merge]
  exact Iff.rfl

private theorem step_same (w : World) (op : Op) (i j : Nat) (hi : i < w.nextTk) (hj : j < w.nextTk)
    (h : (w.tk i).data = (w.tk j).data) (h1 : ¬Parts i op) (h2 : ¬Parts j op) :
    ((step w op).tk i).data = ((step w op).tk j).data := by
  cases op with
  | make m =>
    simp only [step]
    rw [put_ne _ _ (by omega), put_ne _ _ (by omega)]; exact h
  | update a b =>
    simp only [step]
    rw [put_ne _ _ (fun e => h1 e.symm), put_ne _ _ (fun e => h2 e.symm)]; exact h
  | setData a args argv =>
    simp only [step]
    unfold setData
    split
    · dsimp only
      rw [put_ne _ _ (fun e => h1 e.symm), put_ne _ _ (fun e => h2 e.symm)]; exact h
    · split
      · exact h
      · dsimp only
        rw [put_ne _ _ (fun e => h1 e.symm), put_ne _ _ (fun e => h2 e.symm)]; exact h
  | setAttempt a v => exact h
  | setMatches a ms => exact h

/-- Tickets that share data go on to have the same data until one of them gets other data. -/
theorem C122_shared (w : World) (ops : List Op) (i j : Nat) (hi : i < w.nextTk) (hj : j < w.nextTk)
    (h : (w.tk i).data = (w.tk j).data) (hp : ∀ op ∈ ops, ¬Parts i op ∧ ¬Parts j op) :
    (run w ops).data i = (run w ops).data j := by
  induction ops generalizing w with
  | nil => simp only [run, List.foldl_nil, World.data, h]
  | cons op ops ih =>
    exact ih (step w op) (nextTk_mono w op hi) (nextTk_mono w op hj)
      (step_same w op i j hi hj h (hp op (by simp)).1 (hp op (by simp)).2) (fun o ho => hp o (by simp [ho]))

/-- A ticket made from another one, or updated with it, has its identifier (if there is one), time, flags, ban count and ban time
(if it has one), and shares its data. -/
theorem C122_copied (w : World) (m : Make) (i j : Nat) :
    (∀ t, m.src = some j → t = makeTk w m →
      t.id = (w.tk j).id.or m.id ∧ t.time = (w.tk j).time ∧ t.flags = (w.tk j).flags ∧ t.banCount = (w.tk j).banCount ∧
      t.banTime = (w.tk j).banTime ∧ t.data = (w.tk j).data ∧ t.isFail = m.fail) ∧
    (∀ t, t = (step w (.update i j)).tk i →
      t.id = (w.tk j).id.or (w.tk i).id ∧ t.time = (w.tk j).time ∧ t.flags = (w.tk j).flags ∧ t.banCount = (w.tk j).banCount ∧
      t.banTime = (w.tk j).banTime.or (w.tk i).banTime ∧ t.data = (w.tk j).data ∧ t.isFail = (w.tk i).isFail ∧
      t.firstTime = (w.tk i).firstTime ∧ t.retry = (w.tk j).retry.or (w.tk i).retry) := by
  constructor
  · rintro t hs rfl
    unfold makeTk
    rw [hs]
    dsimp only
    split <;> simp [takeOver, bare]
  · rintro t rfl
    simp [step, put_self, takeOver]

/-- The counter and the first time of a new ticket. -/
theorem C122_count (w : World) (m : Make) :
    (m.fail = false → (makeTk w m).firstTime = none ∧ (makeTk w m).retry = m.src.bind (fun j => (w.tk j).retry)) ∧
    (m.fail = true → m.src = none → (makeTk w m).firstTime = some (m.time.getD m.now) ∧
      (makeTk w m).retry = some (((fresh m.matches' m.extra).get? (.text "failures")).getD (.num 1))) ∧
    (∀ j, m.fail = true → m.src = some j → (w.tk j).isFail = false → (w.tk j).data < w.nextDict →
      (makeTk w m).firstTime = some (m.time.getD (w.tk j).time) ∧
      (makeTk w m).retry = some (((w.data j).get? (.text "failures")).getD (.num 1))) ∧
    (∀ j, m.fail = true → m.src = some j → (w.tk j).isFail = true →
      (makeTk w m).firstTime = none ∧ (makeTk w m).retry = (w.tk j).retry.or (some (.num 1))) := by
  refine ⟨fun h => ?_, fun h hs => ?_, fun j h hs hf hd => ?_, fun j h hs hf => ?_⟩
  · unfold makeTk
    cases hs : m.src with
    | none => simp [h, bare]
    | some j => cases hr : (w.tk j).retry <;> simp [h, bare, takeOver, hr]
  · cases ht : m.time <;> simp [makeTk, hs, h, fromFail, bare, makeDict, put_self, ht]
  · have : (w.tk j).data ≠ w.nextDict := by omega
    simp [makeTk, hs, h, fromFail, hf, bare, takeOver, makeDict, put_ne _ _ this, World.data]
  · simp [makeTk, hs, h, fromFail, hf, bare, takeOver]

/-- After `setData` a ticket shares its data with no other one. Tickets that shared them before keep theirs if a dictionary was
given, and otherwise have got the new entries, too, also those that are `None`. All others are untouched. -/
theorem C122_parted (w : World) (hw : Sound w) (i : Nat) (hi : i < w.nextTk) (args : Args) (argv : List (Val × Val))
    (h : (setData w i args argv).2 = true) (j : Nat) (hj : j < w.nextTk) (hji : j ≠ i) :
    ((setData w i args argv).1.tk j).data ≠ ((setData w i args argv).1.tk i).data ∧
    (setData w i args argv).1.tk j = w.tk j ∧
    ((w.tk j).data ≠ (w.tk i).data → (setData w i args argv).1.data j = w.data j) ∧
    ((w.tk j).data = (w.tk i).data → ∀ l, args = .flat l → ∀ k v,
      ((setData w i args argv).1.data j).get? k = some v ↔ Last (entries (w.data j) argv args) k v) ∧
    (∀ d, args = .whole d → (setData w i args argv).1.data j = w.data j) := by
  have hrj := hw j hj
  have hri := hw i hi
  cases args with
  | whole d =>
    have e : (setData w i (.whole d) argv).1.data j = w.data j := by
      simp only [setData, World.data]
      rw [put_ne _ _ hji, put_ne _ _ (by omega)]
    refine ⟨?_, ?_, fun _ => e, fun _ l hl => (by cases hl), fun _ _ => e⟩
    · simp only [setData]
      rw [put_ne _ _ hji, put_self]; dsimp only; omega
    · simp only [setData]; rw [put_ne _ _ hji]
  | flat l =>
    have hl : ¬l.length = 1 := by
      intro hl; simp [setData, hl] at h
    refine ⟨?_, ?_, fun hne => ?_, fun he l' hl' k v => ?_, fun _ hd => (by cases hd)⟩
    · simp only [setData, if_neg hl]
      rw [put_ne _ _ hji, put_self]; dsimp only; omega
    · simp only [setData, if_neg hl]; rw [put_ne _ _ hji]
    · simp only [setData, if_neg hl, World.data]
      rw [put_ne _ _ hji, put_ne _ _ (by omega), put_ne _ _ hne]
    · simp only [setData, if_neg hl, World.data, entries]
      rw [put_ne _ _ hji, put_ne _ _ (by omega), he, put_self, merge_merge, get_merge]

private theorem subset_length {l k : List Val} (hl : l.Nodup) (h : ∀ a ∈ l, a ∈ k) : l.length ≤ k.length := by
  induction l generalizing k with
  | nil => simp
  | cons x l ih =>
    have hx := h x (by simp)
    have := ih (k := k.erase x) (List.nodup_cons.1 hl).2 (fun a ha => by
      have : a ≠ x := fun e => (List.nodup_cons.1 hl).1 (e ▸ ha)
      exact (List.mem_erase_of_ne this).2 (h a (by simp [ha])))
    rw [List.length_erase_of_mem hx] at this
    have hp := List.length_pos_of_mem hx
    simp only [List.length_cons]; omega

private theorem sameData_iff (a b : Data) : sameData a b = true ↔ ∀ k, a.get? k = b.get? k := by
  unfold sameData
  rw [Bool.and_eq_true, decide_eq_true_iff, List.all_eq_true]
  constructor
  · rintro ⟨hs, hi⟩ k
    have hi' : ∀ k v, a.get? k = some v → b.get? k = some v := fun k v h =>
      of_decide_eq_true (hi (k, v) ((Dict.get?_eq_some_iff a k v).1 h))
    cases ha : a.get? k with
    | some v => rw [hi' k v ha]
    | none =>
      cases hb : b.get? k with
      | none => rfl
      | some v =>
        exfalso
        have hka : k ∉ a.keys := (Dict.get?_eq_none_iff a k).1 ha
        have := subset_length (l := k :: a.keys) (k := b.keys) (List.nodup_cons.2 ⟨hka, a.keys_nodup⟩) (by
          intro x hx
          rcases List.mem_cons.1 hx with rfl | hx
          · exact (Dict.mem_keys_iff b _).2 ⟨v, hb⟩
          · obtain ⟨u, hu⟩ := (Dict.mem_keys_iff a x).1 hx
            exact (Dict.mem_keys_iff b x).2 ⟨u, hi' x u hu⟩)
        rw [Dict.size_eq_keys_length, Dict.size_eq_keys_length] at hs
        simp only [List.length_cons] at this
        omega
  · intro h
    refine ⟨?_, fun p hp => ?_⟩
    · rw [Dict.size_eq_keys_length, Dict.size_eq_keys_length]
      apply Nat.le_antisymm
      · exact subset_length a.keys_nodup (fun x hx => by
          obtain ⟨u, hu⟩ := (Dict.mem_keys_iff a x).1 hx
          exact (Dict.mem_keys_iff b x).2 ⟨u, by rw [← h, hu]⟩)
      · exact subset_length b.keys_nodup (fun x hx => by
          obtain ⟨u, hu⟩ := (Dict.mem_keys_iff b x).1 hx
          exact (Dict.mem_keys_iff a x).2 ⟨u, by rw [h, hu]⟩)
    · exact decide_eq_true (by rw [← h]; exact (Dict.get?_eq_some_iff a p.1 p.2).2 hp)

/-- Tickets are equal exactly if identifier, time and every entry of the data are: ban time, ban count and flags do not count, nor
the order of entries. -/
theorem C122_equal (w : World) (i j : Nat) :
    eq w i j = true ↔ (w.tk i).id = (w.tk j).id ∧ (w.tk i).time = (w.tk j).time ∧
      ∀ k, (w.data i).get? k = (w.data j).get? k := by
  unfold eq
  rw [Bool.and_eq_true, Bool.and_eq_true, decide_eq_true_iff, decide_eq_true_iff, sameData_iff, and_assoc]

/-- A ticket made from another one that has an identifier is equal to it. -/
theorem C122_copy_equal (w : World) (m : Make) (j : Nat) (hj : j < w.nextTk) (hs : m.src = some j)
    (hid : (w.tk j).id ≠ none) : eq (step w (.make m)) w.nextTk j = true := by
  rw [C122_equal]
  obtain ⟨h1, h2, _, _, _, h3, _⟩ := (C122_copied w m 0 j).1 _ hs rfl
  have hne : j ≠ w.nextTk := by omega
  simp only [step, World.data]
  rw [put_self, put_ne _ _ hne]
  refine ⟨?_, h2, fun k => by rw [h3]⟩
  rw [h1]
  cases h : (w.tk j).id with
  | none => exact absurd h hid
  | some s => rfl

/-! ### Examples and counterexamples -/

/-- Deleting an entry of a copy writes `None` into the data of the original: a default is not used there any more. -/
theorem C122_refuted_none : ∃ ops : List Op, Valid 0 ops ∧ (∀ op ∈ ops, Of 0 op = false) ∧
    ∃ m rest, ops = .make m :: rest ∧ (fresh m.matches' m.extra).get? (.text "city") = some (.text "Paris") ∧
    ((run init ops).data 0).get? (.text "city") = some .none ∧
    ((run init ops).data 1).get? (.text "city") = none ∧
    ∃ v, getData ((run init ops).data 0) (.name (.text "city")) (.text "unknown") = .val v ∧ v = .none := by
  refine ⟨[.make { fail := true, id := some "192.0.2.1", time := some 5, matches' := ["a"], extra := [(.text "city", .text "Paris")] },
    .make { fail := true, src := some 0 }, .setData 1 (.flat [.text "city", .none]) []],
    ⟨fun j h => (by cases h), fun j h => (by cases h; decide), (by decide : 1 < 2), trivial⟩, by simp [Of], _, _, rfl, ?_, ?_, ?_, .none, ?_, rfl⟩
  · decide +kernel
  · decide +kernel
  · decide +kernel
  · rw [(C122_get _ _).2.1]
    congr 1

/-- A copy of a `FailTicket` has no first time, although the original has one. -/
theorem C122_refuted_first : ∃ (w : World) (m : Make), Sound w ∧ m.src = some 0 ∧ m.fail = true ∧ 0 < w.nextTk ∧
    (w.tk 0).firstTime = some 5 ∧ (makeTk w m).firstTime = none :=
  ⟨run init [.make { fail := true, id := some "192.0.2.1", time := some 5 }], { fail := true, src := some 0 },
    C122_sound init sound_init _ ⟨fun j h => (by cases h), trivial⟩, rfl, rfl, by decide, by decide, by decide⟩

/-- Asking for some keys of empty data gives the default instead of an empty dictionary. -/
theorem C122_refuted_empty : getData Dict.empty (.keys [.text "city"]) .none = .val .none := rfl

-- pairs, names, deletion; a rest of an odd number of arguments is dropped
example : ((run init [.make { fail := false, id := some "a" }, .setData 0 (.flat [.text "x", .num 1, .text "y", .num 2, .text "z"])
    [(.text "x", .num 3), (.text "matches", .none)]]).data 0).items =
    [(.text "failures", .num 0), (.text "x", .num 3), (.text "y", .num 2)] := by decide +kernel

-- a dictionary replaces everything
example : ((run init [.make { fail := false, id := some "a" },
    .setData 0 (.whole ((Dict.empty.insert (.text "x") .none).insert (.text "y") (.num 2))) []]).data 0).items =
    [(.text "y", .num 2)] := by decide +kernel

-- a value that is not None wins over the default of the constructor
example : (fresh ["l"] [(.text "failures", .num 3), (.text "ip", .none)]).items =
    [(.text "matches", .lines ["l"]), (.text "failures", .num 3)] := by decide +kernel

-- shared: the counter set for the copy is that of the original
example : ((run init [.make { fail := true, id := some "a" }, .make { fail := true, src := some 0 }, .setAttempt 1 (.num 7)]).data 0).get?
    (.text "failures") = some (.num 7) := by decide +kernel

-- the same without copying: other tickets keep theirs
example : ((run init [.make { fail := true, id := some "a" }, .make { fail := true, id := some "b" }, .setAttempt 1 (.num 7),
    .setMatches 1 []]).data 0).items = [(.text "matches", .lines []), (.text "failures", .num 0)] := by decide +kernel

-- the ban time does not count for equality, the data do
example : eq (run init [.make { fail := true, id := some "a", now := 3 }, .make { fail := true, id := some "a", now := 3 }]) 0 1 = true ∧
    eq (run init [.make { fail := true, id := some "a", now := 3 }, .make { fail := true, id := some "a", now := 3 },
      .setAttempt 1 (.num 1)]) 0 1 = false := by decide +kernel

-- a FailTicket made from a Ticket counts its failures
example : let w := run init [.make { fail := false, id := some "a", time := some 3 }, .setAttempt 0 (.num 4), .make { fail := true, src := some 0 }]
    (w.tk 1).retry = some (.num 4) ∧ (w.tk 1).firstTime = some 3 := by decide +kernel

end Verif.TicketData
