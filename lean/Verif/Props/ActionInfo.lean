import Verif.Model.ActionInfo

set_option linter.unusedSimpArgs false

/-!
# C100 — Information for actions

-/

namespace Verif.ActionInfo

/-! ## Examples -/

def exampleShared : Table := ((Dict.empty.insert "ip" (.call 0)).insert "failures" (.call 1)).insert "jail.banned" (.call 2)

/-- The number of bans changes with time -/
def exampleCalls (n : String) : Calls := fun i => if i = 0 then some "192.0.2.1" else if i = 1 then some "5" else some n

def exampleActions : List (List (Op × Calls)) :=
  [[(.get "jail.banned", exampleCalls "1"), (.get "ip", exampleCalls "1")],
   [(.get "jail.banned", exampleCalls "2"), (.set' "ip" (.plain "x"), exampleCalls "2"), (.get "ip", exampleCalls "2"), (.del "failures", exampleCalls "2"),
    (.get "failures", exampleCalls "2"), (.keys, exampleCalls "2")],
   [(.get "ip", exampleCalls "3"), (.get "failures", exampleCalls "3"), (.get "jail.banned", exampleCalls "3")]]

example : (actions exampleShared fresh exampleActions).1 =
    [[.value "1", .value "192.0.2.1"],
     [.value "1", .done, .value "x", .done, .keyError, .keys ["ip", "jail.banned"]],
     [.value "192.0.2.1", .value "5", .value "3"]] := by
  decide +kernel

/-! ## One ban, several actions -/

/-- Value that is seen under a key, if callables return always the same: `none` is a `KeyError`, an inner `none` an exception -/
def seen (c : Calls) (shared : Table) (m : CMap) (k : Key) : Option (Option Value) :=
  (m.raw shared k).map (fun x => match x with | .plain v => some v | .call i => c i)

/-- Two maps that cannot be told apart -/
structure Same (c : Calls) (shared : Table) (m m' : CMap) : Prop where
  table : m.table shared = m'.table shared
  seen : ∀ k, seen c shared m k = seen c shared m' k

/-- The map can be brought back to the shared dictionary -/
structure Safe (c : Calls) (shared : Table) (m : CMap) : Prop where
  clean : m.immutable = true → m.data = none ∧ (∀ k, seen c shared m k = seen c shared fresh k)
  back : m.immutable = false → m.org = some none ∧ m.data ≠ none
  org : m.org = none ∨ m.org = some none

theorem table_fresh (shared : Table) : fresh.table shared = shared := rfl

theorem raw_insert (shared : Table) (m : CMap) (k j : Key) (x : Item) :
    CMap.raw { m with storage := m.storage.insert k x } shared j = if j = k then some x else m.raw shared j := by
  unfold CMap.raw
  dsimp only
  rw [Dict.get?_insert]
  by_cases h : j = k
  · simp [h]
  · simp only [h, if_false]
    rfl

theorem seen_get (c : Calls) (shared : Table) (m : CMap) (k j : Key) : seen c shared (get c shared m k).2 j = seen c shared m j := by
  unfold get
  cases h : m.raw shared k with
  | none => rfl
  | some x =>
    cases x with
    | plain v => rfl
    | call i =>
      cases hc : c i with
      | none => simp [hc]
      | some v =>
        simp only [hc]
        unfold seen
        rw [raw_insert]
        by_cases hj : j = k
        · subst hj; simp [h, hc]
        · simp [hj]

theorem get_out (c : Calls) (shared : Table) (m : CMap) (k : Key) :
    (get c shared m k).1 = match seen c shared m k with | none => .keyError | some none => .raised | some (some v) => .value v := by
  unfold get seen
  cases h : m.raw shared k with
  | none => rfl
  | some x =>
    cases x with
    | plain v => rfl
    | call i => cases hc : c i <;> simp [hc]

theorem get_table (c : Calls) (shared : Table) (m : CMap) (k : Key) :
    (get c shared m k).2.table shared = m.table shared ∧ (get c shared m k).2.data = m.data ∧ (get c shared m k).2.org = m.org ∧
    (get c shared m k).2.immutable = m.immutable := by
  unfold get
  cases h : m.raw shared k with
  | none => simp
  | some x =>
    cases x with
    | plain v => simp
    | call i => cases hc : c i <;> simp [hc, CMap.table]

theorem mutate_raw (shared : Table) (m : CMap) (k : Key) : (mutate shared m).raw shared k = m.raw shared k := by
  unfold mutate
  split
  · simp [CMap.raw, CMap.table]
  · rfl

theorem mutate_table (shared : Table) (m : CMap) : (mutate shared m).table shared = m.table shared := by
  unfold mutate
  split
  · simp [CMap.table]
  · rfl

theorem mutate_storage (shared : Table) (m : CMap) : (mutate shared m).storage = m.storage := by
  unfold mutate
  split <;> rfl

theorem mutate_back (c : Calls) (shared : Table) (m : CMap) (h : Safe c shared m) :
    (mutate shared m).immutable = false ∧ (mutate shared m).org = some none ∧ (mutate shared m).data ≠ none := by
  unfold mutate
  cases hi : m.immutable with
  | true => simp [(h.clean hi).1]
  | false => simpa [hi] using h.back hi

/-- What is seen after an operation, and its output, depend only on what was seen before. The shared dictionary is not changed. -/
theorem step_same (c : Calls) (shared : Table) (m m' : CMap) (o : Op) (h : Safe c shared m) (h' : Safe c shared m') (hs : Same c shared m m') :
    (step c shared m o).1 = (step c shared m' o).1 ∧ (step c shared m o).2.1 = shared ∧
    Same c shared (step c shared m o).2.2 (step c shared m' o).2.2 ∧ Safe c shared (step c shared m o).2.2 := by
  cases o with
  | get k =>
    simp only [step]
    refine ⟨by rw [get_out, get_out, hs.seen], trivial, ⟨?_, ?_⟩, ?_⟩
    · rw [(get_table ..).1, (get_table ..).1, hs.table]
    · intro j; rw [seen_get, seen_get, hs.seen]
    · obtain ⟨_, g2, g3, g4⟩ := get_table c shared m k
      refine ⟨fun hi => ?_, fun hi => ?_, ?_⟩
      · rw [g4] at hi
        exact ⟨by rw [g2]; exact (h.clean hi).1, fun j => by rw [seen_get]; exact (h.clean hi).2 j⟩
      · rw [g4] at hi
        rw [g2, g3]
        exact h.back hi
      · rw [g3]; exact h.org
  | keys =>
    simp only [step]
    exact ⟨by rw [hs.table], trivial, hs, h⟩
  | set' k x =>
    simp only [step, set']
    refine ⟨trivial, trivial, ⟨?_, ?_⟩, ?_⟩
    · have e : ∀ m : CMap, CMap.table { mutate shared m with storage := (mutate shared m).storage.insert k x } shared = m.table shared :=
        fun m => mutate_table shared m
      rw [e, e, hs.table]
    · intro j
      unfold seen
      rw [raw_insert, raw_insert]
      by_cases hj : j = k
      · simp [hj]
      · simp only [hj, if_false, mutate_raw]
        exact hs.seen j
    · obtain ⟨b1, b2, b3⟩ := mutate_back c shared m h
      exact ⟨fun hi => by simp [b1] at hi, fun _ => ⟨b2, b3⟩, .inr b2⟩
  | del k =>
    have key : ∀ m : CMap, Safe c shared m → (del shared m k).1 = (if (m.table shared).contains k then .done else .keyError) ∧
        (del shared m k).2.1 = shared ∧ (del shared m k).2.2.table shared = (m.table shared).erase k ∧
        (∀ j, seen c shared (del shared m k).2.2 j = if j = k then none else seen c shared m j) ∧ Safe c shared (del shared m k).2.2 := by
      intro m h
      obtain ⟨b1, b2, b3⟩ := mutate_back c shared m h
      have ht := mutate_table shared m
      have hst := mutate_storage shared m
      obtain ⟨d, hd⟩ := Option.ne_none_iff_exists'.1 b3
      have htd : m.table shared = d := by rw [← ht]; simp [CMap.table, hd]
      have hraw : ∀ j, (mutate shared m).raw shared j = m.raw shared j := mutate_raw shared m
      have e : (CMap.table { mutate shared m with storage := (mutate shared m).storage.erase k } shared) = m.table shared := ht
      by_cases hc : (m.table shared).contains k = true
      · have hdel : del shared m k = (.done, shared, { mutate shared m with storage := (mutate shared m).storage.erase k, data := some (d.erase k) }) := by
          unfold del
          dsimp only at e ⊢
          rw [e, if_pos hc]
          simp only [hd]
        rw [hdel]
        refine ⟨by simp [hc], rfl, by simp [CMap.table, ← htd], ?_, ⟨fun hi => by simp [b1] at hi, fun _ => ⟨b2, by simp⟩, .inr b2⟩⟩
        intro j
        unfold seen CMap.raw CMap.table
        simp only [Option.getD_some]
        rw [hst, Dict.get?_erase, Dict.get?_erase]
        by_cases hj : j = k
        · simp [hj]
        · simp only [hj, if_false]
          have hdd : m.data.getD shared = d := htd
          rw [hdd]
      · have hdel : del shared m k = (.keyError, shared, { mutate shared m with storage := (mutate shared m).storage.erase k }) := by
          unfold del
          dsimp only at e ⊢
          rw [e, if_neg hc]
        rw [hdel]
        have hnot : k ∉ (m.table shared).keys := fun hk => hc ((Dict.contains_iff _ _).2 hk)
        refine ⟨by simp [hc], rfl, ?_, ?_, ⟨fun hi => by simp [b1] at hi, fun _ => ⟨b2, b3⟩, .inr b2⟩⟩
        · rw [Dict.erase_items_of_not_mem _ hnot]; exact e
        · intro j
          unfold seen CMap.raw
          rw [e]
          dsimp only
          rw [hst, Dict.get?_erase]
          by_cases hj : j = k
          · subst hj
            simp [(Dict.get?_eq_none_iff _ _).2 hnot]
          · simp only [hj, if_false]
    obtain ⟨a1, a2, a3, a4, a5⟩ := key m h
    obtain ⟨c1, c2, c3, c4, c5⟩ := key m' h'
    simp only [step]
    refine ⟨by rw [a1, c1, hs.table], a2, ⟨by rw [a3, c3, hs.table], fun j => by rw [a4, c4, hs.seen]⟩, a5⟩

theorem same_refl (c : Calls) (shared : Table) (m : CMap) : Same c shared m m := ⟨rfl, fun _ => rfl⟩

theorem same_symm (c : Calls) (shared : Table) (m m' : CMap) (h : Same c shared m m') : Same c shared m' m := ⟨h.table.symm, fun k => (h.seen k).symm⟩

/-- Callables that return always the same -/
def always (c : Calls) (ops : List Op) : List (Op × Calls) := ops.map (fun o => (o, c))

theorem run_same (c : Calls) (shared : Table) (ops : List Op) (m m' : CMap) (h : Safe c shared m) (h' : Safe c shared m') (hs : Same c shared m m') :
    (run shared m (always c ops)).1 = (run shared m' (always c ops)).1 ∧ (run shared m (always c ops)).2.1 = shared ∧
    Safe c shared (run shared m (always c ops)).2.2 := by
  induction ops generalizing m m' with
  | nil => exact ⟨rfl, rfl, h⟩
  | cons o l ih =>
    simp only [always, List.map_cons, run]
    obtain ⟨a1, a2, a3, a4⟩ := step_same c shared m m' o h h' hs
    obtain ⟨b1, b2, b3, b4⟩ := step_same c shared m' m o h' h (same_symm _ _ _ _ hs)
    rw [a2, b2]
    obtain ⟨i1, i2, i3⟩ := ih _ _ a4 b4 a3
    exact ⟨by rw [a1]; congr 1, i2, i3⟩

theorem safe_fresh (c : Calls) (shared : Table) : Safe c shared fresh := ⟨fun _ => ⟨rfl, fun _ => rfl⟩, fun h => (by cases h), .inl rfl⟩

theorem next_safe (c : Calls) (shared : Table) (m : CMap) (h : Safe c shared m) : Safe c shared (next m) ∧ Same c shared (next m) fresh := by
  unfold next
  cases hi : m.immutable with
  | true =>
    simp only [Bool.not_true, Bool.false_eq_true, if_false]
    refine ⟨h, ⟨?_, (h.clean hi).2⟩⟩
    simp [CMap.table, (h.clean hi).1, fresh]
  | false =>
    simp only [Bool.not_false, if_true]
    have e : reset m = { storage := Dict.empty, data := none, org := some none, immutable := true } := by
      unfold reset
      rw [(h.back hi).1]
    rw [e]
    refine ⟨⟨fun _ => ⟨rfl, fun _ => rfl⟩, fun h => (by cases h), .inr rfl⟩, ⟨rfl, fun _ => rfl⟩⟩

/-- **C100 (actions are independent).** Each action sees exactly what it would see alone, whatever the actions before it have read, set or
deleted; and the definitions shared by all bans are not changed. -/
theorem C100_independent (c : Calls) (shared : Table) (acts : List (List Op)) :
    (actions shared fresh (acts.map (always c))).1 = acts.map (fun ops => (run shared fresh (always c ops)).1) ∧
    (actions shared fresh (acts.map (always c))).2.1 = shared := by
  suffices h : ∀ m, Safe c shared m → (actions shared m (acts.map (always c))).1 = acts.map (fun ops => (run shared fresh (always c ops)).1) ∧
      (actions shared m (acts.map (always c))).2.1 = shared from h fresh (safe_fresh c shared)
  induction acts with
  | nil => intro m _; exact ⟨rfl, rfl⟩
  | cons a l ih =>
    intro m h
    simp only [List.map_cons, actions]
    obtain ⟨n1, n2⟩ := next_safe c shared m h
    obtain ⟨r1, r2, r3⟩ := run_same c shared a (next m) fresh n1 (safe_fresh c shared) n2
    rw [r2]
    obtain ⟨i1, i2⟩ := ih _ r3
    exact ⟨by rw [r1, i1], i2⟩

/-! ## Definitions are not changed, whatever callables return -/

/-- The shared dictionary cannot be reached for deletion -/
def Apart (m : CMap) : Prop := (m.immutable = false → m.data ≠ none)

theorem step_apart (c : Calls) (shared : Table) (m : CMap) (o : Op) (h : Apart m) :
    (step c shared m o).2.1 = shared ∧ Apart (step c shared m o).2.2 := by
  have hmut : (mutate shared m).data ≠ none ∧ (mutate shared m).immutable = false := by
    unfold mutate
    cases hi : m.immutable with
    | true => simp
    | false => simpa [hi] using h hi
  cases o with
  | get k =>
    simp only [step]
    refine ⟨trivial, ?_⟩
    obtain ⟨_, g2, _, g4⟩ := get_table c shared m k
    intro hi
    rw [g4] at hi
    rw [g2]
    exact h hi
  | keys => exact ⟨rfl, h⟩
  | set' k x => exact ⟨rfl, fun _ => hmut.1⟩
  | del k =>
    simp only [step, del]
    obtain ⟨d, hd⟩ := Option.ne_none_iff_exists'.1 hmut.1
    split
    · rw [hd]
      exact ⟨rfl, fun _ => by simp⟩
    · exact ⟨rfl, fun _ => hmut.1⟩

theorem run_apart (shared : Table) (ops : List (Op × Calls)) (m : CMap) (h : Apart m) :
    (run shared m ops).2.1 = shared ∧ Apart (run shared m ops).2.2 := by
  induction ops generalizing m with
  | nil => exact ⟨rfl, h⟩
  | cons oc l ih =>
    obtain ⟨o, c⟩ := oc
    simp only [run]
    obtain ⟨a1, a2⟩ := step_apart c shared m o h
    rw [a1]
    exact ih _ a2

/-- **C100 (definitions).** Whatever actions do, and whatever callables return and when: the definitions for later bans are unchanged. -/
theorem C100_shared (shared : Table) (acts : List (List (Op × Calls))) : (actions shared fresh acts).2.1 = shared := by
  suffices h : ∀ m, Apart m → (actions shared m acts).2.1 = shared from h fresh (fun h => by cases h)
  induction acts with
  | nil => intro m _; rfl
  | cons a l ih =>
    intro m h
    simp only [actions]
    have hn : Apart (next m) := by
      unfold next
      cases hi : m.immutable with
      | true => simpa [hi] using h
      | false => simp [Apart, reset]
    obtain ⟨r1, r2⟩ := run_apart shared a (next m) hn
    rw [r1]
    exact ih _ r2

/-! ## Values do not change while they are used -/

/-- The operation changes what is stored for the key -/
def Touches (k : Key) : Op → Prop
  | .set' j _ => j = k
  | .del j => j = k
  | _ => False

theorem stored_step (c : Calls) (shared : Table) (m : CMap) (o : Op) (k : Key) (v : Value) (ht : ¬Touches k o)
    (h : m.storage.get? k = some (.plain v)) : (step c shared m o).2.2.storage.get? k = some (.plain v) := by
  cases o with
  | get j =>
    simp only [step, get]
    cases hr : m.raw shared j with
    | none => simpa using h
    | some x =>
      cases x with
      | plain w => simpa using h
      | call i =>
        cases hc : c i with
        | none => simpa [hc] using h
        | some w =>
          simp only [hc]
          rw [Dict.get?_insert]
          by_cases hj : k = j
          · subst hj
            simp [CMap.raw, h] at hr
          · simpa [hj] using h
  | keys => exact h
  | set' j x =>
    simp only [step, set']
    rw [mutate_storage, Dict.get?_insert_ne _ (fun e => ht e.symm)]
    exact h
  | del j =>
    have e : ((step c shared m (.del j)).2.2).storage = m.storage.erase j := by
      simp only [step, del]
      split
      · split <;> exact congrArg (Dict.erase · j) (mutate_storage shared m)
      · exact congrArg (Dict.erase · j) (mutate_storage shared m)
    rw [e, Dict.get?_erase_ne _ (fun e => ht e.symm)]
    exact h

theorem stored_run (shared : Table) (ops : List (Op × Calls)) (m : CMap) (k : Key) (v : Value) (ht : ∀ o ∈ ops, ¬Touches k o.1)
    (h : m.storage.get? k = some (.plain v)) : (run shared m ops).2.2.storage.get? k = some (.plain v) := by
  induction ops generalizing shared m with
  | nil => exact h
  | cons oc l ih =>
    simp only [run]
    exact ih _ _ (fun o ho => ht o (List.mem_cons_of_mem _ ho)) (stored_step _ _ _ _ _ _ (ht oc (List.mem_cons_self ..)) h)

/-- **C100 (values do not change).** Once a value of a callable was read, the same is read again, whatever it would return later, unless the action
itself sets or deletes it. -/
theorem C100_stable (shared shared' : Table) (m : CMap) (c c' : Calls) (k : Key) (i : Nat) (v : Value) (ops : List (Op × Calls))
    (hm : m.raw shared k = some (.call i)) (hr : (get c shared m k).1 = .value v) (ht : ∀ o ∈ ops, ¬Touches k o.1) :
    (get c' shared' (run shared (get c shared m k).2 ops).2.2 k).1 = .value v := by
  have h1 : (get c shared m k).2.storage.get? k = some (.plain v) := by
    unfold get at hr ⊢
    rw [hm] at hr ⊢
    cases hc : c i with
    | none => simp [hc] at hr
    | some w =>
      simp only [hc] at hr ⊢
      cases hr
      simp
  have h2 := stored_run shared ops _ k v ht h1
  rw [get_out]
  unfold seen CMap.raw
  rw [h2]
  rfl

/-- **C100 (values do not change between actions).** The same holds for the next action, if this one has changed nothing. -/
theorem C100_stable_next (shared shared' : Table) (m : CMap) (c c' : Calls) (k : Key) (i : Nat) (v : Value) (ops : List (Op × Calls)) (him : m.immutable = true)
    (hm : m.raw shared k = some (.call i)) (hr : (get c shared m k).1 = .value v) (ht : ∀ o ∈ ops, ∀ j, ¬Touches j o.1) :
    (get c' shared' (next (run shared (get c shared m k).2 ops).2.2) k).1 = .value v := by
  have him2 : ∀ (l : List (Op × Calls)) (sh : Table) (m : CMap), m.immutable = true → (∀ o ∈ l, ∀ j, ¬Touches j o.1) → (run sh m l).2.2.immutable = true := by
    intro l
    induction l with
    | nil => intro _ _ h _; exact h
    | cons oc l ih =>
      intro sh m h ht
      obtain ⟨o, c⟩ := oc
      simp only [run]
      apply ih
      · cases o with
        | get j => simp only [step]; rw [(get_table ..).2.2.2]; exact h
        | keys => exact h
        | set' j x => exact absurd rfl (ht (.set' j x, c) (List.mem_cons_self ..) j)
        | del j => exact absurd rfl (ht (.del j, c) (List.mem_cons_self ..) j)
      · exact fun o ho => ht o (List.mem_cons_of_mem _ ho)
  have hi := him2 ops shared (get c shared m k).2 (by rw [(get_table ..).2.2.2]; exact him) ht
  have : next (run shared (get c shared m k).2 ops).2.2 = (run shared (get c shared m k).2 ops).2.2 := by
    unfold next
    rw [hi]
    rfl
  rw [this]
  exact C100_stable shared shared' m c c' k i v ops hm hr (fun o ho => ht o ho k)

/-- **C100 (own changes).** An action sees its own changes: what it has set, and that what it has deleted is gone. -/
theorem C100_own (c : Calls) (shared : Table) (m : CMap) (k : Key) (v : Value) (j : Key) :
    (get c shared (set' shared m k (.plain v)) j).1 = (if j = k then .value v else (get c shared m j).1) ∧
    (get c (del shared m k).2.1 (del shared m k).2.2 k).1 = .keyError := by
  constructor
  · rw [get_out, get_out]
    unfold seen set'
    rw [raw_insert]
    by_cases hj : j = k
    · simp [hj]
    · simp only [hj, if_false, mutate_raw]
  · have h : (del shared m k).2.2.raw (del shared m k).2.1 k = none := by
      unfold del
      dsimp only
      split
      · split
        · rename_i hd
          simp [CMap.raw, CMap.table, hd]
        · rename_i hd
          simp [CMap.raw, CMap.table]
      · rename_i hc
        have hnot : k ∉ (CMap.table { mutate shared m with storage := (mutate shared m).storage.erase k } shared).keys :=
          fun hk => hc ((Dict.contains_iff _ _).2 hk)
        have := (Dict.get?_eq_none_iff _ _).2 hnot
        simp only [CMap.raw, Dict.get?_erase_self]
        exact this
    unfold get
    rw [h]

/-! ## Merged information -/

example : (mi4ips (some true) (fun n => if n = 0 then .ticket "a" else .raises) [true, false] 0 none).1 = [.merged "a", .own] := by decide

/-- **C100 (merged information).** In a jail it never fails: it is what the database returns, or else the ticket itself. -/
theorem C100_merged (db : Bool) (q : Nat → Db) (alls : List Bool) (n : Nat) (attr : Option MCache) :
    ∀ x ∈ (mi4ips (some db) q alls n attr).1, x = .own ∨ (db = true ∧ ∃ k t, q k = .ticket t ∧ x = .merged t) := by
  induction alls generalizing n attr with
  | nil => simp [mi4ips]
  | cons a l ih =>
    simp only [mi4ips, List.mem_cons]
    rintro x (rfl | hx)
    · cases db with
      | false => cases a <;> exact .inl rfl
      | true =>
        cases hq : q n with
        | ticket t =>
          refine .inr ⟨rfl, n, t, hq, ?_⟩
          cases a <;> simp [mi4ip, hasAttr, hq]
        | nothing => left; cases a <;> simp [mi4ip, hasAttr, hq]
        | raises => left; cases a <;> simp [mi4ip, hasAttr, hq]
    · exact ih _ _ x hx

/-- **C100 (each use asks).** The database is asked at each use. -/
theorem C100_asks (q : Nat → Db) (alls : List Bool) (n : Nat) (attr : Option MCache) : (mi4ips (some true) q alls n attr).2 = n + alls.length := by
  induction alls generalizing n attr with
  | nil => rfl
  | cons a l ih =>
    simp only [mi4ips]
    rw [ih]
    have : (mi4ip (some true) q a n attr).2.1 = n + 1 := by
      cases a <;> cases hq : q n <;> simp [mi4ip, hasAttr, hq]
    rw [this, List.length_cons]
    omega

/-- **C100, refuted: "bans merged once".** The number and the lines of the same address may come from different states of the database. -/
theorem C100_refuted_once : ∃ q : Nat → Db, (mi4ips (some true) q [true, true] 0 none).1 = [.merged "1 failure", .merged "2 failures"] :=
  ⟨fun n => if n = 0 then .ticket "1 failure" else .ticket "2 failures", by decide⟩

/-- **C100, refuted: it never fails without a jail** (as used by `fail2ban-regex`). -/
theorem C100_refuted_nojail (q : Nat → Db) (a : Bool) : (mi4ip none q a 0 none).1 = .raised := by cases a <;> rfl

/-- **C100, refuted: a mapping.** What was set under a new key is read, but is not among the keys; and to delete it fails, although it is gone
afterwards. -/
theorem C100_refuted_new : ∃ (shared : Table) (k : Key) (c : Calls),
    (run shared fresh (always c [.set' k (.plain "v"), .get k, .keys, .del k, .get k])).1 = [.done, .value "v", .keys ["ip", "failures", "jail.banned"], .keyError, .keyError] :=
  ⟨exampleShared, "new", exampleCalls "1", by decide +kernel⟩

end Verif.ActionInfo
