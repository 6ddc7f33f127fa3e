import Verif.Spec.Share

/-!
# C128 — shared configuration
-/

namespace Verif.Share

open ShareSpec

variable {α : Type}

/-- The three ways of a call. -/
private theorem read_cases (fs : Files α) (e : α) (s : State α) (c : Call) :
    (∃ r, c.once = true ∧ (obj e s c).done = some r ∧ read fs e s c = (s, some (r, (obj e s c).content))) ∨
    ((c.once = false ∨ (obj e s c).done = none) ∧ fs s.log.length (obj e s c).base c.name (obj e s c).content = none ∧
      read fs e s c = (⟨put s c.name (obj e s c), s.log ++ [((obj e s c).base, c.name, false)]⟩, none)) ∨
    ((c.once = false ∨ (obj e s c).done = none) ∧ ∃ r x, fs s.log.length (obj e s c).base c.name (obj e s c).content = some (r, x) ∧
      read fs e s c = (⟨put s c.name ⟨(obj e s c).base, some r, x⟩, s.log ++ [((obj e s c).base, c.name, true)]⟩, some (r, x))) := by
  unfold read
  cases ho : c.once with
  | true =>
    cases hd : (obj e s c).done with
    | some r => left; exact ⟨r, rfl, rfl, by simp [hd]⟩
    | none =>
      right
      cases hf : fs s.log.length (obj e s c).base c.name (obj e s c).content with
      | none => left; exact ⟨Or.inr rfl, rfl, by simp [hf, hd]⟩
      | some p => right; exact ⟨Or.inr rfl, p.1, p.2, rfl, by simp [hf, hd]⟩
  | false =>
    right
    cases hf : fs s.log.length (obj e s c).base c.name (obj e s c).content with
    | none => left; exact ⟨Or.inl rfl, rfl, by simp [hf]⟩
    | some p => right; exact ⟨Or.inl rfl, p.1, p.2, rfl, by simp [hf]⟩

private theorem obj_some (e : α) (s : State α) (c : Call) (o : Obj α) (h : s.shared c.name = some o) : obj e s c = o := by
  simp [obj, h]

private theorem obj_none (e : α) (s : State α) (c : Call) (h : s.shared c.name = none) : obj e s c = ⟨c.base, none, e⟩ := by
  simp [obj, h]

/-- A call without `once`, or the first with its name, or the first since those that failed, accesses the files, once; any other does
not, and changes nothing. -/
theorem C128_access (fs : Files α) (e : α) (s : State α) (c : Call) :
    ((∃ o r, s.shared c.name = some o ∧ o.done = some r ∧ c.once = true) →
      (read fs e s c).1 = s ∧ ∃ o r, s.shared c.name = some o ∧ o.done = some r ∧ (read fs e s c).2 = some (r, o.content)) ∧
    ((¬∃ o r, s.shared c.name = some o ∧ o.done = some r ∧ c.once = true) →
      ∃ b, (∀ o, s.shared c.name = some o → b = o.base ∧ (read fs e s c).2 = fs s.log.length b c.name o.content) ∧
        (s.shared c.name = none → b = c.base ∧ (read fs e s c).2 = fs s.log.length b c.name e) ∧
        (read fs e s c).1.log = s.log ++ [(b, c.name, (read fs e s c).2.isSome)]) := by
  constructor
  · rintro ⟨o, r, ho, hr, hc⟩
    have hob := obj_some e s c o ho
    rcases read_cases fs e s c with ⟨r', _, hd, h⟩ | ⟨hn, _, _⟩ | ⟨hn, _⟩
    · rw [h]; rw [hob] at hd ⊢; exact ⟨rfl, o, r', ho, hd, rfl⟩
    · rw [hob, hr, hc] at hn; simp at hn
    · rw [hob, hr, hc] at hn; simp at hn
  · intro hn
    refine ⟨(obj e s c).base, fun o ho => ?_, fun ho => ?_, ?_⟩
    · have hob := obj_some e s c o ho
      refine ⟨by rw [hob], ?_⟩
      rcases read_cases fs e s c with ⟨r', hc, hd, h⟩ | ⟨_, hf, h⟩ | ⟨_, r, x, hf, h⟩
      · exact absurd ⟨o, r', ho, by rw [← hob]; exact hd, hc⟩ hn
      · rw [h]; rw [hob] at hf ⊢; exact hf.symm
      · rw [h]; rw [hob] at hf ⊢; exact hf.symm
    · have hob := obj_none e s c ho
      refine ⟨by rw [hob], ?_⟩
      rcases read_cases fs e s c with ⟨r', hc, hd, h⟩ | ⟨_, hf, h⟩ | ⟨_, r, x, hf, h⟩
      · rw [hob] at hd; cases hd
      · rw [h]; rw [hob] at hf ⊢; exact hf.symm
      · rw [h]; rw [hob] at hf ⊢; exact hf.symm
    · rcases read_cases fs e s c with ⟨r', hc, hd, h⟩ | ⟨_, hf, h⟩ | ⟨_, r, x, hf, h⟩
      · exfalso
        cases ho : s.shared c.name with
        | none => rw [obj_none e s c ho] at hd; cases hd
        | some o => exact hn ⟨o, r', ho, by rw [← obj_some e s c o ho]; exact hd, hc⟩
      · rw [h]; rfl
      · rw [h]; rfl

/-- Calls with one name do not change what is shared under others. -/
theorem C128_separate (fs : Files α) (e : α) (s : State α) (c : Call) (k : String) (hk : k ≠ c.name) :
    (read fs e s c).1.shared k = s.shared k := by
  rcases read_cases fs e s c with ⟨r, _, _, h⟩ | ⟨_, _, h⟩ | ⟨_, r, x, _, h⟩ <;> rw [h] <;> simp [put, hk]

private theorem read_base (fs : Files α) (e : α) (s : State α) (c : Call) (k : String) :
    ((read fs e s c).1.shared k).map Obj.base = if k = c.name then some (obj e s c).base else (s.shared k).map Obj.base := by
  by_cases hk : k = c.name
  · subst hk
    rw [if_pos rfl]
    rcases read_cases fs e s c with ⟨r, _, hd, h⟩ | ⟨_, _, h⟩ | ⟨_, r, x, _, h⟩
    · rw [h]
      cases ho : s.shared c.name with
      | none => rw [obj_none e s c ho] at hd; cases hd
      | some o => rw [obj_some e s c o ho]; simp
    · rw [h]; simp [put]
    · rw [h]; simp [put]
  · rw [if_neg hk, C128_separate fs e s c k hk]

/-- The directory of a shared configuration is that of the first call with its name, also if that failed. -/
theorem C128_base (fs : Files α) (e : α) (cs : List Call) (k : String) :
    ((run fs e start cs).1.shared k).map Obj.base = firstBase cs k := by
  suffices H : ∀ s : State α, ((run fs e s cs).1.shared k).map Obj.base = ((s.shared k).map Obj.base).or (firstBase cs k) by
    rw [H]; rfl
  induction cs with
  | nil => intro s; simp [run, firstBase]
  | cons c cs ih =>
    intro s
    rw [run]
    dsimp only
    rw [ih, read_base]
    by_cases hk : k = c.name
    · subst hk
      rw [if_pos rfl]
      cases ho : s.shared c.name with
      | none => rw [obj_none e s c ho]; simp [firstBase]
      | some o => rw [obj_some e s c o ho]; simp
    · rw [if_neg hk]
      have : firstBase (c :: cs) k = firstBase cs k := by simp [firstBase, Ne.symm hk]
      rw [this]

/-! ### Reading once -/

/-- What the dictionary holds under a name, if the files were read. -/
private def known (s : State α) (k : String) : Option (Bool × α) :=
  (s.shared k).bind fun o => o.done.map fun r => (r, o.content)

private theorem known_obj (e : α) (s : State α) (c : Call) : known s c.name = (obj e s c).done.map fun r => (r, (obj e s c).content) := by
  cases ho : s.shared c.name with
  | none => rw [obj_none e s c ho]; simp [known, ho]
  | some o => rw [obj_some e s c o ho]; simp [known, ho]

/-- With `once`: a call returns what is known, or makes it known. -/
private theorem read_known (fs : Files α) (e : α) (s : State α) (c : Call) (hc : c.once = true) :
    (∀ v, known s c.name = some v → (read fs e s c).2 = some v ∧ (read fs e s c).1 = s) ∧
    known (read fs e s c).1 c.name = (read fs e s c).2 ∧
    (known s c.name = none → ∃ b, (read fs e s c).1.log = s.log ++ [(b, c.name, (read fs e s c).2.isSome)]) := by
  have hk := known_obj e s c
  rcases read_cases fs e s c with ⟨r, _, hd, h⟩ | ⟨hn, _, h⟩ | ⟨hn, r, x, _, h⟩
  · rw [hd] at hk
    rw [h]
    refine ⟨fun v hv => ⟨by rw [← hv, hk]; rfl, rfl⟩, by rw [hk]; rfl, fun h' => ?_⟩
    rw [hk] at h'; cases h'
  · have hn : (obj e s c).done = none := by rcases hn with h' | h'; · rw [hc] at h'; cases h'
                                            · exact h'
    rw [hn] at hk
    rw [h]
    refine ⟨fun v hv => ?_, by simp [known, put, hn], fun _ => ⟨_, rfl⟩⟩
    rw [hk] at hv; cases hv
  · have hn : (obj e s c).done = none := by rcases hn with h' | h'; · rw [hc] at h'; cases h'
                                            · exact h'
    rw [hn] at hk
    rw [h]
    refine ⟨fun v hv => ?_, by simp [known, put], fun _ => ⟨_, rfl⟩⟩
    rw [hk] at hv; cases hv

private theorem known_other (fs : Files α) (e : α) (s : State α) (c : Call) (k : String) (hk : k ≠ c.name) :
    known (read fs e s c).1 k = known s k := by
  unfold known; rw [C128_separate fs e s c k hk]

private theorem known_keep (fs : Files α) (e : α) (s : State α) (c : Call) (hc : c.once = true) (k : String) (v : Bool × α)
    (h : known s k = some v) : known (read fs e s c).1 k = some v := by
  by_cases hk : k = c.name
  · subst hk; rw [((read_known fs e s c hc).1 v h).2]; exact h
  · rw [known_other fs e s c k hk]; exact h

private theorem known_results (fs : Files α) (e : α) (cs : List Call) (hcs : ∀ c ∈ cs, c.once = true) (s : State α) (k : String) (v : Bool × α)
    (h : known s k = some v) (j : Nat) (c : Call) (hj : cs[j]? = some c) (hk : c.name = k) : (run fs e s cs).2[j]? = some (some v) := by
  induction cs generalizing s j with
  | nil => simp at hj
  | cons d cs ih =>
    have hd := hcs d (by simp)
    cases j with
    | zero =>
      simp only [List.getElem?_cons_zero, Option.some.injEq] at hj
      subst hj; subst hk
      rw [run]; simp [((read_known fs e s d hd).1 v h).1]
    | succ j =>
      rw [run]
      simpa using ih (fun c hc => hcs c (by simp [hc])) _ (known_keep fs e s d hd k v h) j (by simpa using hj)

/-- Once a call returned, each later call with the same name returns the same result and content, whatever happened to the files. -/
theorem C128_same (fs : Files α) (e : α) (s : State α) (cs : List Call) (hcs : ∀ c ∈ cs, c.once = true) (i j : Nat) (hij : i < j) (c d : Call)
    (hi : cs[i]? = some c) (hj : cs[j]? = some d) (hn : c.name = d.name) (v : Bool × α) (hv : (run fs e s cs).2[i]? = some (some v)) :
    (run fs e s cs).2[j]? = some (some v) := by
  induction cs generalizing s i j with
  | nil => simp at hi
  | cons b cs ih =>
    have hb := hcs b (by simp)
    cases j with
    | zero => omega
    | succ j =>
      cases i with
      | zero =>
        simp only [List.getElem?_cons_zero, Option.some.injEq] at hi
        subst hi
        rw [run] at hv ⊢
        simp only [List.getElem?_cons_zero, Option.some.injEq] at hv
        have hk := (read_known fs e s b hb).2.1
        rw [hv] at hk
        simpa using known_results fs e cs (fun c hc => hcs c (by simp [hc])) _ b.name v hk j d (by simpa using hj) hn.symm
      | succ i =>
        rw [run] at hv ⊢
        simpa using ih _ (fun c hc => hcs c (by simp [hc])) i j (by omega) (by simpa using hi) (by simpa using hj) (by simpa using hv)

/-- The files of a name are read at most once without exception. -/
theorem C128_once (fs : Files α) (e : α) (cs : List Call) (hcs : ∀ c ∈ cs, c.once = true) (k : String) :
    reads (run fs e start cs).1.log k ≤ 1 := by
  suffices H : ∀ s : State α, reads s.log k = (if (known s k).isSome then 1 else 0) →
      reads (run fs e s cs).1.log k = (if (known (run fs e s cs).1 k).isSome then 1 else 0) by
    rw [H start rfl]; split <;> omega
  induction cs with
  | nil => intro s h; exact h
  | cons c cs ih =>
    intro s h
    rw [run]
    apply ih (fun c hc => hcs c (by simp [hc]))
    have hc := hcs c (by simp)
    obtain ⟨h1, h2, h3⟩ := read_known fs e s c hc
    cases hn : known s c.name with
    | some v => rw [(h1 v hn).2]; exact h
    | none =>
      obtain ⟨b, hb⟩ := h3 hn
      rw [hb]
      have hr : reads (s.log ++ [(b, c.name, (read fs e s c).2.isSome)]) k =
          reads s.log k + if c.name = k ∧ (read fs e s c).2.isSome = true then 1 else 0 := by
        unfold reads
        rw [List.filter_append, List.length_append]
        congr 1
        rw [List.filter_cons]
        by_cases hx : c.name = k ∧ (read fs e s c).2.isSome = true
        · rw [if_pos hx, if_pos (by simpa using hx)]; rfl
        · rw [if_neg hx, if_neg (by simpa using hx)]; rfl
      rw [hr, h]
      by_cases hk : k = c.name
      · subst hk
        rw [hn, h2]; simp
      · have : ¬(c.name = k ∧ (read fs e s c).2.isSome = true) := fun hx => hk hx.1.symm
        rw [known_other fs e s c k hk, if_neg this, Nat.add_zero]

/-! ### Examples and counterexamples -/

/-- Files for examples: the content names the directory and number of access; `broken` fails at first, `late` is missing at first. -/
private def sample : Files String := fun n b k _ =>
  if k = "broken" ∧ n = 0 then none else if k = "late" ∧ n = 0 then some (false, "") else some (true, b ++ "/" ++ k)

example : (run sample "" start [⟨"/a", "jail", true⟩, ⟨"/a", "filter", true⟩, ⟨"/a", "jail", true⟩]).2 =
    [some (true, "/a/jail"), some (true, "/a/filter"), some (true, "/a/jail")] := by decide +kernel

example : (run sample "" start [⟨"/a", "jail", true⟩, ⟨"/a", "filter", true⟩, ⟨"/a", "jail", true⟩]).1.log =
    [("/a", "jail", true), ("/a", "filter", true)] := by decide +kernel

-- tried again after an exception
example : (run sample "" start [⟨"/a", "broken", true⟩, ⟨"/a", "broken", true⟩]).2 = [none, some (true, "/a/broken")] := by decide +kernel

/-- A reader with another directory gets the configuration of the first one. -/
theorem C128_refuted_base : (run sample "" start [⟨"/a", "jail", true⟩, ⟨"/b", "jail", true⟩]).2 = [some (true, "/a/jail"), some (true, "/a/jail")] := by
  decide +kernel

/-- That files are missing is remembered too. -/
theorem C128_refuted_late : (run sample "" start [⟨"/a", "late", true⟩, ⟨"/a", "late", true⟩]).2 = [some (false, ""), some (false, "")] ∧
    sample 1 "/a" "late" "" = some (true, "/a/late") := by decide +kernel

end Verif.Share
