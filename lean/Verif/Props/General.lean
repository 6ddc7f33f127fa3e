import Verif.Spec.General
import Verif.Lemmas.ReaderOptions
import Verif.Props.Reader

/-! # C113: the settings of the server -/

namespace Verif.General

open Verif Verif.Reader Verif.GeneralSpec

/-! ## Sorting -/

def rank (n : String) : Nat := names.idxOf n

theorem order_iff (n : String) : (∃ i, order n = some i) ↔ n ∈ names := by
  unfold order names
  simp only [List.mem_cons, List.not_mem_nil, or_false]
  constructor
  · rintro ⟨i, h⟩
    repeat' (split at h)
    all_goals first | (simp_all; done) | (cases h)
  · rintro (h | h | h | h | h | h | h | h) <;> subst h <;> exact ⟨_, rfl⟩

def nameBefore (n m : String) : Bool :=
  decide ((order n).getD 0 < (order m).getD 0) || (decide ((order n).getD 0 = (order m).getD 0) && textLt n.toList m.toList)

theorem nameBefore_iff : ∀ n ∈ names, ∀ m ∈ names, nameBefore n m = decide (rank n < rank m) := by decide +kernel

theorem rank_inj : ∀ n ∈ names, ∀ m ∈ names, rank n = rank m → n = m := by decide +kernel

/-- Entries as `convert` makes them. -/
def Entry (x : Nat × Cmd) : Prop := order x.2.1 = some x.1

theorem Entry.mem {x : Nat × Cmd} (h : Entry x) : x.2.1 ∈ names := (order_iff _).mp ⟨_, h⟩

theorem before_iff {x y : Nat × Cmd} (hx : Entry x) (hy : Entry y) : before x y = decide (rank x.2.1 < rank y.2.1) := by
  rw [← nameBefore_iff _ hx.mem _ hy.mem]
  unfold before nameBefore
  rw [hx, hy]; rfl

def Sorted (l : List (Nat × Cmd)) : Prop := l.Pairwise (fun a b => rank a.2.1 < rank b.2.1)

theorem mem_insertSorted (x z : Nat × Cmd) : ∀ l, z ∈ insertSorted x l ↔ z = x ∨ z ∈ l := by
  intro l
  induction l with
  | nil => simp [insertSorted]
  | cons y l ih =>
    unfold insertSorted
    split
    · simp
    · simp only [List.mem_cons, ih]; grind

theorem sorted_insert {x : Nat × Cmd} (hx : Entry x) : ∀ l, (∀ y ∈ l, Entry y) → (∀ y ∈ l, y.2.1 ≠ x.2.1) → Sorted l → Sorted (insertSorted x l) := by
  intro l
  induction l with
  | nil => intro _ _ _; simp [insertSorted, Sorted]
  | cons y l ih =>
    intro he hne hs
    have hy := he y (by simp)
    unfold Sorted at hs
    rw [List.pairwise_cons] at hs
    unfold insertSorted
    split
    · rename_i hb
      rw [before_iff hx hy, decide_eq_true_iff] at hb
      refine List.pairwise_cons.mpr ⟨?_, List.pairwise_cons.mpr hs⟩
      intro z hz
      rcases List.mem_cons.mp hz with rfl | hz
      · exact hb
      · exact Nat.lt_trans hb (hs.1 z hz)
    · rename_i hb
      rw [before_iff hx hy, decide_eq_true_iff] at hb
      refine List.pairwise_cons.mpr ⟨?_, ih (fun z hz => he z (by simp [hz])) (fun z hz => hne z (by simp [hz])) hs.2⟩
      intro z hz
      rcases (mem_insertSorted x z l).mp hz with rfl | hz
      · have : rank y.2.1 ≠ rank z.2.1 := fun e => hne y (by simp) (rank_inj _ hy.mem _ hx.mem e)
        omega
      · exact hs.1 z hz

theorem sort_aux : ∀ (l acc : List (Nat × Cmd)), (∀ y ∈ l, Entry y) → (∀ y ∈ acc, Entry y) → (l.map (·.2.1)).Nodup → (∀ x ∈ l, ∀ y ∈ acc, y.2.1 ≠ x.2.1) → Sorted acc →
    Sorted (l.foldl (fun acc x => insertSorted x acc) acc) ∧ ∀ z, z ∈ l.foldl (fun acc x => insertSorted x acc) acc ↔ z ∈ l ∨ z ∈ acc := by
  intro l
  induction l with
  | nil => intro acc _ _ _ _ hs; exact ⟨hs, by simp⟩
  | cons x l ih =>
    intro acc hl ha hn hd hs
    rw [List.map_cons, List.nodup_cons] at hn
    have hx := hl x (by simp)
    have hi := sorted_insert hx acc ha (hd x (by simp)) hs
    obtain ⟨h1, h2⟩ := ih (insertSorted x acc) (fun y hy => hl y (by simp [hy]))
      (fun y hy => by
        rcases (mem_insertSorted x y acc).mp hy with rfl | hy
        · exact hx
        · exact ha y hy) hn.2
      (fun z hz y hy => by
        rcases (mem_insertSorted x y acc).mp hy with rfl | hy
        · intro e; exact hn.1 (e ▸ List.mem_map.mpr ⟨z, hz, rfl⟩)
        · exact hd z (by simp [hz]) y hy) hi
    refine ⟨h1, fun z => ?_⟩
    rw [List.foldl_cons, h2, mem_insertSorted, List.mem_cons]
    grind

/-- Lists in strict order with the same members are the same. -/
theorem sorted_ext {α : Type} (r : α → Nat) : ∀ (a b : List α), a.Pairwise (fun x y => r x < r y) → b.Pairwise (fun x y => r x < r y) → (∀ x, x ∈ a ↔ x ∈ b) → a = b := by
  intro a
  induction a with
  | nil =>
    intro b _ _ h
    cases b with
    | nil => rfl
    | cons y b => exact absurd ((h y).mpr (by simp)) (by simp)
  | cons x a ih =>
    intro b ha hb h
    cases b with
    | nil => exact absurd ((h x).mp (by simp)) (by simp)
    | cons y b =>
      rw [List.pairwise_cons] at ha hb
      have e : x = y := by
        rcases List.mem_cons.mp ((h x).mp (by simp)) with e | h1
        · exact e
        · rcases List.mem_cons.mp ((h y).mpr (by simp)) with e | h2
          · exact e.symm
          · have := ha.1 y h2
            have := hb.1 x h1
            omega
      subst e
      rw [ih b ha.2 hb.2 (fun z => ?_)]
      have hz := h z
      simp only [List.mem_cons] at hz
      constructor
      · intro m
        rcases hz.mp (Or.inr m) with rfl | m'
        · exact absurd (ha.1 z m) (Nat.lt_irrefl _)
        · exact m'
      · intro m
        rcases hz.mpr (Or.inr m) with rfl | m'
        · exact absurd (hb.1 z m) (Nat.lt_irrefl _)
        · exact m'

theorem settings_sorted : names.Pairwise (fun a b => rank a < rank b) := by decide +kernel

/-- The commands: every setting that has a value, once, in the order of `GeneralSpec.names`; nothing else. -/
theorem C113_convert (o : GOpts) : convert o = names.filterMap (fun k => (o.get? k).map (fun v => (k, v))) := by
  have hent : ∀ y ∈ o.items.filterMap (fun kv => (order kv.1).map (fun n => (n, kv))), Entry y := by
    intro y hy
    obtain ⟨kv, _, e⟩ := List.mem_filterMap.mp hy
    obtain ⟨n, hn, rfl⟩ := Option.map_eq_some_iff.mp e
    exact hn
  have hnd : ((o.items.filterMap (fun kv => (order kv.1).map (fun n => (n, kv)))).map (·.2.1)).Nodup := by
    have e : (o.items.filterMap (fun kv => (order kv.1).map (fun n => (n, kv)))).map (·.2.1) = (o.items.map Prod.fst).filter (fun k => (order k).isSome) := by
      rw [List.map_filterMap, List.filter_map, ← List.filterMap_eq_filter, List.map_filterMap]
      congr 1
      funext kv
      cases h : order kv.1 <;> simp [h, Option.guard]
    rw [e]
    exact List.Sublist.nodup List.filter_sublist o.nodup
  obtain ⟨h1, h2⟩ := sort_aux _ [] hent (by simp) hnd (by simp) List.Pairwise.nil
  refine sorted_ext (fun c => rank c.1) _ _ ?_ ?_ ?_
  · exact List.pairwise_map.mpr h1
  · rw [List.pairwise_filterMap]
    refine settings_sorted.imp ?_
    intro a b hab x hx y hy
    obtain ⟨v, _, rfl⟩ := Option.map_eq_some_iff.mp hx
    obtain ⟨w, _, rfl⟩ := Option.map_eq_some_iff.mp hy
    exact hab
  · rintro ⟨k, v⟩
    unfold convert sort
    rw [List.mem_map, List.mem_filterMap]
    constructor
    · rintro ⟨x, hx, e⟩
      have hm := (h2 x).mp hx
      simp only [List.not_mem_nil, or_false] at hm
      have hs := (hent x hm).mem
      obtain ⟨kv, hkv, e'⟩ := List.mem_filterMap.mp hm
      obtain ⟨n, hn, rfl⟩ := Option.map_eq_some_iff.mp e'
      cases e
      exact ⟨k, hs, by rw [(Dict.get?_eq_some_iff o k v).mpr hkv]; rfl⟩
    · rintro ⟨k', hk, e⟩
      obtain ⟨w, hw, e'⟩ := Option.map_eq_some_iff.mp e
      cases e'
      obtain ⟨i, hi⟩ := (order_iff k).mpr hk
      exact ⟨(i, (k, v)), (h2 _).mpr (Or.inl (List.mem_filterMap.mpr ⟨(k, v), (Dict.get?_eq_some_iff o k v).mp hw, by rw [hi]; rfl⟩)), rfl⟩

/-! ## Values -/

theorem lift_get? (o : Opts) (k : String) : (lift o).get? k = (o.get? k).map .val := by
  show Dict.lookup k (o.items.map _) = (Dict.lookup k o.items).map _
  induction o.items with
  | nil => rfl
  | cons kv l ih =>
    simp only [List.map_cons, Dict.lookup]
    split
    · rfl
    · exact ih

theorem isSetting_mem {k : String} {t : Kind} {d : Option Val} (h : IsSetting k t d) : (⟨k, t, d⟩ : Template) ∈ mainTemplates := by
  cases h <;> decide +kernel

theorem isSetting_of {k : String} (h : k ∈ names) (hk : k ≠ "thread") : ∃ t d, IsSetting k t d := by
  unfold names at h
  simp only [List.mem_cons, List.not_mem_nil, or_false] at h
  rcases h with h | h | h | h | h | h | h | h <;> subst h
  · exact absurd rfl hk
  · exact ⟨_, _, .syslogsocket⟩
  · exact ⟨_, _, .loglevel⟩
  · exact ⟨_, _, .logtarget⟩
  · exact ⟨_, _, .allowipv6⟩
  · exact ⟨_, _, .dbfile⟩
  · exact ⟨_, _, .dbmaxmatches⟩
  · exact ⟨_, _, .dbpurgeage⟩

theorem isSetting_ne {k : String} {t : Kind} {d : Option Val} (h : IsSetting k t d) : k ≠ "thread" := by
  cases h <;> decide +kernel

theorem templates_inj : ∀ a ∈ mainTemplates, ∀ b ∈ mainTemplates, a.name = b.name → a = b := by decide +kernel

theorem isSetting_unique {k : String} {t t' : Kind} {d d' : Option Val} (h : IsSetting k t d) (h' : IsSetting k t' d') : t = t' ∧ d = d' := by
  have e := templates_inj _ (isSetting_mem h) _ (isSetting_mem h') rfl
  injection e with _ h1 h2
  exact ⟨h1, h2⟩

theorem main_value {env : Reader.Env} {src : Src} {update o : Opts} (h : Reader.getOptions env src.get (fun _ => false) false true mainTemplates Dict.empty = some o)
    {k : String} (hk : k ∈ names) (ht : k ≠ "thread") : Value env src update k (((merge o update).get? k).map .val) := by
  obtain ⟨t, d, hs⟩ := isSetting_of hk ht
  have hr := (C67_options (by decide +kernel) h).1 _ (isSetting_mem hs)
  rw [merge_get?]
  cases hu : update.get? k with
  | some v => exact .given k t d v hs hu
  | none => exact .read k t d _ hs hu hr

theorem main_thread {env : Reader.Env} {src : Src} {update o : Opts} (h : Reader.getOptions env src.get (fun _ => false) false true mainTemplates Dict.empty = some o)
    (hu : update.get? "thread" = none) : (merge o update).get? "thread" = none := by
  rw [merge_get?, hu]
  refine (Dict.get?_eq_none_iff o _).mpr (fun hm => ?_)
  exact absurd ((C67_options (by decide +kernel) h).2 _ hm) (by decide +kernel)

/-- Options of `[Thread]`: `stacksize` or nothing. -/
theorem thread_items {env : Reader.Env} {get : String → Got} {t : Opts} (h : Reader.getOptions env get (fun _ => false) false true threadTemplates Dict.empty = some t) :
    (∃ v, t.items = [("stacksize", v)] ∧ ReaderSpec.Reads env get (fun _ => false) true ⟨"stacksize", .int, none⟩ (some v)) ∨
      (t.items = [] ∧ ReaderSpec.Reads env get (fun _ => false) true ⟨"stacksize", .int, none⟩ none) := by
  have hr := (C67_options (by decide +kernel) h).1 ⟨"stacksize", .int, none⟩ (by decide +kernel)
  have hi : ∀ v, ((Dict.empty : Opts).insert "stacksize" v).items = [("stacksize", v)] := fun _ => rfl
  have : (∃ v, t = (Dict.empty : Opts).insert "stacksize" v) ∨ t = Dict.empty := by
    simp only [threadTemplates, getOptions, readOpt, Option.bind_eq_some_iff] at h
    obtain ⟨a, ha, hb⟩ := h
    cases hb
    grind
  rcases this with ⟨v, rfl⟩ | rfl
  · refine Or.inl ⟨v, hi v, ?_⟩
    simpa using hr
  · exact Or.inr ⟨rfl, by simpa using hr⟩

/-- Every setting has the value of the command line, of fail2ban.conf, or the default. -/
theorem C113_value {env : Reader.Env} {level : Option (Option Val) → Bool} {src : Src} {update : Opts} {o : GOpts} (h : getMain env level src update = some o)
    (hu : update.get? "thread" = none) : ∀ k ∈ names, Value env src update k (o.get? k) := by
  intro k hk
  unfold getMain at h
  split at h
  · cases h
  · rename_i o' ho
    simp only at h
    split at h
    · split at h
      · rename_i hth
        cases h
        rw [lift_get?]
        by_cases ht : k = "thread"
        · subst ht; rw [main_thread ho hu]; exact .noThread hth
        · exact main_value ho hk ht
      · rename_i get hth
        split at h
        · cases h
        · rename_i t htt
          cases h
          rcases thread_items htt with ⟨v, hv, hr⟩ | ⟨hv, hr⟩
          · rw [hv, if_neg (by simp), Dict.get?_insert]
            split
            · rename_i e; subst e; exact .stack get v t hth hr hv
            · rename_i ht; rw [lift_get?]; exact main_value ho hk ht
          · rw [hv, if_pos List.isEmpty_nil, lift_get?]
            by_cases ht : k = "thread"
            · subst ht; rw [main_thread ho hu]; exact .noStack get hth hr
            · exact main_value ho hk ht
    · cases h

/-- The value is unique. -/
theorem C113_unique {env : Reader.Env} {src : Src} {update : Opts} {k : String} {x y : Option GVal} (hx : Value env src update k x) (hy : Value env src update k y) : x = y := by
  cases hx with
  | given k t d v hs hg =>
    cases hy with
    | given _ t' d' v' hs' hg' => rw [hg] at hg'; cases hg'; rfl
    | read _ t' d' x' hs' hg' => rw [hg] at hg'; cases hg'
    | noThread => exact absurd rfl (isSetting_ne hs)
    | noStack => exact absurd rfl (isSetting_ne hs)
    | stack => exact absurd rfl (isSetting_ne hs)
  | read k t d x hs hg hr =>
    cases hy with
    | given _ t' d' v' hs' hg' => rw [hg] at hg'; cases hg'
    | read _ t' d' x' hs' hg' hr' =>
      obtain ⟨rfl, rfl⟩ := isSetting_unique hs hs'
      rw [C67_unique hr hr']
    | noThread => exact absurd rfl (isSetting_ne hs)
    | noStack => exact absurd rfl (isSetting_ne hs)
    | stack => exact absurd rfl (isSetting_ne hs)
  | noThread h =>
    cases hy with
    | given _ _ _ _ hs => exact absurd rfl (isSetting_ne hs)
    | read _ _ _ _ hs => exact absurd rfl (isSetting_ne hs)
    | noThread => rfl
    | noStack => rfl
    | stack get v o h' => rw [h] at h'; cases h'
  | noStack get h hr =>
    cases hy with
    | given _ _ _ _ hs => exact absurd rfl (isSetting_ne hs)
    | read _ _ _ _ hs => exact absurd rfl (isSetting_ne hs)
    | noThread => rfl
    | noStack => rfl
    | stack get' v o h' hr' => rw [h] at h'; cases h'; cases C67_unique hr hr'
  | stack get v o h hr ho =>
    cases hy with
    | given _ _ _ _ hs => exact absurd rfl (isSetting_ne hs)
    | read _ _ _ _ hs => exact absurd rfl (isSetting_ne hs)
    | noThread h' => rw [h] at h'; cases h'
    | noStack get' h' hr' => rw [h] at h'; cases h'; cases C67_unique hr hr'
    | stack get' v' o' h' hr' ho' =>
      rw [h] at h'; cases h'
      cases C67_unique hr hr'
      rw [Dict.ext' (ho.trans ho'.symm)]

/-- Only a wrong log level is an error. -/
theorem C113_raises (env : Reader.Env) (level : Option (Option Val) → Bool) (src : Src) (update : Opts) :
    getMain env level src update = none ↔ ∀ x, Value env src update "loglevel" (x.map .val) → level x = false := by
  obtain ⟨o, ho⟩ := getOptions_isSome (env := env) (get := src.get) (given := fun _ => false) (se := false) (conv := true) (by simp) mainTemplates Dict.empty
  have hv := main_value (update := update) ho (k := "loglevel") (by decide +kernel) (by decide +kernel)
  have inj : ∀ x y : Option (Option Val), x.map GVal.val = y.map .val → x = y := by
    intro x y e; cases x <;> cases y <;> simp_all
  have key : (∀ x, Value env src update "loglevel" (x.map .val) → level x = false) ↔ level ((merge o update).get? "loglevel") = false :=
    ⟨fun h => h _ hv, fun h x hx => by rw [inj _ _ (C113_unique hx hv)]; exact h⟩
  rw [key]
  unfold getMain
  rw [ho]
  simp only
  cases level ((merge o update).get? "loglevel") with
  | false => simp
  | true =>
    rw [if_pos rfl]
    cases src.thread with
    | none => simp
    | some get =>
      obtain ⟨t, htt⟩ := getOptions_isSome (env := env) (get := get) (given := fun _ => false) (se := false) (conv := true) (by simp) threadTemplates Dict.empty
      simp [htt]

/-! ## Jails -/

theorem jailsLoop_spec : ∀ (secs : List (String × Sec)) (st : Nat),
    ((jailsLoop st secs).1.testBit 0 = true ↔ st.testBit 0 = true ∨ ∃ s ∈ secs, isJail s ∧ s.2 = .good) ∧
    ((jailsLoop st secs).1.testBit 1 = true ↔ st.testBit 1 = true ∨ ∃ s ∈ secs, isJail s ∧ s.2 = .wrong) ∧
      (jailsLoop st secs).2 = secs.filter (fun s => decide (s.1 ≠ "INCLUDES" ∧ s.2 ≠ .disabled)) := by
  intro secs
  induction secs with
  | nil => intro st; simp [jailsLoop]
  | cons s secs ih =>
    intro st
    obtain ⟨n, r⟩ := s
    have b1 : Nat.testBit 1 0 = true ∧ Nat.testBit 1 1 = false := by decide
    have b2 : Nat.testBit 2 0 = false ∧ Nat.testBit 2 1 = true := by decide
    unfold jailsLoop
    by_cases hn : n = "INCLUDES"
    · rw [if_pos hn]
      obtain ⟨h1, h2, h3⟩ := ih st
      rw [h1, h2, h3]
      simp [isJail, hn]
    · rw [if_neg hn]
      cases r
      · obtain ⟨h1, h2, h3⟩ := ih st
        simp only
        rw [h1, h2, h3]
        simp [isJail, hn]
      · obtain ⟨h1, h2, h3⟩ := ih (st ||| 1)
        simp only
        rw [h1, h2, h3, Nat.testBit_or, Nat.testBit_or, b1.1, b1.2]
        simp [isJail, hn]
      · obtain ⟨h1, h2, h3⟩ := ih (st ||| 2)
        simp only
        rw [h1, h2, h3, Nat.testBit_or, Nat.testBit_or, b2.1, b2.2]
        simp [isJail, hn]

theorem and_bit (x i : Nat) : x &&& 2 ^ i = 0 ↔ x.testBit i = false := by
  constructor
  · intro h
    have e := congrArg (fun n => n.testBit i) h
    simpa [Nat.testBit_and, Nat.testBit_two_pow] using e
  · intro h
    refine Nat.eq_of_testBit_eq (fun j => ?_)
    rw [Nat.testBit_and, Nat.testBit_two_pow, Nat.zero_testBit]
    by_cases e : i = j
    · subst e; simp [h]
    · simp [e]

/-- The jails are all sections but `INCLUDES` that are enabled or wrong, in order. Reading succeeds if nothing is wrong, or if wrong jails are to be ignored and one is right. -/
theorem C113_jails (ignoreWrong : Bool) (secs : List (String × Sec)) :
    (getJails ignoreWrong secs).2 = secs.filter (fun s => decide (s.1 ≠ "INCLUDES" ∧ s.2 ≠ .disabled)) ∧
      ((getJails ignoreWrong secs).1 = true ↔ (∀ s ∈ secs, isJail s → s.2 ≠ .wrong) ∨ (ignoreWrong = true ∧ ∃ s ∈ secs, isJail s ∧ s.2 = .good)) := by
  obtain ⟨h0, h1, h2⟩ := jailsLoop_spec secs 0
  refine ⟨h2, ?_⟩
  have hw : (∀ s ∈ secs, isJail s → s.2 ≠ .wrong) ↔ ¬∃ s ∈ secs, isJail s ∧ s.2 = .wrong := by grind
  have z : ∀ i, Nat.testBit 0 i = false := Nat.zero_testBit
  rw [z] at h0 h1
  simp only [Bool.false_eq_true, false_or] at h0 h1
  have a0 := and_bit (jailsLoop 0 secs).1 0
  have a1 := and_bit (jailsLoop 0 secs).1 1
  rw [show 2 ^ 0 = 1 from rfl] at a0
  rw [show 2 ^ 1 = 2 from rfl] at a1
  rw [hw, ← h0, ← h1]
  unfold getJails
  simp only [Bool.or_eq_true, Bool.and_eq_true, decide_eq_true_eq, ne_eq, a0, a1, Bool.not_eq_false, Bool.not_eq_true]
  exact or_comm

/-! ## Everything -/

/-- There are commands if and only if both files are read and nothing raises an exception, whether or not the result is good; the settings of the server come first. -/
theorem C113_config {α : Type} (readMain readJails : Bool) (main : Option GOpts) (jails : Option (Bool × Option (List α))) :
    (∀ ret l, readConfig readMain readJails main jails = (ret, some l) ↔
      readMain = true ∧ readJails = true ∧ ∃ o j, main = some o ∧ jails = some (ret, some j) ∧
        l = (names.filterMap (fun k => (o.get? k).map (fun v => (k, v)))).map .inl ++ j.map .inr) ∧
    ∀ ret, readConfig readMain readJails main jails = (ret, none) → ret = false := by
  unfold readConfig configStream
  simp only [C113_convert]
  constructor
  · intro ret l
    cases readMain <;> cases readJails <;> rcases main with _ | o <;> rcases jails with _ | ⟨r, _ | j⟩ <;> simp
    grind
  · intro ret
    cases readMain <;> cases readJails <;> rcases main with _ | o <;> rcases jails with _ | ⟨r, _ | j⟩ <;> simp_all

/-! ## The server -/

theorem stream_append (e : SrvEnv) : ∀ (a b : List Cmd) (db db' : Option Db), stream e db a = (db', none) →
    stream e db (a ++ b) = ((stream e db' b).1, (stream e db' b).2.map (· + a.length)) := by
  intro a
  induction a with
  | nil => intro b db db' h; cases h; simp
  | cons c a ih =>
    intro b db db' h
    simp only [stream] at h
    simp only [List.cons_append, stream]
    cases hc : apply e db c with
    | none => rw [hc] at h; cases h
    | some d =>
      rw [hc] at h
      simp only [Prod.mk.injEq, Option.map_eq_none_iff] at h
      have := ih b d db' (Prod.ext h.1 h.2)
      simp only [this, Option.map_map, List.length_cons]
      congr 2

theorem stream_append_iff (e : SrvEnv) : ∀ (a b : List Cmd) (db r : Option Db),
    stream e db (a ++ b) = (r, none) ↔ ∃ m, stream e db a = (m, none) ∧ stream e m b = (r, none) := by
  intro a
  induction a with
  | nil => intro b db r; simp [stream]
  | cons c a ih =>
    intro b db r
    simp only [List.cons_append, stream]
    cases apply e db c with
    | none => simp
    | some d =>
      simp only [Prod.mk.injEq, Option.map_eq_none_iff]
      have := ih b d r
      rw [Prod.ext_iff] at this
      simp only [this, Prod.ext_iff]

theorem toInt_iff (e : SrvEnv) (v : Option Val) (i : Int) : toInt e v = some i ↔ IsInt e v i := by
  constructor
  · intro h
    rcases v with _ | (s | j | b)
    · cases h
    · exact .text s i h
    · cases h; exact .int i
    · cases b <;> cases h
      · exact .no
      · exact .yes
  · intro h
    cases h with
    | int => rfl
    | text s i h => exact h
    | yes => rfl
    | no => rfl

theorem threadOk_iff (e : SrvEnv) : ∀ l, threadOk e l = true ↔ ∀ k v, (k, v) ∈ l → k = "stacksize" ∧ ∃ i, IsInt e v i ∧ e.stack (i * 1024) = true := by
  intro l
  induction l with
  | nil => simp [threadOk]
  | cons kv l ih =>
    obtain ⟨k, v⟩ := kv
    unfold threadOk
    split
    · rename_i hk
      subst hk
      split
      · rename_i i hi
        rw [Bool.and_eq_true, ih]
        constructor
        · rintro ⟨h1, h2⟩ k' v' hm
          rcases List.mem_cons.mp hm with h | h
          · cases h; exact ⟨rfl, i, (toInt_iff ..).mp hi, h1⟩
          · exact h2 k' v' h
        · intro h
          refine ⟨?_, fun k' v' hm => h k' v' (List.mem_cons_of_mem _ hm)⟩
          obtain ⟨_, j, hj, hs⟩ := h _ _ (List.mem_cons_self ..)
          rw [(toInt_iff ..).mpr hj] at hi
          cases hi; exact hs
      · rename_i hi
        constructor
        · intro h; cases h
        · intro h
          obtain ⟨_, j, hj, _⟩ := h _ _ (List.mem_cons_self ..)
          rw [(toInt_iff ..).mpr hj] at hi
          cases hi
    · rename_i hk
      constructor
      · intro h; cases h
      · intro h; exact absurd (h _ _ (List.mem_cons_self ..)).1 hk

theorem apply_other (e : SrvEnv) (db r : Option Db) (c : Cmd) (h1 : c.1 ≠ "dbfile") (h2 : c.1 ≠ "dbmaxmatches") (h3 : c.1 ≠ "dbpurgeage") :
    apply e db c = some r ↔ r = db ∧ Accepted e c.1 c.2 := by
  obtain ⟨k, v⟩ := c
  simp only at h1 h2 h3
  unfold apply
  simp only [h1, h2, h3, if_false]
  split
  · rename_i hk
    subst hk
    cases v with
    | thread o =>
      simp only
      split
      · rename_i h
        constructor
        · intro e'; cases e'; exact ⟨rfl, .thread o ((threadOk_iff ..).mp h)⟩
        · rintro ⟨rfl, _⟩; rfl
      · rename_i h
        constructor
        · intro e'; cases e'
        · rintro ⟨_, ha⟩
          cases ha with
          | thread _ ha => exact absurd ((threadOk_iff ..).mpr ha) h
          | other _ _ hn => exact absurd rfl hn
    | val v =>
      constructor
      · intro e'; cases e'
      · rintro ⟨_, ha⟩
        cases ha with
        | other _ _ hn => exact absurd rfl hn
  · rename_i hk
    split
    · rename_i h
      constructor
      · intro e'; cases e'; exact ⟨rfl, .other k v hk h⟩
      · rintro ⟨rfl, _⟩; rfl
    · rename_i h
      constructor
      · intro e'; cases e'
      · rintro ⟨_, ha⟩
        cases ha with
        | thread => exact absurd rfl hk
        | other _ _ _ ha => exact absurd ha h

theorem stream_other (e : SrvEnv) : ∀ (l : List Cmd) (db r : Option Db), (∀ c ∈ l, c.1 ≠ "dbfile" ∧ c.1 ≠ "dbmaxmatches" ∧ c.1 ≠ "dbpurgeage") →
    (stream e db l = (r, none) ↔ r = db ∧ ∀ c ∈ l, Accepted e c.1 c.2) := by
  intro l
  induction l with
  | nil => intro db r _; simp [stream, eq_comm]
  | cons c l ih =>
    intro db r hl
    obtain ⟨h1, h2, h3⟩ := hl c (List.mem_cons_self ..)
    have ha := fun r => apply_other e db r c h1 h2 h3
    simp only [stream]
    cases hc : apply e db c with
    | none =>
      simp only [List.mem_cons, forall_eq_or_imp]
      constructor
      · intro h; cases h
      · rintro ⟨_, h, _⟩
        rw [(ha db).mpr ⟨rfl, h⟩] at hc
        cases hc
    | some d =>
      obtain ⟨rfl, hacc⟩ := (ha d).mp hc
      have := ih d r (fun c hc => hl c (List.mem_cons_of_mem _ hc))
      rw [Prod.ext_iff] at this
      simp only [Prod.mk.injEq, Option.map_eq_none_iff, List.mem_cons, forall_eq_or_imp, hacc, true_and]
      exact this

/-- Settings that are not for the database. -/
def early : List String := ["thread", "syslogsocket", "loglevel", "logtarget", "allowipv6"]

def cmd (o : GOpts) (k : String) : Option Cmd := (o.get? k).map (fun v => (k, v))

theorem convert_split (o : GOpts) : convert o = early.filterMap (cmd o) ++ (["dbfile"].filterMap (cmd o) ++ (["dbmaxmatches"].filterMap (cmd o) ++ ["dbpurgeage"].filterMap (cmd o))) := by
  rw [C113_convert, ← List.filterMap_append, ← List.filterMap_append, ← List.filterMap_append]
  rfl

theorem early_stream (e : SrvEnv) (o : GOpts) (db r : Option Db) :
    stream e db (early.filterMap (cmd o)) = (r, none) ↔ r = db ∧ ∀ k ∈ early, ∀ v, o.get? k = some v → Accepted e k v := by
  rw [stream_other]
  · refine and_congr_right (fun _ => ?_)
    constructor
    · intro h k hk v hv
      exact h (k, v) (List.mem_filterMap.mpr ⟨k, hk, by unfold cmd; rw [hv]; rfl⟩)
    · intro h c hc
      obtain ⟨k, hk, hm⟩ := List.mem_filterMap.mp hc
      obtain ⟨v, hv, rfl⟩ := Option.map_eq_some_iff.mp hm
      exact h k hk v hv
  · intro c hc
    obtain ⟨k, hk, hm⟩ := List.mem_filterMap.mp hc
    obtain ⟨v, hv, rfl⟩ := Option.map_eq_some_iff.mp hm
    exact (by decide +kernel : ∀ k ∈ early, k ≠ "dbfile" ∧ k ≠ "dbmaxmatches" ∧ k ≠ "dbpurgeage") k hk

theorem stream_one (e : SrvEnv) (db r : Option Db) (c : Cmd) : stream e db [c] = (r, none) ↔ apply e db c = some r := by
  simp only [stream]
  cases apply e db c <;> simp

theorem file_stream (e : SrvEnv) (o : GOpts) {f : Str} (hf : o.get? "dbfile" = some (.val (some (.str f)))) (r : Option Db) :
    stream e none (["dbfile"].filterMap (cmd o)) = (r, none) ↔
      (e.lower f = "none".toList ∧ r = none) ∨ (e.lower f ≠ "none".toList ∧ e.opens f = true ∧ r = some (freshDb f)) := by
  have : ["dbfile"].filterMap (cmd o) = [("dbfile", .val (some (.str f)))] := by
    simp only [List.filterMap_cons, List.filterMap_nil, cmd, hf, Option.map_some]
  rw [this, stream_one]
  have ha : apply e none ("dbfile", .val (some (.str f))) = if e.lower f = "none".toList then some none else if e.opens f then some (some (freshDb f)) else none := rfl
  rw [ha]
  by_cases h1 : e.lower f = "none".toList
  · rw [if_pos h1]; simp only [h1, true_and, ne_eq, not_true_eq_false, false_and, or_false, Option.some.injEq]; exact eq_comm
  · rw [if_neg h1]
    by_cases h2 : e.opens f = true
    · rw [if_pos h2]; simp only [h1, h2, false_and, false_or, ne_eq, not_false_eq_true, true_and, Option.some.injEq]; exact eq_comm
    · rw [if_neg h2]; simp only [h1, h2, false_and, and_false, or_false, reduceCtorEq]

theorem max_none (e : SrvEnv) (o : GOpts) (r : Option Db) : stream e none (["dbmaxmatches"].filterMap (cmd o)) = (r, none) ↔ r = none := by
  cases h : o.get? "dbmaxmatches" with
  | none => simp only [List.filterMap_cons, List.filterMap_nil, cmd, h, Option.map_none, stream, Prod.mk.injEq, and_true]; exact eq_comm
  | some v =>
    simp only [List.filterMap_cons, List.filterMap_nil, cmd, h, Option.map_some, stream_one]
    rw [show apply e none ("dbmaxmatches", v) = some none from rfl, Option.some.injEq]; exact eq_comm

theorem age_none (e : SrvEnv) (o : GOpts) (r : Option Db) : stream e none (["dbpurgeage"].filterMap (cmd o)) = (r, none) ↔ r = none := by
  cases h : o.get? "dbpurgeage" with
  | none => simp only [List.filterMap_cons, List.filterMap_nil, cmd, h, Option.map_none, stream, Prod.mk.injEq, and_true]; exact eq_comm
  | some v =>
    simp only [List.filterMap_cons, List.filterMap_nil, cmd, h, Option.map_some, stream_one]
    rw [show apply e none ("dbpurgeage", v) = some none from rfl, Option.some.injEq]; exact eq_comm

theorem max_some (e : SrvEnv) (o : GOpts) (f : Str) (a : Int) (r : Option Db) :
    stream e (some ⟨f, 10, a⟩) (["dbmaxmatches"].filterMap (cmd o)) = (r, none) ↔ ∃ m, KeptMatches e (o.get? "dbmaxmatches") m ∧ r = some ⟨f, m, a⟩ := by
  cases h : o.get? "dbmaxmatches" with
  | none =>
    simp only [List.filterMap_cons, List.filterMap_nil, cmd, h, Option.map_none, stream, Prod.mk.injEq, and_true]
    constructor
    · intro e'; exact ⟨10, .default, e'.symm⟩
    · rintro ⟨m, hm, rfl⟩; cases hm; rfl
  | some v =>
    simp only [List.filterMap_cons, List.filterMap_nil, cmd, h, Option.map_some, stream_one]
    cases v with
    | thread t =>
      rw [show apply e (some ⟨f, 10, a⟩) ("dbmaxmatches", .thread t) = none from rfl]
      constructor
      · intro e'; cases e'
      · rintro ⟨m, hm, _⟩; cases hm
    | val v =>
      rw [show apply e (some ⟨f, 10, a⟩) ("dbmaxmatches", .val v) = (toInt e v).map (fun i => some ⟨f, i, a⟩) from rfl, Option.map_eq_some_iff]
      constructor
      · rintro ⟨i, hi, rfl⟩; exact ⟨i, .set v i ((toInt_iff ..).mp hi), rfl⟩
      · rintro ⟨m, hm, rfl⟩
        cases hm with
        | set _ _ hi => exact ⟨m, (toInt_iff ..).mpr hi, rfl⟩

theorem age_some (e : SrvEnv) (o : GOpts) (f : Str) (m : Int) (r : Option Db) :
    stream e (some ⟨f, m, 86400⟩) (["dbpurgeage"].filterMap (cmd o)) = (r, none) ↔ ∃ a, Age e (o.get? "dbpurgeage") a ∧ r = some ⟨f, m, a⟩ := by
  cases h : o.get? "dbpurgeage" with
  | none =>
    simp only [List.filterMap_cons, List.filterMap_nil, cmd, h, Option.map_none, stream, Prod.mk.injEq, and_true]
    constructor
    · intro e'; exact ⟨86400, .default, e'.symm⟩
    · rintro ⟨a, ha, rfl⟩; cases ha; rfl
  | some v =>
    simp only [List.filterMap_cons, List.filterMap_nil, cmd, h, Option.map_some, stream_one]
    rcases v with (_ | (s | i | b)) | t
    · rw [show apply e (some ⟨f, m, 86400⟩) ("dbpurgeage", .val none) = none from rfl]
      exact ⟨fun h => (by cases h), fun ⟨_, h, _⟩ => (by cases h)⟩
    · rw [show apply e (some ⟨f, m, 86400⟩) ("dbpurgeage", .val (some (.str s))) = (e.seconds s).map (fun i => some ⟨f, m, i⟩) from rfl, Option.map_eq_some_iff]
      constructor
      · rintro ⟨i, hi, rfl⟩; exact ⟨i, .text s i hi, rfl⟩
      · rintro ⟨a, ha, rfl⟩
        cases ha with
        | text _ _ hi => exact ⟨a, hi, rfl⟩
    · rw [show apply e (some ⟨f, m, 86400⟩) ("dbpurgeage", .val (some (.int i))) = some (some ⟨f, m, i⟩) from rfl, Option.some.injEq]
      constructor
      · rintro rfl; exact ⟨i, .int i, rfl⟩
      · rintro ⟨a, ha, rfl⟩; cases ha; rfl
    · rw [show apply e (some ⟨f, m, 86400⟩) ("dbpurgeage", .val (some (.bool b))) = some (some ⟨f, m, if b then 1 else 0⟩) from rfl, Option.some.injEq]
      constructor
      · rintro rfl
        cases b
        · exact ⟨0, .no, rfl⟩
        · exact ⟨1, .yes, rfl⟩
      · rintro ⟨a, ha, rfl⟩; cases ha <;> rfl
    · rw [show apply e (some ⟨f, m, 86400⟩) ("dbpurgeage", .thread t) = none from rfl]
      exact ⟨fun h => (by cases h), fun ⟨_, h, _⟩ => (by cases h)⟩

/-- The commands on a server that has just started: they succeed if and only if all values are accepted, and then the database is the one asked for, with both settings of it in effect. -/
theorem C113_server (e : SrvEnv) (o : GOpts) {f : Str} (hf : o.get? "dbfile" = some (.val (some (.str f)))) (r : Option Db) :
    stream e none (convert o) = (r, none) ↔
      (∀ k ∈ ["thread", "syslogsocket", "loglevel", "logtarget", "allowipv6"], ∀ v, o.get? k = some v → Accepted e k v) ∧
        Opened e f (o.get? "dbmaxmatches") (o.get? "dbpurgeage") r := by
  rw [convert_split, stream_append_iff]
  simp only [early_stream, stream_append_iff]
  constructor
  · rintro ⟨_, ⟨rfl, h0⟩, _, hfile, _, hmax, hage⟩
    refine ⟨h0, ?_⟩
    rcases (file_stream e o hf _).mp hfile with ⟨hl, rfl⟩ | ⟨hl, ho, rfl⟩
    · rw [(max_none ..).mp hmax] at hage
      rw [(age_none ..).mp hage]
      exact .off hl
    · obtain ⟨m, hm, rfl⟩ := (max_some e o f 86400 _).mp hmax
      obtain ⟨a, ha, rfl⟩ := (age_some e o f m _).mp hage
      exact .on m a hl ho hm ha
  · rintro ⟨h0, h⟩
    refine ⟨none, ⟨rfl, h0⟩, ?_⟩
    cases h with
    | off hl => exact ⟨none, (file_stream e o hf _).mpr (Or.inl ⟨hl, rfl⟩), none, (max_none ..).mpr rfl, (age_none ..).mpr rfl⟩
    | on m a hl ho hm ha => exact ⟨some (freshDb f), (file_stream e o hf _).mpr (Or.inr ⟨hl, ho, rfl⟩), some ⟨f, m, 86400⟩, (max_some e o f 86400 _).mpr ⟨m, hm, rfl⟩, (age_some e o f m _).mpr ⟨a, ha, rfl⟩⟩

/-! ## Wrong numbers -/

/-- A wrong number, or no `[Definition]` at all, is not left out: `None` is sent. -/
theorem C113_none {env : Reader.Env} {level : Option (Option Val) → Bool} {src : Src} {update : Opts} {o : GOpts} (h : getMain env level src update = some o)
    (hu : update.get? "thread" = none) (hm : update.get? "dbmaxmatches" = none)
    (hw : (∃ v, src.get "dbmaxmatches" = .value v ∧ env.toInt v = none) ∨ src.get "dbmaxmatches" = .noSection) : ("dbmaxmatches", .val none) ∈ convert o := by
  have hv := C113_value h hu "dbmaxmatches" (by decide +kernel)
  have hx : Value env src update "dbmaxmatches" (some (.val none)) := by
    refine .read "dbmaxmatches" .int none (some none) .dbmaxmatches hm ?_
    rcases hw with ⟨v, hg, hi⟩ | hg
    · refine .wrong v rfl hg rfl ?_
      intro x hx
      cases hx with
      | int _ i h' => rw [hi] at h'; cases h'
    · exact .noSection rfl hg
  rw [C113_convert]
  exact List.mem_filterMap.mpr ⟨"dbmaxmatches", by decide +kernel, by rw [C113_unique hv hx]; rfl⟩

/-- Then all other settings may be right, and still the commands fail at this one: the database is open, how long bans are kept is not set, and no jail is made. -/
theorem C113_wrong (e : SrvEnv) (o : GOpts) {f : Str} (hf : o.get? "dbfile" = some (.val (some (.str f)))) (hl : e.lower f ≠ "none".toList) (ho : e.opens f = true)
    (h0 : ∀ k ∈ ["thread", "syslogsocket", "loglevel", "logtarget", "allowipv6"], ∀ v, o.get? k = some v → Accepted e k v)
    (hm : ("dbmaxmatches", .val none) ∈ convert o) : ∃ n, stream e none (convert o) = (some ⟨f, 10, 86400⟩, some n) ∧ n < (convert o).length := by
  have hg : o.get? "dbmaxmatches" = some (.val none) := by
    rw [C113_convert] at hm
    obtain ⟨k, _, hk⟩ := List.mem_filterMap.mp hm
    obtain ⟨v, hv, e'⟩ := Option.map_eq_some_iff.mp hk
    cases e'; exact hv
  have h1 := (early_stream e o none none).mpr ⟨rfl, h0⟩
  have h2 := (file_stream e o hf _).mpr (Or.inr ⟨hl, ho, rfl⟩)
  have h3 : ["dbmaxmatches"].filterMap (cmd o) = [("dbmaxmatches", .val none)] := by
    simp only [List.filterMap_cons, List.filterMap_nil, cmd, hg, Option.map_some]
  rw [convert_split, stream_append e _ _ _ _ h1, stream_append e _ _ _ _ h2, h3]
  refine ⟨(["dbfile"].filterMap (cmd o)).length + (early.filterMap (cmd o)).length, ?_, ?_⟩
  · simp only [List.singleton_append, stream]
    rw [show apply e (some (freshDb f)) ("dbmaxmatches", .val none) = none from rfl]
    simp [freshDb]
  · simp only [List.length_append, List.length_cons, List.length_nil]; omega

/-- A wrong stack size is worse: nothing is set, not even where to log. -/
theorem C113_stack {env : Reader.Env} {level : Option (Option Val) → Bool} {src : Src} {update : Opts} {o : GOpts} (h : getMain env level src update = some o)
    (hu : update.get? "thread" = none) {get : String → Got} {v : Str} (ht : src.thread = some get) (hg : get "stacksize" = .value v) (hi : env.toInt v = none) (e : SrvEnv) :
    stream e none (convert o) = (none, some 0) := by
  have hv := C113_value h hu "thread" (by decide +kernel)
  have hx : Value env src update "thread" (some (.thread ((Dict.empty : Opts).insert "stacksize" none))) := by
    refine .stack get none _ ht (.wrong v rfl hg rfl ?_) rfl
    intro x hx
    cases hx with
    | int _ i h' => rw [hi] at h'; cases h'
  have hc := C113_unique hv hx
  have : ∃ l, convert o = ("thread", .thread ((Dict.empty : Opts).insert "stacksize" none)) :: l := by
    rw [C113_convert]
    unfold names
    rw [List.filterMap_cons, hc]
    exact ⟨_, rfl⟩
  obtain ⟨l, hl⟩ := this
  rw [hl]
  rfl

/-! ## Examples -/

def exEnv : Reader.Env := ⟨fun s => if s = "10".toList then some 10 else none, fun _ => none, fun _ => [], fun o => some o⟩
def exGet (max : Str) : String → Got := fun k => if k = "dbmaxmatches" then .value max else if k = "dbfile" then .value "/f".toList else .noOption
def exSrv : SrvEnv := ⟨fun _ _ => true, fun _ => true, fun s => if s = "10".toList then some 10 else none, id, fun _ => true, fun s => if s = "1d".toList then some 86400 else none⟩
def exCmd : Opts := (Dict.empty.insert "loglevel" (some (.str "DEBUG".toList))).insert "socket" (some (.str "/s".toList))

example : (getMain exEnv (fun _ => true) ⟨exGet "10".toList, none⟩ exCmd).map convert =
    some [("syslogsocket", .val (some (.str "auto".toList))), ("loglevel", .val (some (.str "DEBUG".toList))), ("logtarget", .val (some (.str "STDERR".toList))),
      ("allowipv6", .val (some (.str "auto".toList))), ("dbfile", .val (some (.str "/f".toList))), ("dbmaxmatches", .val (some (.int 10))), ("dbpurgeage", .val (some (.str "1d".toList)))] := by decide +kernel

example : (getMain exEnv (fun _ => true) ⟨exGet "10".toList, none⟩ exCmd).map (fun o => stream exSrv none (convert o)) = some (some ⟨"/f".toList, 10, 86400⟩, none) := by decide +kernel

example : (getMain exEnv (fun _ => true) ⟨exGet "ten".toList, none⟩ exCmd).map (fun o => stream exSrv none (convert o)) = some (some ⟨"/f".toList, 10, 86400⟩, some 5) := by decide +kernel

example : (getMain exEnv (fun _ => true) ⟨exGet "10".toList, some (fun _ => .value "big".toList)⟩ exCmd).map (fun o => stream exSrv none (convert o)) = some (none, some 0) := by decide +kernel

example : getMain exEnv (fun x => x ≠ some (some (.str "DEBUG".toList))) ⟨exGet "10".toList, none⟩ exCmd = none := by decide +kernel

example : getJails true [("INCLUDES", .wrong), ("a", .good), ("b", .disabled), ("c", .wrong)] = (true, [("a", .good), ("c", .wrong)]) ∧
    getJails false [("a", .good), ("c", .wrong)] = (false, [("a", .good), ("c", .wrong)]) ∧ (getJails true [("c", .wrong)]).1 = false ∧ (getJails true []).1 = true := by decide +kernel

example : readConfig true true (some (Dict.empty.insert "dbfile" (.val none))) (some (false, some ["add"])) = (false, some [.inl ("dbfile", .val none), .inr "add"]) := by decide +kernel

/-- A server that has a database: the same file keeps it with its settings, `none` and another file do not -/
example : setDatabase exSrv (some ⟨"/f".toList, 3, 7⟩) (.val (some (.str "/f".toList))) = some (some ⟨"/f".toList, 3, 7⟩) ∧
    setDatabase exSrv (some ⟨"/f".toList, 3, 7⟩) (.val (some (.str "none".toList))) = some none ∧
    setDatabase exSrv (some ⟨"/f".toList, 3, 7⟩) (.val (some (.str "/g".toList))) = some (some ⟨"/g".toList, 10, 86400⟩) := by decide +kernel

end Verif.General
