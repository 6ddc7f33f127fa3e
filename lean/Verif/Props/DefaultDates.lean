import Verif.Spec.DefaultDates

/-!
# C109: default date patterns, `{^LN-BEG}`, `{DEFAULT}` and `{DATE}`
-/

namespace Verif.DefaultDates

open Verif.DatePattern (Text Template Lib inText keyOf build)

/-- `str.upper` of ASCII -/
def asciiLib : Lib := std (fun p => p.map Char.toUpper)

def isAscii (p : Text) : Bool := p.all (fun c => c.toNat < 128)

theorem get_ascii {up : Text → Text} (h : Spec.AsciiUpper up) {p : Text} (hp : isAscii p = true) : get (std up) p = get asciiLib p := by
  have e : up p = p.map Char.toUpper := h p (fun c hc => by simpa using List.all_eq_true.1 hp c hc)
  have k : keyOf (std up) p = keyOf asciiLib p := by simp [keyOf, std, asciiLib, e]
  simp only [get, k, build]
  rfl

theorem defaultPatterns_ascii : ∀ p ∈ defaultPatterns, isAscii p = true := by decide +kernel

theorem defaults_ascii {up : Text → Text} (h : Spec.AsciiUpper up) : defaults (std up) = defaults asciiLib := by
  unfold defaults
  congr 1
  exact List.map_congr_left (fun p hp => get_ascii h (defaultPatterns_ascii p hp))

theorem defaults_eq0 : defaults asciiLib = some (defaultPatterns.map Spec.plain) := by decide +kernel

theorem defaults_eq {up : Text → Text} (h : Spec.AsciiUpper up) : defaults (std up) = some (defaultPatterns.map Spec.plain) :=
  (defaults_ascii h).trans defaults_eq0

/-- The text of a template that is wrapped -/
def base : Template → Text
  | .regex p => p
  | t => name t

theorem wrapped_eq (lib : Lib) (w : Text → Text) (t : Template) : wrapped lib w t = get lib (w (base t)) := by cases t <;> rfl

theorem base_ascii : ∀ t ∈ defaultPatterns.map Spec.plain, isAscii (lnBeg ++ base t) = true := by decide +kernel

theorem cached_eq0 : cached asciiLib (defaultPatterns.map Spec.plain) = some (Spec.preferred defaultPatterns) := by decide +kernel

theorem cached_eq {up : Text → Text} (h : Spec.AsciiUpper up) :
    cached (std up) (defaultPatterns.map Spec.plain) = some (Spec.preferred defaultPatterns) := by
  rw [← cached_eq0]
  unfold cached
  congr 2
  refine List.map_congr_left (fun t ht => ?_)
  unfold copy
  rw [wrapped_eq, wrapped_eq, get_ascii h (base_ascii t ht)]

theorem preferred_nodup : ((Spec.preferred defaultPatterns).map (fun e => name e.1)).Nodup := by decide +kernel

theorem preferred_begin : (Spec.preferred defaultPatterns).filter (fun e => lineBeg e.1) = Spec.beginOnly defaultPatterns := by decide +kernel

/-! ## Adding -/

def names (d : List Entry) : List Text := d.map (fun e => name e.1)

theorem add_ok {b : Bool} {d r : List Entry} {e : Entry} (h : add b d e = .ok r) :
    (r = d ∧ b = true ∧ name e.1 ∈ names d) ∨ (r = d ++ [e] ∧ name e.1 ∉ names d) := by
  unfold add at h
  split at h
  · rename_i m
    cases b
    · simp at h
    · simp at h; exact .inl ⟨h.symm, rfl, m⟩
  · rename_i m
    simp at h
    exact .inr ⟨h.symm, m⟩

theorem add_nodup {b : Bool} {d r : List Entry} {e : Entry} (h : add b d e = .ok r) (n : (names d).Nodup) : (names r).Nodup := by
  rcases add_ok h with ⟨rfl, _, _⟩ | ⟨rfl, m⟩
  · exact n
  · simp only [names, List.map_append, List.map_cons, List.map_nil] at *
    refine List.nodup_append.2 ⟨n, by simp, ?_⟩
    intro a ha c hc k
    simp at hc
    subst hc
    exact m (k ▸ ha)

theorem add_prefix {b : Bool} {d r : List Entry} {e : Entry} (h : add b d e = .ok r) : d <+: r := by
  rcases add_ok h with ⟨rfl, _, _⟩ | ⟨rfl, _⟩
  · exact List.prefix_refl _
  · exact List.prefix_append _ _

theorem addAll_inv {b : Bool} {d r l : List Entry} (h : addAll b d l = .ok r) : ((names d).Nodup → (names r).Nodup) ∧ d <+: r := by
  induction l generalizing d with
  | nil => simp [addAll] at h; subst h; exact ⟨id, List.prefix_refl _⟩
  | cons e l ih =>
    simp only [addAll] at h
    cases k : add b d e with
    | error x => rw [k] at h; simp [Except.bind] at h
    | ok d' =>
      rw [k] at h
      have := ih h
      exact ⟨fun n => this.1 (add_nodup k n), (add_prefix k).trans this.2⟩

/-- Without leave for duplicates everything is added, or nothing is returned -/
theorem addAll_strict {d r l : List Entry} (h : addAll false d l = .ok r) : r = d ++ l := by
  induction l generalizing d with
  | nil => simp [addAll] at h; simp [h]
  | cons e l ih =>
    simp only [addAll] at h
    cases k : add false d e with
    | error x => rw [k] at h; simp [Except.bind] at h
    | ok d' =>
      rw [k] at h
      rcases add_ok k with ⟨_, c, _⟩ | ⟨rfl, _⟩
      · simp at c
      · rw [ih h]; simp

theorem addAll_fresh {b : Bool} {d l : List Entry} (h : (names (d ++ l)).Nodup) : addAll b d l = .ok (d ++ l) := by
  induction l generalizing d with
  | nil => simp [addAll]
  | cons e l ih =>
    have m : name e.1 ∉ names d := by
      intro m
      simp only [names, List.map_append, List.map_cons] at h m
      exact (List.nodup_append.1 h).2.2 _ m _ (by simp) rfl
    have : add b d e = .ok (d ++ [e]) := by simp only [add]; exact if_neg m
    simp only [addAll, this, Except.bind]
    rw [ih (by simpa [names] using h)]
    simp

theorem addAll_lenient {d l : List Entry} (n : (names l).Nodup) :
    addAll true d l = .ok (d ++ l.filter (fun e => decide (name e.1 ∉ names d))) := by
  induction l generalizing d with
  | nil => simp [addAll]
  | cons e l ih =>
    simp only [names, List.map_cons, List.nodup_cons] at n
    by_cases m : name e.1 ∈ names d
    · have : add true d e = .ok d := by simp only [add]; exact (if_pos m).trans rfl
      simp only [addAll, this, Except.bind]
      rw [ih n.2]
      simp [m]
    · have : add true d e = .ok (d ++ [e]) := by simp only [add]; exact if_neg m
      simp only [addAll, this, Except.bind]
      rw [ih n.2]
      have : l.filter (fun x => decide (name x.1 ∉ names (d ++ [e]))) = l.filter (fun x => decide (name x.1 ∉ names d)) := by
        refine List.filter_congr (fun x hx => ?_)
        have : name x.1 ≠ name e.1 := fun k => n.1 (k ▸ List.mem_map.2 ⟨x, hx, rfl⟩)
        refine decide_eq_decide.2 ?_
        simp [names, this]
      rw [this]
      simp [m]

theorem addAll_any {d l : List Entry} (n : (names l).Nodup) :
    addAll (!d.isEmpty) d l = .ok (d ++ l.filter (fun e => decide (name e.1 ∉ names d))) := by
  cases d with
  | nil =>
    rw [addAll_fresh (by simpa using n), List.filter_eq_self.2 (fun _ _ => by simp [names])]
  | cons a d => exact addAll_lenient n

/-! ## Defaults -/

theorem addDefault_eq {up : Text → Text} (h : Spec.AsciiUpper up) (f : Option (Template → Bool)) (d : List Entry) :
    addDefault (std up) f none true d =
      addAll (!d.isEmpty) d ((Spec.preferred defaultPatterns).filter (fun e => (f.map (fun f => f e.1)).getD true)) := by
  unfold addDefault
  rw [defaults_eq h]
  simp only [if_true]
  rw [cached_eq h]
  cases f with
  | none => exact congrArg (addAll _ d) (List.filter_eq_self.2 (fun _ _ => rfl)).symm
  | some f => rfl

theorem C109_all {up : Text → Text} (h : Spec.AsciiUpper up) (d : List Entry) :
    addDefault (std up) none none true d =
      .ok (d ++ (Spec.preferred defaultPatterns).filter (fun e => decide (name e.1 ∉ d.map (fun x => name x.1)))) := by
  rw [addDefault_eq h, List.filter_eq_self.2 (by simp), addAll_any preferred_nodup]
  rfl

theorem C109_used {up : Text → Text} (h : Spec.AsciiUpper up) (d : List Entry) :
    used (std up) d = .ok (if d = [] then Spec.preferred defaultPatterns else d) := by
  unfold used
  cases d with
  | nil =>
    simp only [List.isEmpty_nil, if_true]
    rw [C109_all h]
    simp
  | cons a d => simp

theorem lnBeg_ne : lnBeg ≠ "{DEFAULT}".toList := by decide +kernel

theorem C109_begin {up : Text → Text} (h : Spec.AsciiUpper up) (d : List Entry) :
    append (std up) d "{^LN-BEG}".toList =
      .ok (d ++ (Spec.beginOnly defaultPatterns).filter (fun e => decide (name e.1 ∉ d.map (fun x => name x.1)))) := by
  have k : keyOf (std up) "{^LN-BEG}".toList = lnBeg := by
    have : up "{^LN-BEG}".toList = _ := h _ (by decide +kernel)
    unfold keyOf
    rw [if_neg (by decide +kernel)]
    exact this.trans (by decide +kernel)
  unfold append
  simp only [k, true_or, if_true]
  rw [addDefault_eq h]
  simp only [Option.map_some, Option.getD_some]
  rw [preferred_begin]
  refine (addAll_any ?_).trans rfl
  rw [← preferred_begin]
  exact (List.filter_sublist.map _).nodup preferred_nodup

/-- `{DEFAULT}` adds nothing -/
theorem C109_refuted_default {up : Text → Text} (h : Spec.AsciiUpper up) (d : List Entry) : append (std up) d "{DEFAULT}".toList = .ok d := by
  have k : keyOf (std up) "{DEFAULT}".toList = "{DEFAULT}".toList := by
    have : up "{DEFAULT}".toList = _ := h _ (by decide +kernel)
    unfold keyOf
    rw [if_neg (by decide +kernel)]
    exact this.trans (by decide +kernel)
  unfold append
  simp only [k, or_true, if_true, if_neg lnBeg_ne.symm]
  rw [addDefault_eq h, List.filter_eq_nil_iff.2 (fun _ _ => by simp)]
  rfl

/-- So it may be left out of any list of patterns -/
theorem C109_default_ignored {up : Text → Text} (h : Spec.AsciiUpper up) (old : List Entry) (ps : List Text) :
    setDatePattern (std up) old ps = setDatePattern (std up) old (ps.filter (fun p => decide (p ≠ "{DEFAULT}".toList))) := by
  have : ∀ d, appendAll (std up) d ps = appendAll (std up) d (ps.filter (fun p => decide (p ≠ "{DEFAULT}".toList))) := by
    induction ps with
    | nil => intro d; rfl
    | cons p ps ih =>
      intro d
      by_cases k : p = "{DEFAULT}".toList
      · subst k
        simp only [appendAll, C109_refuted_default h, Except.bind]
        rw [ih d, List.filter_cons_of_neg (by rw [decide_eq_false (fun c => c rfl)]; exact Bool.false_ne_true)]
      · rw [List.filter_cons_of_pos (p := fun p => decide (p ≠ "{DEFAULT}".toList)) (decide_eq_true k)]
        simp only [appendAll]
        congr 1
        funext d'
        exact ih d'
  unfold setDatePattern
  rw [this]

/-- Alone it gives all defaults, for there is no template then -/
theorem C109_default_alone {up : Text → Text} (h : Spec.AsciiUpper up) (old : List Entry) :
    used (std up) (setDatePattern (std up) old ["{DEFAULT}".toList]).1 = .ok (Spec.preferred defaultPatterns) := by
  rw [C109_default_ignored h]
  exact C109_used h []

/-! ## `{DATE}` -/

theorem isPrefixOf_lower_false {a : Text} {c : Char} {l b : Text} (ha : a = c :: l) (h : Spec.NoDate a) :
    "{date}".toList.isPrefixOf ((a ++ b).map Char.toLower) = true → "{date}".toList.isPrefixOf (("{DATE}".toList).map Char.toLower) = true → 
      (b.head?.map Char.toLower = some '{' ∨ b = []) → False := by
  intro k _ hb
  subst ha
  obtain ⟨t, ht⟩ := List.isPrefixOf_iff_prefix.1 k
  rcases l with _ | ⟨c1, _ | ⟨c2, _ | ⟨c3, _ | ⟨c4, _ | ⟨c5, l⟩⟩⟩⟩⟩
  case cons.cons.cons.cons.cons =>
    simp at ht
    obtain ⟨e0, e1, e2, e3, e4, e5, _⟩ := ht
    exact h [] (l.map Char.toLower) (by simp [← e0, ← e1, ← e2, ← e3, ← e4, ← e5])
  all_goals
    rcases hb with hb | hb
    · cases b with
      | nil => simp at hb
      | cons x b => simp at hb ht; simp_all
    · subst hb; simp at ht

theorem Spec.NoDate.tail {c : Char} {l : Text} (h : Spec.NoDate (c :: l)) : Spec.NoDate l := by
  intro u v k
  exact h (c.toLower :: u) v (by simp [k])

theorem subDate_none (r : Text) {a b : Text} (h : Spec.NoDate a) (hb : b.head?.map Char.toLower = some '{' ∨ b = []) (prev : Option Char) :
    subDate r 0 prev (a ++ b) = a ++ subDate r 0 ((a.getLast?).or prev) b := by
  induction a generalizing prev with
  | nil => simp
  | cons c l ih =>
    have : ¬ ("{date}".toList.isPrefixOf ((c :: (l ++ b)).map Char.toLower) = true) := fun k =>
      isPrefixOf_lower_false rfl h (b := b) k (by decide +kernel) hb
    simp only [List.cons_append]
    rw [subDate, if_neg (fun k => this k.2), ih h.tail]
    cases l with
    | nil => simp
    | cons x l =>
      congr 3

theorem subDate_skip (r : Text) (n : Nat) (prev : Option Char) (u b : Text) (hu : u.length = n) (hn : u ≠ []) :
    subDate r n prev (u ++ b) = subDate r 0 u.getLast? b := by
  induction u generalizing n prev with
  | nil => exact absurd rfl hn
  | cons c l ih =>
    subst hu
    simp only [List.length_cons, List.cons_append]
    rw [subDate]
    cases l with
    | nil => simp
    | cons x l => rw [ih _ _ rfl (by simp)]; simp [List.getLast?_cons]

/-- The date is put where `{DATE}` is -/
theorem C109_replaced {a m b s : Text} (ha : Spec.NoDate a) (hb : Spec.NoDate b) (hl : a.getLast? ≠ some '\\') (hm : m.map Char.toLower = "{date}".toList) :
    within (a ++ m ++ b) s = a ++ unbound s ++ b := by
  obtain ⟨c0, c1, c2, c3, c4, c5, rfl⟩ : ∃ c0 c1 c2 c3 c4 c5, m = [c0, c1, c2, c3, c4, c5] := by
    rcases m with _ | ⟨c0, _ | ⟨c1, _ | ⟨c2, _ | ⟨c3, _ | ⟨c4, _ | ⟨c5, _ | ⟨c6, m⟩⟩⟩⟩⟩⟩⟩
    case cons.cons.cons.cons.cons.cons.nil => exact ⟨_, _, _, _, _, _, rfl⟩
    all_goals simp at hm
  unfold within
  rw [List.append_assoc, subDate_none _ ha (.inl (by simp at hm; simp [hm]))]
  simp only [List.cons_append, List.nil_append]
  rw [subDate, if_pos ⟨by simpa using hl, by
    simp at hm
    simp [hm, List.isPrefixOf]⟩]
  have := subDate_skip (unbound s) 5 (some c0) [c1, c2, c3, c4, c5] b rfl (by simp)
  simp only [List.cons_append, List.nil_append] at this
  rw [this]
  have := subDate_none (unbound s) (b := []) hb (.inr rfl) ([c1, c2, c3, c4, c5].getLast?)
  simp only [List.append_nil] at this
  rw [this]
  simp [subDate]

theorem subDate_prev (r : Text) (b : Text) {p q : Option Char} (hp : p ≠ some '\\') (hq : q ≠ some '\\') : subDate r 0 p b = subDate r 0 q b := by
  cases b with
  | nil => simp [subDate]
  | cons c l => rw [subDate, subDate]; simp only [ne_eq, hp, hq]

theorem six {m : Text} (hm : m.map Char.toLower = "{date}".toList) : ∃ c0 c1 c2 c3 c4 c5, m = [c0, c1, c2, c3, c4, c5] ∧
    c0.toLower = '{' ∧ c1.toLower = 'd' ∧ c2.toLower = 'a' ∧ c3.toLower = 't' ∧ c4.toLower = 'e' ∧ c5.toLower = '}' := by
  rcases m with _ | ⟨c0, _ | ⟨c1, _ | ⟨c2, _ | ⟨c3, _ | ⟨c4, _ | ⟨c5, _ | ⟨c6, m⟩⟩⟩⟩⟩⟩⟩
  case cons.cons.cons.cons.cons.cons.nil => exact ⟨_, _, _, _, _, _, rfl, by simpa using hm⟩
  all_goals simp at hm

/-- Everywhere: the rest is treated alike -/
theorem C109_every {a m b s : Text} (ha : Spec.NoDate a) (hl : a.getLast? ≠ some '\\') (hm : m.map Char.toLower = "{date}".toList) :
    within (a ++ m ++ b) s = a ++ unbound s ++ within b s := by
  obtain ⟨c0, c1, c2, c3, c4, c5, rfl, e0, e1, e2, e3, e4, e5⟩ := six hm
  unfold within
  rw [List.append_assoc, subDate_none _ ha (.inl (by simp [e0]))]
  simp only [List.cons_append, List.nil_append]
  rw [subDate, if_pos ⟨by simpa using hl, by simp [e0, e1, e2, e3, e4, e5, List.isPrefixOf]⟩]
  have := subDate_skip (unbound s) 5 (some c0) [c1, c2, c3, c4, c5] b rfl (by simp)
  simp only [List.cons_append, List.nil_append] at this
  rw [this, subDate_prev _ b (q := none) _ (by simp)]
  · simp
  · intro k
    simp at k
    subst k
    revert e5
    decide +kernel

/-- Behind a backslash it stays -/
theorem C109_escaped {a m b s : Text} (ha : Spec.NoDate a) (hl : a.getLast? = some '\\') (hm : m.map Char.toLower = "{date}".toList) :
    within (a ++ m ++ b) s = a ++ m ++ within b s := by
  obtain ⟨c0, c1, c2, c3, c4, c5, rfl, e0, e1, e2, e3, e4, e5⟩ := six hm
  unfold within
  rw [List.append_assoc, subDate_none _ ha (.inl (by simp [e0]))]
  simp only [List.cons_append, List.nil_append]
  have step : ∀ (p : Option Char) (c : Char) (l : Text), c.toLower ≠ '{' → subDate (unbound s) 0 p (c :: l) = c :: subDate (unbound s) 0 (some c) l := by
    intro p c l h
    rw [subDate, if_neg]
    intro k
    have := k.2
    simp [List.isPrefixOf] at this
    exact h this.1.symm
  rw [subDate, if_neg (by simp [hl]), step _ c1 _ (by simp [e1]), step _ c2 _ (by simp [e2]), step _ c3 _ (by simp [e3]), step _ c4 _ (by simp [e4]),
    step _ c5 _ (by simp [e5]), subDate_prev _ b (q := none) _ (by simp)]
  · simp
  · intro k
    simp at k
    subst k
    revert e5
    decide +kernel

theorem allSome_map {α β : Type} {f : α → Option β} {l : List α} {r : List β} (h : allSome (l.map f) = some r) :
    r.length = l.length ∧ ∀ (i : Nat) x, l[i]? = some x → ∃ y, r[i]? = some y ∧ f x = some y := by
  induction l generalizing r with
  | nil => simp [allSome] at h; subst h; simp
  | cons a l ih =>
    simp only [List.map_cons, allSome, Option.bind_eq_some_iff, Option.map_eq_some_iff] at h
    obtain ⟨y, hy, r', hr, rfl⟩ := h
    have := ih hr
    refine ⟨by simp [this.1], ?_⟩
    intro i x hx
    cases i with
    | zero => simp at hx; subst hx; exact ⟨y, rfl, hy⟩
    | succ i => simpa using this.2 i x (by simpa using hx)

/-- A pattern with `{DATE}` alone: one template for every default, in order, none of them preferred -/
theorem C109_within {up : Text → Text} (h : Spec.AsciiUpper up) {p : Text} {r : List Entry}
    (hk : inText "{DATE}".toList (keyOf (std up) p) = true) (hr : append (std up) [] p = .ok r) :
    r.length = defaultPatterns.length ∧
      ∀ (i : Nat) q, defaultPatterns[i]? = some q →
        ∃ t, r[i]? = some (t, 1) ∧
          get (std up) (within p (if q = "EPOCH".toList then "Epoch".toList else q)) = some t := by
  have n1 : keyOf (std up) p ≠ lnBeg := fun e => by rw [e] at hk; revert hk; decide +kernel
  have n2 : keyOf (std up) p ≠ "{DEFAULT}".toList := fun e => by rw [e] at hk; revert hk; decide +kernel
  unfold append at hr
  simp only [n1, n2, or_self, if_false, hk, if_true] at hr
  unfold addDefault at hr
  rw [defaults_eq h] at hr
  simp only [Bool.false_eq_true, if_false, List.map_map] at hr
  split at hr
  · simp at hr
  · rename_i l hl
    have e := addAll_strict (d := []) hr
    simp only [List.nil_append] at e
    subst e
    have := allSome_map hl
    refine ⟨this.1, fun i q hq => ?_⟩
    obtain ⟨y, hy, hf⟩ := this.2 i q hq
    simp only [Function.comp, wrapped_eq, Option.map_eq_some_iff] at hf
    obtain ⟨t, ht, rfl⟩ := hf
    refine ⟨t, hy, ?_⟩
    rw [← ht]
    congr 2
    unfold Spec.plain
    split
    · rfl
    · split
      · rename_i e; subst e; rfl
      · rfl

/-- Times in seconds are not recognised within a longer pattern: the word `Epoch` is -/
theorem C109_refuted_epoch {up : Text → Text} {a m b : Text} (ha : Spec.NoDate a) (hb : Spec.NoDate b) (hl : a.getLast? ≠ some '\\')
    (hm : m.map Char.toLower = "{date}".toList) (hv : (std up).valid (a ++ "Epoch".toList ++ b) = true)
    (he : Verif.DatePattern.hasEpoch none (a ++ "Epoch".toList ++ b) = false)
    (hk : keyOf (std up) (a ++ "Epoch".toList ++ b) ∉ ["EPOCH", "{^LN-BEG}EPOCH", "^EPOCH", "LEPOCH", "{^LN-BEG}LEPOCH", "^LEPOCH", "TAI64N",
      "{^LN-BEG}TAI64N", "^TAI64N"].map String.toList) :
    get (std up) (within (a ++ m ++ b) "Epoch".toList) = some (.regex (a ++ "Epoch".toList ++ b)) := by
  rw [C109_replaced ha hb hl hm]
  have u : unbound "Epoch".toList = "Epoch".toList := by decide +kernel
  rw [u]
  simp only [List.map_cons, List.map_nil, List.mem_cons, List.not_mem_nil, or_false, not_or] at hk
  obtain ⟨k1, k2, k3, k4, k5, k6, k7, k8, k9⟩ := hk
  simp only [get, build, he, k1, k2, k3, k4, k5, k6, k7, k8, k9, hv, or_self, if_false, if_true, Bool.false_eq_true]
  split <;> rfl

/-! ## Settings -/

theorem append_inv {lib : Lib} {d r : List Entry} {p : Text} (h : append lib d p = .ok r) : ((names d).Nodup → (names r).Nodup) ∧ d <+: r := by
  have dflt : ∀ {f pre a}, addDefault lib f pre a d = .ok r → ((names d).Nodup → (names r).Nodup) ∧ d <+: r := by
    intro f pre a h
    unfold addDefault at h
    split at h
    · simp at h
    · split at h
      · simp at h
      · simp only at h
        split at h
        · simp at h
        · exact addAll_inv h
  unfold append at h
  simp only at h
  split at h
  · exact dflt h
  · split at h
    · exact dflt h
    · split at h
      · simp at h
      · exact ⟨add_nodup h, add_prefix h⟩

theorem appendAll_inv {lib : Lib} {d r : List Entry} {ps : List Text} (h : appendAll lib d ps = .ok r) :
    ((names d).Nodup → (names r).Nodup) ∧ d <+: r := by
  induction ps generalizing d with
  | nil => simp [appendAll] at h; subst h; exact ⟨id, List.prefix_refl _⟩
  | cons p ps ih =>
    simp only [appendAll] at h
    cases k : append lib d p with
    | error x => rw [k] at h; simp [Except.bind] at h
    | ok d' =>
      rw [k] at h
      have a := append_inv k
      have b := ih h
      exact ⟨fun n => b.1 (a.1 n), a.2.trans b.2⟩

/-- No name twice, whatever the patterns are -/
theorem C109_names (lib : Lib) (old : List Entry) (ps : List Text) (h : (old.map (fun e => name e.1)).Nodup) :
    ((setDatePattern lib old ps).1.map (fun e => name e.1)).Nodup := by
  unfold setDatePattern
  split
  · rename_i d k; exact (appendAll_inv k).1 (by simp [names])
  · exact h

/-- A pattern that is neither of the special ones -/
def Ordinary (lib : Lib) (p : Text) : Prop :=
  keyOf lib p ≠ lnBeg ∧ keyOf lib p ≠ "{DEFAULT}".toList ∧ inText "{DATE}".toList (keyOf lib p) = false ∧ keyOf lib p ≠ "{NONE}".toList

theorem append_ordinary {lib : Lib} {p : Text} (h : Ordinary lib p) (d : List Entry) :
    append lib d p = match get lib p with
      | none => .error .invalid
      | some t => add false d (t, 1) := by
  unfold append
  simp only [h.1, h.2.1, h.2.2.1, h.2.2.2, or_self, if_false, Bool.false_eq_true]
  rfl

theorem appendAll_append {lib : Lib} {d r : List Entry} {ps qs : List Text} (h : appendAll lib d (ps ++ qs) = .ok r) :
    ∃ d', appendAll lib d ps = .ok d' ∧ appendAll lib d' qs = .ok r := by
  induction ps generalizing d with
  | nil => exact ⟨d, rfl, h⟩
  | cons p ps ih =>
    simp only [List.cons_append, appendAll] at h ⊢
    cases k : append lib d p with
    | error x => rw [k] at h; simp [Except.bind] at h
    | ok d' => rw [k] at h; exact ih h

/-- Two patterns of one name are refused, and then nothing changes -/
theorem C109_twice {lib : Lib} {p q : Text} {t u : Template} (hp : Ordinary lib p) (hq : Ordinary lib q) (ht : get lib p = some t) (hu : get lib q = some u)
    (hn : name t = name u) (old : List Entry) (l1 l2 l3 : List Text) :
    (setDatePattern lib old (l1 ++ p :: (l2 ++ q :: l3))).1 = old ∧ (setDatePattern lib old (l1 ++ p :: (l2 ++ q :: l3))).2 ≠ none := by
  unfold setDatePattern
  split
  · rename_i r k
    exfalso
    obtain ⟨d1, _, k⟩ := appendAll_append k
    simp only [appendAll] at k
    rw [append_ordinary hp, ht] at k
    cases k1 : add false d1 (t, 1) with
    | error x => simp [k1, Except.bind] at k
    | ok d2 =>
      simp only [k1, Except.bind] at k
      have m1 : name t ∈ names d2 := by
        rcases add_ok k1 with ⟨_, c, _⟩ | ⟨rfl, _⟩
        · simp at c
        · simp [names]
      obtain ⟨d3, k3, k⟩ := appendAll_append k
      have m3 : name u ∈ names d3 := hn ▸ ((appendAll_inv k3).2.subset |> List.map_subset _) m1
      simp only [appendAll] at k
      rw [append_ordinary hq, hu] at k
      have : add false d3 (u, 1) = .error .duplicate := by simp only [add]; exact (if_pos m3).trans rfl
      simp [this, Except.bind] at k
  · simp

/-- Distinct ordinary patterns: exactly these, in order -/
theorem C109_exact {lib : Lib} {ps : List Text} {ts : List Template} (ho : ∀ p ∈ ps, Ordinary lib p) (ht : ps.map (get lib) = ts.map some)
    (hn : (ts.map name).Nodup) (old : List Entry) : setDatePattern lib old ps = (ts.map (fun t => (t, 1)), none) := by
  have : ∀ (ps : List Text) (ts : List Template) (d : List Entry), (∀ p ∈ ps, Ordinary lib p) → ps.map (get lib) = ts.map some →
      (names d ++ ts.map name).Nodup → appendAll lib d ps = .ok (d ++ ts.map (fun t => (t, 1))) := by
    intro ps
    induction ps with
    | nil => intro ts d _ h _; cases ts <;> simp_all [appendAll]
    | cons p ps ih =>
      intro ts d ho h n
      cases ts with
      | nil => simp at h
      | cons t ts =>
        simp only [List.map_cons, List.cons.injEq] at h
        have m : name t ∉ names d := fun m => (List.nodup_append.1 n).2.2 _ m _ (by simp) rfl
        have a : add false d (t, 1) = .ok (d ++ [(t, 1)]) := by simp only [add]; exact if_neg m
        simp only [appendAll]
        rw [append_ordinary (ho p (by simp)), h.1]
        simp only [a, Except.bind]
        rw [ih ts (d ++ [(t, 1)]) (fun q hq => ho q (by simp [hq])) h.2 (by simpa [names] using n)]
        simp
  unfold setDatePattern
  rw [this ps ts [] ho ht (by simpa [names] using hn)]
  simp

/-- `{NONE}` is a template for nothing at the begin of the line -/
theorem C109_none {up : Text → Text} (h : Spec.AsciiUpper up) (old : List Entry) :
    setDatePattern (std up) old ["{NONE}".toList] = ([(.regex "{UNB}^".toList, 1)], none) := by
  have k : keyOf (std up) "{NONE}".toList = "{NONE}".toList := by
    have : up "{NONE}".toList = _ := h _ (by decide +kernel)
    unfold keyOf
    rw [if_neg (by decide +kernel)]
    exact this.trans (by decide +kernel)
  have b : build (std up) "{UNB}^".toList "{NONE}".toList = some (.regex "{UNB}^".toList) := by
    have : build (std up) "{UNB}^".toList "{NONE}".toList = build asciiLib "{UNB}^".toList "{NONE}".toList := rfl
    rw [this]
    decide +kernel
  have a : append (std up) [] "{NONE}".toList = .ok [(.regex "{UNB}^".toList, 1)] := by
    unfold append
    simp only [k]
    rw [if_neg (by decide +kernel), if_neg (by decide +kernel), if_pos trivial, b]
    rfl
  simp only [setDatePattern, appendAll, a, Except.bind]

/-- `ISO8601` is not a special value: it is the word itself that is looked for -/
theorem C109_refuted_iso {up : Text → Text} (h : Spec.AsciiUpper up) : get (std up) "ISO8601".toList = some (.regex "ISO8601".toList) := by
  rw [get_ascii h (by decide +kernel)]
  decide +kernel

/-- What is shown of a setting -/
theorem C109_shown (d : List Entry) :
    getDatePattern d = (none, "Default Detectors".toList) ∧ (d.length = 0 ∨ 3 ≤ d.length) ∨
      ∃ e, d.head? = some e ∧ d.length ≤ 2 ∧ getDatePattern d = (match e.1 with | .regex p => some p | _ => none, name e.1) := by
  cases d with
  | nil => exact .inl ⟨rfl, .inl rfl⟩
  | cons e l =>
    unfold getDatePattern
    simp only
    split
    · exact .inl ⟨rfl, .inr (by omega)⟩
    · refine .inr ⟨e, rfl, by omega, ?_⟩
      cases e.1 <;> rfl

/-! ## Names -/

theorem fields1_ok : ∀ c ∈ "aAbBdHIjmMpSUwWyYzfZklcxXGuV%".toList, (fields1.lookup c).map String.toList = some (Spec.called c).toList ∧ c ≠ 'E' := by
  decide +kernel

theorem fieldsEx_ok : ∀ c ∈ "dmHklMSYyZz".toList, (fieldsEx.lookup c).map String.toList = some (Spec.Piece.ex c).name := by decide +kernel

theorem fmtName_char {c : Char} (h : c ≠ '%') (l : Text) : fmtName (c :: l) = (fmtName l).map (c :: ·) := by
  rw [fmtName.eq_def]
  split <;> simp_all

theorem fmtName_field {c : Char} (h : c ≠ 'E') (l : Text) :
    fmtName ('%' :: c :: l) = (fields1.lookup c).bind (fun n => (fmtName l).map (n.toList ++ ·)) := by
  rw [fmtName.eq_def]
  split
  case h_5 x _ heq =>
    simp only [List.cons.injEq] at heq
    exact absurd heq.2.symm (x c l heq.1.symm)
  all_goals simp_all

theorem lnBeg_eq : lnBeg = ['{', '^', 'L', 'N', '-', 'B', 'E', 'G', '}'] := by decide +kernel
theorem unb_eq : unb = ['{', 'U', 'N', 'B', '}'] := by decide +kernel

/-- A template is named by its fields -/
theorem C109_name (ps : List Spec.Piece) (h : ∀ p ∈ ps, p.Ok) : fmtName (ps.flatMap Spec.Piece.text) = some (ps.flatMap Spec.Piece.name) := by
  induction ps with
  | nil => rfl
  | cons p ps ih =>
    have ih := ih (fun q hq => h q (by simp [hq]))
    have hp := h p (by simp)
    simp only [List.flatMap_cons]
    cases p with
    | char c =>
      simp only [Spec.Piece.text, Spec.Piece.name, List.cons_append, List.nil_append]
      rw [fmtName_char hp, ih]; rfl
    | field c =>
      have f := fields1_ok c hp
      simp only [Spec.Piece.text, Spec.Piece.name, List.cons_append, List.nil_append]
      rw [fmtName_field f.2, ih]
      obtain ⟨n, hn, e⟩ := Option.map_eq_some_iff.1 f.1
      rw [hn]
      simp [e]
    | ex c =>
      obtain ⟨n, hn, e⟩ := Option.map_eq_some_iff.1 (fieldsEx_ok c hp)
      simp only [Spec.Piece.text, List.cons_append, List.nil_append]
      rw [fmtName, hn, ih]
      simp [e]

/-- The mark is part of the name and binds to the begin of a line, unless there is an anchor already -/
theorem C109_mark {c : Char} {l n : Text} (h : fmtName (c :: l) = some n) (hn : n.head? ≠ some '{') (hc : c ∉ ['(', '*', '{']) :
    nameOf (c :: l) = n ∧ lineBegOf (c :: l) = decide (c = '^') ∧
      nameOf ("{^LN-BEG}".toList ++ c :: l) = (if c = '^' then n else "{^LN-BEG}".toList ++ n) ∧ lineBegOf ("{^LN-BEG}".toList ++ c :: l) = true := by
  simp only [List.mem_cons, List.not_mem_nil, or_false, not_or] at hc
  obtain ⟨c1, c2, c3⟩ := hc
  have z : "{^LN-BEG}".toList = lnBeg := rfl
  rw [z]
  have m : marks (c :: l) = (c :: l, some false) := by
    have a1 : cut unb (c :: l) = none := by rw [unb_eq]; exact if_neg (by simp [List.isPrefixOf, Ne.symm c3])
    have a2 : cut lnBeg (c :: l) = none := by rw [lnBeg_eq]; exact if_neg (by simp [List.isPrefixOf, Ne.symm c3])
    simp only [marks, a1, a2]
  have m' : marks (lnBeg ++ c :: l) = (c :: l, some true) := by
    have a1 : cut unb (lnBeg ++ c :: l) = none := by rw [unb_eq, lnBeg_eq]; exact if_neg (by simp [List.isPrefixOf])
    have a2 : cut lnBeg (lnBeg ++ c :: l) = some (c :: l) := by
      unfold cut
      rw [if_pos (List.isPrefixOf_iff_prefix.2 (List.prefix_append _ _)), List.drop_left]
    simp only [marks, a1, a2]
  have p : lnBeg.isPrefixOf n = false := by
    rw [lnBeg_eq]
    cases n with
    | nil => rfl
    | cons x n =>
      simp only [List.head?_cons, ne_eq, Option.some.injEq] at hn
      simp [List.isPrefixOf, Ne.symm hn]
  have b : noBoundBeg (c :: l) = decide (c = '^') := by
    have : noBoundBeg (c :: l) = anchor0 (c :: l) := by
      rw [noBoundBeg.eq_def]
      split
      · rename_i e; simp only [List.cons.injEq] at e; exact absurd e.1 c1
      · rfl
    rw [this]
    by_cases k : c = '^'
    · subst k; rfl
    · rw [decide_eq_false k]
      unfold anchor0
      split
      · rename_i e; simp only [List.cons.injEq] at e; exact absurd e.1 k
      · rename_i e; simp only [List.cons.injEq] at e; exact absurd e.1 c1
      · rename_i e; simp only [List.cons.injEq] at e; exact absurd e.1 c1
      · rw [List.dropWhile_cons_of_neg (by simpa using c1)]
        have s2 : "**".toList = ['*', '*'] := by decide +kernel
        rw [s2]
        simp [List.isPrefixOf, Ne.symm c2]
  have lb : lineBound (c :: l) = decide (c = '^') := by
    have f : inlineFlags (c :: l) = none := by
      unfold inlineFlags
      split
      · rename_i e; simp only [List.cons.injEq] at e; exact absurd e.1 c1
      · rfl
    simp only [lineBound, f, Option.map_none, Option.getD_none, Bool.or_false]
    by_cases k : c = '^'
    · subst k; rfl
    · rw [decide_eq_false k]
      unfold lineAnchor0
      split
      · rename_i e; simp only [List.cons.injEq] at e; exact absurd e.1 k
      · rename_i e; simp only [List.cons.injEq] at e; exact absurd e.1 c1
      · rename_i e; simp only [List.cons.injEq] at e; exact absurd e.1 c1
      · rfl
  refine ⟨?_, ?_, ?_, ?_⟩
  · unfold nameOf
    rw [m]
    simp only [h, Option.getD_some]
    exact if_neg (fun k => by cases k.1)
  · unfold lineBegOf
    rw [m]
    simp only [lb]
    rw [decide_eq_false (fun k => by cases k.1)]
    rfl
  · unfold nameOf
    rw [m']
    simp only [h, Option.getD_some, b, p, and_true, true_and, decide_eq_false_iff_not]
    by_cases k : c = '^'
    · rw [if_neg (fun q => q k), if_pos k]
    · rw [if_pos k, if_neg k]
  · unfold lineBegOf
    rw [m']
    simp only [lb, b]
    by_cases k : c = '^' <;> simp [k]

/-! ## Examples -/

/-- Marks at the begin of a pattern: `{UNB}` asks for no bound, `{^LN-BEG}` for the begin of the line; without them a word begins. -/
theorem C109_marks (q : Text) :
    marks ("{UNB}".toList ++ q) = (q, none) ∧ marks ("{^LN-BEG}".toList ++ q) = (q, some true) ∧
      (¬ "{UNB}".toList <+: q → ¬ "{^LN-BEG}".toList <+: q → marks q = (q, some false)) := by
  have hcut : ∀ (p t : Text), cut p (p ++ t) = some t := by
    intro p t
    unfold cut
    rw [if_pos (List.isPrefixOf_iff_prefix.mpr (List.prefix_append p t)), List.drop_left]
  have hno : ∀ (p t : Text), ¬ p <+: t → cut p t = none := by
    intro p t h
    unfold cut
    rw [if_neg (fun e => h (List.isPrefixOf_iff_prefix.mp e))]
  refine ⟨?_, ?_, ?_⟩
  · unfold marks; rw [show "{UNB}".toList = unb from rfl, hcut]
  · have : ¬ unb <+: "{^LN-BEG}".toList ++ q := by
      rintro ⟨t, e⟩
      rw [unb_eq, show "{^LN-BEG}".toList = lnBeg from rfl, lnBeg_eq] at e
      injection e with _ e
      injection e with e _
      exact absurd e (by decide)
    unfold marks
    rw [hno _ _ this, show "{^LN-BEG}".toList = lnBeg from rfl, hcut]
  · intro h1 h2
    unfold marks
    rw [hno unb q h1, hno lnBeg q h2]

/-- A template that is bound to the begin by its name has no copy; any copy has weight 100 and another name. -/
theorem C109_copies (lib : Lib) (t : Template) :
    ("{^LN-BEG}".toList <+: name t ∨ "^".toList <+: name t → copy lib t = some none) ∧
      (∀ e, copy lib t = some (some e) → e.2 = 100 ∧ name e.1 ≠ name t) := by
  constructor
  · intro h
    unfold copy
    rw [if_pos]
    rcases h with h | h
    · exact Or.inl (List.isPrefixOf_iff_prefix.mpr h)
    · exact Or.inr (List.isPrefixOf_iff_prefix.mpr h)
  · intro e h
    unfold copy at h
    split at h
    · cases h
    · obtain ⟨t2, _, h⟩ := Option.map_eq_some_iff.mp h
      split at h
      · rename_i hn; cases h; exact ⟨rfl, hn⟩
      · cases h

/-- Names of templates for times in seconds. -/
theorem C109_seconds : name (.epoch false false) = "Epoch".toList ∧ name (.epoch false true) = "LongEpoch".toList ∧ name (.epoch true false) = "{^LN-BEG}Epoch".toList ∧
    name (.epoch true true) = "{^LN-BEG}LongEpoch".toList ∧ name (.tai64n false) = "TAI64N".toList ∧ name (.tai64n true) = "{^LN-BEG}TAI64N".toList := by decide +kernel

/-- A mark given twice is in the name once. -/
example : nameOf "{^LN-BEG}{^LN-BEG}%Y".toList = "{^LN-BEG}Year".toList := by decide +kernel

example : copy asciiLib (.epochIn "^{EPOCH}".toList false) = some none ∧ copy asciiLib (.tai64n false) = some (some (.tai64n true, 100)) := by decide +kernel

theorem asciiLib_upper : Spec.AsciiUpper (fun p => p.map Char.toUpper) := fun _ _ => rfl

/-- Own pattern and `{DEFAULT}`: only the own pattern is used -/
example : (setDatePattern asciiLib [] ["%Y/%m/%d".toList, "{DEFAULT}".toList]) = ([(.regex "%Y/%m/%d".toList, 1)], none) := by decide +kernel

/-- 14 preferred and 17 more -/
example : (Spec.preferred defaultPatterns).length = 31 ∧ (Spec.beginOnly defaultPatterns).length = 17 := by decide +kernel

/-- `{DATE}` in brackets: 17 templates; number 8 is the word, not a time -/
example : ((setDatePattern asciiLib [] ["^[^\\[]*\\[({DATE})".toList]).1.map (·.1))[7]? = some (.regex "^[^\\[]*\\[(Epoch)".toList) ∧
    (setDatePattern asciiLib [] ["^[^\\[]*\\[({DATE})".toList]).1.length = 17 := by decide +kernel

/-- Alone it is a time -/
example : ((setDatePattern asciiLib [] ["{^LN-BEG}{DATE}".toList]).1.map (·.1))[7]? = some (.epoch true false) := by decide +kernel

/-- Twice, and not behind a backslash -/
example : within "{DATE}, \\{DATE}, {date}".toList "{^LN-BEG}%Y".toList = "%Y, \\{DATE}, %Y".toList ∧
    (setDatePattern asciiLib [] ["\\{DATE}".toList]).2 = some .duplicate := by decide +kernel

/-- A percent sign alone -/
example : setDatePattern asciiLib [(.tai64n false, 1)] ["%Y %".toList] = ([(.tai64n false, 1)], some .invalid) := by decide +kernel

/-- Different patterns, one name -/
example : (setDatePattern asciiLib [] ["%U %Y".toList, "%W %Y".toList]) = ([], some .duplicate) := by decide +kernel

/-- Three own patterns are shown as defaults, of two the first is shown -/
example : getDatePattern (setDatePattern asciiLib [] ["%Y".toList, "%m".toList, "%d".toList]).1 = (none, "Default Detectors".toList) ∧
    getDatePattern (setDatePattern asciiLib [] ["%Y".toList, "EPOCH".toList]).1 = (some "%Y".toList, "Year".toList) := by decide +kernel

/-- A name -/
example : nameOf "{^LN-BEG}%ExY-%m %k%%".toList = "{^LN-BEG}ExYear-Month %k%".toList ∧ lineBegOf "{^LN-BEG}%ExY-%m %k%%".toList = true ∧
    lineBegOf "%ExY-%m".toList = false ∧ nameOf "{^LN-BEG}^%Y".toList = "^Year".toList := by decide +kernel

/-- Brackets and flags before an anchor; no bound; an alternative is not an anchor -/
example : lineBegOf "(?:^%Y)".toList = true ∧ lineBegOf "(?i)^%Y".toList = true ∧ lineBegOf "(^|x)%Y".toList = false ∧ lineBegOf "{UNB}%Y".toList = false ∧
    lineBegOf "{^LN-BEG}**%Y".toList = false ∧ lineBegOf "{^LN-BEG}(**%Y)".toList = false ∧ lineBegOf "{^LN-BEG}(%Y)".toList = true ∧
    lineBegOf "{^LN-BEG}((^%Y))".toList = false := by decide +kernel

/-- Marks and bounds are removed before a default is put into a pattern -/
example : unbound "{UNB}(^|\\b|\\W)%Y(?=\\b|\\W|$)".toList = "%Y".toList ∧ unbound "{^LN-BEG}(?:^|\\b|\\W)%Y".toList = "%Y".toList := by decide +kernel

end Verif.DefaultDates
