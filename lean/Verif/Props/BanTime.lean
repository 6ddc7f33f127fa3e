import Verif.Model.Jail
import Verif.Py.List

/-!
# Property C23: limits of incremental ban times
-/

namespace Verif

open BanExtra

/-- The ban time laid down by the options: multiplier of the count (the last one for larger counts) times factor, or the value of the formula
but not less than the base time; limited by `maxtime`; plus a random share of `rndtime`. -/
def specTime (be : BanExtra) (rnd time : Rat) (count : Nat) : Rat :=
  let raw :=
    if be.evmultipliers = [] then
      max time (match be.formula with
        | some f => f time count (be.factor.getD 1)
        | none => time * ((2 ^ min count 20 : Nat) : Rat) * be.factor.getD 1)
    else time * be.factor.getD 1 * ((be.evmultipliers.getD (min count (be.evmultipliers.length - 1)) 0 : Int) : Rat)
  let limited := match be.maxtime with
    | some m => min raw m
    | none => raw
  match be.rndtime with
  | some rt => limited + rnd * rt
  | none => limited

theorem list_getD_of_lt (l : List Int) (i : Nat) (h : i < l.length) : l.getD i 0 = l[i] := by
  rw [List.getD_eq_getElem?_getD, List.getElem?_eq_getElem h]; rfl

theorem BanExtra.pick_eq (ms : List Int) (h : ms ≠ []) (n : Nat) : pick ms n = ms.getD (min n (ms.length - 1)) 0 := by
  unfold pick
  have hl : 0 < ms.length := List.length_pos_iff.2 h
  by_cases hn : n < ms.length
  · rw [if_pos hn, Nat.min_eq_left (by omega)]
  · rw [if_neg hn, Nat.min_eq_right (by omega)]
    cases ms with
    | nil => exact absurd rfl h
    | cons a l =>
      rw [List.getLastD_cons, list_getD_of_lt _ _ (by simp)]
      simp only [List.length_cons, Nat.add_sub_cancel]
      rw [List.getLastD_eq_getLast?]
      cases l with
      | nil => rfl
      | cons b l => rw [List.getLast?_eq_getElem?]; simp

theorem BanExtra.build_eq (be : BanExtra) (rnd time : Rat) (n : Nat) : be.build rnd time n = specTime be rnd time n := by
  have e20 : (if n < 20 then n else 20) = min n 20 := by
    by_cases h : n < 20
    · rw [if_pos h, Nat.min_eq_left (by omega)]
    · rw [if_neg h, Nat.min_eq_right (by omega)]
  have raw : (if be.evmultipliers.length ≠ 0 then fun (_ : Rat) (time : Rat) (count : Nat) =>
      time * be.factor.getD 1 * ((pick be.evmultipliers count : Int) : Rat)
      else fun _ time count => max time ((be.formula.getD defaultFormula) time count (be.factor.getD 1))) rnd time n
      = (if be.evmultipliers = [] then
        max time (match be.formula with
          | some f => f time n (be.factor.getD 1)
          | none => time * ((2 ^ min n 20 : Nat) : Rat) * be.factor.getD 1)
        else time * be.factor.getD 1 * ((be.evmultipliers.getD (min n (be.evmultipliers.length - 1)) 0 : Int) : Rat)) := by
    by_cases hm : be.evmultipliers = []
    · rw [if_pos hm, if_neg (by simp [hm])]
      show max time _ = _
      cases be.formula with
      | none =>
        show max time (defaultFormula time n (be.factor.getD 1)) = _
        unfold defaultFormula
        rw [e20]
      | some f => rfl
    · rw [if_neg hm, if_pos (by intro h; exact hm (List.length_eq_zero_iff.1 h))]
      show _ * _ * _ = _
      rw [pick_eq _ hm]
  unfold build specTime
  cases be.maxtime with
  | none =>
    cases be.rndtime with
    | none => exact raw
    | some rt => show _ + _ = _ + _; rw [← raw]
  | some m =>
    cases be.rndtime with
    | none => show min _ _ = min _ _; rw [← raw]
    | some rt => show min _ _ + _ = min _ _ + _; rw [← raw]

/-- C23: whatever options are set in whatever order, the formula in use is the one of the present options (as soon as one is set). -/
theorem C23_current (opts : List ExtraOpt) (h : opts ≠ []) :
    ∃ f, (opts.foldl BanExtra.set {}).evformula = some f ∧
      ∀ rnd time n, f rnd time n = specTime (opts.foldl BanExtra.set {}) rnd time n := by
  have key : ∀ opts : List ExtraOpt,
      (opts ≠ [] → (opts.foldl BanExtra.set {}).evformula ≠ none) ∧
      ∀ f, (opts.foldl BanExtra.set {}).evformula = some f → f = (opts.foldl BanExtra.set {}).build := by
    intro opts
    induction opts using list_snoc_induction with
    | nil => exact ⟨fun h => absurd rfl h, fun f h => (by cases h)⟩
    | snoc l o ih =>
      rw [List.foldl_append]
      simp only [List.foldl_cons, List.foldl_nil]
      generalize l.foldl BanExtra.set {} = be at ih
      have hev : (be.assign o).evformula = be.evformula := by cases o <;> rfl
      unfold BanExtra.set
      simp only [hev]
      by_cases hr : (rebuilds o || be.evformula.isNone) = true
      · rw [if_pos hr]
        refine ⟨fun _ => (by simp), ?_⟩
        intro f hf
        rw [← Option.some.inj hf]
        rfl
      · rw [if_neg hr]
        simp only [Bool.or_eq_true, not_or, Bool.not_eq_true] at hr
        refine ⟨fun _ h => ?_, ?_⟩
        · rw [hev] at h; rw [h] at hr; cases hr.2
        · intro f hf
          rw [hev] at hf
          rw [ih.2 f hf]
          cases o with
          | increment v => rfl
          | overalljails v => rfl
          | factor v => cases hr.1
          | formula v => cases hr.1
          | maxtime v => cases hr.1
          | rndtime v => cases hr.1
          | multipliers v => cases hr.1
  obtain ⟨h1, h2⟩ := key opts
  cases hf : (opts.foldl BanExtra.set {}).evformula with
  | none => exact absurd hf (h1 h)
  | some f => exact ⟨f, rfl, fun rnd time n => by rw [h2 f hf, build_eq]⟩

/-- The value an option was set to last. -/
def lastSet {α : Type} (d : α) (get : ExtraOpt → Option α) (opts : List ExtraOpt) : α := (opts.reverse.findSome? get).getD d

/-- C23: the present value of each option is the one set last; options do not influence each other. -/
theorem C23_options (opts : List ExtraOpt) :
    (opts.foldl BanExtra.set {}).increment = lastSet false (fun | .increment v => some v | _ => none) opts ∧
    (opts.foldl BanExtra.set {}).overalljails = lastSet false (fun | .overalljails v => some v | _ => none) opts ∧
    (opts.foldl BanExtra.set {}).factor = lastSet none (fun | .factor v => some v | _ => none) opts ∧
    (opts.foldl BanExtra.set {}).formula = lastSet none (fun | .formula v => some v | _ => none) opts ∧
    (opts.foldl BanExtra.set {}).maxtime = lastSet none (fun | .maxtime v => some v | _ => none) opts ∧
    (opts.foldl BanExtra.set {}).rndtime = lastSet none (fun | .rndtime v => some v | _ => none) opts ∧
    (opts.foldl BanExtra.set {}).evmultipliers = lastSet [] (fun | .multipliers v => some v | _ => none) opts := by
  induction opts using list_snoc_induction with
  | nil => exact ⟨rfl, rfl, rfl, rfl, rfl, rfl, rfl⟩
  | snoc l o ih =>
    rw [List.foldl_append]
    simp only [List.foldl_cons, List.foldl_nil]
    generalize l.foldl BanExtra.set {} = be at ih
    have hset : ∀ {α : Type} (g : BanExtra → α), (∀ f (b : BanExtra), g { b with evformula := f } = g b) →
        g (be.set o) = g (be.assign o) := by
      intro α g hg
      unfold BanExtra.set
      simp only []
      split
      · exact hg _ _
      · rfl
    have hlast : ∀ {α : Type} (d : α) (get : ExtraOpt → Option α), lastSet d get (l ++ [o])
        = match get o with
          | some v => v
          | none => lastSet d get l := by
      intro α d get
      unfold lastSet
      rw [List.reverse_append]
      simp only [List.reverse_cons, List.reverse_nil, List.nil_append, List.cons_append, List.findSome?_cons]
      cases get o <;> rfl
    obtain ⟨i1, i2, i3, i4, i5, i6, i7⟩ := ih
    rw [hset (·.increment) (fun _ _ => rfl), hset (·.overalljails) (fun _ _ => rfl), hset (·.factor) (fun _ _ => rfl),
      hset (·.formula) (fun _ _ => rfl), hset (·.maxtime) (fun _ _ => rfl), hset (·.rndtime) (fun _ _ => rfl),
      hset (·.evmultipliers) (fun _ _ => rfl)]
    simp only [hlast]
    cases o with
    | increment v => exact ⟨rfl, i2, i3, i4, i5, i6, i7⟩
    | overalljails v => exact ⟨i1, rfl, i3, i4, i5, i6, i7⟩
    | factor v => exact ⟨i1, i2, rfl, i4, i5, i6, i7⟩
    | formula v => exact ⟨i1, i2, i3, rfl, i5, i6, i7⟩
    | maxtime v => exact ⟨i1, i2, i3, i4, rfl, i6, i7⟩
    | rndtime v => exact ⟨i1, i2, i3, i4, i5, rfl, i7⟩
    | multipliers v => exact ⟨i1, i2, i3, i4, i5, i6, rfl⟩

/-- C23: the ban time is at most `maxtime` plus `rndtime` (the random number is at most 1). -/
theorem C23_limit (be : BanExtra) (rnd time m : Rat) (n : Nat) (hm : be.maxtime = some m) (h1 : rnd ≤ 1)
    (hr : 0 ≤ be.rndtime.getD 0) : be.build rnd time n ≤ m + be.rndtime.getD 0 := by
  rw [build_eq]
  unfold specTime
  simp only [hm]
  generalize (if be.evmultipliers = [] then _ else _ : Rat) = raw
  have hmin : min raw m ≤ m := by grind
  cases hr' : be.rndtime with
  | none => simp only [Option.getD_none]; grind
  | some rt =>
    rw [hr'] at hr
    simp only [Option.getD_some] at hr ⊢
    have : rnd * rt ≤ 1 * rt := Rat.mul_le_mul_of_nonneg_right h1 hr
    grind

/-- C23: without multipliers the ban time is not less than the base time, whatever formula and factor are, as far as `maxtime` allows. -/
theorem C23_base (be : BanExtra) (rnd time : Rat) (n : Nat) (hmul : be.evmultipliers = []) (h0 : 0 ≤ rnd)
    (hr : 0 ≤ be.rndtime.getD 0) (hm : ∀ m, be.maxtime = some m → time ≤ m) : time ≤ be.build rnd time n := by
  rw [build_eq]
  unfold specTime
  rw [if_pos hmul]
  generalize (match be.formula with
        | some f => f time n (be.factor.getD 1)
        | none => time * ((2 ^ min n 20 : Nat) : Rat) * be.factor.getD 1) = v
  have hraw : time ≤ max time v := by grind
  generalize max time v = raw at hraw
  have hlim : time ≤ (match be.maxtime with
    | some m => min raw m
    | none => raw) := by
    cases hmx : be.maxtime with
    | none => exact hraw
    | some m =>
      have := hm m hmx
      show time ≤ min raw m
      grind
  show time ≤ (match be.rndtime with
  | some rt => (match be.maxtime with
    | some m => min raw m
    | none => raw) + rnd * rt
  | none => (match be.maxtime with
    | some m => min raw m
    | none => raw))
  generalize (match be.maxtime with
    | some m => min raw m
    | none => raw) = lim at hlim
  cases hr' : be.rndtime with
  | none => exact hlim
  | some rt =>
    rw [hr'] at hr
    have : 0 ≤ rnd * rt := Rat.mul_nonneg h0 hr
    show time ≤ lim + rnd * rt
    grind

theorem pow2_cast_le {a b : Nat} (h : a ≤ b) : (((2 ^ a : Nat)) : Rat) ≤ ((2 ^ b : Nat) : Rat) := by
  exact_mod_cast Nat.pow_le_pow_right (by decide) h

/-- C23: with the default formula the ban time does not decrease with the number of earlier bans (same random number), for any factor and any
non-negative base time. -/
theorem C23_monotone (be : BanExtra) (rnd time : Rat) (n k : Nat) (hmul : be.evmultipliers = []) (hf : be.formula = none)
    (ht : 0 ≤ time) (h : n ≤ k) : be.build rnd time n ≤ be.build rnd time k := by
  rw [build_eq, build_eq]
  unfold specTime
  rw [if_pos hmul, if_pos hmul, hf]
  simp only []
  have hp : ((2 ^ min n 20 : Nat) : Rat) ≤ ((2 ^ min k 20 : Nat) : Rat) := pow2_cast_le (by omega)
  have hp0 : ∀ a : Nat, (0 : Rat) ≤ ((2 ^ a : Nat) : Rat) := fun a => by exact_mod_cast Nat.zero_le _
  have hraw : max time (time * ((2 ^ min n 20 : Nat) : Rat) * be.factor.getD 1)
      ≤ max time (time * ((2 ^ min k 20 : Nat) : Rat) * be.factor.getD 1) := by
    generalize be.factor.getD 1 = fac
    rcases Rat.le_total (a := 0) (b := fac) with hfac | hfac
    · have h1 : time * ((2 ^ min n 20 : Nat) : Rat) ≤ time * ((2 ^ min k 20 : Nat) : Rat) := Rat.mul_le_mul_of_nonneg_left hp ht
      have h2 := Rat.mul_le_mul_of_nonneg_right h1 hfac
      grind
    · have h1 : 0 ≤ time * ((2 ^ min n 20 : Nat) : Rat) := Rat.mul_nonneg ht (hp0 _)
      have h2 : time * ((2 ^ min n 20 : Nat) : Rat) * fac ≤ time * ((2 ^ min n 20 : Nat) : Rat) * 0 :=
        Rat.mul_le_mul_of_nonneg_left hfac h1
      rw [Rat.mul_zero] at h2
      grind
  generalize max time (time * ((2 ^ min n 20 : Nat) : Rat) * be.factor.getD 1) = a at hraw
  generalize max time (time * ((2 ^ min k 20 : Nat) : Rat) * be.factor.getD 1) = b at hraw
  cases be.maxtime with
  | none =>
    cases be.rndtime with
    | none => exact hraw
    | some rt => show a + rnd * rt ≤ b + rnd * rt; grind
  | some m =>
    cases be.rndtime with
    | none => show min a m ≤ min b m; grind
    | some rt => show min a m + rnd * rt ≤ min b m + rnd * rt; grind

/-- C23: with multipliers that do not decrease the ban time does not decrease either (base time and factor not negative). -/
theorem C23_monotone_multipliers (be : BanExtra) (rnd time : Rat) (n k : Nat) (hmul : be.evmultipliers ≠ [])
    (hs : be.evmultipliers.Pairwise (· ≤ ·)) (ht : 0 ≤ time) (hf : 0 ≤ be.factor.getD 1) (h : n ≤ k) :
    be.build rnd time n ≤ be.build rnd time k := by
  rw [build_eq, build_eq]
  unfold specTime
  rw [if_neg hmul, if_neg hmul]
  have hl : 0 < be.evmultipliers.length := List.length_pos_iff.2 hmul
  have hm : be.evmultipliers.getD (min n (be.evmultipliers.length - 1)) 0 ≤ be.evmultipliers.getD (min k (be.evmultipliers.length - 1)) 0 := by
    rw [list_getD_of_lt _ _ (by omega), list_getD_of_lt _ _ (by omega)]
    rcases Nat.lt_or_eq_of_le (show min n (be.evmultipliers.length - 1) ≤ min k (be.evmultipliers.length - 1) by omega) with hlt | heq
    · exact List.pairwise_iff_getElem.1 hs _ _ _ _ hlt
    · simp only [heq]; exact Int.le_refl _
  have hm' : ((be.evmultipliers.getD (min n (be.evmultipliers.length - 1)) 0 : Int) : Rat)
      ≤ ((be.evmultipliers.getD (min k (be.evmultipliers.length - 1)) 0 : Int) : Rat) := by exact_mod_cast hm
  have hraw := Rat.mul_le_mul_of_nonneg_left hm' (Rat.mul_nonneg ht hf)
  generalize time * be.factor.getD 1 * ((be.evmultipliers.getD (min n (be.evmultipliers.length - 1)) 0 : Int) : Rat) = a at hraw
  generalize time * be.factor.getD 1 * ((be.evmultipliers.getD (min k (be.evmultipliers.length - 1)) 0 : Int) : Rat) = b at hraw
  cases be.maxtime with
  | none =>
    cases be.rndtime with
    | none => exact hraw
    | some rt => show a + rnd * rt ≤ b + rnd * rt; grind
  | some m =>
    cases be.rndtime with
    | none => show min a m ≤ min b m; grind
    | some rt => show min a m + rnd * rt ≤ min b m + rnd * rt; grind

/-- C23: a ban time below the base time is possible, if `maxtime` is smaller or multipliers are used. -/
theorem C23_below_base : (∃ be : BanExtra, be.maxtime = some 300 ∧ be.build 0 600 5 < 600) ∧
    ∃ be : BanExtra, be.evmultipliers = [0, 1] ∧ be.build 0 600 0 < 600 := by
  refine ⟨⟨{ maxtime := some 300 }, rfl, ?_⟩, ⟨{ evmultipliers := [0, 1] }, rfl, ?_⟩⟩
  · rw [build_eq]; decide +kernel
  · rw [build_eq]; decide +kernel

/-- options as in `jail.conf`: base time 600, factor 2, at most a day -/
example : ([ExtraOpt.increment true, .factor (some 2), .maxtime (some 86400)].foldl BanExtra.set {}).evformula.map (fun f => f 0 600 3)
    = some 9600 ∧
    ([ExtraOpt.increment true, .factor (some 2), .maxtime (some 86400)].foldl BanExtra.set {}).evformula.map (fun f => f 0 600 30)
    = some 86400 ∧
    ([ExtraOpt.multipliers [1, 5, 30], .rndtime (some 100)].foldl BanExtra.set {}).evformula.map (fun f => f (1/2) 600 7)
    = some 18050 := by decide +kernel

end Verif
