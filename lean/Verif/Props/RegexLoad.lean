import Verif.Spec.RegexLoad
import Verif.Props.Reader

/-! # C117: what `fail2ban-regex` tests with -/

namespace Verif.RegexLoad

open Reader (Str Val Cmd arg)
open RegexLoadSpec

/-! ## First and last value -/

/-- The first value, unless the option was set before -/
def Once {α β : Type} (R : α → β → Prop) (set : Bool) (l : List α) (b b' : β) : Prop := if set then b' = b else First R l b b'

theorem first_nil {α β : Type} {R : α → β → Prop} {b b' : β} : First R [] b b' ↔ b' = b := by
  constructor
  · intro h; cases h; rfl
  · rintro rfl; exact .same _

theorem first_cons {α β : Type} {R : α → β → Prop} {a : α} {l : List α} {b b' : β} : First R (a :: l) b b' ↔ R a b' := by
  constructor
  · intro h; cases h; assumption
  · exact .first a l b b'

theorem once_nil {α β : Type} {R : α → β → Prop} {set : Bool} {b b' : β} : Once R set [] b b' ↔ b' = b := by
  unfold Once; cases set <;> simp [first_nil]

theorem once_append {α β : Type} {R : α → β → Prop} {set : Bool} {l r : List α} {b b' : β} :
    Once R set (l ++ r) b b' ↔ ∃ m, Once R set l b m ∧ Once R (set || !l.isEmpty) r m b' := by
  unfold Once
  cases set
  · cases l with
    | nil => simp [first_nil]
    | cons a l =>
      simp only [List.cons_append, first_cons, Bool.false_eq_true, if_false, List.isEmpty_cons, Bool.not_false, Bool.or_true, if_true]
      exact ⟨fun h => ⟨b', h, rfl⟩, by rintro ⟨m, h, rfl⟩; exact h⟩
  · simp

theorem last_nil {α β : Type} {R : α → β → Prop} {b b' : β} : Last R [] b b' ↔ b' = b := by
  constructor
  · intro h
    generalize hl : ([] : List α) = l at h
    cases h with
    | same => rfl
    | last l a => exact absurd hl (by simp)
  · rintro rfl; exact .same _

theorem last_concat {α β : Type} {R : α → β → Prop} {a : α} {l : List α} {b b' : β} : Last R (l ++ [a]) b b' ↔ (∀ x ∈ l, ∃ y, R x y) ∧ R a b' := by
  constructor
  · intro h
    generalize hl : l ++ [a] = l' at h
    cases h with
    | same => exact absurd hl (by simp)
    | last l' a' _ _ h1 h2 =>
      have := List.append_inj' hl rfl
      obtain ⟨rfl, e⟩ := this
      injection e with e
      subst e
      exact ⟨h1, h2⟩
  · rintro ⟨h1, h2⟩; exact .last l a b b' h1 h2

theorem last_valid {α β : Type} {R : α → β → Prop} {l : List α} {b b' : β} (h : Last R l b b') : ∀ x ∈ l, ∃ y, R x y := by
  cases h with
  | same => simp
  | last l a _ _ h1 h2 =>
    intro x hx
    rw [List.mem_append, List.mem_singleton] at hx
    rcases hx with hx | rfl
    · exact h1 x hx
    · exact ⟨_, h2⟩

theorem last_exists {α β : Type} {R : α → β → Prop} {l : List α} (b : β) (h : ∀ x ∈ l, ∃ y, R x y) : ∃ b', Last R l b b' := by
  rcases List.eq_nil_or_concat l with rfl | ⟨l', a, rfl⟩
  · exact ⟨b, .same b⟩
  · rw [List.concat_eq_append] at h ⊢
    obtain ⟨y, hy⟩ := h a (by simp)
    exact ⟨y, .last l' a b y (fun x hx => h x (by simp [hx])) hy⟩

theorem last_append {α β : Type} {R : α → β → Prop} {l r : List α} {b b' : β} : Last R (l ++ r) b b' ↔ ∃ m, Last R l b m ∧ Last R r m b' := by
  rcases List.eq_nil_or_concat r with rfl | ⟨r', a, rfl⟩
  · simp [last_nil]
  · rw [List.concat_eq_append, ← List.append_assoc, last_concat]
    constructor
    · rintro ⟨h1, h2⟩
      obtain ⟨m, hm⟩ := last_exists (R := R) (l := l) b (fun x hx => h1 x (by simp [hx]))
      exact ⟨m, hm, last_concat.mpr ⟨fun x hx => h1 x (by simp [hx]), h2⟩⟩
    · rintro ⟨m, h1, h2⟩
      obtain ⟨h3, h4⟩ := last_concat.mp h2
      refine ⟨fun x hx => ?_, h4⟩
      rw [List.mem_append] at hx
      rcases hx with hx | hx
      · exact last_valid h1 x hx
      · exact h3 x hx

theorem last_cons {α β : Type} {R : α → β → Prop} {a : α} {l : List α} {b b' : β} : Last R (a :: l) b b' ↔ ∃ m, R a m ∧ Last R l m b' := by
  rw [show a :: l = [a] ++ l from rfl, last_append]
  constructor
  · rintro ⟨m, h1, h2⟩
    exact ⟨m, (last_concat (l := []) |>.mp h1).2, h2⟩
  · rintro ⟨m, h1, h2⟩
    exact ⟨m, last_concat (l := []) |>.mpr ⟨by simp, h1⟩, h2⟩

/-! ## Values of one option -/

theorem bind_ok {α β : Type} {r : Res α} {f : α → Res β} {b : β} : r.bind f = .ok b ↔ ∃ a, r = .ok a ∧ f a = .ok b := by
  cases r <;> simp [Res.bind]

theorem setPref_ok {env : Env} {v : Option Val} {t t' : Tool} : setPref env v t = .ok t' ↔ ∃ p, Prefix env v p ∧ t' = { t with flt := { t.flt with pref := p } } := by
  unfold setPref
  constructor
  · intro h
    rcases v with _ | s | i | b
    · simp only [Reader.falsy, if_true] at h; cases h; exact ⟨none, .no, rfl⟩
    · cases s with
      | nil => simp only [Reader.falsy, List.isEmpty_nil, if_true] at h; cases h; exact ⟨none, .empty, rfl⟩
      | cons c s =>
        simp only [Reader.falsy, List.isEmpty_cons, Bool.false_eq_true, if_false] at h
        split at h
        · rename_i hr; cases h; exact ⟨_, .some _ (by simp) hr, rfl⟩
        · cases h
    · by_cases hi : i = 0
      · subst hi
        simp only [Reader.falsy, beq_self_eq_true, if_true] at h
        cases h; exact ⟨none, .zero, rfl⟩
      · simp [Reader.falsy, hi] at h
    · cases b
      · simp only [Reader.falsy, Bool.not_false, if_true] at h; cases h; exact ⟨none, .false, rfl⟩
      · simp [Reader.falsy] at h
  · rintro ⟨p, h, rfl⟩
    cases h with
    | no => simp [Reader.falsy]
    | empty => simp [Reader.falsy, txt]
    | zero => simp [Reader.falsy]
    | false => simp [Reader.falsy]
    | some s hs hr => simp [Reader.falsy, txt, hs, hr]

theorem setMax_ok {env : Env} {v : Option Val} {t t' : Tool} (hs : t.maxSet = false) :
    setMaxLines env v t = .ok t' ↔ ∃ m, Lines env v m ∧ t' = { t with flt := { t.flt with maxlines := m }, maxSet := true } := by
  unfold setMaxLines
  rw [hs]
  simp only [Bool.false_eq_true, if_false, bind_ok]
  have hm : ∀ i, maxTo t i = .ok t' ↔ 0 < i ∧ t' = { t with flt := { t.flt with maxlines := i }, maxSet := true } := by
    intro i
    unfold maxTo
    split
    · rename_i h; simp; omega
    · rename_i h
      constructor
      · intro e; cases e; exact ⟨by omega, rfl⟩
      · rintro ⟨_, rfl⟩; rfl
  simp only [hm]
  constructor
  · rintro ⟨i, h, h0, rfl⟩
    refine ⟨i, ?_, rfl⟩
    rcases v with _ | s | j | b
    · cases h
    · simp only [number] at h
      split at h
      · rename_i hi; cases h; exact .text s _ hi h0
      · cases h
    · cases h; exact .int _ h0
    · cases b
      · simp only [number, Bool.false_eq_true, if_false] at h; cases h; omega
      · simp only [number, if_true] at h; cases h; exact .one
  · rintro ⟨m, h, rfl⟩
    cases h with
    | int i h0 => exact ⟨m, rfl, h0, rfl⟩
    | one => exact ⟨1, rfl, by omega, rfl⟩
    | text s i hi h0 => exact ⟨m, by simp [number, txt, hi], h0, rfl⟩

theorem setDate_ok {env : Env} {v : Option Val} {t t' : Tool} (hs : t.dateSet = false) :
    setDatePattern env v t = .ok t' ↔ ∃ d, Date env v d ∧ t' = { t with flt := { t.flt with date := d }, dateSet := true } := by
  unfold setDatePattern
  rw [hs]
  simp only [Bool.false_eq_true, if_false]
  constructor
  · intro h
    rcases v with _ | s | i | b
    · cases h; exact ⟨none, .default, rfl⟩
    · simp only [bind_ok] at h
      obtain ⟨u, hu, h⟩ := h
      cases h; exact ⟨_, .text s hu, rfl⟩
    · cases h
    · cases h
  · rintro ⟨d, h, rfl⟩
    cases h with
    | default => rfl
    | text s hd => simp [txt, hd, Res.bind]

theorem each_pref {env : Env} {l : List (Option Val)} {t t' : Tool} :
    each (setPref env) l t = .ok t' ↔ ∃ p, Last (Prefix env) l t.flt.pref p ∧ t' = { t with flt := { t.flt with pref := p } } := by
  induction l generalizing t with
  | nil =>
    simp only [each, last_nil]
    constructor
    · intro h; cases h; exact ⟨_, rfl, rfl⟩
    · rintro ⟨_, rfl, rfl⟩; rfl
  | cons v l ih =>
    simp only [each, bind_ok, setPref_ok, ih, last_cons]
    constructor
    · rintro ⟨_, ⟨m, h1, rfl⟩, p, h2, rfl⟩; exact ⟨p, ⟨m, h1, h2⟩, rfl⟩
    · rintro ⟨p, ⟨m, h1, h2⟩, rfl⟩; exact ⟨_, ⟨m, h1, rfl⟩, p, h2, rfl⟩

theorem each_max_set {env : Env} {l : List (Option Val)} {t : Tool} (hs : t.maxSet = true) : each (setMaxLines env) l t = .ok t := by
  induction l with
  | nil => rfl
  | cons v l ih => simp only [each, setMaxLines, hs, if_true, Res.bind, ih]

theorem each_date_set {env : Env} {l : List (Option Val)} {t : Tool} (hs : t.dateSet = true) : each (setDatePattern env) l t = .ok t := by
  induction l with
  | nil => rfl
  | cons v l ih => simp only [each, setDatePattern, hs, if_true, Res.bind, ih]

theorem each_max {env : Env} {l : List (Option Val)} {t t' : Tool} :
    each (setMaxLines env) l t = .ok t' ↔ ∃ m, Once (Lines env) t.maxSet l t.flt.maxlines m ∧ t' = { t with flt := { t.flt with maxlines := m }, maxSet := t.maxSet || !l.isEmpty } := by
  cases hs : t.maxSet with
  | true =>
    rw [each_max_set hs]
    unfold Once
    constructor
    · intro h; cases h; refine ⟨t.flt.maxlines, rfl, ?_⟩; rcases t with ⟨⟨⟩⟩; simp_all
    · rintro ⟨_, rfl, rfl⟩; rcases t with ⟨⟨⟩⟩; simp_all
  | false =>
    cases l with
    | nil =>
      simp only [each, once_nil]
      constructor
      · intro h; cases h; refine ⟨_, rfl, ?_⟩; rcases t with ⟨⟨⟩⟩; simp_all
      · rintro ⟨_, rfl, rfl⟩; rcases t with ⟨⟨⟩⟩; simp_all
    | cons v l =>
      simp only [each, bind_ok, setMax_ok hs, Once, Bool.false_eq_true, if_false, first_cons]
      constructor
      · rintro ⟨_, ⟨m, h1, rfl⟩, h2⟩
        rw [each_max_set rfl] at h2
        cases h2
        exact ⟨m, h1, rfl⟩
      · rintro ⟨m, h1, rfl⟩
        exact ⟨_, ⟨m, h1, rfl⟩, by rw [each_max_set rfl]; rfl⟩

theorem each_date {env : Env} {l : List (Option Val)} {t t' : Tool} :
    each (setDatePattern env) l t = .ok t' ↔ ∃ d, Once (Date env) t.dateSet l t.flt.date d ∧ t' = { t with flt := { t.flt with date := d }, dateSet := t.dateSet || !l.isEmpty } := by
  cases hs : t.dateSet with
  | true =>
    rw [each_date_set hs]
    unfold Once
    constructor
    · intro h; cases h; refine ⟨t.flt.date, rfl, ?_⟩; rcases t with ⟨⟨⟩⟩; simp_all
    · rintro ⟨_, rfl, rfl⟩; rcases t with ⟨⟨⟩⟩; simp_all
  | false =>
    cases l with
    | nil =>
      simp only [each, once_nil]
      constructor
      · intro h; cases h; refine ⟨_, rfl, ?_⟩; rcases t with ⟨⟨⟩⟩; simp_all
      · rintro ⟨_, rfl, rfl⟩; rcases t with ⟨⟨⟩⟩; simp_all
    | cons v l =>
      simp only [each, bind_ok, setDate_ok hs, Once, Bool.false_eq_true, if_false, first_cons]
      constructor
      · rintro ⟨_, ⟨m, h1, rfl⟩, h2⟩
        rw [each_date_set rfl] at h2
        cases h2
        exact ⟨m, h1, rfl⟩
      · rintro ⟨m, h1, rfl⟩
        exact ⟨_, ⟨m, h1, rfl⟩, by rw [each_date_set rfl]; rfl⟩

/-! ## The commands -/

/-- State after commands -/
def put (own : Bool) (l : List Cmd) (s : Loop) (p : Option Str) (m : Int) (d : Option Str) : Loop :=
  { tool := { s.tool with flt := { s.tool.flt with pref := p, maxlines := m, date := d }, maxSet := s.tool.maxSet || !(given "maxlines" l).isEmpty,
                          dateSet := s.tool.dateSet || !(given "datepattern" l).isEmpty,
                          journal := if own then s.tool.journal else (settings "addjournalmatch" l).getLast?.or s.tool.journal },
    fails := s.fails ++ given "addfailregex" l, ignores := s.ignores ++ given "addignoreregex" l }

/-- What commands do -/
def After (env : Env) (own : Bool) (l : List Cmd) (s s' : Loop) : Prop :=
  ∃ p m d, Last (Prefix env) (given "prefregex" l) s.tool.flt.pref p ∧ Once (Lines env) s.tool.maxSet (given "maxlines" l) s.tool.flt.maxlines m ∧
    Once (Date env) s.tool.dateSet (given "datepattern" l) s.tool.flt.date d ∧ s' = put own l s p m d

theorem settings_nil (k : String) : settings k [] = [] := rfl
theorem given_nil (k : String) : given k [] = [] := rfl

theorem settings_append (k : String) (l r : List Cmd) : settings k (l ++ r) = settings k l ++ settings k r := by
  unfold settings; rw [List.filterMap_append]

theorem given_append (k : String) (l r : List Cmd) : given k (l ++ r) = given k l ++ given k r := by
  unfold given; rw [settings_append, List.flatten_append]

theorem isEmpty_append {α : Type} (l r : List α) : (!(l ++ r).isEmpty) = (!l.isEmpty || !r.isEmpty) := by
  cases l <;> simp

theorem put_put {own : Bool} {l r : List Cmd} {s : Loop} {p p' : Option Str} {m m' : Int} {d d' : Option Str} :
    put own r (put own l s p m d) p' m' d' = put own (l ++ r) s p' m' d' := by
  unfold put
  simp only [given_append, settings_append, isEmpty_append, List.append_assoc, Bool.or_assoc]
  congr 2
  cases own
  · simp [List.getLast?_append, Option.or_assoc]
  · simp

theorem after_append {env : Env} {own : Bool} {l r : List Cmd} {s s' : Loop} : After env own (l ++ r) s s' ↔ ∃ m, After env own l s m ∧ After env own r m s' := by
  unfold After
  constructor
  · rintro ⟨p, m, d, h1, h2, h3, rfl⟩
    rw [given_append, last_append] at h1
    rw [given_append, once_append] at h2 h3
    obtain ⟨p1, h1, h1'⟩ := h1
    obtain ⟨m1, h2, h2'⟩ := h2
    obtain ⟨d1, h3, h3'⟩ := h3
    exact ⟨put own l s p1 m1 d1, ⟨p1, m1, d1, h1, h2, h3, rfl⟩, p, m, d, h1', h2', h3', put_put.symm⟩
  · rintro ⟨_, ⟨p1, m1, d1, h1, h2, h3, rfl⟩, p, m, d, h1', h2', h3', rfl⟩
    refine ⟨p, m, d, ?_, ?_, ?_, put_put⟩
    · rw [given_append, last_append]; exact ⟨p1, h1, h1'⟩
    · rw [given_append, once_append]; exact ⟨m1, h2, h2'⟩
    · rw [given_append, once_append]; exact ⟨d1, h3, h3'⟩

/-- One option as a command -/
theorem option_ok {env : Env} {own : Bool} {key : Str} {vals : List (Option Val)} {c : Cmd} (hc : ∀ k, valuesOf k c = if key = k then some vals else none) {s s' : Loop} :
    option env own key vals s = .ok s' ↔ After env own [c] s s' := by
  have hs : ∀ k : String, settings k [c] = if key = k.toList then [vals] else [] := by
    intro k
    unfold settings
    by_cases h : key = k.toList
    · rw [if_pos h]; simp [List.filterMap, hc, h]
    · rw [if_neg h]; simp [List.filterMap, hc, h]
  have hg : ∀ k : String, given k [c] = if key = k.toList then vals else [] := by
    intro k
    unfold given
    rw [hs]
    split <;> simp
  unfold option After put
  simp only [hs, hg]
  rcases s with ⟨⟨⟨⟩⟩⟩
  by_cases h1 : key = "prefregex".toList
  · subst h1
    simp (decide := true) only [if_true, if_false, bind_ok, each_pref, once_nil]
    constructor
    · rintro ⟨_, ⟨p, h, rfl⟩, e⟩; cases e; exact ⟨p, _, _, h, rfl, rfl, by simp⟩
    · rintro ⟨p, _, _, h, rfl, rfl, rfl⟩; exact ⟨_, ⟨p, h, rfl⟩, by simp⟩
  · rw [if_neg h1]
    simp only [h1, if_false]
    by_cases h2 : key = "addfailregex".toList
    · subst h2
      simp (decide := true) only [if_true, if_false, once_nil, last_nil]
      constructor
      · intro e; cases e; exact ⟨_, _, _, rfl, rfl, rfl, by simp⟩
      · rintro ⟨_, _, _, rfl, rfl, rfl, rfl⟩; simp
    · simp only [h2, if_false]
      by_cases h3 : key = "addignoreregex".toList
      · subst h3
        simp (decide := true) only [if_true, if_false, once_nil, last_nil]
        constructor
        · intro e; cases e; exact ⟨_, _, _, rfl, rfl, rfl, by simp⟩
        · rintro ⟨_, _, _, rfl, rfl, rfl, rfl⟩; simp
      · simp only [h3, if_false]
        by_cases h4 : key = "maxlines".toList
        · subst h4
          simp (decide := true) only [if_true, if_false, bind_ok, each_max, once_nil, last_nil]
          constructor
          · rintro ⟨_, ⟨p, h, rfl⟩, e⟩; cases e; exact ⟨_, p, _, rfl, h, rfl, by simp⟩
          · rintro ⟨_, p, _, rfl, h, rfl, rfl⟩; exact ⟨_, ⟨p, h, rfl⟩, by simp⟩
        · simp only [h4, if_false]
          by_cases h5 : key = "datepattern".toList
          · subst h5
            simp (decide := true) only [if_true, if_false, bind_ok, each_date, once_nil, last_nil]
            constructor
            · rintro ⟨_, ⟨p, h, rfl⟩, e⟩; cases e; exact ⟨_, _, p, rfl, rfl, h, by simp⟩
            · rintro ⟨_, _, p, rfl, rfl, h, rfl⟩; exact ⟨_, ⟨p, h, rfl⟩, by simp⟩
          · simp only [h5, if_false, once_nil, last_nil]
            by_cases h6 : key = "addjournalmatch".toList
            · simp only [h6, if_true]
              cases own
              · constructor
                · intro e; cases e; exact ⟨_, _, _, rfl, rfl, rfl, by simp⟩
                · rintro ⟨_, _, _, rfl, rfl, rfl, rfl⟩; simp
              · constructor
                · intro e; cases e; exact ⟨_, _, _, rfl, rfl, rfl, by simp⟩
                · rintro ⟨_, _, _, rfl, rfl, rfl, rfl⟩; simp
            · simp only [h6, if_false]
              constructor
              · intro e; cases e; exact ⟨_, _, _, rfl, rfl, rfl, by simp⟩
              · rintro ⟨_, _, _, rfl, rfl, rfl, rfl⟩; simp

theorem arg_txt : arg = txt := rfl

theorem other_ok {env : Env} {own : Bool} {c : Cmd} (hc : ∀ k, valuesOf k c = none) {s s' : Loop} : (Res.ok s : Res Loop) = .ok s' ↔ After env own [c] s s' := by
  have hs : ∀ k : String, settings k [c] = [] := by intro k; simp [settings, List.filterMap, hc]
  unfold After put
  simp only [given, hs, List.flatten_nil, once_nil, last_nil]
  rcases s with ⟨⟨⟨⟩⟩⟩
  constructor
  · intro e; cases e; exact ⟨_, _, _, rfl, rfl, rfl, by simp⟩
  · rintro ⟨_, _, _, rfl, rfl, rfl, rfl⟩; simp

theorem command_ok {env : Env} {own : Bool} {c : Cmd} {s s' : Loop} : command env own c s = .ok s' ↔ After env own [c] s s' := by
  unfold command
  split
  · rename_i j key vals
    exact option_ok (fun k => by simp only [valuesOf, arg_txt])
  · exact option_ok (fun k => rfl)
  · rename_i h1 h2
    refine other_ok (fun k => ?_)
    unfold valuesOf
    split
    · exact absurd rfl (h2 _ _ _)
    · exact absurd rfl (h1 _ _ _)
    · rfl

theorem each_command {env : Env} {own : Bool} {l : List Cmd} {s s' : Loop} : each (command env own) l s = .ok s' ↔ After env own l s s' := by
  induction l generalizing s with
  | nil =>
    unfold After put
    simp only [each, given_nil, settings_nil, once_nil, last_nil]
    rcases s with ⟨⟨⟨⟩⟩⟩
    constructor
    · intro e; cases e; exact ⟨_, _, _, rfl, rfl, rfl, by simp⟩
    · rintro ⟨_, _, _, rfl, rfl, rfl, rfl⟩; simp
  | cons c l ih =>
    rw [show c :: l = [c] ++ l from rfl, after_append]
    simp only [List.singleton_append, each, bind_ok, command_ok, ih]

/-! ## Expressions -/

theorem each_fail {env : Env} {l : List (Option Val)} {f f' : Filter} :
    each (addFail env) l f = .ok f' ↔ ∃ rs, l = rs.map txt ∧ (∀ r ∈ rs, env.failOk f.pref (decide (1 < f.maxlines)) r = true) ∧ f' = { f with fails := f.fails ++ rs } := by
  induction l generalizing f with
  | nil =>
    simp only [each]
    constructor
    · intro h; cases h; exact ⟨[], rfl, by simp, by simp⟩
    · rintro ⟨rs, h, _, rfl⟩
      cases rs with
      | nil => simp
      | cons => cases h
  | cons v l ih =>
    simp only [each, bind_ok, ih]
    constructor
    · rintro ⟨f1, h1, rs, rfl, h2, rfl⟩
      rcases v with _ | s | i | b
      · cases h1
      · simp only [addFail] at h1
        split at h1
        · rename_i hr
          cases h1
          refine ⟨s :: rs, rfl, ?_, by simp⟩
          intro r h
          rw [List.mem_cons] at h
          rcases h with rfl | h
          · exact hr
          · exact h2 r h
        · cases h1
      · cases h1
      · cases h1
    · rintro ⟨rs, h, h2, rfl⟩
      cases rs with
      | nil => cases h
      | cons r rs =>
        injection h with e1 e2
        subst e1 e2
        have hr : env.failOk f.pref (decide (f.maxlines > 1)) r = true := h2 r (by simp)
        exact ⟨{ f with fails := f.fails ++ [r] }, by simp only [addFail, txt, hr, if_true], rs, rfl, fun x hx => h2 x (by simp [hx]), by simp⟩

theorem each_ignore {env : Env} {l : List (Option Val)} {f f' : Filter} :
    each (addIgnore env) l f = .ok f' ↔ ∃ rs, l = rs.map txt ∧ (∀ r ∈ rs, env.regexOk r = true) ∧ f' = { f with ignores := f.ignores ++ rs } := by
  induction l generalizing f with
  | nil =>
    simp only [each]
    constructor
    · intro h; cases h; exact ⟨[], rfl, by simp, by simp⟩
    · rintro ⟨rs, h, _, rfl⟩
      cases rs with
      | nil => simp
      | cons => cases h
  | cons v l ih =>
    simp only [each, bind_ok, ih]
    constructor
    · rintro ⟨f1, h1, rs, rfl, h2, rfl⟩
      rcases v with _ | s | i | b
      · cases h1
      · simp only [addIgnore] at h1
        split at h1
        · rename_i hr
          cases h1
          refine ⟨s :: rs, rfl, ?_, by simp⟩
          intro r h
          rw [List.mem_cons] at h
          rcases h with rfl | h
          · exact hr
          · exact h2 r h
        · cases h1
      · cases h1
      · cases h1
    · rintro ⟨rs, h, h2, rfl⟩
      cases rs with
      | nil => cases h
      | cons r rs =>
        injection h with e1 e2
        subst e1 e2
        have hr : env.regexOk r = true := h2 r (by simp)
        exact ⟨{ f with ignores := f.ignores ++ [r] }, by simp only [addIgnore, txt, hr, if_true], rs, rfl, fun x hx => h2 x (by simp [hx]), by simp⟩

theorem texts_map (rs : List Str) : texts (rs.map txt) = rs := by
  induction rs with
  | nil => rfl
  | cons r rs ih => unfold texts at ih ⊢; simp only [List.map_cons, txt, List.filterMap_cons] at ih ⊢; rw [ih]

theorem install_ok {env : Env} {fails ignores : List (Option Val)} {t t' : Tool} :
    install env fails ignores t = .ok t' ↔ ∃ rs is : List Str, fails = rs.map txt ∧ ignores = is.map txt ∧ (∀ r ∈ rs, env.failOk t.flt.pref (decide (1 < t.flt.maxlines)) r = true) ∧
      (∀ r ∈ is, env.regexOk r = true) ∧ t' = { t with flt := { t.flt with fails := t.flt.fails ++ rs, ignores := t.flt.ignores ++ is },
                                                       fails := if rs.isEmpty then t.fails else rs, ignores := if is.isEmpty then t.ignores else is } := by
  unfold install
  simp only [bind_ok, each_fail, each_ignore]
  constructor
  · rintro ⟨_, ⟨rs, rfl, h1, rfl⟩, _, ⟨is, rfl, h2, rfl⟩, e⟩
    cases e
    exact ⟨rs, is, rfl, rfl, h1, h2, by simp [texts_map]⟩
  · rintro ⟨rs, is, rfl, rfl, h1, h2, rfl⟩
    exact ⟨_, ⟨rs, rfl, h1, rfl⟩, _, ⟨is, rfl, h2, rfl⟩, by simp [texts_map]⟩

/-! ## C117 -/

theorem map_txt_inj {a b : List Str} (h : a.map txt = b.map txt) : a = b := by
  have := congrArg texts h
  rwa [texts_map, texts_map] at this

/-- What was read from a jail or filter is what the commands for the server say: the expressions for failures and for ignored lines in order, the last prefix expression, and the
first number of lines and date pattern unless given before; the match of the journal is the last one unless one was given on the command line -/
theorem C117_loaded {env : Env} {own : Bool} {l : List Cmd} {v : Str} {t t' : Tool} (hl : l ≠ []) (h : readFail env own (.commands l) v t = .ok t') :
    Loaded env t.maxSet t.dateSet l t.flt t'.flt ∧ t'.journal = if own then t.journal else (settings "addjournalmatch" l).getLast?.or t.journal := by
  cases l with
  | nil => exact absurd rfl hl
  | cons c l =>
    simp only [readFail, bind_ok, each_command, install_ok] at h
    obtain ⟨_, ⟨p, m, d, h1, h2, h3, rfl⟩, rs, is, e1, e2, h4, h5, rfl⟩ := h
    simp only [put, List.nil_append] at e1 e2 h4
    refine ⟨⟨?_, ?_, h1, h2, h3, ?_, ?_⟩, rfl⟩
    · simp only [put, List.map_append]; rw [e1]
    · simp only [put, List.map_append]; rw [e2]
    · intro r hr
      rw [e1] at hr
      obtain ⟨r', hr', e⟩ := List.mem_map.mp hr
      cases e
      exact h4 r hr'
    · intro r hr
      rw [e2] at hr
      obtain ⟨r', hr', e⟩ := List.mem_map.mp hr
      cases e
      exact h5 r hr'

/-- It is accepted whenever such a filter exists -/
theorem C117_accepted {env : Env} {own : Bool} {l : List Cmd} {v : Str} {t : Tool} (hl : l ≠ []) :
    (∃ t', readFail env own (.commands l) v t = .ok t') ↔ ∃ f', Loaded env t.maxSet t.dateSet l t.flt f' := by
  constructor
  · rintro ⟨t', h⟩; exact ⟨_, (C117_loaded hl h).1⟩
  · rintro ⟨f', hf⟩
    cases l with
    | nil => exact absurd rfl hl
    | cons c l =>
      have cut : ∀ (a b : List Str) (x : List (Option Val)), b.map txt = a.map txt ++ x → ∃ rs : List Str, x = rs.map txt := by
        intro a
        induction a with
        | nil => intro b x e; exact ⟨b, by simpa using e.symm⟩
        | cons y a ih =>
          intro b x e
          cases b with
          | nil => simp at e
          | cons z b => simp only [List.map_cons, List.cons_append] at e; injection e with _ e; exact ih b x e
      obtain ⟨rs, e1⟩ := cut _ _ _ hf.fails
      obtain ⟨is, e2⟩ := cut _ _ _ hf.ignores
      simp only [readFail, bind_ok, each_command, install_ok]
      refine ⟨_, _, ⟨f'.pref, f'.maxlines, f'.date, hf.pref, hf.maxlines, hf.date, rfl⟩, rs, is, ?_, ?_, ?_, ?_, rfl⟩
      · simp only [put, List.nil_append]; exact e1
      · simp only [put, List.nil_append]; exact e2
      · intro r hr; exact hf.failOk r (by rw [e1]; exact List.mem_map_of_mem hr)
      · intro r hr; exact hf.ignoreOk r (by rw [e2]; exact List.mem_map_of_mem hr)

/-- The filter is determined by that -/
theorem loaded_unique {env : Env} {lines date : Bool} {l : List Cmd} {f a b : Filter} (ha : Loaded env lines date l f a) (hb : Loaded env lines date l f b) : a = b := by
  have hpref : ∀ {v p q}, Prefix env v p → Prefix env v q → p = q := by
    intro v p q h1 h2
    cases h1 with
    | no => cases h2; rfl
    | empty => cases h2 with
      | empty => rfl
      | some _ h => exact absurd rfl h
    | zero => cases h2; rfl
    | false => cases h2; rfl
    | some _ h => cases h2 with
      | empty => exact absurd rfl h
      | some _ _ => rfl
  have hlines : ∀ {v p q}, Lines env v p → Lines env v q → p = q := by
    intro v p q h1 h2
    cases h1 with
    | int => cases h2; rfl
    | one => cases h2; rfl
    | text s i h => cases h2 with
      | text s i h' => rw [h] at h'; exact Option.some.inj h'
  have hdate : ∀ {v p q}, Date env v p → Date env v q → p = q := by
    intro v p q h1 h2
    cases h1 <;> cases h2 <;> rfl
  have hlast : ∀ {x : List (Option Val)} {b p q : Option Str}, Last (Prefix env) x b p → Last (Prefix env) x b q → p = q := by
    intro x b p q h1 h2
    rcases List.eq_nil_or_concat x with rfl | ⟨x', y, rfl⟩
    · rw [last_nil] at h1 h2; rw [h1, h2]
    · rw [List.concat_eq_append, last_concat] at h1 h2; exact hpref h1.2 h2.2
  have e1 := map_txt_inj (ha.fails.trans hb.fails.symm)
  have e2 := map_txt_inj (ha.ignores.trans hb.ignores.symm)
  have e3 := hlast ha.pref hb.pref
  have e4 : a.maxlines = b.maxlines := by
    have h1 := ha.maxlines
    have h2 := hb.maxlines
    cases lines
    · simp only [Bool.false_eq_true, if_false] at h1 h2
      cases hg : given "maxlines" l with
      | nil => rw [hg, first_nil] at h1 h2; rw [h1, h2]
      | cons => rw [hg, first_cons] at h1 h2; exact hlines h1 h2
    · simp only [if_true] at h1 h2; rw [h1, h2]
  have e5 : a.date = b.date := by
    have h1 := ha.date
    have h2 := hb.date
    cases date
    · simp only [Bool.false_eq_true, if_false] at h1 h2
      cases hg : given "datepattern" l with
      | nil => rw [hg, first_nil] at h1 h2; rw [h1, h2]
      | cons => rw [hg, first_cons] at h1 h2; exact hdate h1 h2
    · simp only [if_true] at h1 h2; rw [h1, h2]
  cases a; cases b; simp_all

/-- Options of the command line: accepted exactly if numbers and pattern are valid, and then set -/
theorem C117_options {env : Env} {o : Options} {t : Tool} (h : create env o = .ok t) :
    RegexLoadSpec.Set env o t.flt ∧ t.fails = [] ∧ t.ignores = [] ∧ (t.maxSet = true ↔ o.maxlines ≠ 0) ∧ (t.dateSet = true ↔ ∃ p, o.datepattern = some p ∧ p ≠ []) ∧
    ((o.journalmatch = none ∧ t.journal = none) ∨ ∃ j l, o.journalmatch = some j ∧ env.shlex j = some l ∧ t.journal = some (l.map txt)) := by
  obtain ⟨ml, dp, jm⟩ := o
  unfold create at h
  simp only at h
  by_cases hm : ml = 0
  · subst hm
    simp only [if_true] at h
    cases jm with
    | none =>
      simp only at h
      rcases dp with _ | _ | ⟨c, p⟩
      · cases h; exact ⟨⟨rfl, rfl, rfl, .inl ⟨rfl, rfl⟩, .inl ⟨by simp, rfl⟩⟩, rfl, rfl, by simp, by simp, .inl ⟨rfl, rfl⟩⟩
      · cases h; exact ⟨⟨rfl, rfl, rfl, .inl ⟨rfl, rfl⟩, .inl ⟨by simp, rfl⟩⟩, rfl, rfl, by simp, by simp, .inl ⟨rfl, rfl⟩⟩
      · simp only at h
        split at h
        · rename_i t1 he
          cases h
          rw [setDate_ok rfl] at he
          obtain ⟨d, hd, rfl⟩ := he
          cases hd with
          | text _ hd => exact ⟨⟨rfl, rfl, rfl, .inl ⟨rfl, rfl⟩, .inr ⟨_, rfl, by simp, hd, rfl⟩⟩, rfl, rfl, by simp, by simp, .inl ⟨rfl, rfl⟩⟩
        · cases h
    | some j =>
      simp only at h
      cases hj : env.shlex j with
      | none => simp only [hj] at h; cases h
      | some js =>
        simp only [hj] at h
        rcases dp with _ | _ | ⟨c, p⟩
        · cases h; exact ⟨⟨rfl, rfl, rfl, .inl ⟨rfl, rfl⟩, .inl ⟨by simp, rfl⟩⟩, rfl, rfl, by simp, by simp, .inr ⟨j, js, rfl, hj, rfl⟩⟩
        · cases h; exact ⟨⟨rfl, rfl, rfl, .inl ⟨rfl, rfl⟩, .inl ⟨by simp, rfl⟩⟩, rfl, rfl, by simp, by simp, .inr ⟨j, js, rfl, hj, rfl⟩⟩
        · simp only at h
          split at h
          · rename_i t1 he
            cases h
            rw [setDate_ok rfl] at he
            obtain ⟨d, hd, rfl⟩ := he
            cases hd with
            | text _ hd => exact ⟨⟨rfl, rfl, rfl, .inl ⟨rfl, rfl⟩, .inr ⟨_, rfl, by simp, hd, rfl⟩⟩, rfl, rfl, by simp, by simp, .inr ⟨j, js, rfl, hj, rfl⟩⟩
          · cases h
  · simp only [hm, if_false, maxTo] at h
    by_cases h0 : ml ≤ 0
    · simp only [h0, if_true] at h; cases h
    · simp only [h0, if_false] at h
      have hpos : 0 < ml := by omega
      cases jm with
      | none =>
        simp only at h
        rcases dp with _ | _ | ⟨c, p⟩
        · cases h; exact ⟨⟨rfl, rfl, rfl, .inr ⟨hpos, rfl⟩, .inl ⟨by simp, rfl⟩⟩, rfl, rfl, by simp [hm], by simp, .inl ⟨rfl, rfl⟩⟩
        · cases h; exact ⟨⟨rfl, rfl, rfl, .inr ⟨hpos, rfl⟩, .inl ⟨by simp, rfl⟩⟩, rfl, rfl, by simp [hm], by simp, .inl ⟨rfl, rfl⟩⟩
        · simp only at h
          split at h
          · rename_i t1 he
            cases h
            rw [setDate_ok rfl] at he
            obtain ⟨d, hd, rfl⟩ := he
            cases hd with
            | text _ hd => exact ⟨⟨rfl, rfl, rfl, .inr ⟨hpos, rfl⟩, .inr ⟨_, rfl, by simp, hd, rfl⟩⟩, rfl, rfl, by simp [hm], by simp, .inl ⟨rfl, rfl⟩⟩
          · cases h
      | some j =>
        simp only at h
        cases hj : env.shlex j with
        | none => simp only [hj] at h; cases h
        | some js =>
          simp only [hj] at h
          rcases dp with _ | _ | ⟨c, p⟩
          · cases h; exact ⟨⟨rfl, rfl, rfl, .inr ⟨hpos, rfl⟩, .inl ⟨by simp, rfl⟩⟩, rfl, rfl, by simp [hm], by simp, .inr ⟨j, js, rfl, hj, rfl⟩⟩
          · cases h; exact ⟨⟨rfl, rfl, rfl, .inr ⟨hpos, rfl⟩, .inl ⟨by simp, rfl⟩⟩, rfl, rfl, by simp [hm], by simp, .inr ⟨j, js, rfl, hj, rfl⟩⟩
          · simp only at h
            split at h
            · rename_i t1 he
              cases h
              rw [setDate_ok rfl] at he
              obtain ⟨d, hd, rfl⟩ := he
              cases hd with
              | text _ hd => exact ⟨⟨rfl, rfl, rfl, .inr ⟨hpos, rfl⟩, .inr ⟨_, rfl, by simp, hd, rfl⟩⟩, rfl, rfl, by simp [hm], by simp, .inr ⟨j, js, rfl, hj, rfl⟩⟩
            · cases h

/-- The lists for the statistics and those of the filter are the same, so that a hit is counted for the expression that matched -/
theorem C117_counted {env : Env} {source : Str → Source} {o : Options} {log regex : Str} {t : Tool} (h : load env source o [log, regex] = .ok t) :
    t.fails = t.flt.fails ∧ t.ignores = t.flt.ignores := by
  simp only [load, bind_ok] at h
  obtain ⟨t0, h0, h⟩ := h
  obtain ⟨hset, hf, hi, -⟩ := C117_options h0
  have done : ∀ {fails ignores : List (Option Val)} {t1 : Tool}, t1.fails = [] → t1.ignores = [] → t1.flt.fails = [] → t1.flt.ignores = [] → install env fails ignores t1 = .ok t →
      t.fails = t.flt.fails ∧ t.ignores = t.flt.ignores := by
    intro fails ignores t1 e1 e2 e3 e4 h
    rw [install_ok] at h
    obtain ⟨rs, is, -, -, -, -, rfl⟩ := h
    simp only [e1, e2, e3, e4, List.nil_append]
    constructor
    · cases rs <;> simp
    · cases is <;> simp
  unfold readFail at h
  split at h
  · cases h
  · cases h
  · simp only [bind_ok, each_command] at h
    obtain ⟨_, ⟨p, m, d, -, -, -, rfl⟩, h⟩ := h
    exact done (by exact hf) (by exact hi) (by exact hset.fails) (by exact hset.ignores) h
  · exact done hf hi hset.fails hset.ignores h

/-- An expression on the command line is the only one, with no other settings than those of the options -/
theorem C117_line {env : Env} {source : Str → Source} {o : Options} {log regex : Str} {t : Tool} (hs : source regex = .line) (h : load env source o [log, regex] = .ok t) :
    t.flt.fails = [regex] ∧ t.flt.ignores = [] ∧ t.flt.pref = none ∧ env.failOk none (decide (1 < t.flt.maxlines)) regex = true ∧
    ∃ t0, create env o = .ok t0 ∧ t.flt.maxlines = t0.flt.maxlines ∧ t.flt.date = t0.flt.date ∧ t.journal = t0.journal := by
  simp only [load, bind_ok, hs, readFail, install_ok] at h
  obtain ⟨t0, h0, rs, is, e1, e2, h1, -, rfl⟩ := h
  obtain ⟨hset, -⟩ := C117_options h0
  have e1' : rs = [regex] := map_txt_inj e1.symm
  have e2' : is = [] := by simpa using e2
  subst e1' e2'
  rw [hset.pref] at h1
  exact ⟨by simp [hset.fails], by simp [hset.ignores], hset.pref, h1 regex (by simp), t0, h0, rfl, rfl, rfl⟩

/-- An expression for ignored lines on the command line replaces those of the filter, and changes nothing else -/
theorem C117_ignore {env : Env} {source : Str → Source} {o : Options} {log regex ignore : Str} {t : Tool} :
    load env source o [log, regex, ignore] = .ok t ↔ env.regexOk ignore = true ∧ ∃ t1, load env source o [log, regex] = .ok t1 ∧
      t = { t1 with flt := { t1.flt with ignores := [ignore] }, ignores := [ignore] } := by
  have key : ∀ t1, load env source o [log, regex] = .ok t1 → (readIgnore env ignore t1 = .ok t ↔
      env.regexOk ignore = true ∧ t = { t1 with flt := { t1.flt with ignores := [ignore] }, ignores := [ignore] }) := by
    intro t1 h1
    obtain ⟨-, hi⟩ := C117_counted h1
    unfold readIgnore
    rw [install_ok]
    constructor
    · rintro ⟨rs, is, e1, e2, -, h3, rfl⟩
      have e1' : rs = [] := by simpa using e1
      have e2' : is = [ignore] := map_txt_inj e2.symm
      subst e1' e2'
      refine ⟨h3 ignore (by simp), ?_⟩
      by_cases he : t1.ignores = []
      · rw [he] at hi; simp [he, ← hi]
      · simp [he]
    · rintro ⟨h3, rfl⟩
      refine ⟨[], [ignore], rfl, rfl, by simp, by simpa using h3, ?_⟩
      by_cases he : t1.ignores = []
      · rw [he] at hi; simp [he, ← hi]
      · simp [he]
  have e : load env source o [log, regex, ignore] = (load env source o [log, regex]).bind (readIgnore env ignore) := rfl
  rw [e, bind_ok]
  constructor
  · rintro ⟨t1, h1, h2⟩; obtain ⟨h3, h4⟩ := (key t1 h1).mp h2; exact ⟨h3, t1, h1, h4⟩
  · rintro ⟨h3, t1, h1, h4⟩; exact ⟨t1, h1, (key t1 h1).mpr ⟨h3, h4⟩⟩

/-- Options of the command line count instead of those of jail and filter -/
theorem C117_override {env : Env} {source : Str → Source} {o : Options} {log regex : Str} {l : List Cmd} {t : Tool} (hs : source regex = .commands l) (hl : l ≠ [])
    (h : load env source o [log, regex] = .ok t) :
    (o.maxlines ≠ 0 → t.flt.maxlines = o.maxlines) ∧ (∀ p, o.datepattern = some p → p ≠ [] → t.flt.date = some p) ∧
    (∀ j ws, o.journalmatch = some j → env.shlex j = some ws → t.journal = some (ws.map txt)) := by
  simp only [load, bind_ok, hs] at h
  obtain ⟨t0, h0, h⟩ := h
  obtain ⟨hset, -, -, hm, hd, hj⟩ := C117_options h0
  obtain ⟨hload, hjr⟩ := C117_loaded hl h
  refine ⟨?_, ?_, ?_⟩
  · intro hne
    have h1 := hload.maxlines
    rw [hm.mpr hne] at h1
    simp only [if_true] at h1
    rw [h1]
    rcases hset.maxlines with ⟨e, _⟩ | ⟨_, e⟩
    · exact absurd e hne
    · exact e
  · intro p hp hne
    have h1 := hload.date
    rw [hd.mpr ⟨p, hp, hne⟩] at h1
    simp only [if_true] at h1
    rw [h1]
    rcases hset.date with ⟨e, _⟩ | ⟨q, hq, _, _, e⟩
    · exact absurd ⟨p, hp, hne⟩ e
    · rw [hp] at hq; cases hq; exact e
  · intro j ws hjm hsh
    rw [hjm] at hjr
    simp only [Option.isSome_some, if_true] at hjr
    rw [hjr]
    rcases hj with ⟨e, _⟩ | ⟨j', l', hj', hl', e⟩
    · rw [hjm] at e; cases e
    · rw [hjm] at hj'; cases hj'; rw [hsh] at hl'; cases hl'; exact e

theorem first_last {α β : Type} {R : α → β → Prop} {l : List α} {b b' : β} (hl : l.length ≤ 1) (h : First R l b b') : Last R l b b' := by
  cases h with
  | same => exact .same _
  | first a l _ _ hr =>
    have : l = [] := by cases l with
      | nil => rfl
      | cons => simp at hl
    subst this
    exact .last [] a b b' (by simp) hr

/-- Without options it is tested with what the server would use, if lines and date pattern are given at most once -/
theorem C117_server {env : Env} {source : Str → Source} {log regex : Str} {l : List Cmd} {t : Tool} (hs : source regex = .commands l) (hl : l ≠ [])
    (hm : (given "maxlines" l).length ≤ 1) (hd : (given "datepattern" l).length ≤ 1) (h : load env source {} [log, regex] = .ok t) : RegexLoadSpec.Server env l t.flt := by
  simp only [load, bind_ok, hs] at h
  obtain ⟨t0, h0, h⟩ := h
  have e : t0 = {} := by simp only [create, if_true] at h0; cases h0; rfl
  subst e
  obtain ⟨h, -⟩ := C117_loaded hl h
  refine ⟨?_, ?_, h.pref, ?_, ?_⟩
  · simpa using h.fails
  · simpa using h.ignores
  · exact first_last hm (by simpa using h.maxlines)
  · exact first_last hd (by simpa using h.date)

theorem bind_raise {α β : Type} {r : Res α} {f : α → Res β} (h : r.bind f = .raise) : r = .raise ∨ ∃ a, r = .ok a ∧ f a = .raise := by
  cases r with
  | ok a => exact .inr ⟨a, rfl, h⟩
  | stop => cases h
  | raise => exact .inl rfl

theorem each_raise {α σ : Type} {f : α → σ → Res σ} {l : List α} {s : σ} (h : each f l s = .raise) : ∃ a ∈ l, ∃ s, f a s = .raise := by
  induction l generalizing s with
  | nil => cases h
  | cons a l ih =>
    rcases bind_raise h with h | ⟨s', _, h⟩
    · exact ⟨a, by simp, s, h⟩
    · obtain ⟨b, hb, h⟩ := ih h
      exact ⟨b, by simp [hb], h⟩

theorem given_of_mem {k : String} {l : List Cmd} {c : Cmd} {vs : List (Option Val)} {v : Option Val} (hc : c ∈ l) (hk : valuesOf k.toList c = some vs) (hv : v ∈ vs) : v ∈ given k l := by
  unfold given settings
  rw [List.mem_flatten]
  exact ⟨vs, List.mem_filterMap.mpr ⟨c, hc, hk⟩, hv⟩

theorem install_raise {env : Env} {fails ignores : List (Option Val)} {t : Tool} (hf : ∀ v ∈ fails, ∃ r, v = txt r) (hi : ∀ v ∈ ignores, ∃ r, v = txt r) :
    install env fails ignores t ≠ .raise := by
  intro h
  rcases bind_raise h with h | ⟨f, _, h⟩
  · obtain ⟨v, hv, s, h⟩ := each_raise h
    obtain ⟨r, rfl⟩ := hf v hv
    simp only [addFail, txt] at h
    split at h <;> cases h
  · rcases bind_raise h with h | ⟨f, _, h⟩
    · obtain ⟨v, hv, s, h⟩ := each_raise h
      obtain ⟨r, rfl⟩ := hi v hv
      simp only [addIgnore, txt] at h
      split at h <;> cases h
    · cases h

theorem option_raise {env : Env} {own : Bool} {key : Str} {vals : List (Option Val)} {s : Loop} (h : option env own key vals s = .raise) :
    (key = "prefregex".toList ∧ ∃ v ∈ vals, ∀ r, v ≠ txt r) ∨ (key = "maxlines".toList ∧ none ∈ vals) ∨
    (key = "datepattern".toList ∧ ∃ v ∈ vals, ∀ r, v = txt r → env.date r = .raise) := by
  unfold option at h
  split at h
  · rename_i hk
    refine .inl ⟨hk, ?_⟩
    rcases bind_raise h with h | ⟨_, _, h⟩
    · obtain ⟨v, hv, t, h⟩ := each_raise h
      refine ⟨v, hv, ?_⟩
      rintro r rfl
      unfold setPref at h
      split at h
      · cases h
      · simp only [txt] at h; split at h <;> cases h
    · cases h
  · split at h
    · cases h
    · split at h
      · cases h
      · split at h
        · rename_i hk
          refine .inr (.inl ⟨hk, ?_⟩)
          rcases bind_raise h with h | ⟨_, _, h⟩
          · obtain ⟨v, hv, t, h⟩ := each_raise h
            unfold setMaxLines at h
            split at h
            · cases h
            · rcases bind_raise h with h | ⟨i, _, h⟩
              · rcases v with _ | s | i | b
                · exact hv
                · simp only [number] at h; split at h <;> cases h
                · cases h
                · cases h
              · unfold maxTo at h; split at h <;> cases h
          · cases h
        · split at h
          · rename_i hk
            refine .inr (.inr ⟨hk, ?_⟩)
            rcases bind_raise h with h | ⟨_, _, h⟩
            · obtain ⟨v, hv, t, h⟩ := each_raise h
              refine ⟨v, hv, ?_⟩
              rintro r rfl
              unfold setDatePattern at h
              split at h
              · cases h
              · simp only [txt] at h
                rcases bind_raise h with h | ⟨_, _, h⟩
                · exact h
                · cases h
            · cases h
          · split at h
            · cases h
            · cases h

/-- With values as they are read from files the program tests or ends with an error message, so that a wrong expression is never tested in part -/
theorem C117_stop {env : Env} {own : Bool} {l : List Cmd} {v : Str} {t : Tool} (hs : Sane env l) : readFail env own (.commands l) v t ≠ .raise := by
  cases l with
  | nil => exact install_raise (by intro x hx; rw [List.mem_singleton] at hx; exact ⟨v, hx⟩) (by simp)
  | cons c l =>
    intro h
    rcases bind_raise h with h | ⟨s, hok, h⟩
    · obtain ⟨c', hc, s, h⟩ := each_raise h
      have bad : ∀ {key : Str} {vals : List (Option Val)}, (∀ k, valuesOf k c' = if key = k then some vals else none) → option env own key vals s = .raise → False := by
        intro key vals hv h
        rcases option_raise h with ⟨rfl, x, hx, hn⟩ | ⟨rfl, hn⟩ | ⟨rfl, x, hx, hn⟩
        · obtain ⟨r, hr⟩ := hs.pref x (given_of_mem hc (by rw [hv]; rfl) hx)
          exact hn r hr
        · exact hs.maxlines (given_of_mem hc (by rw [hv]; rfl) hn)
        · obtain ⟨r, hr, hd⟩ := hs.date x (given_of_mem hc (by rw [hv]; rfl) hx)
          exact hd (hn r hr)
      unfold command at h
      split at h
      · exact bad (fun k => by simp only [valuesOf, arg_txt]) h
      · exact bad (fun k => rfl) h
      · cases h
    · rw [each_command] at hok
      obtain ⟨p, m, d, -, -, -, rfl⟩ := hok
      simp only [put, List.nil_append] at h
      exact install_raise hs.fails hs.ignores h

theorem each_append {α σ : Type} (f : α → σ → Res σ) (l r : List α) (s : σ) : each f (l ++ r) s = (each f l s).bind (each f r) := by
  induction l generalizing s with
  | nil => rfl
  | cons a l ih =>
    simp only [List.cons_append, each]
    cases f a s with
    | ok s' => simp only [Res.bind]; exact ih s'
    | stop => rfl
    | raise => rfl

/-- Other commands of jail and filter change nothing -/
theorem C117_others {env : Env} {own : Bool} {l r : List Cmd} {c : Cmd} {v : Str} {t : Tool} (hne : l ++ r ≠ [])
    (hc : ∀ k ∈ ["prefregex", "addfailregex", "addignoreregex", "maxlines", "datepattern", "addjournalmatch"], valuesOf k.toList c = none) :
    readFail env own (.commands (l ++ c :: r)) v t = readFail env own (.commands (l ++ r)) v t := by
  have hcmd : ∀ s, command env own c s = .ok s := by
    intro s
    have opt : ∀ (key : Str) (vals : List (Option Val)), (∀ k, valuesOf k c = if key = k then some vals else none) → option env own key vals s = .ok s := by
      intro key vals hv
      have hn : ∀ k ∈ ["prefregex", "addfailregex", "addignoreregex", "maxlines", "datepattern", "addjournalmatch"], key ≠ k.toList := by
        intro k hk e
        have := hc k hk
        rw [hv, if_pos e] at this
        cases this
      unfold option
      rw [if_neg (hn _ (by simp)), if_neg (hn _ (by simp)), if_neg (hn _ (by simp)), if_neg (hn _ (by simp)), if_neg (hn _ (by simp)), if_neg (hn _ (by simp))]
    unfold command
    split
    · exact opt _ _ (fun k => by simp only [valuesOf, arg_txt])
    · exact opt _ _ (fun k => rfl)
    · rfl
  have hread : ∀ x : List Cmd, x ≠ [] → readFail env own (.commands x) v t = (each (command env own) x { tool := t }).bind (fun s => install env s.fails s.ignores s.tool) := by
    intro x hx
    cases x with
    | nil => exact absurd rfl hx
    | cons => rfl
  rw [hread _ (by simp), hread _ hne, each_append, each_append]
  congr 1
  cases each (command env own) l { tool := t } with
  | ok s => simp only [Res.bind, each, hcmd]
  | stop => rfl
  | raise => rfl

/-! ## Files of filters -/

theorem given_insertAt (k : String) (n : Nat) (c : Cmd) (s : List Cmd) : (given k (Reader.insertAt n c s)).length = (given k [c]).length + (given k s).length := by
  have hc : ∀ (a : Cmd) (x : List Cmd), given k (a :: x) = given k [a] ++ given k x := fun a x => given_append k [a] x
  induction s generalizing n with
  | nil => cases n <;> simp [Reader.insertAt, given_nil]
  | cons a s ih =>
    cases n with
    | zero => simp only [Reader.insertAt]; rw [hc c (a :: s), List.length_append]
    | succ n => simp only [Reader.insertAt]; rw [hc a, List.length_append, ih, hc a s, List.length_append]; omega

theorem given_setCmd (k opt : String) (jail : Str) (v : Option Val) : (given k [Reader.setCmd jail opt v]).length = if opt = k then 1 else 0 := by
  unfold given settings
  by_cases h : opt = k
  · subst h; simp [Reader.setCmd, List.filterMap, valuesOf]
  · have : opt.toList ≠ k.toList := fun e => h (String.toList_inj.mp e)
    simp [Reader.setCmd, List.filterMap, valuesOf, this, h]

theorem given_regexCmds {k : String} (hk : k = "maxlines" ∨ k = "datepattern") (jail : Str) {opt : String} (ho : opt = "failregex" ∨ opt = "ignoreregex") (v : Val) :
    given k (Reader.regexCmds jail opt v) = [] := by
  unfold Reader.regexCmds
  rcases hk with rfl | rfl <;> rcases ho with rfl | rfl <;> simp only <;> split <;> rfl

theorem given_journalCmds {k : String} (hk : k = "maxlines" ∨ k = "datepattern") {env : Reader.Env} {jail : Str} {ms : List Str} {l : List Cmd}
    (h : Reader.journalCmds env jail ms = some l) : given k l = [] := by
  induction ms generalizing l with
  | nil => cases h; rfl
  | cons m ms ih =>
    unfold Reader.journalCmds at h
    split at h
    · exact ih h
    · split at h
      · rename_i args cmds _ h2
        cases h
        rw [show ∀ (a : Cmd) (x : List Cmd), given k (a :: x) = given k [a] ++ given k x from fun a x => given_append k [a] x, ih h2]
        rcases hk with rfl | rfl <;> rfl
      · cases h

theorem given_fill {k : String} (hk : k = "maxlines" ∨ k = "datepattern") {env : Reader.Env} {jail : Str} {os : List (String × Option Val)} {prio : Nat} {s l : List Cmd}
    (h : Reader.fillStream env jail os prio s = some l) : (given k l).length ≤ (given k s).length + (os.filter (fun kv => kv.1 = k)).length := by
  induction os generalizing prio s with
  | nil => simp only [Reader.fillStream] at h; cases h; simp
  | cons kv os ih =>
    obtain ⟨opt, v⟩ := kv
    have mono : ((opt, v) :: os).filter (fun kv => kv.1 = k) = (if opt = k then [(opt, v)] else []) ++ os.filter (fun kv => kv.1 = k) := by
      by_cases h : opt = k <;> simp [h]
    rw [mono, List.length_append]
    cases v with
    | none => simp only [Reader.fillStream] at h; have := ih h; omega
    | some v =>
      simp only [Reader.fillStream] at h
      split at h
      · rename_i ho
        have := ih h
        rw [given_append, given_regexCmds hk jail ho, List.append_nil] at this
        omega
      · split at h
        · have := ih h
          rw [given_insertAt, given_setCmd] at this
          split at this <;> rename_i e <;> simp only [e, if_true, if_false, List.length_singleton, List.length_nil] <;> omega
        · split at h
          · have := ih h
            rw [given_append, List.length_append, given_setCmd] at this
            split at this <;> rename_i e <;> simp only [e, if_true, if_false, List.length_singleton, List.length_nil] <;> omega
          · split at h
            · split at h
              · rename_i hj
                have := ih h
                rw [given_append, given_journalCmds hk hj, List.append_nil] at this
                omega
              · cases h
            · have := ih h; omega

theorem count_key {l : List (String × Option Val)} (h : (l.map Prod.fst).Nodup) (k : String) : (l.filter (fun kv => kv.1 = k)).length ≤ 1 := by
  induction l with
  | nil => simp
  | cons x l ih =>
    rw [List.map_cons, List.nodup_cons] at h
    by_cases e : x.1 = k
    · have : l.filter (fun kv => kv.1 = k) = [] := by
        rw [List.filter_eq_nil_iff]
        intro y hy
        simp only [decide_eq_true_eq]
        intro ey
        exact h.1 (List.mem_map.mpr ⟨y, hy, by rw [ey, e]⟩)
      simp [e, this]
    · simp [e, ih h.2]

/-- With the name of a filter it is tested with what the server would use for a jail that only names this filter -/
theorem C117_filter {renv : Reader.Env} {env : Env} {source : Str → Source} {log regex jail : Str} {o : Reader.Opts} {l : List Cmd} {t : Tool}
    (hr : Reader.fillStream renv jail o.items 0 [] = some l) (hs : source regex = .commands l) (hl : l ≠ []) (h : load env source {} [log, regex] = .ok t) :
    RegexLoadSpec.Server env l t.flt := by
  refine C117_server hs hl ?_ ?_ h
  · have := given_fill (.inl rfl) hr; have := count_key o.nodup "maxlines"; simp only [given_nil, List.length_nil] at *; omega
  · have := given_fill (.inr rfl) hr; have := count_key o.nodup "datepattern"; simp only [given_nil, List.length_nil] at *; omega

/-! ## Examples -/

namespace Example

/-- Expressions need `<HOST>`, unless the prefix has it; date patterns need `%` or `{`, and not `(` -/
def env : Env where
  toInt := ReaderExample.number
  shlex s := some (Reader.split ' ' s)
  failOk p _ r := decide ('<' ∈ r) || p.any (fun p => decide ('<' ∈ p))
  regexOk r := decide ('(' ∉ r)
  date s := if '(' ∈ s then .raise else if '%' ∈ s then .ok () else .stop

/-- `fail2ban-regex LOG mongo` with a jail of these options -/
def source (params : Reader.Opts) (l : List (String × String)) (r : Str) : Source :=
  if r = "mongo".toList then .commands (ReaderExample.list (ReaderExample.cmdsOf params l)) else .line

def jail : List (String × String) := ReaderExample.jail

/-- The jail of `Props/Reader`, alone and with an expression for ignored lines -/
example : load env (source Dict.empty jail) {} ["LOG".toList, "mongo".toList] = .ok
    { flt := { fails := ["^c <HOST>$".toList], maxlines := 10, date := some "%Y-%m-%d".toList }, maxSet := true, dateSet := true,
      journal := some [txt "_COMM=mongo".toList], fails := ["^c <HOST>$".toList] } := by decide +kernel

/-- The filter has two expressions; lines, date and match of the journal of the command line count -/
example : load env (source Dict.empty (jail.filter (·.1 ≠ "failregex"))) { maxlines := 3, datepattern := some "%s".toList, journalmatch := some "_UID=1 _COMM=x".toList }
      ["LOG".toList, "mongo".toList, "root".toList] = .ok
    { flt := { fails := ["^a <HOST>$".toList, "^b <HOST>$".toList], ignores := ["root".toList], maxlines := 3, date := some "%s".toList }, maxSet := true, dateSet := true,
      journal := some [txt "_UID=1".toList, txt "_COMM=x".toList], fails := ["^a <HOST>$".toList, "^b <HOST>$".toList], ignores := ["root".toList] } := by decide +kernel

/-- Expressions for ignored lines and a prefix of the jail -/
example : load env (source Dict.empty (("ignoreregex", "x\ny") :: ("prefregex", "^<HOST>") :: ("failregex", "a") :: jail)) {} ["LOG".toList, "mongo".toList] = .ok
    { flt := { pref := some "^<HOST>".toList, fails := ["a".toList], ignores := ["x".toList, "y".toList], maxlines := 10, date := some "%Y-%m-%d".toList }, maxSet := true, dateSet := true,
      journal := some [txt "_COMM=mongo".toList], fails := ["a".toList], ignores := ["x".toList, "y".toList] } := by decide +kernel

/-- They are replaced by the one of the command line -/
example : (match load env (source Dict.empty (("ignoreregex", "x\ny") :: jail)) {} ["LOG".toList, "mongo".toList, "z".toList] with
    | .ok t => some (t.flt.ignores, t.ignores)
    | _ => none) = some (["z".toList], ["z".toList]) := by decide +kernel

/-- An expression instead of a name -/
example : load env (source Dict.empty jail) {} ["LOG".toList, "^x <HOST>".toList] = .ok { flt := { fails := ["^x <HOST>".toList] }, fails := ["^x <HOST>".toList] } := by decide +kernel

/-- Wrong expressions, options and arguments -/
example : load env (source Dict.empty jail) {} ["LOG".toList, "^x".toList] = .stop ∧ load env (source Dict.empty jail) {} ["LOG".toList, "mongo".toList, "(".toList] = .stop ∧
    load env (source Dict.empty (("failregex", "^x") :: jail)) {} ["LOG".toList, "mongo".toList] = .stop ∧
    load env (source Dict.empty (("prefregex", "(<HOST>") :: jail)) {} ["LOG".toList, "mongo".toList] = .stop ∧
    load env (source Dict.empty (("ignoreregex", "(") :: jail)) {} ["LOG".toList, "mongo".toList] = .stop ∧
    load env (source Dict.empty (("datepattern", "x") :: jail)) {} ["LOG".toList, "mongo".toList] = .stop ∧
    load env (source Dict.empty (("maxlines", "0") :: jail)) {} ["LOG".toList, "mongo".toList] = .stop ∧
    load env (source Dict.empty (("datepattern", "(") :: jail)) {} ["LOG".toList, "mongo".toList] = .raise ∧
    load env (source Dict.empty jail) { maxlines := -1 } ["LOG".toList, "mongo".toList] = .stop ∧
    load env (source Dict.empty jail) { datepattern := some "(".toList } ["LOG".toList, "mongo".toList] = .stop ∧
    load env (source Dict.empty jail) { datepattern := some [] } ["LOG".toList, "mongo".toList] = load env (source Dict.empty jail) {} ["LOG".toList, "mongo".toList] ∧
    load env (source Dict.empty jail) {} ["LOG".toList] = .stop ∧ load env (source Dict.empty jail) {} [] = .stop ∧
    load env (fun _ => .failed) {} ["LOG".toList, "mongo".toList] = .stop ∧ load env (fun _ => .raises) {} ["LOG".toList, "mongo".toList] = .raise := by decide +kernel

/-- A filter without any setting: its name is taken as expression -/
example : load env (fun _ => .commands []) {} ["LOG".toList, "a<b".toList] = .ok { flt := { fails := ["a<b".toList] }, fails := ["a<b".toList] } := by decide +kernel

/-- Values of single options -/
example : setMaxLines env (some (.bool true)) {} = .ok { maxSet := true } ∧ setMaxLines env (some (.bool false)) {} = .stop ∧ setMaxLines env none {} = .raise ∧
    setMaxLines env (txt "7".toList) {} = .ok { flt := { maxlines := 7 }, maxSet := true } ∧ setMaxLines env (txt "x".toList) {} = .stop ∧
    setDatePattern env none { flt := { date := some [] } } = .ok { dateSet := true } ∧ setDatePattern env (some (.int 1)) {} = .raise ∧
    setPref env (txt []) { flt := { pref := some ['x'] } } = .ok {} ∧ setPref env (some (.int 1)) {} = .raise := by decide +kernel

/-- `usedns` of the filter is one of the commands that change nothing -/
example : given "usedns" (ReaderExample.list (ReaderExample.cmdsOf Dict.empty jail)) = [txt "no".toList] ∧
    ∀ k ∈ ["prefregex", "addfailregex", "addignoreregex", "maxlines", "datepattern", "addjournalmatch"], valuesOf k.toList (Reader.setCmd "mongo".toList "usedns" (txt "no".toList)) = none := by
  decide +kernel

/-- Too many arguments; a match of the journal of several words -/
example : load env (source Dict.empty jail) {} ["LOG".toList, "mongo".toList, "x".toList, "y".toList] = .stop ∧
    (match load env (source Dict.empty (("journalmatch", "_UID=1 _COMM=x") :: jail)) {} ["LOG".toList, "mongo".toList] with
     | .ok t => t.journal
     | _ => none) = some [txt "_UID=1".toList, txt "_COMM=x".toList] := by decide +kernel

/-- Number of lines and date pattern used -/
def used : Res Tool → Option (Int × Option Str)
  | .ok t => some (t.flt.maxlines, t.flt.date)
  | _ => none

end Example

open Example in
/-- If jail and filter both give the number of lines or a date pattern, then for a jail it is not tested with what the server uses -/
theorem C117_refuted_jail :
    (let l := ReaderExample.list (ReaderExample.cmdsOf Dict.empty (("maxlines", "20") :: jail))
     ReaderSpec.effective "maxlines" l = some (some (.int 10)) ∧
     used (load env (source Dict.empty (("maxlines", "20") :: jail)) {} ["LOG".toList, "mongo".toList]) = some (20, some "%Y-%m-%d".toList)) ∧
    (let p := Dict.empty.insert "datepattern" (some (.str "%Y".toList))
     ReaderSpec.effective "datepattern" (ReaderExample.list (ReaderExample.cmdsOf p (("datepattern", "%s") :: jail))) = some (txt "%s".toList) ∧
     used (load env (source p (("datepattern", "%s") :: jail)) {} ["LOG".toList, "mongo".toList]) = some (10, some "%Y".toList)) := by
  decide +kernel

open Example in
/-- Of several matches of the journal only the last one is used -/
theorem C117_refuted_journal :
    (let l := ReaderExample.list (ReaderExample.cmdsOf Dict.empty (("journalmatch", "_UID=1") :: jail))
     settings "addjournalmatch" l = [[txt "_COMM=mongo".toList], [txt "_UID=1".toList]]) ∧
    (match load env (source Dict.empty (("journalmatch", "_UID=1") :: jail)) {} ["LOG".toList, "mongo".toList] with
     | .ok t => t.journal
     | _ => none) = some [txt "_UID=1".toList] := by
  decide +kernel

end Verif.RegexLoad
