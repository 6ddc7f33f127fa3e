import Verif.Lemmas.Json

/-!
# C105: data of a ban comes back from the database as it was stored
-/

namespace Verif.Json

/-- Plain data come back exactly: for every encoding that has ASCII, every nesting, every text (quotes, backslashes, control characters) -/
theorem C105_plain {can : Char → Bool} (ha : ∀ c : Char, c.toNat < 128 → can c = true) {v : Val} (h : Plain can v) : restore (store can v) = v := by
  obtain ⟨e, hs⟩ := plain_back v h
  obtain ⟨t, ht⟩ := (dump_storable v).2 hs
  unfold restore store
  rw [ht, loads_dump ha ht]
  exact e

/-- Any data with keys of known types come back as `back` says -/
theorem C105_back {can : Char → Bool} (ha : ∀ c : Char, c.toNat < 128 → can c = true) {v : Val} (h : Storable v) :
    restore (store can v) = back can v := by
  obtain ⟨t, ht⟩ := (dump_storable v).2 h
  unfold restore store
  rw [ht, loads_dump ha ht]

/-- One key of another type, at any depth, and nothing comes back -/
theorem C105_lost (can : Char → Bool) {v : Val} (h : ¬ Storable v) : store can v = ['{', '}'] ∧ restore (store can v) = .obj .nil := by
  have hd : dump v = none := by
    cases hd : dump v with
    | none => rfl
    | some t => exact absurd ((dump_storable v).1 ⟨t, hd⟩) h
  have : store can v = ['{', '}'] := by unfold store; rw [hd]
  exact ⟨this, by rw [this]; rfl⟩

/-- What `data.get(name)` gives afterwards: the last value stored for the name, and nothing for other names -/
theorem C105_get {can : Char → Bool} (ha : ∀ c : Char, c.toNat < 128 → can c = true) {d : Obj} (h : Storable (.obj d)) :
    ∃ e, restore (store can (.obj d)) = .obj e ∧ ∀ x, e.get x = (d.lastNamed can x).map (back can) := by
  refine ⟨backObj can d, ?_, get_back can d⟩
  rw [C105_back ha h, back]

/-- A text cut off anywhere is taken for no data, never for other data -/
theorem C105_cut {can : Char → Bool} (ha : ∀ c : Char, c.toNat < 128 → can c = true) (d : Obj) {p x : Text}
    (h : store can (.obj d) = p ++ x) (hx : x ≠ []) : restore p = .obj .nil := by
  have key : ∀ (d : Obj) t, dump (.obj d) = some t → coded can t = p ++ x → loads p = none := by
    intro d t ht he
    cases hl : loads p with
    | none => rfl
    | some w =>
      exfalso
      unfold loads at hl
      split at hl
      · cases hl
      · split at hl
        · rename_i v r hs
          split at hl
          · rename_i hr
            obtain ⟨b, _, rfl⟩ := dump_obj ht
            have hp : ∃ q, p = '{' :: q := by
              cases p with
              | nil => simp [skip, scan, scanNum, scanNat] at hs
              | cons c q =>
                rw [coded_cons, if_pos (ha _ (by decide)), List.cons_append] at he
                exact ⟨q, by rw [(List.cons.inj he).1]⟩
            obtain ⟨q, rfl⟩ := hp
            rw [skip_cons (by decide)] at hs
            have hv : ∀ i, v ≠ .int i := by
              rintro i rfl
              simp only [scan] at hs
              split at hs
              · cases hs
              · split at hs <;> cases hs
              · cases hs
            have hc := cost_le _ _ ht
            have hlen : cost (.obj d) ≤ (coded can ('{' :: b)).length + 1 := by rw [coded_length]; omega
            have h1 := (scan_append x _).1 _ _ _ hs (.inr hv) ((coded can ('{' :: b)).length + 1) (by rw [he, List.length_append]; omega)
            have h2 := scan_dump ha (.obj d) _ ht _ [] hlen (.inl rfl)
            rw [List.append_nil] at h2
            rw [← he, h2] at h1
            simp at h1
            exact hx h1.2.2
          · cases hl
        · cases hl
  have : loads p = none := by
    cases hd : dump (.obj d) with
    | some t => exact key d t hd (by unfold store at h; rw [hd] at h; exact h)
    | none =>
      refine key .nil ['{', '}'] rfl ?_
      unfold store at h; rw [hd] at h
      rw [← h]
      exact coded_ascii ha (by decide)
  unfold restore
  rw [this]

/-- The matches shown for a ban read from the database are the ones stored (in the characters of the encoding), also if stored in parts -/
theorem C105_matches {can : Char → Bool} (ha : ∀ c : Char, c.toNat < 128 → can c = true) {l : Arr} (hs : Storable (.arr l))
    (h : ∀ m ∈ l.lines, m ≠ none) : ∃ l', restore (store can (.arr l)) = .arr l' ∧ l'.lines = l.lines.map (Option.map (shown can)) := by
  refine ⟨backArr can l, by rw [C105_back ha hs, back], ?_⟩
  clear hs
  have shown_append : ∀ a b : Text, shown can (a ++ b) = shown can a ++ shown can b := by
    intro a b; rw [← coded_eq, coded_append, coded_eq, coded_eq]
  have hstr : ∀ (l : Arr) (p : List Text), l.strings = some p → (backArr can l).strings = some (p.map (shown can)) := by
    intro l
    induction l using Arr.strings.induct with
    | case1 => intro p hp; cases hp; rfl
    | case2 s l t ht ih =>
      intro p hp
      rw [Arr.strings, ht] at hp
      cases hp
      rw [backArr, back, Arr.strings, ih t ht]; rfl
    | case3 s l ht ih =>
      intro p hp
      rw [Arr.strings, ht] at hp
      cases hp
    | case4 v l hv =>
      intro p hp
      rw [Arr.strings] at hp
      · cases hp
      · exact hv
  have hflat : ∀ p : List Text, (p.map (shown can)).flatten = shown can p.flatten := by
    intro p
    induction p with
    | nil => rfl
    | cons a p ih => simp [shown_append, ih]
  have hline : ∀ v : Val, lineOf v ≠ none → lineOf (back can v) = (lineOf v).map (shown can) := by
    intro v hv
    cases v with
    | str s => rfl
    | arr l =>
      rw [back, lineOf, lineOf]
      rw [lineOf] at hv
      cases hp : l.strings with
      | none => rw [hp] at hv; exact absurd rfl hv
      | some p =>
        rw [hstr l p hp]
        simp [hflat]
    | _ => exact absurd rfl hv
  have hall : ∀ l : Arr, (∀ m ∈ l.lines, m ≠ none) → (backArr can l).lines = l.lines.map (Option.map (shown can)) := by
    intro l
    induction l using Arr.lines.induct with
    | case1 => intro _; rfl
    | case2 v l ih =>
      intro h
      rw [Arr.lines] at h
      rw [backArr, Arr.lines, Arr.lines, List.map_cons, ih (fun m hm => h m (by simp [hm])), hline v (h _ (by simp))]
  exact hall l h

/-! ## Examples -/

/-- Encoding of ASCII only -/
def ascii (c : Char) : Bool := decide (c.toNat < 128)

/-- Data of a ticket: matches with quotes, a tab and a part in pieces -/
def data : Val := .obj (.cons (.str "matches".toList) (.arr (.cons (.str "a \"b\"\t\\".toList) (.cons (.arr (.cons (.str ['x']) (.cons (.str ['y']) .nil))) .nil)))
  (.cons (.str "failures".toList) (.int 12) (.cons (.str ['t']) (.bool true) .nil)))

example : store ascii data = "{\"matches\": [\"a \\\"b\\\"\\t\\\\\", [\"x\", \"y\"]], \"failures\": 12, \"t\": true}".toList := by decide +kernel

example : Plain ascii data := by simp [Plain, PlainObj, PlainArr, data, ascii, Obj.Fresh]

example : dump (restore "{\"a\":[1, -20 ,null],\n\"b\" : {\"c\":\"\\u00e4\\/\"}} ".toList) = some "{\"a\": [1, -20, null], \"b\": {\"c\": \"ä/\"}}".toList := by decide +kernel

example : dump (restore "\t[ ]\r".toList) = some "[]".toList ∧ dump (restore "{ }".toList) = some "{}".toList ∧
    dump (restore "\"\\u00C4\\u20aC\\b\\f\\n\\r\\t\\\"\\\\\"".toList) = some "\"Ä€\\b\\f\\n\\r\\t\\\"\\\\\"".toList ∧ loads "[01]".toList = none ∧ loads "[1.5]".toList = none ∧
    loads "[1e5]".toList = none ∧ loads "[1E5]".toList = none ∧ loads "[\"\\ud800\"]".toList = none ∧ loads "[\"\\x\"]".toList = none ∧ loads "[1 2]".toList = none ∧
    loads "[1,]".toList = none ∧ loads "{1: 2}".toList = none ∧ loads "{\"a\" 1}".toList = none ∧ loads "{\"a\": 1 \"b\": 2}".toList = none := by
  refine ⟨by decide +kernel, by decide +kernel, by decide +kernel, ?_, ?_, ?_, ?_, ?_, ?_, ?_, ?_, ?_, ?_, ?_⟩ <;> exact Option.isNone_iff_eq_none.1 (by decide +kernel)

example : dump (restore "{\"a\": 1, \"b\": 2, \"a\": 3}".toList) = some "{\"a\": 3, \"b\": 2}".toList := by decide +kernel

example : dump (restore "{\"a\": 1".toList) = some "{}".toList ∧ dump (restore "{\"a\": 1} x".toList) = some "{}".toList ∧
    dump (restore "{\"a\": \"\n\"}".toList) = some "{}".toList := by decide +kernel

/-- Characters the encoding lacks are lost, numbers as keys become texts, two keys may become one -/
example : dump (back ascii (.obj (.cons (.int 1) (.str ['ä']) (.cons (.str ['1']) (.other ['x', 'ä']) .nil)))) = some "{\"1\": \"x?\"}".toList := by decide +kernel

/-- A tuple or an address as a key loses all the data, the matches too -/
theorem C105_refuted_keys : ∃ d : Obj, d.get "matches".toList ≠ none ∧ restore (store ascii (.obj d)) = .obj .nil :=
  ⟨.cons (.str "matches".toList) (.arr .nil) (.cons (.str "users".toList) (.obj (.cons .other (.int 1) .nil)) .nil), by simp [Obj.get],
    (C105_lost ascii (by simp [Storable, StorableObj])).2⟩

end Verif.Json
