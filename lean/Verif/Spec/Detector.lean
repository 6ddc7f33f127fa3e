import Verif.Model.Detector

/-! # What users expect of the search for dates -/

namespace Verif.DetectorSpec

open Detector

/-- A detector that has seen no line yet. -/
def fresh (ts : List Template) : State := { entries := ts.map (fun t => { t }) }

/-- A pattern never finds the empty text behind the last character, and what it finds lies within the line. -/
structure Proper (t : Template) : Prop where
  whole : ∀ l a b, t.search l = some (a, b) → a < l.length ∧ b ≤ l.length
  part : ∀ l p q a b, t.searchIn l p q = some (a, b) → a < l.length ∧ b ≤ l.length

/-- What a pattern finds in a part of a line shows that it finds something in the line. -/
def Extends (t : Template) : Prop := ∀ l p q, t.searchIn l p q ≠ none → t.search l ≠ none

/-- The last used template. -/
def LastUsed (s : State) (i : Nat) (e : Entry) : Prop := s.lastIdx = some i ∧ s.entries[i]? = some e

/-- The characters around the last date are the same in this line; the first or the last character of the date will do unless it is a letter or a digit. -/
def Fits (env : Env) (s : State) (line : List Char) : Prop :=
  ((if s.lastPos = 0 then s.before = none else line[s.lastPos - 1]? = s.before) ∨
    line[s.lastPos]? = s.first ∧ ∀ c, s.first = some c → env.alnum c = false) ∧
  (line[s.lastEnd]? = s.after ∨
    (if s.lastEnd = 0 then s.last = none else line[s.lastEnd - 1]? = s.last) ∧ ∀ c, s.last = some c → env.alnum c = false)

/-- What is tried first: the last template, in the whole line if it is anchored or the surrounding differs, else at its last place only. -/
inductive Tried (env : Env) (s : State) (line : List Char) (e : Entry) : Option (Nat × Nat) → (again : Bool) → Prop where
  | anchored : e.t.anchored = true → Tried env s line e (e.t.search line) false
  | place : e.t.anchored = false → Fits env s line → Tried env s line e (e.t.searchIn line s.lastPos s.lastEnd) true
  | moved : e.t.anchored = false → ¬Fits env s line → Tried env s line e (e.t.search line) false

/-- The match of the last template is taken without looking further. -/
def Kept (s : State) (e : Entry) (m : Nat × Nat) : Prop :=
  s.entries.length = 1 ∨ e.t.anchored = true ∨ m = (s.lastPos, s.lastEnd)

/-- A template finds a date in the line. -/
structure Finds (s : State) (line : List Char) (skip : Option Nat) (c : Cand) (e : Entry) : Prop where
  entry : s.entries[c.idx]? = some e
  search : e.t.search line = some (c.start, c.stop)
  notSkipped : skip ≠ some c.idx

/-- A date that ends the search: by the last template of the list, by an anchored one, at the begin of the line if the next template is unused, or not
farther from the begin of the line than the last date of this template and the last date of all. -/
def Final (env : Env) (s : State) (c : Cand) (e : Entry) : Prop :=
  c.idx + 1 = s.entries.length ∨ e.t.anchored = true ∨
  (c.start = 0 ∧ e.hits ≠ 0 ∧ ∃ n, s.entries[c.idx + 1]? = some n ∧ env.shared n.t.name = false) ∨
  (c.start ≤ e.distance ∧ c.start ≤ s.lastPos)

/-- The date next to the begin of the line, `kept` first, then in the order of templates. -/
structure Nearest (kept : Option Cand) (P : Cand → Prop) (c : Cand) : Prop where
  mem : kept = some c ∨ P c
  reserved : ∀ f, kept = some f → c = f ∨ c.start < f.start
  others : ∀ d, P d → c.start < d.start ∨ c = d ∨ (c.start = d.start ∧ (kept = some c ∨ c.idx < d.idx))

/-- The outcome of the search through all templates. -/
inductive Selects (env : Env) (s : State) (line : List Char) (skip : Option Nat) (kept : Option Cand) (c : Cand) : Prop where
  | final (e : Entry) : Finds s line skip c e → Final env s c e → (∀ d f, d.idx < c.idx → Finds s line skip d f → ¬Final env s d f) →
      Selects env s line skip kept c
  | nearest : (∀ d f, Finds s line skip d f → ¬Final env s d f) → Nearest kept (fun d => ∃ f, Finds s line skip d f) c → Selects env s line skip kept c

/-- The date of a line by the rules above. -/
inductive Chooses (env : Env) (s : State) (line : List Char) (c : Cand) : Prop where
  /-- by the last template -/
  | same (e : Entry) (again : Bool) : LastUsed s c.idx e → Tried env s line e (some (c.start, c.stop)) again → Kept s e (c.start, c.stop) →
      Chooses env s line c
  /-- the last template found something elsewhere -/
  | moved (i : Nat) (e : Entry) (again : Bool) (m : Nat × Nat) : LastUsed s i e → Tried env s line e (some m) again → ¬Kept s e m →
      Selects env s line (if again then none else some i) (some ⟨m.1, m.2, i⟩) c → Chooses env s line c
  /-- the last template found nothing -/
  | other (i : Nat) (e : Entry) (again : Bool) : LastUsed s i e → Tried env s line e none again →
      Selects env s line (if again then none else some i) none c → Chooses env s line c
  /-- no template was used yet -/
  | first : (∀ i e, ¬LastUsed s i e) → Selects env s line none none c → Chooses env s line c

/-- An entry that counts one more line. -/
def counted (now : Int) (start : Nat) (e : Entry) : Entry := { e with hits := e.hits + 1, lastUsed := now, distance := start }

/-- The value of a template for the order is less: its hits times its weight, divided by its distance. -/
def Less (y x : Entry) : Prop := y.hits * y.t.weight * max 1 x.distance < x.hits * x.t.weight * max 1 y.distance

/-- One template may take the place of another: its value is greater, or the other one was not used for five minutes. -/
def Replaces (x y : Entry) : Prop := Less y x ∨ y.lastUsed + 300 < x.lastUsed

/-- The templates that found no date yet come last, in the order they were given. -/
def Sorted (ts : List Template) (s : State) : Prop :=
  (∀ e ∈ s.entries.take s.firstUnused, e.hits ≠ 0) ∧ (∀ e ∈ s.entries.drop s.firstUnused, e.hits = 0) ∧
  ((s.entries.drop s.firstUnused).map (·.t)).Sublist ts

/-- Where a template is moved to if it may: to the first one that found no date yet, else half way to the front. -/
def wanted (s : State) (i : Nat) : Nat := if s.firstUnused < i then s.firstUnused else i / 2

/-- The place `p` of a template (with its new counters `x`) that was at `i`. -/
inductive Placed (s : State) (i : Nat) (x : Entry) (p : Nat) : Prop where
  | same : (s.lastIdx = some i ∨ i = 0) → p = i → Placed s i x p
  | wanted (y : Entry) : s.lastIdx ≠ some i → i ≠ 0 → s.entries[wanted s i]? = some y → Replaces x y → p = wanted s i → Placed s i x p
  | one (y z : Entry) : s.lastIdx ≠ some i → i ≠ 0 → s.entries[wanted s i]? = some y → ¬Replaces x y → s.entries[i - 1]? = some z → Replaces x z →
      p = i - 1 → Placed s i x p
  | stay (y z : Entry) : s.lastIdx ≠ some i → i ≠ 0 → s.entries[wanted s i]? = some y → ¬Replaces x y → s.entries[i - 1]? = some z → ¬Replaces x z →
      p = i → Placed s i x p

/-- A later line has a date of this template at the same place, between the same characters. -/
def Repeats (t : Template) (a b : Nat) (line line' : List Char) : Prop :=
  (a = 0 ∨ line'[a - 1]? = line[a - 1]?) ∧ line'[b]? = line[b]? ∧ t.searchIn line' a b = some (a, b)

end Verif.DetectorSpec
