import Verif.Model.Config

/-!
# Spec: what configuration files say
-/

namespace Verif.Spec.Config

open Verif

/-- A section name with a condition, like `Init?family=inet6`. -/
def Conditional (name base cond : String) : Prop :=
  name = base ++ cond ∧ base ≠ "" ∧ (∀ c ∈ base.toList, c.isAlphanum ∨ c = '_') ∧ ∃ x r, cond.toList = '?' :: x :: r

/-- What a section of a file contributes: a conditional section contributes to the section without the condition, with the condition appended to
the names of its options. -/
def Contributes (n : String) (s : Section) (sec : String) (opts : Section) : Prop :=
  (∃ cond, Conditional n sec cond ∧ ∀ opt v, opts.get? opt = some v ↔ ∃ k, opt = k ++ cond ∧ s.get? k = some v) ∨
  ((∀ base cond, ¬Conditional n base cond) ∧ sec = n ∧ opts = s)

/-- the values given to an option by a sequence of sections -/
def assigned (written : List (String × Section)) (sec opt : String) : List Value :=
  written.filterMap (fun w => if w.1 = sec then w.2.get? opt else none)

/-- the values given to an option in `DEFAULT` by a sequence of files -/
def assignedDefault (files : List Cfg) (opt : String) : List Value := files.filterMap (fun f => f.defaults.get? opt)

/-- `written` is what the sections of the files contribute, in order. -/
inductive Written : List (String × Section) → List (String × Section) → Prop where
  | nil : Written [] []
  | cons {n s sec opts l w} : Contributes n s sec opts → Written l w → Written ((n, s) :: l) ((sec, opts) :: w)

/-- all sections of the files, in order -/
def sectionsOf (files : List Cfg) : List (String × Section) := files.flatMap (fun f => f.sections.items)

/-- No file has a section of previous values of its own. -/
def NoKnown (files : List Cfg) : Prop := ∀ ns ∈ sectionsOf files, ∀ m, ns.1 ≠ "KNOWN/" ++ m

/-- The lists `ls` are read for included files `rs`: nothing for a file of `seen`, otherwise what `R` says for the file, followed by what it says for
the file with extension `.local`, if there is one. -/
def Included (fs : FileSys) (R : String → List String → Prop) (seen : List String) : List String → List String → Prop
  | [], l => l = []
  | r :: rs, l => ∃ own loc rest, l = own ++ loc ++ rest ∧ Included fs R seen rs rest ∧
      (r ∈ seen → own = [] ∧ loc = []) ∧ (r ∉ seen → R r own) ∧
      (r ∉ seen → fs.localName r ≠ r → fs.isFile (fs.localName r) = true → R (fs.localName r) loc) ∧
      (fs.localName r = r ∨ fs.isFile (fs.localName r) = false → loc = [])

/-- Nothing is read for a file that cannot be read. Otherwise files given by `before` are read first, then the file, then files given by `after`. -/
def ReadingOrder (fs : FileSys) (R : List String → String → List String → Prop) (seen : List String) (f : String) (l : List String) : Prop :=
  match fs.parse f with
  | none => l = []
  | some c => ∃ b a, l = b ++ [f] ++ a ∧ Included fs (R (seen ++ [f])) seen (c.before.map (fs.resolve f)) b ∧
      Included fs (R (seen ++ [f])) seen (c.after.map (fs.resolve f)) a

/-- Includes do not form a loop: they lead to files of smaller rank. -/
def Acyclic (fs : FileSys) (rank : String → Nat) : Prop :=
  ∀ f c r, fs.parse f = some c → r ∈ (c.before ++ c.after).map (fs.resolve f) → rank r < rank f ∧ rank (fs.localName r) < rank f

/-- Files with extension `.local` have no includes. -/
def PlainLocals (fs : FileSys) : Prop := ∀ f c, fs.localName f ≠ f → fs.parse (fs.localName f) = some c → c.before = [] ∧ c.after = []

/-- All files that are included are in the list. -/
def Closed (fs : FileSys) (files : List String) : Prop :=
  ∀ f ∈ files, ∀ c, fs.parse f = some c → ∀ r ∈ (c.before ++ c.after).map (fs.resolve f), r ∈ files

/-- A name of the form `section/option`. -/
def SectionReference (name sec opt : String) : Prop :=
  name = sec ++ "/" ++ opt ∧ sec ≠ "" ∧ opt ≠ "" ∧ ∀ c ∈ sec.toList, c.isAlphanum ∨ c = '_' ∨ c = '-'

/-- The value `sec/opt` stands for: `known` is the previous value within section `cur`; a default if there is none. -/
def valueOf (c : Cfg) (cur sec opt : String) : Option Value :=
  if sec.toLower = "default" then c.defaults.get? opt
  else if sec.toLower = "known" then ((c.sections.get? ("KNOWN/" ++ cur)).bind (·.get? opt)).or (c.defaults.get? opt)
  else (c.sections.get? sec).bind (fun s => (s.get? opt).or (c.defaults.get? opt))

/-- `Means c cur vars sec name v`: within section `cur`, with options `sec`, the name stands for value `v`: the name of the section, a variable, an option
of the section, a default, or an option given with its section - the first of these. -/
def Means (c : Cfg) (cur : String) (vars sec : Section) (name : String) (v : Value) : Prop :=
  if name = "__name__" then v = [.lit cur]
  else
    match vars.get? name, sec.get? name, c.defaults.get? name with
    | some w, _, _ => v = w
    | none, some w, _ => v = w
    | none, none, some w => v = w
    | none, none, none => ∃ s o, SectionReference name s o ∧ valueOf c cur s o = some v

/-- `Expands look n v r`: the text of value `v` is `r`, with references nested less than `n` deep. -/
inductive Expands (look : String → Value → Prop) : Nat → Value → List String → Prop where
  | nil {n} : Expands look (n + 1) [] []
  | lit {n s v r} : Expands look (n + 1) v r → Expands look (n + 1) (.lit s :: v) (s :: r)
  | pct {n v r} : Expands look (n + 1) v r → Expands look (n + 1) (.pct :: v) ("%" :: r)
  | text {n name t v r} : look name (t.map .lit) → Expands look (n + 1) v r → Expands look (n + 1) (.ref name :: v) (t ++ r)
  | ref {n name w v a r} : look name w → Expands look n w a → Expands look (n + 1) v r → Expands look (n + 1) (.ref name :: v) (a ++ r)

end Verif.Spec.Config
