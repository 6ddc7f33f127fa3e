import Verif.Model.RegexLoad

/-! # What `fail2ban-regex` is to test with -/

namespace Verif.RegexLoadSpec

open Reader (Str Val Cmd)
open RegexLoad (Env Options Filter Res)

/-- A text as value -/
def txt (s : Str) : Option Val := some (.str s)

/-- The values a command gives to an option -/
def valuesOf (key : Str) : Cmd → Option (List (Option Val))
  | .set _ (some (.str k) :: vs) => if k = key then some vs else none
  | .multiSet _ k vs => if k.toList = key then some (vs.map txt) else none
  | _ => none

/-- The values given to an option by commands, for each command -/
def settings (key : String) (l : List Cmd) : List (List (Option Val)) := l.filterMap (valuesOf key.toList)

/-- All values given to an option by commands in order -/
def given (key : String) (l : List Cmd) : List (Option Val) := (settings key l).flatten

/-- The prefix expression a value stands for -/
inductive Prefix (env : Env) : Option Val → Option Str → Prop where
  | no : Prefix env none none
  | empty : Prefix env (txt []) none
  | zero : Prefix env (some (.int 0)) none
  | false : Prefix env (some (.bool false)) none
  | some (s : Str) : s ≠ [] → env.regexOk s = true → Prefix env (txt s) (some s)

/-- The number of lines a value stands for -/
inductive Lines (env : Env) : Option Val → Int → Prop where
  | int (i : Int) : 0 < i → Lines env (some (.int i)) i
  | one : Lines env (some (.bool true)) 1
  | text (s : Str) (i : Int) : env.toInt s = some i → 0 < i → Lines env (txt s) i

/-- The date pattern a value stands for -/
inductive Date (env : Env) : Option Val → Option Str → Prop where
  | default : Date env none none
  | text (s : Str) : env.date s = .ok () → Date env (txt s) (some s)

/-- The value an option has, which is taken from the first of the values that were given -/
inductive First {α β : Type} (R : α → β → Prop) : List α → β → β → Prop where
  | same (b : β) : First R [] b b
  | first (a : α) (l : List α) (b b' : β) : R a b' → First R (a :: l) b b'

/-- The same with the last one, all are to be valid -/
inductive Last {α β : Type} (R : α → β → Prop) : List α → β → β → Prop where
  | same (b : β) : Last R [] b b
  | last (l : List α) (a : α) (b b' : β) : (∀ x ∈ l, ∃ y, R x y) → R a b' → Last R (l ++ [a]) b b'

/-- What the filter is to be set to by commands of a jail or filter, from what it has, if the options of the command line are as said -/
structure Loaded (env : Env) (lines date : Bool) (l : List Cmd) (f f' : Filter) : Prop where
  fails : f'.fails.map txt = f.fails.map txt ++ given "addfailregex" l
  ignores : f'.ignores.map txt = f.ignores.map txt ++ given "addignoreregex" l
  pref : Last (Prefix env) (given "prefregex" l) f.pref f'.pref
  maxlines : if lines then f'.maxlines = f.maxlines else First (Lines env) (given "maxlines" l) f.maxlines f'.maxlines
  date : if date then f'.date = f.date else First (Date env) (given "datepattern" l) f.date f'.date
  failOk : ∀ r, txt r ∈ given "addfailregex" l → env.failOk f'.pref (decide (1 < f'.maxlines)) r = true
  ignoreOk : ∀ r, txt r ∈ given "addignoreregex" l → env.regexOk r = true

/-- What the filter of the server has by the same commands: the last value of each option counts (C66) -/
structure Server (env : Env) (l : List Cmd) (f : Filter) : Prop where
  fails : f.fails.map txt = given "addfailregex" l
  ignores : f.ignores.map txt = given "addignoreregex" l
  pref : Last (Prefix env) (given "prefregex" l) none f.pref
  maxlines : Last (Lines env) (given "maxlines" l) 1 f.maxlines
  date : Last (Date env) (given "datepattern" l) none f.date

/-- Values that a reader gives: expressions and date patterns are texts, of which date patterns are valid or wrong values -/
structure Sane (env : Env) (l : List Cmd) : Prop where
  fails : ∀ v ∈ given "addfailregex" l, ∃ r, v = txt r
  ignores : ∀ v ∈ given "addignoreregex" l, ∃ r, v = txt r
  pref : ∀ v ∈ given "prefregex" l, ∃ r, v = txt r
  maxlines : none ∉ given "maxlines" l
  date : ∀ v ∈ given "datepattern" l, ∃ r, v = txt r ∧ env.date r ≠ .raise

/-- What the options of the command line set -/
structure Set (env : Env) (o : Options) (f : Filter) : Prop where
  fails : f.fails = []
  ignores : f.ignores = []
  pref : f.pref = none
  maxlines : (o.maxlines = 0 ∧ f.maxlines = 1) ∨ (0 < o.maxlines ∧ f.maxlines = o.maxlines)
  date : (¬(∃ p, o.datepattern = some p ∧ p ≠ []) ∧ f.date = none) ∨ ∃ p, o.datepattern = some p ∧ p ≠ [] ∧ env.date p = .ok () ∧ f.date = some p

end Verif.RegexLoadSpec
