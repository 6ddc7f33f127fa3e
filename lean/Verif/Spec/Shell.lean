import Verif.Spec.Tags

/-!
# Spec: what a shell makes of a command, and texts with tags filled in once

Only what is needed to say which value ends up where: assignments of positional parameters in the first line, and references to
variables. Quotes and all other syntax are ordinary characters here. As in POSIX, `$` takes a single digit as positional parameter.
-/

namespace Verif.Spec.Shell

open Verif.Spec.Tags

abbrev Text := List Char

/-- The characters escaped, as documented for `escapeTag`. -/
def Special (c : Char) : Prop := c ∈ "\\#&;`|*?~<>^()[]{}$'\"\n\r".toList

instance (c : Char) : Decidable (Special c) := inferInstanceAs (Decidable (_ ∈ _))

/-- Some character is special. -/
def Dangerous (v : Text) : Prop := ∃ c ∈ v, Special c

/-- Reading an escaped text: nothing special but after a backslash. -/
def unescape : Text → Option Text
  | [] => some []
  | '\\' :: 'n' :: r => (unescape r).map ('\n' :: ·)
  | '\\' :: 'r' :: r => (unescape r).map ('\r' :: ·)
  | '\\' :: c :: r => if Special c ∧ c ≠ '\n' ∧ c ≠ '\r' then (unescape r).map (c :: ·) else none
  | c :: r => if Special c then none else (unescape r).map (c :: ·)

/-- part of the name of a variable -/
def ident (c : Char) : Bool := ('a' ≤ c && c ≤ 'z') || ('A' ≤ c && c ≤ 'Z') || ('0' ≤ c && c ≤ '9') || c == '_'

/-- value of a decimal digit -/
def digit (c : Char) : Option Nat := if '0' ≤ c && c ≤ '9' then some (c.toNat - 48) else none

/-- State of reading assignments: in a name, in a value, after a `$` in a value. -/
inductive Reading where
  | name (nm : Text)
  | value (nm v : Text)
  | dollar (nm v : Text)

/-- Assignments in a line `name=value ...`, where `$d` in a value is a positional parameter: names and values. -/
def assign (args : List Text) : Reading → Text → List (Text × Text)
  | .name _, [] => []
  | .value nm v, [] => [(nm, v)]
  | .dollar nm v, [] => [(nm, v ++ ['$'])]
  | .name nm, c :: r =>
    if c = ' ' then assign args (.name []) r else if c = '=' then assign args (.value nm []) r else assign args (.name (nm ++ [c])) r
  | .value nm v, c :: r =>
    if c = ' ' then (nm, v) :: assign args (.name []) r
    else if c = '$' then assign args (.dollar nm v) r
    else assign args (.value nm (v ++ [c])) r
  | .dollar nm v, c :: r =>
    match digit c with
    | some i => assign args (.value nm (v ++ args.getD i [])) r
    | none =>
      if c = ' ' then (nm, v ++ ['$']) :: assign args (.name []) r
      else if c = '$' then assign args (.dollar nm (v ++ ['$'])) r
      else assign args (.value nm (v ++ ['$', c])) r

/-- `$name`: the value, or a single `$` -/
def refer (env : Text → Text) (nm : Text) : Text := if nm = [] then ['$'] else env nm

/-- Replaces references to variables; the state is the name being read (in reverse order). -/
def expand (env : Text → Text) : Option Text → Text → Text
  | none, [] => []
  | some m, [] => refer env m.reverse
  | none, c :: r => if c = '$' then expand env (some []) r else c :: expand env none r
  | some m, c :: r =>
    if ident c then expand env (some (c :: m)) r
    else if c = '$' then refer env m.reverse ++ expand env (some []) r
    else refer env m.reverse ++ c :: expand env none r

/-- value of a variable after assignments -/
def envOf (l : List (Text × Text)) (nm : Text) : Text := ((l.reverse.find? (fun p => p.1 = nm)).map Prod.snd).getD []

/-- The text of a command after assignments (if there are arguments, these are in the first line) and replacement of variables. -/
def run (text : Text) (args : List Text) : Text :=
  if args = [] then expand (fun _ => []) none text
  else
    let header := text.takeWhile (· ≠ '\n')
    let body := text.drop (header.length + 1)
    expand (envOf (assign args (.name []) header)) none body

/-- `w` is `v` with each tag replaced by its value, once; other text is kept. -/
inductive Filled (val : Text → Text) : Text → Text → Prop
  | nil : Filled val [] []
  | chr (c : Char) {v w : Text} : c ≠ '<' → Filled val v w → Filled val (c :: v) (c :: w)
  | tag (n : Text) {v w : Text} : Name n → Filled val v w → Filled val ('<' :: (n ++ '>' :: v)) (val n ++ w)

end Verif.Spec.Shell
