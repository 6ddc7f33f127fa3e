import Verif.Model.Journal

/-!
# Monitoring of the systemd journal — what is expected
-/

namespace Verif.JournalSpec

open Verif.Journal

/-- An entry fulfils a match: for each field in it, the entry has one of its values for this field. -/
def Meets (t : List String) (e : List String) : Prop := ∀ m ∈ t, ∃ m' ∈ t, field m' = field m ∧ m' ∈ e

/-- Which entries are wanted by a list of matches: those that fulfil one of the matches that are not empty; all, if there are none. -/
def Wanted (ts : List (List String)) (e : List String) : Prop := (∀ t ∈ ts, t = []) ∨ ∃ t ∈ ts, t ≠ [] ∧ Meets t e

/-- Several matches as one command, with `+` in between. -/
def withPlus : List (List String) → List String
  | [] => []
  | [t] => t
  | t :: t' :: ts => t ++ "+" :: withPlus (t' :: ts)

/-- Elements without `+`. -/
def Plain (ts : List (List String)) : Prop := ∀ t ∈ ts, "+" ∉ t

/-- A state that a filter can get to by commands. -/
def Reached (valid : String → Bool) (s : Matches) : Prop := ∃ cs, s = noMatches.commands valid cs

/-- Can all elements be added? -/
def AllValid (valid : String → Bool) (ts : List (List String)) : Prop := ∀ t ∈ ts, ∀ m ∈ t, valid m = true

/-- The first of several texts that is there and not empty. -/
def firstText : List (Option (List Char)) → Option (List Char)
  | [] => none
  | some (c :: s) :: _ => some (c :: s)
  | _ :: l => firstText l

/-- The text of an identifier of a process, if it is neither absent nor empty nor 0. -/
def pidText (int0 : List Char → Option Int) : Option Pid → Option (List Char)
  | none => none
  | some (.num n) => if n = 0 then none else some (toString n).toList
  | some (.text s) => if s = [] then none else some ((int0 s).elim s (fun n => (toString n).toList))
  | some (.other s) => some s

/-- Name of the program with its process, as in a log file. -/
def program (int0 : List Char → Option Int) (e : Entry) : Option (List Char) :=
  (firstText [e.ident, e.comm]).map (fun v =>
    v ++ (match firstText [(pidText int0 e.syslogPid).map (fun p => '[' :: p ++ [']']), (pidText int0 e.pid).map (fun p => '[' :: p ++ [']'])] with
      | some p => p
      | none => []) ++ [':'])

/-- Parts of the line before the message; each is followed by a blank. -/
def parts (int0 : List Char → Option Int) (e : Entry) : List (List Char) :=
  (firstText [e.hostname]).toList ++ (program int0 e).toList ++ (if program int0 e = some "kernel:".toList then e.mono.toList else [])

/-- The line before the message. -/
def head (int0 : List Char → Option Int) (e : Entry) : List Char := (parts int0 e).flatMap (fun p => p ++ [' '])

/-- The message. -/
def body (e : Entry) : List Char := match e.message with
  | none => []
  | some (.one s) => s
  | some (.list []) => []
  | some (.list (s :: l)) => s ++ l.flatMap (fun t => ' ' :: t)

/-- Each end of a line in a text is written as `\n`. -/
def OneLine (s s' : List Char) : Prop := '\n' ∉ s' ∧ ∃ ls : List (List Char), (∀ l ∈ ls, '\n' ∉ l) ∧ ls ≠ [] ∧
  s = List.intercalate ['\n'] ls ∧ s' = List.intercalate ['\\', 'n'] ls

end Verif.JournalSpec
