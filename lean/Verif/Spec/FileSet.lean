import Verif.Model.FileSet
import Verif.Spec.Reader

/-!
# Ignored addresses from a file — what is expected
-/

namespace Verif.FileSetSpec

open Verif.FileSet Verif.ReaderSpec

/-- White space. -/
def isSpace (c : Char) : Prop := isSeparator c ∧ c ≠ ','

/-- A comment begins here: a mark at the begin of the line or after white space. -/
def Comment (line : Str) (i : Nat) : Prop := (line[i]? = some '#' ∨ line[i]? = some ';') ∧ ∀ j, i = j + 1 → ∃ c, line[j]? = some c ∧ isSpace c

/-- The part of a line before the first comment. -/
def Before (line p : Str) : Prop := (∃ rest, line = p ++ rest) ∧ (∀ i, Comment line i → p.length ≤ i) ∧ (p = line ∨ Comment line p.length)

/-- Lists of the same length that correspond. -/
inductive All₂ {α β : Type} (R : α → β → Prop) : List α → List β → Prop
  | nil : All₂ R [] []
  | cons {a b l m} : R a b → All₂ R l m → All₂ R (a :: l) (b :: m)

/-- The lines of a text. -/
def Lines (text : Str) (ls : List Str) : Prop := ls ≠ [] ∧ text = ['\n'].intercalate ls ∧ ∀ l ∈ ls, '\n' ∉ l

/-- Entries of a file: the words before the comments of its lines. -/
def Entries (text : Str) (ws : List Str) : Prop := ∃ ls ps wss, Lines text ls ∧ All₂ Before ls ps ∧ All₂ Words ps wss ∧ ws = wss.flatten

/-- Each modification of the file shows in `stat`, and `stat` does not come back: between equal `stat`s the file is the same. -/
def Honest (file : Int → FileState) : Prop := ∀ t1 t2 t3, t1 ≤ t2 → t2 ≤ t3 → (file t1).stat ≠ none → (file t1).stat = (file t3).stat → file t2 = file t3

/-- Whenever there is a file, it can be read, and its entries are understood. -/
def Readable (lib : NetLib) (file : Int → FileState) : Prop := ∀ t, (file t).stat ≠ none → ∃ text ips, (file t).text = some text ∧ parse lib text = some ips

/-- Questions one after another, at positive times. -/
def InOrder (from_ : Int) : List (Int × Int) → Prop
  | [] => True
  | c :: l => from_ ≤ c.1 ∧ 0 < c.1 ∧ c.1 ≤ c.2 ∧ InOrder c.2 l

end Verif.FileSetSpec
