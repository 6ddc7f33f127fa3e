import Verif.Model.RegexTool

/-!
# The test tool `fail2ban-regex` — what is expected
-/

namespace Verif.RegexToolSpec

open Verif.RegexTool

variable {σ : Type}

/-- The end of a line is removed: nothing else, and no more of it is at the end. -/
def Ends (p : Char → Prop) (s t : Str) : Prop := ∃ e, s = t ++ e ∧ (∀ c ∈ e, p c) ∧ ∀ t' c, t = t' ++ [c] → ¬ p c

/-- End of line -/
def isEol (c : Char) : Prop := c = '\r' ∨ c = '\n'

/-- White space -/
def isWhite (c : Char) : Prop := c ∈ [' ', '\t', '\n', '\r', '\x0b', '\x0c']

/-- What is to be tested of an item, if anything: entries of the journal, and lines without their end that are neither empty nor comments. -/
inductive Tests : Item → Item → Prop
  | entry (a b c) : Tests (.entry a b c) (.entry a b c)
  | line (s t) : Ends isEol s t → t ≠ [] → (∀ r, t ≠ '#' :: r) → Tests (.line s) (.line t)

/-- The lines tested, with state of the filter before and what it says. -/
inductive Trace (f : Flt σ) : σ → List Item → List (σ × Item × Result σ) → Prop
  | nil (s) : Trace f s [] []
  | skip (s i is tr) : (¬∃ j, Tests i j) → Trace f s is tr → Trace f s (i :: is) tr
  | test (s i j is tr) : Tests i j → Trace f (f.process s j).next is tr → Trace f s (i :: is) ((s, j, f.process s j) :: tr)

/-- Three kinds of lines -/
inductive Kind where
  | ignored
  | matched
  | missed
deriving DecidableEq

/-- An expression to be ignored was found, or a match that is no failure: ignored. Otherwise matched, if a failure was found. -/
def IsKind (r : Result σ) : Kind → Prop
  | .ignored => r.ignoredBy ≠ [] ∨ ∃ m ∈ r.found, m.nofail = true
  | .matched => r.ignoredBy = [] ∧ (∀ m ∈ r.found, m.nofail = false) ∧ r.found ≠ []
  | .missed => r.ignoredBy = [] ∧ r.found = []

/-- What is shown of a line: the line, or the parts of an entry of the journal one after the other -/
def itemText : Item → Str
  | .line s => s
  | .entry a b c => a ++ (b ++ c)

open Classical in
/-- The lines of a kind -/
noncomputable def linesOf (k : Kind) (tr : List (σ × Item × Result σ)) : List Str := (tr.filter (fun x => decide (IsKind x.2.2 k))).map (fun x => itemText x.2.1)

/-- Lines that were kept for the search over several lines, would have been still, but are gone. -/
def gone (f : Flt σ) (x : σ × Item × Result σ) : List Buffered :=
  (if f.maxLines ≤ (f.buffer x.1).length then (f.buffer x.1).drop 1 else f.buffer x.1).filter (fun b => decide (b ∉ f.buffer x.2.2.next))

/-- Number of them -/
def goneLines (f : Flt σ) : List (σ × Item × Result σ) → Nat
  | [] => 0
  | x :: tr => (gone f x).length + goneLines f tr

/-- The filter keeps a line only if it was missed, and keeps nothing else but the last lines. -/
def KeepsMissed (f : Flt σ) : Prop := ∀ s i, ∃ l : List Buffered,
  (f.buffer (f.process s i).next).Sublist ((if f.maxLines ≤ (f.buffer s).length then (f.buffer s).drop 1 else f.buffer s) ++ l) ∧ l.length ≤ 1 ∧
    (l ≠ [] → IsKind (f.process s i) .missed)

/-- What is shown of lines: nothing if there are none, all of them (without white space at the end) if there are fewer than the limit or all
are to be shown, otherwise their number. -/
def Shows (limit : Nat) (all : Bool) (lines : List Str) (p : Printed) : Prop :=
  (lines = [] ∧ p = .nothing) ∨
  (lines ≠ [] ∧ (all = true ∨ lines.length < limit) ∧ ∃ l, p = .lines l ∧ l.length = lines.length ∧
    ∀ (k : Nat) (x y : Str), lines[k]? = some x → l[k]? = some y → Ends isWhite x y) ∨
  (lines ≠ [] ∧ all = false ∧ limit ≤ lines.length ∧ p = .tooMany lines.length)

end Verif.RegexToolSpec
