import Verif.Model.FileContainer

/-! # Vocabulary for reading of log files -/

namespace Verif.Spec.LogFile

open Verif

/-- A complete line: it ends with its only line feed. -/
def IsLine (l : Bytes) : Prop := ∃ x, l = x ++ [10] ∧ 10 ∉ x

/-- `r` is the decoded `b`: exactly if possible, else with replaced characters. -/
def Decoded (c : Codec) (b : Bytes) (r : List Char) : Prop := c.strict b = .ok r ∨ (∃ e, c.strict b = .error e) ∧ r = c.replace b

/-- `t` is the decoded `b` without the line end. -/
def IsText (c : Codec) (b : Bytes) (t : List Char) : Prop :=
  ∃ e, Decoded c b (t ++ e) ∧ (∀ ch ∈ e, ch = '\r' ∨ ch = '\n') ∧ t.getLast? ≠ some '\r' ∧ t.getLast? ≠ some '\n'

/-- Lines and their texts, one by one. -/
inductive Texts (c : Codec) : List Bytes → List (List Char) → Prop
  | nil : Texts c [] []
  | cons {l t ls ts} : IsText c l t → Texts c ls ts → Texts c (l :: ls) (t :: ts)

/-- Line ends are the bytes 10 and 13 and nothing else (ASCII, ISO 8859, UTF-8, ...). -/
structure AsciiEnds (c : Codec) : Prop where
  strict_ends : ∀ b r, c.strict b = .ok r →
    (r.getLast? = some '\n' ↔ b.getLast? = some 10) ∧ (r.getLast? = some '\r' ↔ b.getLast? = some 13)
  replace_ends : ∀ b, ((c.replace b).getLast? = some '\n' ↔ b.getLast? = some 10) ∧ ((c.replace b).getLast? = some '\r' ↔ b.getLast? = some 13)
  strict_error : ∀ b i j, c.strict b = .error (i, j) → b[i]? ≠ some 10 ∧ b[i]? ≠ some 13

/-- One pass over the file: clock, the file found, its content at each attempt to read a line. -/
structure Pass where
  now : Int
  file : FileState
  reads : List Bytes

/-- the contents seen by passes, in order -/
def contents (ps : List Pass) : List Bytes := ps.flatMap (fun p => p.file.data :: p.reads)

/-- Every content is a continuation of all earlier ones. -/
def Grows (cs : List Bytes) : Prop := cs.Pairwise (fun a b => a <+: b)

/-- Nobody looks at the file while it ends with a carriage return (between the two characters of a CR LF). -/
def NoCREnd (cs : List Bytes) : Prop := ∀ d ∈ cs, d.getLast? ≠ some 13

/-- The lines delivered by passes, and the container after them. -/
def passes (md5 : Bytes → String) (c : Codec) (s : FileContainer) : List Pass → List (List Char) × FileContainer
  | [] => ([], s)
  | p :: ps =>
    let r := s.getFailures md5 c p.now (some p.file) none (p.reads.map (fun d => (d, true)))
    let x := passes md5 c r.2 ps
    (r.1.map Prod.fst ++ x.1, x.2)

/-- `h` is the hash of the first line of `d`, empty if there is no complete line. -/
def FirstLineHash (md5 : Bytes → String) (d : Bytes) (h : String) : Prop :=
  (∃ l r, d = l ++ r ∧ IsLine l ∧ h = md5 l) ∨ 10 ∉ d ∧ h = ""

/-- The container belongs to the file `ino` whose content was `d` when last looked at. -/
def Tracks (md5 : Bytes → String) (s : FileContainer) (ino : Nat) (d : Bytes) : Prop :=
  s.ino = ino ∧ s.pos ≤ d.length ∧ s.waitForLineEnd = true ∧ (s.hash = "" ∨ ∃ l r, d = l ++ r ∧ IsLine l ∧ s.hash = md5 l)

/-- A line starts at `q`. -/
def LineStart (data : Bytes) (q : Nat) : Prop := q = 0 ∨ data[q - 1]? = some 10

/-- `b` is the line at `q`, up to its line feed, or the rest of the file if that has none. -/
def LineAt (data : Bytes) (q : Nat) (b : Bytes) : Prop := b ≠ [] ∧ ∃ r, data.drop q = b ++ r ∧ (IsLine b ∨ 10 ∉ b ∧ r = [])

/-- The line `b` has the time `t`. -/
def Dated (c : Codec) (timeOf : List Char → Option (Option Int)) (b : Bytes) (t : Int) : Prop :=
  ∃ text, IsText c b text ∧ timeOf text = some (some t)

/-- The times of the lines never decrease. -/
def Sorted (c : Codec) (timeOf : List Char → Option (Option Int)) (data : Bytes) : Prop :=
  ∀ q q' b b' t t', LineStart data q → LineStart data q' → LineAt data q b → LineAt data q' b' → Dated c timeOf b t → Dated c timeOf b' t' →
    q ≤ q' → t ≤ t'

end Verif.Spec.LogFile
