import Verif.Model.Inotify

/-!
# Monitoring by notification — what is expected
-/

namespace Verif.InotifySpec

open Verif.Inotify

/-- Paths are such that a file is below its directory, as for absolute paths not in `/`. -/
def Normal (ps : Paths) (p : String) : Prop := ps.under (ps.dirname p) p = true

/-- A path that is waited for: it is `p`, with this delay and kind. -/
def Waits (s : Filter) (p : String) (r : Int) (d : Option Bool) : Prop := s.pending.get? p = some (r, d)

/-- There is such a path. -/
def Present (fs : Fs) (p : String) (d : Option Bool) : Prop := if d = some true then fs.isdir p = true else fs.isfile p = true

instance (fs : Fs) (p : String) (d : Option Bool) : Decidable (Present fs p d) := by unfold Present; infer_instance

/-- What is done from one state to another. -/
def Does (s s' : Filter) (l : List Eff) : Prop := s'.out = s.out ++ l

/-- A file is looked at: its watch is renewed, then it is read. -/
def renewFile (f : String) : List Eff := [.unwatchFile f, .watchFile f, .process f]

/-- What is done for a path that has come back; `files` are the files that are watched. -/
def renewal (ps : Paths) (fs : Fs) (files : List String) (p : String) : Option Bool → List Eff
  | none => [.process p]
  | some false => renewFile p
  | some true => [.unwatchDir p, .watchDir p] ++ (files.filter (fun f => ps.under p f && fs.isfile f)).flatMap renewFile

/-- The same for several paths; files are taken in some order, each once. -/
def Renewals (ps : Paths) (fs : Fs) (files : List String) : List (String × Option Bool) → List Eff → Prop
  | [], l => l = []
  | x :: xs, l => ∃ files' a, files'.Nodup ∧ (∀ q, q ∈ files' ↔ q ∈ files) ∧ l = renewal ps fs files' x.1 x.2 ++ a ∧ Renewals ps fs files xs a

/-- Paths that are waited for, that are there and whose delay is over at this time, in order. -/
def back (fs : Fs) (now : Int) (s : Filter) : List (String × Option Bool) :=
  (s.pending.items.filter (fun x => decide (x.2.1 ≤ now - s.chkTime ∧ Present fs x.1 x.2.2))).map (fun x => (x.1, x.2.2))

/-- Logs by the commands alone. -/
def logs : List Op → List String → List String
  | [], l => l
  | .add p :: ops, l => logs ops (if p ∈ l then l else l ++ [p])
  | .del p :: ops, l => logs ops (l.filter (fun q => q ≠ p))
  | _ :: ops, l => logs ops l

/-- All logs added are normal paths. -/
def AllNormal (ps : Paths) (ops : List Op) : Prop := ∀ p, Op.add p ∈ ops → Normal ps p

/-- A new filter without logs. -/
def fresh : World := ⟨new, []⟩

/-- A state that a filter can get to. -/
def Reached (ps : Paths) (w : World) : Prop := ∃ ops, AllNormal ps ops ∧ w = run ps fresh ops

/-- Is this an event for a file that is watched (and is not a directory that is watched)? -/
def OfFile (s : Filter) (p : String) : Prop := p ∈ s.files ∧ p ∉ s.dirs

instance (s : Filter) (p : String) : Decidable (OfFile s p) := by unfold OfFile; infer_instance

/-- What is done at once for an event. -/
def reaction (fs : Fs) (s : Filter) (p : String) (k : Kind) : List Eff :=
  if ¬ OfFile s p then []
  else
    let read := if fs.isfile p ∧ s.idle = false then [Eff.process p] else []
    match k with
    | .created true => []
    | .created false => [.unwatchFile p, .watchFile p] ++ read
    | _ => read

/-- Directories that are lost with an event for a path that is no file watched. -/
def LostDir (ps : Paths) (fs : Fs) (s : Filter) (gone : Prop) (p q : String) : Prop :=
  (p ∈ s.dirs ∧ (gone ∨ fs.isdir p = false) ∧ q = p) ∨
  (p ∈ s.dirs ∧ ¬ gone ∧ fs.isdir p = true ∧ q ∈ s.dirs ∧ ps.under p q = true ∧ fs.isdir q = false) ∨
  (p ∉ s.dirs ∧ ¬ gone ∧ q ∈ s.dirs ∧ ps.under p q = true ∧ fs.isdir q = false) ∨
  (p ∉ s.dirs ∧ gone ∧ (ps.unknown p).getD p ∈ s.dirs ∧ q = (ps.unknown p).getD p) ∨
  (p ∉ s.dirs ∧ gone ∧ (ps.unknown p).getD p ∉ s.dirs ∧ q ∈ s.dirs ∧ ps.under ((ps.unknown p).getD p) q = true)

/-- Paths that are lost with an event: `q` is a directory or a file (`d`). -/
def Lost (ps : Paths) (fs : Fs) (s : Filter) (p : String) (k : Kind) (q : String) (d : Bool) : Prop :=
  (d = false ∧ OfFile s p ∧ fs.isfile p = false ∧ k ≠ .created true ∧ q = p) ∨
  (d = true ∧ ¬ OfFile s p ∧ (k = .ignored ∨ k = .gone) ∧ LostDir ps fs s (k = .gone) p q)

/-- Is a file watched after these effects? -/
def fileWatched (p : String) : List Eff → Bool → Bool
  | [], b => b
  | .watchFile q :: l, b => fileWatched p l (b || q == p)
  | .unwatchFile q :: l, b => fileWatched p l (b && q != p)
  | _ :: l, b => fileWatched p l b

/-- Is a directory watched after these effects? -/
def dirWatched (p : String) : List Eff → Bool → Bool
  | [], b => b
  | .watchDir q :: l, b => dirWatched p l (b || q == p)
  | .unwatchDir q :: l, b => dirWatched p l (b && q != p)
  | _ :: l, b => dirWatched p l b

/-- Checks at some times, with the state of the file system then. -/
def checks (l : List (Fs × Int)) : List Op := l.map (fun x => .check x.1 x.2)

/-- Times do not go back and are not further apart than `gap`. -/
def Spaced (gap : Int) : Int → List (Fs × Int) → Prop
  | _, [] => True
  | t, x :: l => t ≤ x.2 ∧ x.2 ≤ t + gap ∧ Spaced gap x.2 l

end Verif.InotifySpec
