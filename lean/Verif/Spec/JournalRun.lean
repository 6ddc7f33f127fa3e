import Verif.Model.JournalRun

/-!
# Main loop of monitoring of the systemd journal — what is expected
-/

namespace Verif.JournalRunSpec

open Verif.JournalRun

/-- Entries from one position up to another that have a line. -/
def between (journal : List Entry) (a b : Nat) : List Nat :=
  (List.range b).filter (fun i => decide (a ≤ i) && (journal[i]?.any (fun e => e.good)))

/-- Indices of the entries that were processed. -/
def processed (w : World) : List Nat := w.filter.processed.map Prod.fst

/-- The time from which entries are read at start. -/
def startTime (w : World) (findtime : Int) (readable : Bool) : Int :=
  if readable = true ∧ w.journal ≠ [] then max (if w.database = true then w.saved.getD 0 else 0) (w.now - findtime) else w.now

/-- Some steps of the loop without errors, with nothing else happening. -/
def steps (w : World) : Nat → World
  | 0 => w
  | n + 1 => steps (step w (.step false)) n

/-- Time of the last entry processed, or the position known before. -/
def latest (w : World) (before : Option Int) : Option Int := match w.filter.processed.getLast? with
  | some (i, _) => w.journal[i]?.map Entry.time
  | none => before

/-- Times of receipt grow. -/
def Increasing (es : List Entry) : Prop := es.Pairwise (fun a b => a.received < b.received)

/-- The time of the source is not after the one of receipt. -/
def Sourced (es : List Entry) : Prop := ∀ e ∈ es, e.time ≤ e.received

/-- What happens in the life of a jail: something while the loop runs, or the server is ended at any moment (also by force) and started again. -/
inductive Event
  | op (o : Op)
  | restart (findtime : Int) (readable : Bool)

/-- Several events. -/
def life (w : World) : List Event → World
  | [] => w
  | .op o :: es => life (step w o) es
  | .restart t r :: es => life (begin w t r) es

/-- The clock shows at least this time, and no reading fails. -/
def Calm (t : Int) : List Op → Prop
  | [] => True
  | .clock c :: os => t ≤ c ∧ Calm t os
  | .step fail :: os => fail = false ∧ Calm t os
  | _ :: os => Calm t os

end Verif.JournalRunSpec
