import Verif.Model.Shutdown

/-! # What a shutdown consists of -/

namespace Verif.Spec.Shutdown

open Verif.Shutdown

/-- The stages of a shutdown, in their order: communication, signals, observer, all threads are told to stop, threads are waited for, the
observer again, the database is closed, the socket is removed -/
def stage : Ev → Nat
  | .stopComm => 0
  | .signals => 1
  | .observer false => 2
  | .position _ => 3
  | .signal _ _ => 3
  | .joined _ _ => 4
  | .dbDel _ => 4
  | .observer true => 5
  | .dbClose => 6
  | .asyncStop => 7

/-- A position of a log of the jail cannot be written -/
def Refused (db : Bool) (j : Jail) : Prop := j.files = true ∧ db = true ∧ false ∈ j.pending

instance (db : Bool) (j : Jail) : Decidable (Refused db j) := inferInstanceAs (Decidable (_ ∧ _))

/-- Number of positions that are tried -/
def tried (db : Bool) (j : Jail) : Nat :=
  if j.files = true ∧ db = true then (if false ∈ j.pending then (j.pending.takeWhile (· == true)).length + 1 else j.pending.length) else 0

/-- First round: a jail that runs is told to stop -/
def tell (db : Bool) (n : String) (j : Jail) : List Ev :=
  if j.filter.alive = true ∨ j.actions.alive = true then
    List.replicate (tried db j) (.position n) ++ (if Refused db j then [] else [.signal n .filter]) ++ [.signal n .actions]
  else []

/-- Second round: its threads are waited for, and it is disabled in the database -/
def await (db : Bool) (n : String) (j : Jail) : List Ev :=
  (if j.filter.started = true then [.joined n .filter] else []) ++ (if j.actions.started = true then [.joined n .actions] else []) ++
  (if db = true then [.dbDel n] else [])

/-- The filter cannot be stopped -/
def Stuck (db : Bool) (j : Jail) : Prop := j.filter.alive = true ∧ j.filter.active = true ∧ Refused db j

instance (db : Bool) (j : Jail) : Decidable (Stuck db j) := inferInstanceAs (Decidable (_ ∧ _))

/-- Only started threads run -/
def Sane (j : Jail) : Prop := (j.filter.alive = true → j.filter.started = true) ∧ (j.actions.alive = true → j.actions.started = true)

instance (j : Jail) : Decidable (Sane j) := inferInstanceAs (Decidable (_ ∧ _))

end Verif.Spec.Shutdown
