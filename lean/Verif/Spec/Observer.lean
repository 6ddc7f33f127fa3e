import Verif.Model.Observer

/-! # Vocabulary for known offenders -/

namespace Verif.Spec.Observer

open Verif

/-- One failure of an address banned `n` times before counts as 2, 3, 5, 9 … failures, at most as many as lead to a ban. -/
def worth (n maxRetry : Nat) : Nat := if 2 ^ (min n 20 - 1) + 1 ≤ maxRetry then 2 ^ (min n 20 - 1) + 1 else maxRetry

/-- A report about `t` in `j` is about a known offender with `n` earlier bans, and is newer than the last of them. -/
def KnownOffender (j : ObsJail) (db : Option Db) (t : Ticket) (n : Nat) : Prop :=
  j.alive = true ∧ j.increment = true ∧ ∃ d r, db = some d ∧ d.bips.get? (t.id, j.name) = some r ∧ r.time < t.time ∧
    ((r.count = n ∧ t.banCount ≤ n) ∨ (t.banCount = n ∧ r.count ≤ n))

end Verif.Spec.Observer
