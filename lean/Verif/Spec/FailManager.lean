import Verif.Model.FailManager

/-!
# Vocabulary for the properties of the failure manager

Histories are lists of operations; the notions below only look at the operations of a history and at which addresses
are tracked, not at how the model computes.
-/

namespace Verif.Spec.Fail

open Verif Verif.FailManager

/-- How many failures of address `x` an operation reports: the `count` given by the caller, or the number carried by the
ticket itself if that is larger. -/
def weight (x : Fid) : Op → Nat
  | .add t count _ => if t.id = x then max count t.retry else 0
  | .addSame y count _ => if y = x then count else 0
  | _ => 0

/-- Log lines of address `x` reported by an operation (a report of the stored object itself brings no new lines). -/
def linesOf (x : Fid) : Op → List String
  | .add t _ _ => if t.id = x then t.getMatches else []
  | _ => []

/-- The address is in the failure list. -/
def Tracked (s : FailManager) (x : Fid) : Prop := ∃ d, s.failList.get? x = some d

/-- `post` is the part of the history `ops` since `x` was last untracked (never reported, handed over, expired or
deleted): `x` is untracked before `post` and tracked at every moment from its first operation on. -/
def SinceUntracked (s₀ : FailManager) (ops : List Op) (x : Fid) (post : List Op) : Prop :=
  ∃ pre, ops = pre ++ post ∧ ¬ Tracked (s₀.run pre) x ∧
    ∀ p q, post = p ++ q → p ≠ [] → Tracked (s₀.run (pre ++ p)) x

/-- A plain failure as reported by a filter: address, time, log lines. -/
structure Report where
  /-- address -/
  id : Fid
  /-- time stamp -/
  time : Int
  /-- log lines -/
  lines : List String

/-- The operation a filter performs for a plain failure: a new ticket, counted once. -/
def Report.op (r : Report) : Op := .add (Ticket.new r.id r.time r.lines) 1 false

/-- An operation that is not about address `x`: a report or deletion of another address, a change of maxretry, or an
expiry at a moment when a failure at `t₀` is not yet expired for `findtime`. -/
def Foreign (x : Fid) (t₀ : Int) (findtime : Nat) : Op → Prop
  | .add t _ _ => t.id ≠ x
  | .addSame y _ _ => y ≠ x
  | .del y => y ≠ x
  | .setMaxRetry _ => True
  | .cleanup time => time < t₀ + findtime
  | _ => False

/-- The last `n` elements. -/
def newest (n : Nat) (l : List String) : List String := (l.reverse.take n).reverse

end Verif.Spec.Fail
