import Verif.Model.TicketData

/-!
# Specification for C122: data of tickets
-/

namespace Verif.TicketDataSpec

open TicketData

/-- `(k, v)` is the last entry for `k` in a list. -/
def Last (l : List (Val × Val)) (k v : Val) : Prop := ∃ a b, l = a ++ (k, v) :: b ∧ ∀ p ∈ b, p.1 ≠ k

/-- The entries that count after `setData`, the last one for a key is the valid one: those of the given dictionary or those the
ticket had and those of the pairs, then the named ones. -/
def entries (old : Data) (argv : List (Val × Val)) : Args → List (Val × Val)
  | .whole d => d.items ++ argv
  | .flat l => old.items ++ (pairs l ++ argv)

/-- The operation is called for ticket `i`. -/
def Of (i : Nat) : Op → Bool
  | .make _ => false
  | .update a _ => decide (a = i)
  | .setData a _ _ => decide (a = i)
  | .setAttempt a _ => decide (a = i)
  | .setMatches a _ => decide (a = i)

/-- The operation lets ticket `i` share data with another one. -/
def Joins (i : Nat) : Op → Prop
  | .make m => m.src = some i
  | .update a b => a = i ∨ b = i
  | _ => False

/-- The operation gives ticket `i` other data instead of changing the data it has. -/
def Parts (i : Nat) : Op → Prop
  | .update a _ => a = i
  | .setData a _ _ => a = i
  | _ => False

/-- What an operation means for data that belong to one ticket only. -/
def alone (d : Data) : Op → Data
  | .make _ => d
  | .update _ _ => d
  | .setData _ (.whole n) argv => noNone (merge (noNone n) argv)
  | .setData _ (.flat l) argv => if l.length = 1 then d else noNone (merge (merge d (pairs l)) argv)
  | .setAttempt _ v => d.insert (.text "failures") v
  | .setMatches _ ms => withMatches d ms

/-- The tickets that an operation names exist. -/
def Known (n : Nat) : Op → Prop
  | .make m => ∀ j, m.src = some j → j < n
  | .update a b => a < n ∧ b < n
  | .setData a _ _ => a < n
  | .setAttempt a _ => a < n
  | .setMatches a _ => a < n

/-- All operations of a history name tickets that exist then. -/
def Valid : Nat → List Op → Prop
  | _, [] => True
  | n, op :: ops => Known n op ∧ Valid (match op with | .make _ => n + 1 | _ => n) ops

end Verif.TicketDataSpec
