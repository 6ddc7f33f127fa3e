import Verif.Model.JournalArgs

/-! # Options of the backend `systemd` -/

namespace Verif.JournalArgsSpec

open JournalArgs

/-- The options there are -/
def known : List String := ["journalpath", "journalfiles", "journalflags", "namespace"]

/-- The value of an option -/
def opt (kw : Dict (List Char) (List Char)) (k : String) : Option (List Char) := kw.get? k.toList

/-- Files or a directory are chosen: by a pattern that is fulfilled, or a path that is not empty -/
def Chosen (env : Env) (kw : Dict (List Char) (List Char)) : Prop :=
  (∃ v, opt kw "journalfiles" = some v ∧ ∃ w ∈ Reader.splitwords v, env.glob w ≠ []) ∨ (∃ p, opt kw "journalpath" = some p ∧ p ≠ [])

end Verif.JournalArgsSpec
