import Verif.Model.Share

/-!
# Specification for C128: shared configuration
-/

namespace Verif.ShareSpec

open Share

/-- The directory given by the first call with the name. -/
def firstBase (cs : List Call) (name : String) : Option String := (cs.find? fun c => c.name = name).map Call.base

/-- Accesses to files for the name that ended without exception. -/
def reads (log : List (String × String × Bool)) (name : String) : Nat := (log.filter fun p => p.2.1 = name ∧ p.2.2 = true).length

end Verif.ShareSpec
