import Verif.Model.WarnOnce

/-!
# Specification for C127: warnings once per day
-/

namespace Verif.WarnOnceSpec

open WarnOnce

/-- Call number `j` has the kind and time, and gave warnings. -/
def Warned (cs : List Call) (outs : List Out) (j : Nat) (kind : String) (time : Int) : Prop :=
  (∃ c, cs[j]? = some c ∧ c.kind = kind ∧ c.time = time) ∧ ∃ l, outs[j]? = some (.warnings l)

end Verif.WarnOnceSpec
