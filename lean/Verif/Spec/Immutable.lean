import Verif.Spec.Assign

/-!
# Specification: properties that are not mutable
-/

namespace Verif.Spec

/-- Property `nm` of instance `r` cannot be assigned: it is immutable, dynamic
or renamed. -/
def NotMutable (E : Env) (w : World) (r : Nat) (nm : PyStr) : Prop :=
  ∃ o e, w.objs[r]? = some o ∧ lookupS nm (E.classes o.cls).props = some e ∧
    ∀ p, e ≠ .mutable p

end Verif.Spec
