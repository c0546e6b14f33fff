import Verif.Spec.Assign
import Verif.Spec.Initial
import Verif.Spec.Serialize

/-!
# Specification: resetting
-/

namespace Verif.Spec

/-- No listener of the property is enabled. -/
def Unheard (w : World) (o : Obj) (k : PyStr) : Prop := ∀ mode, enabled w o mode k = []

/-- The default of a property is fixed: a value, not a callable, of a type that is no
container, Instance, Union or Color. -/
def Fixed (C : ClassDef) (k : PyStr) (p : PropSpec) : Prop :=
  ScalarTy p.ty ∧ p.ty ≠ .color ∧ ∀ d, Declared C k (.mutable p) d → d = .undef ∨ ∃ v, d = .val v

end Verif.Spec
