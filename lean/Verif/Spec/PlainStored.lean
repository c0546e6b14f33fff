import Verif.Spec.Serialize

/-!
# Instances that store values of basic properties
-/

namespace Verif.Spec

/-- The instance stores one value per name, of mutable properties of the basic
types without serializers and deserializers; its class has no property named
`__class__`. -/
structure PlainStored (E : Env) (o : Obj) : Prop where
  nodup : (o.backend.map (·.1)).Nodup
  noclass : lookupS (s% "__class__") (E.classes o.cls).props = none
  plain : ∀ k v, (k, v) ∈ o.backend → k ≠ s% "cls" ∧ k ≠ s% "self" ∧ v ≠ .undef ∧
    ∃ p, lookupS k (E.classes o.cls).props = some (.mutable p) ∧ p.ser = none ∧ p.deser = none ∧ ScalarTy p.ty

end Verif.Spec
