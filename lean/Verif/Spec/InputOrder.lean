import Verif.Spec.Serialize

/-!
# Input of `deserialize` that names basic properties
-/

namespace Verif.Spec

/-- A dictionary with distinct texts as keys; those that name properties of
class `c` name mutable properties of the basic types, without deserializers. -/
structure PlainInput (E : Env) (c : ClsId) (kvs : List (Val × Val)) : Prop where
  keys : ∀ kv ∈ kvs, ∃ s, kv.1 = .str s
  nodup : (kvs.map (·.1)).Nodup
  plain : ∀ k v, (Val.str k, v) ∈ kvs → ∀ e, lookupS k (E.classes c).props = some e →
    k ≠ s% "cls" ∧ k ≠ s% "self" ∧ v ≠ .undef ∧ ∃ p, e = .mutable p ∧ p.deser = none ∧ ScalarTy p.ty

end Verif.Spec
