import Verif.Core.Interp
import Verif.Spec.Strict

/-!
# Specification: the values a dictionary of serialized data gives an instance
-/

namespace Verif.Spec

/-- What `r` holds for a settable property given by serialized data: these are deserialized by the
property of the class deserialized, and the result coerced by the property of the instance's class;
nothing if there is no value. -/
def HoldsGiven (E : Env) (r : Nat) (k : PyStr) (kw : DeKw) (p p' : PropSpec) (v : Val) (stored : Option Val) : Prop :=
  ∃ (n m : Nat) (w1 w2 w3 : World) (d : Val), run E n (.deserializeP k p v kw) w1 = (.ok d, w2) ∧
    ((d = .undef ∧ stored = none) ∨
     (d ≠ .undef ∧ ∃ x w4, run E m (.validate k p' (some r) d) w3 = (.ok x, w4) ∧
        stored = (if x.isUndef then none else some x)))

/-- The same for an immutable property; the class deserialized coerces. -/
def HoldsGivenFixed (E : Env) (r : Nat) (k : PyStr) (kw : DeKw) (p : PropSpec) (v : Val) (stored : Option Val) : Prop :=
  ∃ (n m : Nat) (w1 w2 w3 w4 : World) (d x : Val), run E n (.deserializeP k p v kw) w1 = (.ok d, w2) ∧
    run E m (.validate k p (some r) d) w3 = (.ok x, w4) ∧ stored = some x

/-- The dictionary gives a value for the property. -/
def GivesKey (kvs : List (Val × Val)) (k : PyStr) : Prop := ∃ v, (.str k, v) ∈ kvs

end Verif.Spec
