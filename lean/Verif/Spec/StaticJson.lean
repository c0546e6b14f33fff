import Verif.Core.Interp

/-!
# Item types that are written and read as they are
-/

namespace Verif.Spec.StaticJson

/-- Types whose values are their own JSON form: Property, Boolean, Integer, String and StringChoice. -/
def WritesAsIs : PropTy → Bool
  | .any | .boolean _ | .integer _ _ _ | .string _ _ _ | .choice _ _ => true
  | _ => false

/-- Types that read JSON data as it is: Property, String and StringChoice. -/
def ReadsAsIs : PropTy → Bool
  | .any | .string _ _ _ | .choice _ _ => true
  | _ => false

def isInstance : Val → Bool
  | .obj _ => true
  | _ => false

/-- What a static method makes of one item agrees with what a property of this type makes of it:
instances in Instance properties (None is left), other values in properties that write them as
they are. -/
def Plain (p : PropSpec) (v : Val) : Prop :=
  p.ser = none ∧ ((∃ c, p.ty = .inst c ∧ (isInstance v = true ∨ v = .none)) ∨ (WritesAsIs p.ty = true ∧ isInstance v = false))

end Verif.Spec.StaticJson
