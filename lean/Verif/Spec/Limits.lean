import Verif.Models.Limits
import Verif.Spec.Docs

/-!
# Specification: order of limits
-/

namespace Verif.Spec
open Limits

/-- The order of the extended rationals. -/
inductive NumLe : PyFloat → PyFloat → Prop
  | fin {a b : Rat} : a ≤ b → NumLe (.fin a) (.fin b)
  | ninf {x : PyFloat} : x ≠ .nan → NumLe .ninf x
  | pinf {x : PyFloat} : x ≠ .nan → NumLe x .pinf

/-- The order of numbers and the order of texts. -/
inductive BoundLe : Bound → Bound → Prop
  | num {a b : PyFloat} : NumLe a b → BoundLe (.num a) (.num b)
  | text {a b : PyStr} : Before a b → BoundLe (.text a) (.text b)

/-- The bound of a setting. -/
def Setting.bound : Setting → Bound
  | .min v => v
  | .max v => v

end Verif.Spec
