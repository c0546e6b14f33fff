import Verif.Core.Types

/-!
# Numbers that count as equal
-/

namespace Verif.Spec

/-- The double nearest to one billionth. -/
def billionth : Rat := 4835703278458517 / 4835703278458516698824704

/-- A difference too small to count. -/
def Small (d : Rat) : Prop := -billionth ≤ d ∧ d ≤ billionth

/-- Two floats count as equal: both are finite, and their difference as a float is small. -/
def CloseF (E : Env) (a b : PyFloat) : Prop :=
  ∃ x y d, a = .fin x ∧ b = .fin y ∧ E.rnd (x - y) = .fin d ∧ Small d

/-- A whole number: an int, or a bool. -/
inductive WholeNum : Val → Int → Prop
  | int (i : Int) : WholeNum (.int i) i
  | true : WholeNum (.bool true) 1
  | false : WholeNum (.bool false) 0

/-- A finite number as a point of the plane. -/
inductive PlanePoint : Val → Rat → Rat → Prop
  | whole (v : Val) (i : Int) : WholeNum v i → PlanePoint v i 0
  | float (x : Rat) : PlanePoint (.float (.fin x)) x 0
  | complex (x y : Rat) : PlanePoint (.cplx (.fin x) (.fin y)) x y

/-- A number: bool, int, float or complex. -/
def IsNumber (v : Val) : Prop := (∃ i, WholeNum v i) ∨ (∃ f, v = .float f) ∨ ∃ f g, v = .cplx f g

end Verif.Spec
