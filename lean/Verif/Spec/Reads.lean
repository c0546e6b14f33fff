import Verif.Spec.Scalar
import Verif.Spec.Types

/-!
# What the basic property types read: specification
-/

namespace Verif.Spec

/-- Values whose truth value is False: None, False, zero of every kind, and everything empty. -/
inductive Falsy : Val → Prop
  | none : Falsy .none
  | false : Falsy (.bool Bool.false)
  | int : Falsy (.int 0)
  | float : Falsy (.float (.fin 0))
  | cplx : Falsy (.cplx (.fin 0) (.fin 0))
  | str : Falsy (.str [])
  | list : Falsy (.list [])
  | tup : Falsy (.tup [])
  | set : Falsy (.set [])
  | dict : Falsy (.dict [])

/-- The integer an Integer takes a value for, whatever the bounds: text and UUIDs only with `cast`. -/
inductive ReadsInteger (E : Env) (cast : Bool) : Val → Int → Prop
  | number {v : Val} {q : Rat} {i : Int} : exactly v = some q → IsTruncation q i →
      (cast = Bool.false → Near q i) → ReadsInteger E cast v i
  | text {s : PyStr} {i : Int} : cast = Bool.true → E.intOfStr s = some i → ReadsInteger E cast (.str s) i
  | uuid (n : Nat) : cast = Bool.true → ReadsInteger E cast (.uuid n) n

/-- The float a Float takes a value for, whatever the bounds. -/
inductive ReadsFloat (E : Env) (cast : Bool) : Val → PyFloat → Prop
  | bool (b : Bool) : ReadsFloat E cast (.bool b) (.fin (if b then 1 else 0))
  | int {i : Int} {q : Rat} : E.rnd i = .fin q → ReadsFloat E cast (.int i) (.fin q)
  | float (f : PyFloat) : ReadsFloat E cast (.float f) f
  | text {s : PyStr} {f : PyFloat} : cast = Bool.true → E.floatOfStr s = some f → ReadsFloat E cast (.str s) f

/-- The complex number a Complex takes a value for. -/
inductive ReadsComplex (E : Env) (cast : Bool) : Val → PyFloat → PyFloat → Prop
  | bool (b : Bool) : ReadsComplex E cast (.bool b) (.fin (if b then 1 else 0)) (.fin 0)
  | int {i : Int} {q : Rat} : E.rnd i = .fin q → ReadsComplex E cast (.int i) (.fin q) (.fin 0)
  | float (f : PyFloat) : ReadsComplex E cast (.float f) f (.fin 0)
  | cplx (a b : PyFloat) : ReadsComplex E cast (.cplx a b) a b
  | text {s : PyStr} {a b : PyFloat} : cast = Bool.true → E.cplxOfStr s = some (a, b) →
      ReadsComplex E cast (.str s) a b

end Verif.Spec
