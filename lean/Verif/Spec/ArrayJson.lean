import Verif.Models.ArrayJson

/-! # What survives JSON -/

namespace Verif.ArrJson.Spec

/-- Number of elements of the data. -/
def count : Data → Nat
  | .bools l => l.length
  | .ints l => l.length
  | .floats l => l.length
  | .texts l => l.length

/-- The data fill the shape. -/
def Filled (a : NArr) : Prop := count a.data = a.shape.foldr (· * ·) 1

/-- At least one dimension, and none but the last is of length zero. -/
def Regular : List Nat → Prop
  | [] => False
  | [_] => True
  | n :: m :: s => 0 < n ∧ Regular (m :: s)

/-- Laws of writing and reading floats as text: nothing is lost. -/
structure TextLaws (E : JEnv) : Prop where
  fin : ∀ q, E.parse (E.show_ q) = some (.fin q)
  nan : E.parse (s% "nan") = some .nan
  pinf : E.parse (s% "inf") = some .pinf
  ninf : E.parse (s% "-inf") = some .ninf

/-- An element JSON can represent: not NaN or infinite. -/
def Plain : El → Prop
  | .flt (.fin _) => True
  | .flt _ => False
  | _ => True

/-- The element at a position of nested lists. -/
inductive Elem {α : Type} : Nest α → List Nat → α → Prop where
  | leaf (a : α) : Elem (.leaf a) [] a
  | node {ns : List (Nest α)} {i : Nat} {n : Nest α} {is : List Nat} {a : α} :
      ns[i]? = some n → Elem n is a → Elem (.node ns) (i :: is) a

/-- Nested lists of one shape: lists on one level are of one length. -/
inductive HasShape {α : Type} : Nest α → List Nat → Prop where
  | leaf (a : α) : HasShape (.leaf a) []
  | empty : HasShape (.node []) [0]
  | node {ns : List (Nest α)} {s : List Nat} : ns ≠ [] → (∀ n ∈ ns, HasShape n s) →
      HasShape (.node ns) (ns.length :: s)

/-- The type declared first is the type of the data. -/
def OfType : DType → Data → Prop
  | .bool, .bools _ => True
  | .int, .ints _ => True
  | .float, .floats _ => True
  | _, _ => False

/-- The float an element stands for; text has to be a number. -/
def number (E : JEnv) : El → Option PyFloat
  | .bool true => some (.fin 1)
  | .bool false => some (.fin 0)
  | .int i => some (E.rnd i)
  | .flt f => some f
  | .txt s => E.parse s

/-- Laws of whole numbers: they are written and read without loss but for rounding, and zero and
one are floats. -/
structure IntLaws (E : JEnv) : Prop where
  text : ∀ i, E.parse (E.showI i) = some (E.rnd i)
  zero : E.rnd 0 = .fin 0
  one : E.rnd 1 = .fin 1

end Verif.ArrJson.Spec
