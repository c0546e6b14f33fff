import Verif.Models.Arrays
import Mathlib.Data.List.Forall2

/-!
# What array and vector properties promise
-/

namespace Verif.Arr.Spec

/-- A dimension fits its declaration. -/
inductive Fits : Dim → Nat → Prop
  | any (n : Nat) : Fits .any n
  | exactly (n : Nat) : Fits (.exactly n) n

/-- The array has a declared shape. -/
def HasShape (shapes : List (List Dim)) (a : NArr) : Prop := ∃ s ∈ shapes, List.Forall₂ Fits s a.shape

/-- The kind of elements of a declared type. -/
inductive KindFor : DType → Kind → Prop
  | unsigned : KindFor .int .u
  | signed : KindFor .int .i
  | float : KindFor .float .f
  | bool : KindFor .bool .b
  | complex : KindFor .complex .c

/-- The array that is checked: what the constructor makes of a list, tuple or
array; without coercion, the array itself. -/
inductive Made (E : AEnv) (p : AProp) : Input → NArr → Prop
  | list {l : List Item} {a : NArr} : p.coerce = true → E.wrap p.cls (.list l) = .ok a → Made E p (.list l) a
  | tuple {l : List Item} {a : NArr} : p.coerce = true → E.wrap p.cls (.tuple l) = .ok a → Made E p (.tuple l) a
  | array {b a : NArr} : p.coerce = true → E.wrap p.cls (.array b) = .ok a → Made E p (.array b) a
  | same {a : NArr} : p.coerce = false → Made E p (.array a) a

/-- The named directions and their vectors. -/
inductive Names : PyStr → ℝ → ℝ → ℝ → Prop
  | zero : Names (s% "ZERO") 0 0 0
  | x : Names (s% "X") 1 0 0
  | y : Names (s% "Y") 0 1 0
  | z : Names (s% "Z") 0 0 1
  | mx : Names (s% "-X") (-1) 0 0
  | my : Names (s% "-Y") 0 (-1) 0
  | mz : Names (s% "-Z") 0 0 (-1)
  | east : Names (s% "EAST") 1 0 0
  | west : Names (s% "WEST") (-1) 0 0
  | north : Names (s% "NORTH") 0 1 0
  | south : Names (s% "SOUTH") 0 (-1) 0
  | up : Names (s% "UP") 0 0 1
  | down : Names (s% "DOWN") 0 0 (-1)

/-- The squared length of a vector. -/
def lenSq : List ℝ → ℝ
  | [] => 0
  | x :: v => x * x + lenSq v

/-- An array has as many elements as its shape says. -/
def Full (a : NArr) : Prop := a.data.length = a.shape.foldr (· * ·) 1

/-- The constructor of vectors of dimension 3 keeps three numbers. -/
def Keeps3 (E : AEnv) (p : AProp) : Prop :=
  ∀ x y z : ℝ, E.wrap p.cls (.list [.num x, .num y, .num z]) = .ok ⟨p.cls, .f, [3], [x, y, z]⟩

/-- The constructor of vectors of dimension 2 keeps two numbers. -/
def Keeps2 (E : AEnv) (p : AProp) : Prop :=
  ∀ x y : ℝ, E.wrap p.cls (.list [.num x, .num y]) = .ok ⟨p.cls, .f, [2], [x, y]⟩

end Verif.Arr.Spec
