import Verif.Models.ArrayDecl
import Verif.Spec.Arrays

/-!
# What the settings of array properties mean

Which values may be set, which arrays match a shape as it was given, and which setting of
a sequence counts; on the values themselves, without the model's reading of them.
-/

namespace Verif.ArrDecl.Spec
open Verif.Arr

/-- An entry of a shape: `'*'`, an integer or a boolean. -/
inductive IsDim : Val → Prop
  | star : IsDim (.str (s% "*"))
  | int (i : Int) : IsDim (.int i)
  | bool (b : Bool) : IsDim (.bool b)

/-- A dimension of length `n` matches the entry. -/
inductive DimMatch : Val → Nat → Prop
  | star (n : Nat) : DimMatch (.str (s% "*")) n
  | int (n : Nat) : DimMatch (.int n) n
  | yes : DimMatch (.bool true) 1
  | no : DimMatch (.bool false) 0

/-- A tuple of entries. -/
def IsShape (v : Val) : Prop := ∃ vs, v = .tup vs ∧ ∀ x ∈ vs, IsDim x

/-- A shape, or a set of shapes. -/
def IsShapes (v : Val) : Prop := IsShape v ∨ ∃ vs, v = .set vs ∧ ∀ t ∈ vs, IsShape t

/-- Arrays of shape `ns` match the tuple. -/
def TupleMatch (v : Val) (ns : List Nat) : Prop := ∃ vs, v = .tup vs ∧ List.Forall₂ DimMatch vs ns

/-- Arrays of shape `ns` match the setting: None, the tuple, or one of the set. -/
def ShapeMatch (v : Val) (ns : List Nat) : Prop :=
  v = .none ∨ TupleMatch v ns ∨ ∃ vs, v = .set vs ∧ ∃ t ∈ vs, TupleMatch t ns

/-- A tuple of two entries, the second one the integer `n`. -/
def Rows (n : Int) (v : Val) : Prop := ∃ x, v = .tup [x, .int n]

/-- What may be set on a property of the class. -/
def Allowed (rnd : Rat → PyFloat) (c : Cls) : Setting → Prop
  | .shape v => match c with
      | .array => v = .none ∨ IsShapes v
      | .vec3Array => IsShapes v ∧ (Rows 3 v ∨ ∃ vs, v = .set vs ∧ ∀ t ∈ vs, Rows 3 t)
      | .vec2Array => IsShapes v ∧ (Rows 2 v ∨ ∃ vs, v = .set vs ∧ ∀ t ∈ vs, Rows 2 t)
      | _ => False
  | .dtype v => c = .array ∧ v.items ≠ [] ∧ ∀ x ∈ v.items, ∃ t, x = .ty t
  | .coerce v => ∃ b, v = .bool b
  | .length v => c = .array ∨ (∃ i : Int, 0 < i ∧ v = .int i ∧ ∃ q, rnd i = .fin q) ∨
      (v = .bool true ∧ ∃ q, rnd 1 = .fin q) ∨ (∃ q : Rat, 0 < q ∧ v = .float (.fin q)) ∨
      v = .float .pinf ∨ v = .float .nan

/-- The last setting of a kind that is allowed. -/
def Last (ok : Setting → Prop) (l : List Setting) (s : Setting) : Prop :=
  ∃ before after, l = before ++ s :: after ∧ ok s ∧ ∀ x ∈ after, ¬ ok x

/-- Kinds of settings. -/
def isShape : Setting → Prop | .shape _ => True | _ => False
def isDtype : Setting → Prop | .dtype _ => True | _ => False
def isCoerce : Setting → Prop | .coerce _ => True | _ => False
def isLength : Setting → Prop | .length _ => True | _ => False

/-- Element kinds a property should accept after the settings `l`. -/
def KindOk (rnd : Rat → PyFloat) (c : Cls) (l : List Setting) (k : Kind) : Prop := match c with
  | .array =>
      (∃ v, Last (fun s => isDtype s ∧ Allowed rnd c s) l (.dtype v) ∧ ∃ t, .ty t ∈ v.items ∧ Arr.Spec.KindFor t k) ∨
      ((∀ s ∈ l, isDtype s → ¬ Allowed rnd c s) ∧ (Arr.Spec.KindFor .float k ∨ Arr.Spec.KindFor .int k))
  | _ => Arr.Spec.KindFor .float k

/-- Shapes a property should accept after the settings `l`. -/
def ShapeOk (rnd : Rat → PyFloat) (c : Cls) (l : List Setting) (ns : List Nat) : Prop :=
  (∃ v, Last (fun s => isShape s ∧ Allowed rnd c s) l (.shape v) ∧ ShapeMatch v ns) ∨
  ((∀ s ∈ l, isShape s → ¬ Allowed rnd c s) ∧ match c with
    | .array => ∃ n, ns = [n]
    | .vec3 => ns = [3]
    | .vec2 => ns = [2]
    | .vec3Array => ∃ n, ns = [n, 3]
    | .vec2Array => ∃ n, ns = [n, 2])

/-- Whether values should be converted after the settings `l`. -/
def Coerces (rnd : Rat → PyFloat) (c : Cls) (l : List Setting) (b : Bool) : Prop :=
  Last (fun s => isCoerce s ∧ Allowed rnd c s) l (.coerce (.bool b)) ∨
  ((∀ s ∈ l, isCoerce s → ¬ Allowed rnd c s) ∧ b = true)

/-- The float that is the length after setting it to `v`. -/
inductive LengthIs (rnd : Rat → PyFloat) : Val → PyFloat → Prop
  | int (i : Int) : LengthIs rnd (.int i) (rnd i)
  | yes : LengthIs rnd (.bool true) (rnd 1)
  | float (x : PyFloat) : LengthIs rnd (.float x) x

/-- The length vectors should be scaled to after the settings `l`. -/
def Scales (rnd : Rat → PyFloat) (c : Cls) (l : List Setting) (x : Option PyFloat) : Prop :=
  (∃ v f, Last (fun s => isLength s ∧ Allowed rnd c s) l (.length v) ∧ LengthIs rnd v f ∧ x = some f) ∨
  ((∀ s ∈ l, isLength s → ¬ Allowed rnd c s) ∧ x = none)

/-- The classes of vectormath, numbered as in the environment: `numpy.ndarray`, `Vector3`, `Vector2`,
`Vector3Array`, `Vector2Array`. -/
inductive Holds : Cls → Nat → Prop
  | array : Holds .array 0
  | vec3 : Holds .vec3 1
  | vec2 : Holds .vec2 2
  | vec3Array : Holds .vec3Array 3
  | vec2Array : Holds .vec2Array 4

end Verif.ArrDecl.Spec
