import Verif.Models.ArrayDecl
import Verif.Models.Choice

/-!
# `/repo/tests/test_math.py` on the models of arrays

What is declared and which shapes, kinds and names are accepted.  numpy is a function that
gives lists of numbers their shape.  Left out: the numbers themselves, JSON, `equal`.
-/

namespace Verif.Conformance.MathTest
open Verif.Arr Verif.ArrDecl

def isType {α : Type} : Except Err α → Bool
  | .error e => decide (e = .type)
  | .ok _ => false

def declared {α : Type} : Except Err α → Bool
  | .ok _ => true
  | .error _ => false

def array : Cfg := { cls := .array }
def star : Val := .str (s% "*")

/-- The declarations that are refused (test_math.py:17-36). -/
example :
    (isType (setDtype (.one .other) array) && isType (setDtype (.seq [.ty .float, .other]) array) &&
    isType (setDtype (.seq []) array) && isType (setShape (.list [star]) array) &&
    isType (setShape (.int 5) array) && isType (setShape (.tup [.int 5, .str (s% "any")]) array) &&
    isType (setShape (.set [.int 5, .int 3, .int 4]) array) &&
    isType (setShape (.set [.tup [star], .none]) array) &&
    isType (setShape (.set [.tup [star], .tup [.none]]) array) &&
    isType (setShape (.set [.tup [star], .int 5]) array)) = true := by decide +kernel

/-- Lengths and shapes of vectors (`test_vector2`, `test_vector2array`, `test_vector3array`). -/
example :
    (isType (ArrDecl.setLength .fin (.str (s% "ten")) { cls := .vec2 }) &&
    isType (ArrDecl.setLength .fin (.int 0) { cls := .vec2 }) &&
    isType (ArrDecl.setLength .fin (.float (.fin (-1/2))) { cls := .vec2 }) &&
    isType (setShape (.tup [.int 2]) { cls := .vec2Array }) &&
    isType (setShape (.tup [star, star]) { cls := .vec2Array }) &&
    isType (setShape (.tup [.int 3]) { cls := .vec3Array }) &&
    isType (setShape (.tup [star, star]) { cls := .vec3Array }) &&
    declared (setShape (.set [.tup [.int 2, .int 2], .tup [.int 3, .int 2]]) { cls := .vec2Array }) &&
    declared (setShape (.set [.tup [.int 2, .int 3], .tup [.int 3, .int 3]]) { cls := .vec3Array })) = true := by decide +kernel

/-- The property that a declaration makes. -/
def made : Except Err Cfg → Cfg
  | .ok c => c
  | .error _ => array

def accepts (c : Cfg) (kind : Kind) (shape : List Nat) : Bool :=
  (c.prop.dtype.flatMap kindsOf).contains kind &&
    (match c.prop.shape with
      | none => true
      | some l => someShape l ⟨0, kind, shape, []⟩)

def arr222 : Cfg := made (setShape (.tup [.int 2, .int 2, .int 2]) array)
def arrFloat : Cfg := made (setDtype (.one (.ty .float)) array)
def arrInt : Cfg := made (setDtype (.one (.ty .int)) array)
def arrBool : Cfg := made (setDtype (.one (.ty .bool)) array)
def arrComplex : Cfg := made (setDtype (.one (.ty .complex)) array)
def anyArray : Cfg := made (setShape .none array)
def flex : Cfg := made (setShape (.set [.tup [star], .tup [star, star], .tup [star, star, star]]) array)

/-- `accepts` is what `validate` does with an array of the right class. -/
example (E : AEnv) (c : Cfg) (a : NArr) (hw : E.wrap c.prop.cls (.array a) = .ok a) (hs : E.sub a.cls c.prop.cls = true)
    (hc : c.prop.coerce = true) : (validateArray E c.prop (.array a)).isOk = accepts c a.kind a.shape := by
  have key : ∀ l : List (List Dim), someShape l a = someShape l ⟨0, a.kind, a.shape, []⟩ := by
    intro l; induction l with
    | nil => rfl
    | cons d ds ih => simp only [someShape, ih]
  simp only [validateArray, hc, if_true, hw, checkArray, hs, accepts]
  cases (c.prop.dtype.flatMap kindsOf).contains a.kind with
  | false => rfl
  | true =>
    cases c.prop.shape with
    | none => rfl
    | some l =>
      simp only [if_true, Bool.true_and]
      rw [← key l]
      cases someShape l a <;> rfl

/-- `test_array` and `test_unsigned_int_array`: shapes and kinds. -/
example :
    (accepts array .f [3] && !accepts array .f [2, 2] && !accepts array .f [1, 2] &&
    !accepts arrFloat .i [4] && !accepts arrInt .f [4] && !accepts arr222 .f [1, 1, 1] &&
    !accepts arrBool .i [3] && !accepts arrInt .b [3] && !accepts arrBool .other [3] &&
    !accepts arrComplex .i [3] && accepts arrBool .b [3] && accepts arr222 .i [2, 2, 2] &&
    accepts arrInt .i [3] && accepts arrInt .i [4] && accepts arrInt .u [4] &&
    accepts anyArray .f [3] && accepts anyArray .f [3, 3] && accepts anyArray .f [3, 3, 3] &&
    accepts anyArray .f [3, 3, 3, 3] && accepts flex .f [3] && accepts flex .f [3, 3] &&
    accepts flex .f [3, 3, 3] && !accepts flex .f [3, 3, 3, 3]) = true := by decide +kernel

/-- The vectors: shapes and names. -/
example :
    let vec2 : Cfg := { cls := .vec2 }
    let vec3 : Cfg := { cls := .vec3 }
    let arr2 : Cfg := { cls := .vec2Array }
    let arr3 : Cfg := { cls := .vec3Array }
    let two2 : Cfg := made (setShape (.set [.tup [.int 2, .int 2], .tup [.int 3, .int 2]]) arr2)
    let two3 : Cfg := made (setShape (.set [.tup [.int 2, .int 3], .tup [.int 3, .int 3]]) arr3)
    (accepts vec2 .f [2] && !accepts vec2 .f [3] && !accepts vec2 .f [1, 2] &&
    accepts vec3 .f [3] && !accepts vec3 .f [2] && !accepts vec3 .f [1, 3] &&
    accepts arr2 .f [1, 2] && accepts arr2 .f [3, 2] && !accepts arr2 .f [1, 3] &&
    accepts arr3 .f [1, 3] && accepts arr3 .f [3, 3] && !accepts arr3 .f [1, 2] &&
    accepts two2 .f [2, 2] && accepts two2 .f [3, 2] && !accepts two2 .f [4, 2] &&
    accepts two3 .f [2, 3] && accepts two3 .f [3, 3] && !accepts two3 .f [4, 3]) = true := by decide +kernel

def up : PyStr → PyStr := List.map Char.toUpper
def np : AEnv := ⟨fun _ _ => .error .wrapper, fun _ _ => true, up⟩

example :
    direction np 2 (s% "east") = some [1, 0] ∧ direction np 2 (s% "up") = none ∧
    direction np 2 (s% "south") = some [0, -1] ∧ direction np 2 (s% "diagonal") = none ∧
    direction np 3 (s% "east") = some [1, 0, 0] ∧ direction np 3 (s% "around") = none ∧
    direction np 3 (s% "down") = some [0, 0, -1] ∧ direction np 3 (s% "south") = some [0, -1, 0] := by
  decide +kernel

/-- `test_coerce`: with `coerce=False` a list is refused. -/
example (E : AEnv) (c : Cfg) (l : List Item) : validateArray E (made (setCoerce (.bool false) c)).prop (.list l) =
    .error .validation := rfl

/-- `hv2.vec2 = 'east'` for an array of vectors. -/
example (E : AEnv) (p : AProp) (s : PyStr) : (validateVecArray E 2 p none (.text s)).1 = .error .validation := rfl

end Verif.Conformance.MathTest
