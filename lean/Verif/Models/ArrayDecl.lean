import Verif.Models.Arrays
import Verif.Core.Types

/-!
# Declaring Array and vector properties

The settings `shape`, `dtype`, `coerce` and `length` of Array, Vector3, Vector2,
Vector3Array and Vector2Array (`/repo/properties/math.py:55-122, 250-269, 320-323,
368-371, 420-433, 490-503`).  A shape that is a set of shapes is listed in the order in
which it is iterated.  That a `dtype` given as a list is kept and not copied is not
modelled.
-/

namespace Verif.ArrDecl
open Verif.Arr

/-- The property classes. -/
inductive Cls
  | array | vec3 | vec2 | vec3Array | vec2Array
  deriving DecidableEq

/-- What may stand in `dtype`: the types numpy arrays are declared with, and anything
else. -/
inductive TItem
  | ty (t : DType)
  | other

/-- A value given for `dtype`: one object, or a list or tuple of them. -/
inductive TVal
  | one (t : TItem)
  | seq (l : List TItem)

/-- Exceptions. -/
inductive Err
  | type
  | attribute
  | overflow
  deriving DecidableEq

/-- A property object: what was set. -/
structure Cfg where
  cls : Cls
  shape : Option (Option (List (List Dim))) := none
  dtype : Option (List DType) := none
  coerce : Option Bool := none
  length : Option PyFloat := none

/-- One entry of a shape: `'*'` or an integer; a boolean is an integer. -/
def dimOf : Val → Except Err Dim
  | .str s => if s = s% "*" then .ok .any else .error .type
  | .int i => .ok (.exactly i)
  | .bool b => .ok (.exactly (if b then 1 else 0))
  | _ => .error .type

def dimsOf : List Val → Except Err (List Dim)
  | [] => .ok []
  | v :: vs => do
      let d ← dimOf v
      let ds ← dimsOf vs
      pure (d :: ds)

/-- One shape: a tuple. -/
def tupleOf : Val → Except Err (List Dim)
  | .tup vs => dimsOf vs
  | _ => .error .type

def tuplesOf : List Val → Except Err (List (List Dim))
  | [] => .ok []
  | v :: vs => do
      let d ← tupleOf v
      let ds ← tuplesOf vs
      pure (d :: ds)

/-- `_validate_shape` (math.py:73-90): what is not a set is put in one, or in a list. -/
def validateShape : Val → Except Err (List (List Dim))
  | .set vs => tuplesOf vs
  | v => tuplesOf [v]

/-- The check of Vector3Array and Vector2Array (math.py:428-432, 498-502). -/
def twoDims (n : Int) : List (List Dim) → Bool
  | [] => true
  | [_, d] :: rest => d = .exactly n && twoDims n rest
  | _ :: _ => false

/-- The setter of `shape` (math.py:66-71, 425-433, 495-503); Vector3 and Vector2 have
none. -/
def setShape (v : Val) (c : Cfg) : Except Err Cfg := match c.cls with
  | .array => match v with
      | .none => .ok { c with shape := some none }
      | v => do
          let s ← validateShape v
          pure { c with shape := some (some s) }
  | .vec3Array => do
      let s ← validateShape v
      if twoDims 3 s then pure { c with shape := some (some s) } else .error .type
  | .vec2Array => do
      let s ← validateShape v
      if twoDims 2 s then pure { c with shape := some (some s) } else .error .type
  | _ => .error .attribute

/-- `val in TYPE_MAPPINGS`. -/
def typesOf : List TItem → Except Err (List DType)
  | [] => .ok []
  | .ty t :: l => do
      let ts ← typesOf l
      pure (t :: ts)
  | .other :: _ => .error .type

/-- `value = (value,)` if it is not a list or tuple (math.py:102-103). -/
def TVal.items : TVal → List TItem
  | .one t => [t]
  | .seq l => l

/-- The setter of `dtype` (math.py:100-111); vectors have none. -/
def setDtype (v : TVal) (c : Cfg) : Except Err Cfg := match c.cls with
  | .array =>
      if v.items.isEmpty then .error .type
      else do
        let ts ← typesOf v.items
        pure { c with dtype := some ts }
  | _ => .error .attribute

/-- The setter of `coerce` (math.py:118-122). -/
def setCoerce (v : Val) (c : Cfg) : Except Err Cfg := match v with
  | .bool b => .ok { c with coerce := some b }
  | _ => .error .type

/-- `value <= 0.0` for floats. -/
def notPositive : PyFloat → Bool
  | .fin q => decide (q ≤ 0)
  | .ninf => true
  | .pinf => false
  | .nan => false

/-- `float(i)` for a positive integer: rounding, with OverflowError. -/
def floatOf (rnd : Rat → PyFloat) (i : Int) : Except Err PyFloat := match rnd i with
  | .fin q => .ok (.fin q)
  | _ => .error .overflow

/-- The setter of `length` of vectors (math.py:263-269).  Arrays do not have the setting; on
them it is an attribute without effect. -/
def setLength (rnd : Rat → PyFloat) (v : Val) (c : Cfg) : Except Err Cfg := match c.cls with
  | .array => .ok c
  | _ =>
    let num : Int → Except Err Cfg := fun i =>
      if i ≤ 0 then .error .type
      else do
        let x ← floatOf rnd i
        pure { c with length := some x }
    match v with
    | .int i => num i
    | .bool b => num (if b then 1 else 0)
    | .float x => if notPositive x then .error .type else .ok { c with length := some x }
    | _ => .error .type

/-- `prop.shape` (math.py:55-64, 320-323, 368-371, 420-423, 490-493). -/
def Cfg.shapes (c : Cfg) : Option (List (List Dim)) := match c.cls with
  | .array => c.shape.getD (some [[.any]])
  | .vec3 => some [[.exactly 3]]
  | .vec2 => some [[.exactly 2]]
  | .vec3Array => c.shape.getD (some [[.any, .exactly 3]])
  | .vec2Array => c.shape.getD (some [[.any, .exactly 2]])

/-- `prop.dtype` (math.py:92-98, 250-253). -/
def Cfg.dtypes (c : Cfg) : List DType := match c.cls with
  | .array => c.dtype.getD [.float, .int]
  | _ => [.float]

/-- `prop.wrapper`: the class of arrays (math.py:44-53, 315-318, 363-366, 415-418, 485-488). -/
def Cls.wrapper : Cls → Nat
  | .array => 0
  | .vec3 => 1
  | .vec2 => 2
  | .vec3Array => 3
  | .vec2Array => 4

/-- The property as `validate` sees it. -/
def Cfg.prop (c : Cfg) : AProp := ⟨c.cls.wrapper, c.coerce.getD true, c.dtypes, c.shapes⟩

/-- A setting. -/
inductive Setting
  | shape (v : Val)
  | dtype (v : TVal)
  | coerce (v : Val)
  | length (v : Val)

def assign (rnd : Rat → PyFloat) : Setting → Cfg → Except Err Cfg
  | .shape v, c => setShape v c
  | .dtype v, c => setDtype v c
  | .coerce v, c => setCoerce v c
  | .length v, c => ArrDecl.setLength rnd v c

/-- Settings of a program that catches the errors. -/
def assignAll (rnd : Rat → PyFloat) : List Setting → Cfg → Cfg
  | [], c => c
  | s :: l, c => assignAll rnd l (match assign rnd s c with | .ok c' => c' | .error _ => c)

end Verif.ArrDecl
