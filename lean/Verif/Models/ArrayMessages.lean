import Verif.Models.ArrayDecl
import Verif.Models.Messages

/-!
# Descriptions and error messages of Array and vector properties

`Array.info` (math.py:125-138), `Array.error` (math.py:178-210), and `Array.validate` and
`BaseVector.validate` (math.py:140-164, 278-292) with the errors they raise.  The texts of numbers and of
numpy's shapes and types come from outside.  A set of shapes is listed in the order of its iteration;
booleans in shapes are written as integers here.
-/

namespace Verif.ArrMsg
open Verif.Arr Verif.ArrDecl

/-- Texts from outside: `str` of an integer, of the shape and of the type of an array. -/
structure ATexts where
  int : Int → PyStr
  shape : NArr → PyStr
  type : NArr → PyStr

/-- One entry of a shape (math.py:131). -/
def dimText (T : ATexts) : Dim → PyStr
  | .any => s% "\\*"
  | .exactly i => T.int i

/-- One shape (math.py:130-132). -/
def tupleText (T : ATexts) (s : List Dim) : PyStr := s% "(" ++ Msg.join (s% ", ") (s.map (dimText T)) ++ s% ")"

/-- The shapes (math.py:126-133). -/
def shapesText (T : ATexts) : Option (List (List Dim)) → PyStr
  | none => s% "any shape"
  | some ss => s% "shape " ++ Msg.join (s% " or ") (ss.map (tupleText T))

/-- `str(float)` and so on. -/
def typeText : DType → PyStr
  | .int => s% "<class 'int'>"
  | .float => s% "<class 'float'>"
  | .bool => s% "<class 'bool'>"
  | .complex => s% "<class 'complex'>"

/-- `class_info` (math.py:42, 313, 361, 413, 483). -/
def classText : Cls → PyStr
  | .array => s% "a list or numpy array"
  | .vec3 => s% "a 3D Vector"
  | .vec2 => s% "a 2D Vector"
  | .vec3Array => s% "a list of Vector3"
  | .vec2Array => s% "a list of Vector2"

/-- `prop.__class__.__name__`. -/
def className : Cls → PyStr
  | .array => s% "Array"
  | .vec3 => s% "Vector3"
  | .vec2 => s% "Vector2"
  | .vec3Array => s% "Vector3Array"
  | .vec2Array => s% "Vector2Array"

/-- `Array.info` (math.py:125-138). -/
def info (T : ATexts) (c : Cfg) : PyStr :=
  classText c.cls ++ s% " of " ++ Msg.join (s% ", ") (c.dtypes.map typeText) ++ s% " with " ++ shapesText T c.shapes

/-- The value in the message (math.py:183-192); other values are left to `Property.error`. -/
def describe (T : ATexts) : Input → Option PyStr
  | .list l => some (s% "A list of length " ++ T.int l.length)
  | .tuple l => some (s% "A tuple of length " ++ T.int l.length)
  | .array a => some (s% "An array of shape " ++ T.shape a ++ s% " and dtype " ++ T.type a)
  | _ => none

/-- The property (math.py:194-200); the instance is given by the name of its class. -/
def about (cls name : PyStr) : Option PyStr → PyStr
  | none => cls ++ s% " property"
  | some k => s% "The '" ++ name ++ s% "' property of a " ++ k ++ s% " instance"

/-- The message of `Array.error` (math.py:178-207); `repr` and `vtype` are the texts `Property.error` uses. -/
def errorText (T : ATexts) (c : Cfg) (name : PyStr) (inst : Option PyStr) (v : Input) (repr vtype extra : PyStr) : PyStr :=
  match describe T v with
  | none => Msg.message (className c.cls) name inst (info T c) repr vtype extra
  | some d => about (className c.cls) name inst ++ s% " must be " ++ info T c ++ s% ". " ++ d ++
      s% " was specified. " ++ extra

/-- What ends `validate`: `error` called with a value, an error class and an extra text, or an exception of
the constructor. -/
inductive Refusal
  | says (v : Input) (e : AErr) (extra : PyStr)
  | raised (e : AErr)

/-- The exception of a refusal. -/
def Refusal.err : Refusal → AErr
  | .says _ e _ => e
  | .raised e => e

/-- The checks of `Array.validate` after coercion (math.py:146-164). -/
def checkSays (E : AEnv) (p : AProp) : Input → Except Refusal NArr
  | .array a =>
    if E.sub a.cls p.cls then
      if (p.dtype.flatMap kindsOf).contains a.kind then
        match p.shape with
        | none => .ok a
        | some shapes => if someShape shapes a then .ok a else .error (.says (.array a) .validation (s% "Invalid shape."))
      else .error (.says (.array a) .validation (s% "Invalid dtype."))
    else .error (.says (.array a) .validation [])
  | v => .error (.says v .validation [])

/-- `isinstance(value, (tuple, list, np.ndarray))` (math.py:142). -/
def listLike : Input → Bool
  | .list _ => true
  | .tuple _ => true
  | .array _ => true
  | _ => false

/-- `Array.validate` (math.py:140-164). -/
def arraySays (E : AEnv) (p : AProp) (v : Input) : Except Refusal NArr :=
  if listLike v then
    if p.coerce then match E.wrap p.cls v with
      | .error e => .error (.raised e)
      | .ok a => checkSays E p (.array a)
    else checkSays E p v
  else .error (.says v .validation [])

/-- `BaseVector.validate` (math.py:278-292). -/
noncomputable def vectorSays (E : AEnv) (p : AProp) (length : Option ℝ) (v : Input) : Except Refusal NArr :=
  match arraySays E p v with
  | .error e => .error e
  | .ok a => match length with
      | none => .ok a
      | some len => match Arr.setLength a len with
          | .ok b => .ok b
          | .error e => .error (.says (.array a) e (s% "The vector must have a length specified."))

end Verif.ArrMsg
