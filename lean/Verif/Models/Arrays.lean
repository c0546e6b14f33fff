import Verif.Py.Str
import Mathlib.Analysis.Real.Sqrt

/-!
# Arrays and vectors

`Array.validate` (math.py:140-164), `BaseVector.validate` (math.py:278-292) and the
`validate` of Vector3, Vector2, Vector3Array and Vector2Array (math.py:325-337,
373-388, 438-458, 508-531).  numpy and vectormath are arguments: what their
constructors make of a value.  Elements are real numbers, so rounding is not
modelled.  The `length` setter of vectormath is a function here.
-/

namespace Verif.Arr

/-- `dtype.kind`. -/
inductive Kind where
  | u | i | f | b | c | other
  deriving DecidableEq

/-- Declared types (math.py:14-19). -/
inductive DType where
  | int | float | bool | complex
  deriving DecidableEq

/-- `TYPE_MAPPINGS` (math.py:14-19). -/
def kindsOf : DType → List Kind
  | .int => [.u, .i]
  | .float => [.f]
  | .bool => [.b]
  | .complex => [.c]

/-- A numpy array of a class: 0 is ndarray, others are subclasses; elements row by
row. -/
structure NArr where
  cls : Nat
  kind : Kind
  shape : List Nat
  data : List ℝ

/-- An entry of a declared shape. -/
inductive Dim where
  | any
  | exactly (n : Int)
  deriving DecidableEq

/-- An element of a list or tuple. -/
inductive Item where
  | num (x : ℝ)
  | name (s : PyStr)
  | nums (l : List ℝ)
  | other

/-- A value given to the property. -/
inductive Input where
  | list (l : List Item)
  | tuple (l : List Item)
  | array (a : NArr)
  | text (s : PyStr)
  | other

/-- Errors: ValidationError, ZeroDivValidationError, TypeError, and what the
constructors of numpy and vectormath raise. -/
inductive AErr where
  | validation
  /-- ZeroDivValidationError, which is a ValidationError (math.py:243) -/
  | zeroDiv
  | type
  | wrapper
  deriving DecidableEq

/-- numpy, vectormath and text. -/
structure AEnv where
  /-- the constructor for a class -/
  wrap : Nat → Input → Except AErr NArr
  /-- subclasses: `isinstance(array of class a, class b)` -/
  sub : Nat → Nat → Bool
  /-- `str.upper` -/
  upper : PyStr → PyStr

/-- An Array property. -/
structure AProp where
  /-- class of the wrapper (`np.array` is not a class: then ndarray) -/
  cls : Nat
  coerce : Bool
  dtype : List DType
  /-- declared shapes; `none` for any -/
  shape : Option (List (List Dim))

/-- The inner loop over one shape (math.py:159-163): `else` is reached. -/
def dimsOk : List Dim → List Nat → Bool
  | [], _ => true
  | .any :: ds, _ :: ns => dimsOk ds ns
  | .exactly d :: ds, n :: ns => if d = (n : Int) then dimsOk ds ns else false
  | _ :: _, [] => false

/-- The loop over the shapes (math.py:156-163). -/
def someShape : List (List Dim) → NArr → Bool
  | [], _ => false
  | s :: rest, a => if s.length ≠ a.shape.length then someShape rest a
      else if dimsOk s a.shape then true else someShape rest a

/-- The checks on an array (math.py:146-164). -/
def checkArray (E : AEnv) (p : AProp) (a : NArr) : Except AErr NArr :=
  if E.sub a.cls p.cls then
    if (p.dtype.flatMap kindsOf).contains a.kind then
      match p.shape with
      | none => .ok a
      | some shapes => if someShape shapes a then .ok a else .error .validation
    else .error .validation
  else .error .validation

/-- `Array.validate` (math.py:140-164). -/
def validateArray (E : AEnv) (p : AProp) : Input → Except AErr NArr
  | .text _ => .error .validation
  | .other => .error .validation
  | v =>
    if p.coerce then match E.wrap p.cls v with
      | .error e => .error e
      | .ok a => checkArray E p a
    else match v with
      | .array a => checkArray E p a
      | _ => .error .validation

/-! ## Vectors -/

/-- `|v|`. -/
noncomputable def norm (v : List ℝ) : ℝ := Real.sqrt ((v.map fun x => x * x).sum)

/-- The elements in rows of `n`. -/
def rows (n : Nat) : Nat → List ℝ → List (List ℝ)
  | 0, _ => []
  | k + 1, l => l.take n :: rows n k (l.drop n)

/-- The vectors of an array of shape `(n,)` or `(k, n)`. -/
def vectors (a : NArr) : List (List ℝ) := match a.shape with
  | [n] => rows n 1 a.data
  | [k, n] => rows n k a.data
  | _ => []

open Classical in
/-- `vector.length = length` of vectormath, for a positive length: if a vector has length zero,
ZeroDivisionError, which `validate` turns into a validation error. -/
noncomputable def setLength (a : NArr) (len : ℝ) : Except AErr NArr :=
  if ∀ v ∈ vectors a, norm v ≠ 0 then
    .ok { a with data := (vectors a).flatMap fun v => v.map fun x => len / norm v * x }
  else .error .zeroDiv

/-- `BaseVector.validate` (math.py:278-292). -/
noncomputable def validateVector (E : AEnv) (p : AProp) (length : Option ℝ) (v : Input) : Except AErr NArr :=
  match validateArray E p v with
  | .error e => .error e
  | .ok a => match length with
      | none => .ok a
      | some len => setLength a len

/-- `VECTOR_DIRECTIONS` (math.py:538-552). -/
def directions : List (PyStr × List Int) :=
  [(s% "ZERO", [0, 0, 0]), (s% "X", [1, 0, 0]), (s% "Y", [0, 1, 0]), (s% "Z", [0, 0, 1]), (s% "-X", [-1, 0, 0]),
   (s% "-Y", [0, -1, 0]), (s% "-Z", [0, 0, -1]), (s% "EAST", [1, 0, 0]), (s% "WEST", [-1, 0, 0]),
   (s% "NORTH", [0, 1, 0]), (s% "SOUTH", [0, -1, 0]), (s% "UP", [0, 0, 1]), (s% "DOWN", [0, 0, -1])]

/-- The vector of a name, for vectors of dimension 3 or 2 (math.py:332-335, 380-386). -/
def direction (E : AEnv) (dim : Nat) (s : PyStr) : Option (List Int) :=
  if dim = 2 ∧ [s% "Z", s% "-Z", s% "UP", s% "DOWN"].contains (E.upper s) then none
  else (directions.lookup (E.upper s)).map (·.take dim)

/-- `Vector3.validate` and `Vector2.validate` (math.py:325-337, 373-388). -/
noncomputable def validateVec (E : AEnv) (dim : Nat) (p : AProp) (length : Option ℝ) : Input → Except AErr NArr
  | .text s => match direction E dim s with
      | none => .error .validation
      | some d => validateVector E p length (.list (d.map fun x : Int => .num (x : ℝ)))
  | v => validateVector E p length v

/-- The loop over the items (math.py:447-456, 517-529): names are replaced in the
list itself.  The list afterwards is returned with the error, if any. -/
def replaceNames (E : AEnv) (dim : Nat) : List Item → Option AErr × List Item
  | [] => (none, [])
  | .name s :: rest => match direction E dim s with
      | none => (some .validation, .name s :: rest)
      | some d => let (e, l) := replaceNames E dim rest; (e, .nums (d.map fun x : Int => (x : ℝ)) :: l)
  | i :: rest => let (e, l) := replaceNames E dim rest; (e, i :: l)

/-- Assigning to an item of a tuple raises TypeError. -/
def tupleNames (E : AEnv) (dim : Nat) : List Item → Option AErr
  | [] => none
  | .name s :: _ => match direction E dim s with
      | none => some .validation
      | some _ => some .type
  | _ :: rest => tupleNames E dim rest

/-- `Vector3Array.validate` and `Vector2Array.validate` (math.py:438-458, 508-531);
with the caller's value afterwards. -/
noncomputable def validateVecArray (E : AEnv) (dim : Nat) (p : AProp) (length : Option ℝ) : Input → Except AErr NArr × Input
  | .list l => match replaceNames E dim l with
      | (some e, l') => (.error e, .list l')
      | (none, l') => (validateVector E p length (.list l'), .list l')
  | .tuple l => match tupleNames E dim l with
      | some e => (.error e, .tuple l)
      | none => (validateVector E p length (.tuple l), .tuple l)
  | .array a => (validateVector E p length (.array a), .array a)
  | v => (.error .validation, v)

end Verif.Arr
