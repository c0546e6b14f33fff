import Verif.Py.Val

/-!
# Arrays to JSON and back

`Array.to_json` (math.py:226-236), `Array.deserialize` (math.py:213-224) with the
wrapper `np.array`, and `Array.equal` (math.py:166-175).  Of numpy: `tolist`, `np.array` on nested
lists (shape discovery and common type), `astype`.  Elements are bools, integers
or floats; complex arrays are not modelled (their elements are not JSON data).
Rounding of integers to floats, and writing and reading of numbers as text, are
parameters.
-/

namespace Verif.ArrJson

/-- A Python list of lists of ... of elements. -/
inductive Nest (α : Type) where
  | leaf (a : α)
  | node (ns : List (Nest α))

/-- An element of a list: a bool, an integer, a float, or text. -/
inductive El where
  | bool (b : Bool)
  | int (i : Int)
  | flt (f : PyFloat)
  | txt (s : PyStr)
  deriving DecidableEq

/-- The elements of an array, of one type, row by row. -/
inductive Data where
  | bools (l : List Bool)
  | ints (l : List Int)
  | floats (l : List PyFloat)
  | texts (l : List PyStr)
  deriving DecidableEq

/-- A numpy array. -/
structure NArr where
  shape : List Nat
  data : Data
  deriving DecidableEq

/-- Types an array can be converted to (math.py:14-19). -/
inductive DType where
  | int
  | float
  | bool
  deriving DecidableEq

/-- Numbers and text. -/
structure JEnv where
  /-- integer to float -/
  rnd : Int → PyFloat
  /-- `str` of a finite float, of an integer and of a bool -/
  show_ : Rat → PyStr
  showI : Int → PyStr
  showB : Bool → PyStr
  /-- text to number, as `astype` does it -/
  parse : PyStr → Option PyFloat
  parseI : PyStr → Option Int
  /-- `astype(int)` of a float -/
  trunc : PyFloat → Int

/-- Number of elements. -/
def size : List Nat → Nat
  | [] => 1
  | n :: s => n * size s

/-- `n` slices of `k` elements. -/
def slices {α : Type} : Nat → Nat → List α → List (List α)
  | 0, _, _ => []
  | n + 1, k, xs => xs.take k :: slices n k (xs.drop k)

/-- `tolist()` on the elements. -/
def nest {α : Type} : List Nat → List α → Nest α
  | [], x :: _ => .leaf x
  | [], [] => .node []
  | n :: s, xs => .node ((slices n (size s) xs).map (nest s))

/-- The elements as Python values. -/
def Data.els : Data → List El
  | .bools l => l.map .bool
  | .ints l => l.map .int
  | .floats l => l.map .flt
  | .texts l => l.map .txt

/-- `value.tolist()`. -/
def tolist (a : NArr) : Nest El := nest a.shape a.data.els

/-- `str(v) if np.isnan(v) or np.isinf(v) else v` (math.py:236). -/
def conv : El → El
  | .flt .nan => .txt (s% "nan")
  | .flt .pinf => .txt (s% "inf")
  | .flt .ninf => .txt (s% "-inf")
  | e => e

/-- `isinstance(val[0], list)`, for a list that is not empty (math.py:234). -/
def headIsList : List (Nest El) → Bool
  | .node _ :: _ => true
  | _ => false

mutual
/-- `_recurse_list` (math.py:233-236); `none` is a TypeError. -/
def recurseList : Nest El → Option (Nest El)
  | .leaf _ => none
  | .node ns => if headIsList ns then (recurseEach ns).map .node else (convEach ns).map .node
/-- `[_recurse_list(v) for v in val]`. -/
def recurseEach : List (Nest El) → Option (List (Nest El))
  | [] => some []
  | n :: ns => match recurseList n, recurseEach ns with
      | some m, some ms => some (m :: ms)
      | _, _ => none
/-- The last line, on numbers only. -/
def convEach : List (Nest El) → Option (List (Nest El))
  | [] => some []
  | .leaf e :: ns => (convEach ns).map (.leaf (conv e) :: ·)
  | .node _ :: _ => none
end

/-- `Array.to_json` (math.py:226-236). -/
def toJson (a : NArr) : Option (Nest El) := recurseList (tolist a)

mutual
/-- The shape of nested lists; `none` if they are ragged. -/
def shapeOf {α : Type} : Nest α → Option (List Nat)
  | .leaf _ => some []
  | .node ns => match shapesOf ns with
      | none => none
      | some [] => some [0]
      | some (s :: rest) => if rest.all (· == s) then some ((rest.length + 1) :: s) else none
def shapesOf {α : Type} : List (Nest α) → Option (List (List Nat))
  | [] => some []
  | n :: ns => match shapeOf n, shapesOf ns with
      | some s, some ss => some (s :: ss)
      | _, _ => none
end

mutual
/-- The elements of nested lists in order. -/
def flat {α : Type} : Nest α → List α
  | .leaf a => [a]
  | .node ns => flatL ns
def flatL {α : Type} : List (Nest α) → List α
  | [] => []
  | n :: ns => flat n ++ flatL ns
end

def El.isTxt : El → Bool | .txt _ => true | _ => false
def El.isFlt : El → Bool | .flt _ => true | _ => false
def El.isInt : El → Bool | .int _ => true | _ => false
def El.isBool : El → Bool | .bool _ => true | _ => false

/-- `str` of a float. -/
def showF (E : JEnv) : PyFloat → PyStr
  | .fin q => E.show_ q
  | .nan => s% "nan"
  | .pinf => s% "inf"
  | .ninf => s% "-inf"

/-- The element in an array of text. -/
def El.asTxt (E : JEnv) : El → PyStr
  | .bool b => E.showB b
  | .int i => E.showI i
  | .flt f => showF E f
  | .txt s => s

/-- The element in an array of floats. -/
def El.asFlt (E : JEnv) : El → PyFloat
  | .bool b => if b then .fin 1 else .fin 0
  | .int i => E.rnd i
  | .flt f => f
  | .txt _ => .nan

/-- The element in an array of integers. -/
def El.asInt : El → Int
  | .bool b => if b then 1 else 0
  | .int i => i
  | _ => 0

/-- The element in an array of bools. -/
def El.asBool : El → Bool
  | .bool b => b
  | _ => false

/-- The common type `np.array` chooses: text if there is any, else float, else
integer, else bool; float if there is no element. -/
def common (E : JEnv) (els : List El) : Data :=
  if els.any El.isTxt then .texts (els.map (El.asTxt E))
  else if els.any El.isFlt then .floats (els.map (El.asFlt E))
  else if els.any El.isInt then .ints (els.map El.asInt)
  else if els.any El.isBool then .bools (els.map El.asBool)
  else .floats []

/-- `np.array(value)` on nested lists; `none` is a ValueError. -/
def npArray (E : JEnv) (v : Nest El) : Option NArr :=
  match shapeOf v with
  | none => none
  | some s => some ⟨s, common E (flat v)⟩

/-- All texts read as numbers, or an error. -/
def parseAll {β : Type} (f : PyStr → Option β) : List PyStr → Option (List β)
  | [] => some []
  | s :: ss => match f s, parseAll f ss with
      | some x, some xs => some (x :: xs)
      | _, _ => none

/-- `astype`; `none` is a ValueError. -/
def astype (E : JEnv) : DType → Data → Option Data
  | .float, .bools l => some (.floats (l.map fun b => if b then .fin 1 else .fin 0))
  | .float, .ints l => some (.floats (l.map E.rnd))
  | .float, .floats l => some (.floats l)
  | .float, .texts l => (parseAll E.parse l).map .floats
  | .int, .bools l => some (.ints (l.map fun b => if b then 1 else 0))
  | .int, .ints l => some (.ints l)
  | .int, .floats l => some (.ints (l.map E.trunc))
  | .int, .texts l => (parseAll E.parseI l).map .ints
  | .bool, .bools l => some (.bools l)
  | .bool, .ints l => some (.bools (l.map (· != 0)))
  | .bool, .floats l => some (.bools (l.map (· != .fin 0)))
  | .bool, .texts _ => none

/-- `Array.deserialize` (math.py:213-224); `first` is `self.dtype[0]`. -/
def deserialize (E : JEnv) (first : DType) (v : Nest El) : Option NArr :=
  match npArray E v with
  | none => none
  | some a => (astype E first a.data).map (⟨a.shape, ·⟩)

/-- `np.isnan` on the elements; `none` is a TypeError. -/
def nanMask : Data → Option (List Bool)
  | .bools l => some (l.map fun _ => false)
  | .ints l => some (l.map fun _ => false)
  | .floats l => some (l.map (· == .nan))
  | .texts _ => none

/-- The elements as floats. -/
def Data.asFlts (E : JEnv) : Data → List PyFloat
  | .bools l => l.map fun b => if b then .fin 1 else .fin 0
  | .ints l => l.map E.rnd
  | .floats l => l
  | .texts l => l.map fun _ => .nan

/-- `np.isclose` of two elements that are not NaN, with absolute tolerance `tol`
and the default relative tolerance. -/
def isClose (tol : Rat) : PyFloat → PyFloat → Bool
  | .fin a, .fin b =>
      decide ((if a ≤ b then b - a else a - b) ≤ tol + (if 0 ≤ b then b else -b) / 100000)
  | .pinf, .pinf => true
  | .ninf, .ninf => true
  | _, _ => false

/-- `np.allclose(value_a[nan_mask], value_b[nan_mask])`. -/
def allClose (tol : Rat) : List Bool → List PyFloat → List PyFloat → Bool
  | true :: m, _ :: xs, _ :: ys => allClose tol m xs ys
  | false :: m, x :: xs, y :: ys => isClose tol x y && allClose tol m xs ys
  | _, _, _ => true

/-- `Array.equal` (math.py:166-175) on two arrays of class ndarray. -/
def equal (E : JEnv) (tol : Rat) (a b : NArr) : Bool :=
  match nanMask a.data, nanMask b.data with
  | some m, some n =>
      if a.shape = b.shape ∧ m = n then allClose tol m (a.data.asFlts E) (b.data.asFlts E) else false
  | _, _ => false

end Verif.ArrJson
