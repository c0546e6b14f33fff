import Verif.Py.Str

/-!
# Python values

`Val` is the universe of Python values that the core model handles, together
with Python's `==`, truth value, iteration and hashability.
-/

namespace Verif

/-- A Python float: a rational, NaN or an infinity.  `-0.0` is identified with
`0.0`.  That a finite float is a binary fraction is not recorded in the type;
rounding is the parameter `rnd` of the environment. -/
inductive PyFloat where
  | fin (q : Rat)
  | nan
  | pinf
  | ninf
  deriving DecidableEq, Repr

/-- Fields of a naive `datetime.datetime`. -/
structure DateTime where
  year : Nat
  month : Nat
  day : Nat
  hour : Nat
  minute : Nat
  second : Nat
  micro : Nat
  deriving DecidableEq, Repr

/-- Python values.  Containers are values here (no sharing); a set is the list
of its items in iteration order; a dict the list of its items in insertion
order.  `obj r` is a reference to the HasProperties instance `r` of the heap,
`opq k` any other object, compared by identity. -/
inductive Val where
  | none
  | undef
  | bool (b : Bool)
  | int (i : Int)
  | float (f : PyFloat)
  | cplx (re im : PyFloat)
  | str (s : PyStr)
  | dt (t : DateTime)
  | uuid (n : Nat)
  | list (xs : List Val)
  | tup (xs : List Val)
  | set (xs : List Val)
  | dict (kvs : List (Val × Val))
  | obj (r : Nat)
  | opq (k : Nat)
  deriving Repr, Inhabited

/-- `==` on floats: NaN differs from everything. -/
def PyFloat.eq : PyFloat → PyFloat → Bool
  | .fin a, .fin b => a == b
  | .pinf, .pinf => true
  | .ninf, .ninf => true
  | _, _ => false

/-- `a < b` on floats. -/
def PyFloat.lt : PyFloat → PyFloat → Bool
  | .fin a, .fin b => decide (a < b)
  | .ninf, .fin _ => true
  | .ninf, .pinf => true
  | .fin _, .pinf => true
  | _, _ => false

/-- The number a value denotes, as real and imaginary part, for Python's mixed
type comparison of bool, int, float and complex (which is exact). -/
def Val.num? : Val → Option (PyFloat × PyFloat)
  | .bool b => some (.fin (if b then 1 else 0), .fin 0)
  | .int i => some (.fin i, .fin 0)
  | .float f => some (f, .fin 0)
  | .cplx re im => some (re, im)
  | _ => Option.none

mutual
/-- Python's `==` on the modelled values.  Numbers compare across types, lists
and tuples item by item, sets and dicts by content, instances by identity
(HasProperties defines no `__eq__`).  The identity shortcut of container
comparison, which only matters for NaN items, is dropped. -/
def pyEq : Val → Val → Bool
  | .none, b => match b with | .none => true | _ => false
  | .undef, b => match b with | .undef => true | _ => false
  | .str a, b => match b with | .str b => a == b | _ => false
  | .dt a, b => match b with | .dt b => a == b | _ => false
  | .uuid a, b => match b with | .uuid b => a == b | _ => false
  | .obj a, b => match b with | .obj b => a == b | _ => false
  | .opq a, b => match b with | .opq b => a == b | _ => false
  | .list xs, b => match b with | .list ys => pyEqL xs ys | _ => false
  | .tup xs, b => match b with | .tup ys => pyEqL xs ys | _ => false
  | .set xs, b => match b with
      | .set ys => xs.length == ys.length && pySubset xs ys
      | _ => false
  | .dict xs, b => match b with
      | .dict ys => xs.length == ys.length && pySubdict xs ys
      | _ => false
  | .bool a, b => match b.num? with
      | some (re, im) => PyFloat.eq (.fin (if a then 1 else 0)) re && PyFloat.eq (.fin 0) im
      | Option.none => false
  | .int a, b => match b.num? with
      | some (re, im) => PyFloat.eq (.fin a) re && PyFloat.eq (.fin 0) im
      | Option.none => false
  | .float a, b => match b.num? with
      | some (re, im) => PyFloat.eq a re && PyFloat.eq (.fin 0) im
      | Option.none => false
  | .cplx a c, b => match b.num? with
      | some (re, im) => PyFloat.eq a re && PyFloat.eq c im
      | Option.none => false
/-- Item by item comparison of sequences. -/
def pyEqL : List Val → List Val → Bool
  | [], [] => true
  | x :: xs, y :: ys => pyEq x y && pyEqL xs ys
  | _, _ => false
/-- Every item of the first set is in the second. -/
def pySubset : List Val → List Val → Bool
  | [], _ => true
  | x :: xs, ys => ys.any (fun y => pyEq x y) && pySubset xs ys
/-- Every entry of the first dict is in the second. -/
def pySubdict : List (Val × Val) → List (Val × Val) → Bool
  | [], _ => true
  | (k, v) :: xs, ys =>
      ys.any (fun kv => pyEq k kv.1 && pyEq v kv.2) && pySubdict xs ys
end

/-- Python truth value (`bool(v)`). -/
def Val.truthy : Val → Bool
  | .none => false
  | .undef => true
  | .bool b => b
  | .int i => i != 0
  | .float f => !(PyFloat.eq f (.fin 0))
  | .cplx a b => !(PyFloat.eq a (.fin 0) && PyFloat.eq b (.fin 0))
  | .str s => !s.isEmpty
  | .list xs => !xs.isEmpty
  | .tup xs => !xs.isEmpty
  | .set xs => !xs.isEmpty
  | .dict xs => !xs.isEmpty
  | _ => true

/-- `iter(v)` as the list of items, `none` for TypeError. -/
def Val.iter? : Val → Option (List Val)
  | .str s => some (s.map (fun c => .str [c]))
  | .list xs => some xs
  | .tup xs => some xs
  | .set xs => some xs
  | .dict kvs => some (kvs.map (·.1))
  | _ => Option.none

/-- `len(v)`, `none` for TypeError. -/
def Val.len? (v : Val) : Option Nat := v.iter?.map List.length

mutual
/-- Whether `hash(v)` succeeds. -/
def Val.hashable : Val → Bool
  | .list _ => false
  | .set _ => false
  | .dict _ => false
  | .tup xs => hashableL xs
  | _ => true
/-- All items hashable. -/
def hashableL : List Val → Bool
  | [] => true
  | x :: xs => x.hashable && hashableL xs
end

/-- `d.get(k)` on the item list of a dict. -/
def dictGet? : List (Val × Val) → Val → Option Val
  | [], _ => Option.none
  | (k, v) :: rest, key => if pyEq k key then some v else dictGet? rest key

/-- `d[k] = v`: an equal key keeps its place and its old key object. -/
def dictSet : List (Val × Val) → Val → Val → List (Val × Val)
  | [], key, val => [(key, val)]
  | (k, v) :: rest, key, val =>
      if pyEq k key then (k, val) :: rest else (k, v) :: dictSet rest key val

/-- `{k: v for k, v in pairs}` for hashable keys. -/
def dictOfPairs (ps : List (Val × Val)) : List (Val × Val) :=
  ps.foldl (fun d kv => dictSet d kv.1 kv.2) []

/-- `set(items)` for hashable items, iterated in order of first insertion. -/
def setOfList (xs : List Val) : List Val :=
  xs.foldl (fun acc x => if acc.any (fun y => pyEq y x) then acc else acc ++ [x]) []

/-- Association list lookup with string keys (`dict.get` on name keyed dicts). -/
def lookupS {α : Type} (k : PyStr) : List (PyStr × α) → Option α
  | [] => Option.none
  | (k', v) :: rest => if k' = k then some v else lookupS k rest

/-- `d[k] = v` on a name keyed dict. -/
def setS {α : Type} (k : PyStr) (v : α) : List (PyStr × α) → List (PyStr × α)
  | [] => [(k, v)]
  | (k', v') :: rest => if k' = k then (k', v) :: rest else (k', v') :: setS k v rest

/-- `d.pop(k, None)` on a name keyed dict; keys are unique, so removing all
entries of the key is removing the one. -/
def eraseS {α : Type} (k : PyStr) : List (PyStr × α) → List (PyStr × α)
  | [] => []
  | (k', v') :: rest => if k' = k then eraseS k rest else (k', v') :: eraseS k rest

end Verif
