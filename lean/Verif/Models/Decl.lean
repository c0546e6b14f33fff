import Verif.Models.Limits

/-!
# Declarations: the keywords of a property

`GettableProperty.__init__` (`/repo/properties/basic.py:98-120`) and the setters it
calls.
-/

namespace Verif.Decl
open Limits

/-- Values of keywords: plain values, and functions by number. -/
inductive KV
  | val (v : Val)
  | fn (n : Nat)

/-- Exceptions. -/
inductive Err
  | attribute
  | type
  | index
  /-- what validating the default raises -/
  | invalid
  deriving DecidableEq

/-- What a property class has under a name.  Positional parameters (`choices`, `prop`,
`mode`, ...) are set before the keywords and are part of the class here. -/
inductive Attr
  | missing
  /-- a `@property` without setter: `meta`, `info` -/
  | readOnly
  /-- a method or an attribute of the class: the instance gets its own -/
  | plain
  /-- a setter that checks, and possibly converts, its argument only -/
  | free (check : KV → Option KV)
  | min
  | max
  | minLength
  | maxLength

/-- A property class. -/
abbrev Attrs := PyStr → Attr

/-- The bound a value is for comparisons. -/
def KV.bound : KV → Bound
  | .val .none => .none
  | .val (.bool b) => .num (.fin (if b then 1 else 0))
  | .val (.int i) => .num (.fin i)
  | .val (.float f) => .num f
  | .val (.str s) => .text s
  | _ => .other 0

def KV.asVal : KV → Val
  | .val v => v
  | .fn n => .opq n

/-- A property object: what was set under each name; `bounds` and `lens` are the limits
among them as the comparisons see them. -/
structure St where
  attrs : PyStr → Option KV := fun _ => none
  bounds : Bounds := {}
  lens : Lengths := {}
  default : Option KV := none

def put (f : PyStr → Option KV) (k : PyStr) (v : KV) : PyStr → Option KV := fun k' => if k' = k then some v else f k'

/-- `setattr(self, key, value)` after `hasattr(self, key)` (basic.py:109-118), with
the setters of `min`, `max` (basic.py:794-809), `min_length`, `max_length`
(containers.py:210-229). -/
def setAttr (A : Attrs) (k : PyStr) (v : KV) (s : St) : Except Err St := match A k with
  | .missing => .error .attribute
  | .readOnly => .error .attribute
  | .plain => .ok { s with attrs := put s.attrs k v }
  | .free f => match f v with
      | none => .error .type
      | some v => .ok { s with attrs := put s.attrs k v }
  | .min => match apply s.bounds (.min v.bound) with
      | (b, true) => .ok { s with attrs := put s.attrs k v, bounds := b }
      | (_, false) => .error .type
  | .max => match apply s.bounds (.max v.bound) with
      | (b, true) => .ok { s with attrs := put s.attrs k v, bounds := b }
      | (_, false) => .error .type
  | .minLength => match applyLen s.lens (.min v.asVal) with
      | (b, true) => .ok { s with attrs := put s.attrs k v, lens := b }
      | (_, false) => .error .type
  | .maxLength => match applyLen s.lens (.max v.asVal) with
      | (b, true) => .ok { s with attrs := put s.attrs k v, lens := b }
      | (_, false) => .error .type

def isPrivate : PyStr → Bool
  | [] => false
  | c :: _ => c == '_'

/-- One keyword (basic.py:103-118).  `key[0]` of the empty name raises IndexError. -/
def setKw (A : Attrs) (k : PyStr) (v : KV) (s : St) : Except Err St :=
  if k = s% "terms" then .error .attribute
  else if k = [] then .error .index
  else if isPrivate k then .error .attribute
  else setAttr A k v s

/-- The loop (basic.py:102). -/
def setKws (A : Attrs) : List (PyStr × KV) → St → Except Err St
  | [], s => .ok s
  | (k, v) :: l, s => match setKw A k v s with
      | .error e => .error e
      | .ok s => setKws A l s

/-- The methods of the class that the setter of `default` calls: `validate` with the
settings of the object, and functions given as default. -/
structure Meth where
  validate : St → KV → Bool
  call : Nat → Except Err KV

/-- The setter of `default` (basic.py:174-180). -/
def setDefault (m : Meth) (d : KV) (s : St) : Except Err St := match d with
  | .fn n => match m.call n with
      | .error e => .error e
      | .ok v => if m.validate s v then .ok { s with default := some d } else .error .invalid
  | .val .undef => .ok { s with default := some d }
  | d => if m.validate s d then .ok { s with default := some d } else .error .invalid

/-- `kwargs.pop('default', None)` (basic.py:101): the value. -/
def popped : List (PyStr × KV) → KV
  | [] => .val .none
  | (k, v) :: l => if k = s% "default" then v else popped l

/-- The other keywords. -/
def rest (l : List (PyStr × KV)) : List (PyStr × KV) := l.filter fun x => x.1 ≠ s% "default"

/-- `GettableProperty.__init__` (basic.py:98-120). -/
def declare (A : Attrs) (m : Meth) (l : List (PyStr × KV)) : Except Err St := match setKws A (rest l) {} with
  | .error e => .error e
  | .ok s => match popped l with
      | .val .none => .ok s
      | d => setDefault m d s

/-! ## The classes of the library -/

def isBool : KV → Option KV
  | .val (.bool b) => some (.val (.bool b))
  | _ => none

def isText : KV → Option KV
  | .val (.str s) => some (.val (.str s))
  | _ => none

/-- `accept_kwargs(value)` is not distinguished from the function. -/
def isCallable : KV → Option KV
  | .fn n => some (.fn n)
  | _ => none

/-- basic.py:987-992. -/
def isCase : KV → Option KV
  | .val .none => some (.val .none)
  | .val (.str s) => if s = s% "upper" ∨ s = s% "lower" then some (.val (.str s)) else none
  | _ => none

def find (k : PyStr) : List (PyStr × Attr) → Attr
  | [] => .missing
  | (k', a) :: l => if k' = k then a else find k l

/-- `Property` (basic.py:122-219, 628-637).  Of the methods and class attributes,
`class_info` and `validate` stand for all. -/
def property : List (PyStr × Attr) :=
  [(s% "name", .free isText), (s% "doc", .free isText), (s% "serializer", .free isCallable), (s% "deserializer", .free isCallable),
   (s% "required", .free isBool), (s% "meta", .readOnly), (s% "info", .readOnly), (s% "class_info", .plain), (s% "validate", .plain)]

/-- `Boolean` (basic.py:720-730) and `Complex`. -/
def boolean : List (PyStr × Attr) := (s% "cast", .free isBool) :: property

/-- `Integer` and `Float` (basic.py:789-809). -/
def integer : List (PyStr × Attr) := (s% "min", .min) :: (s% "max", .max) :: boolean

/-- `String` (basic.py:965-1021); which patterns compile is a parameter. -/
def string (regex : KV → Option KV) : List (PyStr × Attr) :=
  (s% "strip", .free isText) :: (s% "change_case", .free isCase) :: (s% "unicode", .free isBool) :: (s% "regex", .free regex) :: property

/-- `Tuple` (containers.py:205-240); `List` and `Set` also have `observe_mutations`. -/
def tuple : List (PyStr × Attr) :=
  (s% "min_length", .minLength) :: (s% "max_length", .maxLength) :: (s% "coerce", .free isBool) ::
    (s% "observe_mutations", .free isBool) :: property

def attrs (l : List (PyStr × Attr)) : Attrs := fun k => find k l

end Verif.Decl
