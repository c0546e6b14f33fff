import Verif.Models.JsonCopy

/-!
# Model: Instance properties of any class

The main model has Instance properties of HasProperties classes.  Here the class
is any Python class: what it does is user code, with a state of its own, given by
parameters.  Objects are opaque.  Listeners, serializers and deserializers are
left out; they are in the main model.
-/

namespace Verif.AnyInst

/-- A Python class and what the property asks of objects: `isinstance(x, cls)`,
`cls(x)`, `cls(**kw)`, `a == b` as a truth value, the items of a dict, the text a
str is, None, and the JSON data an object is, if it is plain data. -/
structure AnyClass (σ O : Type) where
  isInst : O → Bool
  one : O → σ → Except ErrKind O × σ
  kw : List (PyStr × O) → σ → Except ErrKind O × σ
  eq : O → O → σ → Except ErrKind Bool × σ
  asDict : O → Option (List (O × O))
  text : O → Option PyStr
  isNone : O → Bool
  data : O → Option Val

variable {σ O : Type}

/-- `**value`: all keys must be texts. -/
def keywords (C : AnyClass σ O) : List (O × O) → Option (List (PyStr × O))
  | [] => some []
  | (k, v) :: kvs => match C.text k, keywords C kvs with
      | some t, some kw => some ((t, v) :: kw)
      | _, _ => none

/-- The call of the class in `Instance.validate` (instance.py:101-103). -/
def build (C : AnyClass σ O) (v : O) (s : σ) : Except ErrKind O × σ :=
  match C.asDict v with
  | some kvs => match keywords C kvs with
      | some kw => C.kw kw s
      | none => (.error .type, s)
  | none => C.one v s

/-- `Instance.validate` (instance.py:89-111): the four generic errors become a
ValidationError. -/
def validate (C : AnyClass σ O) (v : O) (s : σ) : Except ErrKind O × σ :=
  if C.isInst v then (.ok v, s)
  else match build C v s with
    | (.error k, s') => (.error (if k.isGeneric then .validation else k), s')
    | (.ok x, s') => (.ok x, s')

/-- The values of the property on the instances that have it, and the state of
the user code. -/
structure Slots (σ O : Type) where
  at_ : Nat → Option O
  user : σ

/-- `holder.prop = v` (basic.py:673-677, base.py:357-375): the value is stored
before it is compared with the previous one, and the comparison may raise. -/
def assign (C : AnyClass σ O) (h : Nat) (v : O) (w : Slots σ O) : Except ErrKind Unit × Slots σ O :=
  match validate C v w.user with
  | (.error k, s) => (.error k, { w with user := s })
  | (.ok x, s) =>
      let at' := fun i => if i = h then some x else w.at_ i
      match w.at_ h with
      | none => (.ok (), ⟨at', s⟩)
      | some prev => match C.eq prev x s with
          | (.error k, s') => (.error k, ⟨at', s'⟩)
          | (.ok _, s') => (.ok (), ⟨at', s'⟩)

/-- `del holder.prop` (basic.py:679-681). -/
def remove (h : Nat) (w : Slots σ O) : Slots σ O :=
  { w with at_ := fun i => if i = h then none else w.at_ i }

/-- `assert_valid` of the stored value (basic.py:639-662, 247-262,
instance.py:113-122). -/
def assertValid (C : AnyClass σ O) (required : Bool) (h : Nat) (w : Slots σ O) :
    Except ErrKind Unit × σ :=
  match w.at_ h with
  | none => (if required then .error .validation else .ok (), w.user)
  | some v =>
      if C.isNone v then (if required then .error .validation else .ok (), w.user)
      else match validate C v w.user with
        | (.error k, s) => (.error k, s)
        | (.ok x, s) => match C.eq v x s with
            | (.error k, s') => (.error k, s')
            | (.ok true, s') => (.ok (), s')
            | (.ok false, s') => (.error .validation, s')

/-- `Instance.serialize` and `to_json` without a serializer (instance.py:125-139,
161-172). -/
def serialize (C : AnyClass σ O) (F : PyFloat → PyStr) (v : O) : Except ErrKind Val :=
  if C.isNone v then .ok .none
  else match C.data v with
    | none => .error .type
    | some d => match jsonText F d with
        | some j => .ok j
        | none => .error .type

/-- `Instance.deserialize` and `from_json` without a deserializer, for a class
that is no HasProperties class (instance.py:141-155, 174-181). -/
def deserialize (j : Val) : Except ErrKind Val :=
  match j with
  | .none => .ok .none
  | _ => .error .type

/-- What a program does with the property. -/
inductive Op (O : Type) where
  | assign (h : Nat) (v : O)
  | remove (h : Nat)
  | check (h : Nat)

/-- One step; errors are caught by the program. -/
def step (C : AnyClass σ O) (required : Bool) (w : Slots σ O) : Op O → Slots σ O
  | .assign h v => (assign C h v w).2
  | .remove h => remove h w
  | .check h => { w with user := (assertValid C required h w).2 }

/-- Any number of steps. -/
def play (C : AnyClass σ O) (required : Bool) (w : Slots σ O) (ops : List (Op O)) : Slots σ O :=
  ops.foldl (step C required) w

end Verif.AnyInst
