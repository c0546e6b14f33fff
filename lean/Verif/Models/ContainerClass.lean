/-!
# The classes of stored containers

Which class the value of a container property has: `Tuple.validate`, `List.validate`,
`Dictionary.validate` (containers.py:261-281, 409-413, 570-598), `observable_copy` with its
registry of classes (108-138) and the wrappers of mutating methods (66-93).  Classes are
numbers, each with the class it is derived from; a program may derive classes from any class,
also from those that `observable_copy` makes.  Of a value only its class is modelled.  Classes
with several bases, metaclasses that define equality, and constructors that do not take an
iterable are not modelled.
-/

namespace Verif.ContCls

/-- The builtin container of a property. -/
inductive Kind where
  | tuple
  | list
  | set
  | dict
  deriving DecidableEq

/-- The number of a builtin class. -/
def builtin : Kind → Nat
  | .tuple => 0
  | .list => 1
  | .set => 2
  | .dict => 3

/-- `numpy.ndarray`. -/
def ndarray : Nat := 4

/-- A container property; a Tuple has no `observe_mutations`. -/
structure PDecl where
  kind : Kind
  coerce : Bool := false
  observe : Bool := false

/-- The class of each class's base, `none` for `object`; OBSERVABLE_REGISTRY; the class of the
value of each property. -/
structure World where
  parents : List (Option Nat)
  registry : List (Nat × Nat) := []
  slots : Nat → Option Nat := fun _ => none

/-- Builtin classes and a class 5 that is no container. -/
def start : World := { parents := [none, none, none, none, none, none] }

/-- `issubclass(c, b)`, looking at no more than the given number of bases. -/
def up (ps : List (Option Nat)) : Nat → Nat → Nat → Bool
  | 0, c, b => c == b
  | n + 1, c, b => c == b || (match ps[c]? with
      | some (some p) => up ps n p b
      | _ => false)

/-- `isinstance(value of class c, b)`. -/
def isInst (w : World) (c b : Nat) : Bool := up w.parents w.parents.length c b

/-- `isinstance(value, CONTAINERS)` (containers.py:22-27). -/
def isContainer (w : World) (c : Nat) : Bool :=
  isInst w c (builtin .list) || isInst w c (builtin .tuple) || isInst w c (builtin .set) || isInst w c ndarray

/-- The class of the result of `Tuple.validate` (containers.py:267-281), `none` for an error. -/
def seqClass (w : World) (p : PDecl) (c : Nat) : Option Nat :=
  if !p.coerce && !isInst w c (builtin p.kind) then none else
  let c := if p.coerce && !isContainer w c then builtin .list else c
  some (if isInst w c (builtin p.kind) then c else builtin p.kind)

/-- The class of the result of `Dictionary.validate` (containers.py:570-595); `pairs` if
`dict(value)` does not raise. -/
def dictClass (w : World) (p : PDecl) (pairs : Bool) (c : Nat) : Option Nat :=
  if !p.coerce && !isInst w c (builtin p.kind) then none else
  if p.coerce then (if pairs then some (builtin p.kind) else none) else some c

/-- `observable_copy` (containers.py:121-135): the class of the copy. -/
def observable (c : Nat) (w : World) : Nat × World :=
  match w.registry.lookup c with
  | some o => (o, w)
  | none =>
      if w.registry.any (fun r => r.2 == c) then (c, w)
      else (w.parents.length,
        { w with parents := w.parents ++ [some c], registry := w.registry ++ [(c, w.parents.length)] })

/-- `validate`; `good` if every item is valid. -/
def validate (p : PDecl) (c : Nat) (pairs good : Bool) (w : World) : Option Nat × World :=
  match (if p.kind = .dict then dictClass w p pairs c else seqClass w p c) with
  | none => (none, w)
  | some c =>
      if good then
        if p.observe && p.kind != .tuple then
          let (o, w) := observable c w
          (some o, w)
        else (some c, w)
      else (none, w)

/-- What a program does: derive a class, assign a value of a class to a property, delete it,
call a mutating method of the value. -/
inductive Op where
  | derive (base : Nat)
  | assign (slot c : Nat) (pairs good : Bool)
  | delete (slot : Nat)
  | mutate (slot : Nat) (good : Bool)

def setSlot (n : Nat) (v : Option Nat) (w : World) : World :=
  { w with slots := fun m => if m = n then v else w.slots m }

/-- `instance.name = value`. -/
def assign (p : PDecl) (n c : Nat) (pairs good : Bool) (w : World) : World :=
  match validate p c pairs good w with
  | (none, w) => w
  | (some s, w) => setSlot n (some s) w

/-- A mutating method of the value of a property: with `observe_mutations` the copy, of the
same class, is changed and assigned (containers.py:82-85); otherwise the value is changed in
place. -/
def mutate (p : PDecl) (n : Nat) (good : Bool) (w : World) : World :=
  match w.slots n with
  | none => w
  | some c => if p.observe && p.kind != .tuple then assign p n c true good w else w

/-- One operation; the program catches errors. -/
def exec (P : Nat → PDecl) (w : World) : Op → World
  | .derive b => if b < w.parents.length then { w with parents := w.parents ++ [some b] } else w
  | .assign n c pairs good => if c < w.parents.length then assign (P n) n c pairs good w else w
  | .delete n => setSlot n none w
  | .mutate n good => mutate (P n) n good w

/-- A history. -/
def run (P : Nat → PDecl) (ops : List Op) : World := ops.foldl (exec P) start

end Verif.ContCls
