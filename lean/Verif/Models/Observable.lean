import Verif.Py.Val

/-!
# Containers that observe their mutations

The main model keeps containers as values.  This one has containers as objects
with identity, so that aliases, bindings of a container to an instance, and the
wrapped mutating methods can be followed (containers.py:50-138, and the parts of
`validate` and `_set` they meet: containers.py:261-281, 409-413, base.py:357-375).

Names and instances are numbers.  A container is a cell: its builtin class
(`kind`), its items in iteration order (a dictionary has its keys and values in
turn) and the pair `_instance`, `_name`.  Unbound observable containers behave
like builtin ones, so both are cells without a binding.  A mutating method is any
function of the items: it returns or raises, and leaves new items behind in both
cases.  A
dictionary property that coerces, and subclasses of builtin containers, are not
modelled.  Listeners are scripts: any sequence of operations, chosen from the state
in which the listener is called.
-/

namespace Verif.Obs

/-- Items of containers: other containers, or anything else. -/
inductive Item where
  | val (v : Val)
  | ref (r : Nat)

/-- Errors: a ValueError of validation, any other error, RecursionError. -/
inductive Err where
  | invalid
  | other (k : Nat)
  | recursion
  deriving DecidableEq

/-- A container. -/
structure Cell where
  kind : Nat
  items : List Item
  bound : Option (Nat × Nat) := none

/-- Modes of notification (base.py:359-375). -/
inductive Mode where
  | validate
  | change
  | set
  deriving DecidableEq

/-- A recorded notification: mode, instance, name, previous and new container. -/
structure Note where
  mode : Mode
  inst : Nat
  name : Nat
  prev : Option Nat
  value : Option Nat
  deriving DecidableEq

/-- State: containers, `_backend` of the instances, ghost record of
notifications. -/
structure W where
  cells : List Cell
  slots : Nat → Nat → Option Nat
  log : List Note

mutual
/-- A container property: its builtin class, `coerce`, `observe_mutations`, the
property of the items, and the constructor of the builtin class applied to the
list of validated items (drops repeated items of a set). -/
inductive CSpec where
  | mk (kind : Nat) (coerce observed : Bool) (item : ISpec) (build : List Item → List Item)
/-- The property of the items: one that does not build containers, or again a
container property. -/
inductive ISpec where
  | plain (check : Item → Except Err Item)
  | nested (sp : CSpec)
end

def CSpec.kind : CSpec → Nat | .mk k _ _ _ _ => k
def CSpec.observed : CSpec → Bool | .mk _ _ o _ _ => o
def CSpec.item : CSpec → ISpec | .mk _ _ _ i _ => i
def CSpec.build : CSpec → List Item → List Item | .mk _ _ _ _ b => b

/-- A mutating method with its arguments. -/
abbrev Mut := List Item → Except Err Item × List Item

/-- What a program or a listener does with containers. -/
inductive Op where
  /-- an exception -/
  | fail (e : Err)
  /-- a container is created -/
  | new (kind : Nat) (items : List Item)
  /-- `instance.name = value` -/
  | assign (i n : Nat) (v : Item)
  /-- `del instance.name` -/
  | delete (i n : Nat)
  /-- `container.method(...)` -/
  | mutate (r : Nat) (f : Mut)
  /-- `container += ...` where the container is not an attribute -/
  | imutate (r : Nat) (f : Mut)
  /-- `instance.name += ...` -/
  | iassign (i n : Nat) (f : Mut)

/-- The properties of the instances, the equality `prop.equal` on the items of
two containers, and the listeners. -/
structure Env where
  spec : Nat → Nat → CSpec
  equal : Nat → Nat → List Item → List Item → Bool
  listener : Mode → Nat → Nat → W → List Op

/-- Computations. -/
abbrev HM (α : Type) := W → Except Err α × W

/-- Sequencing. -/
def andThen {α β : Type} (x : HM α) (f : α → HM β) : HM β := fun w =>
  match x w with
  | (.ok a, w) => f a w
  | (.error e, w) => (.error e, w)

/-- A new container. -/
def alloc (c : Cell) : HM Nat := fun w => (.ok w.cells.length, { w with cells := w.cells ++ [c] })

/-- The items of a container. -/
def itemsOf (w : W) (r : Nat) : List Item := (w.cells[r]?.map (·.items)).getD []

/-- Sets the items of a container. -/
def setItems (r : Nat) (xs : List Item) (w : W) : W :=
  { w with cells := w.cells.modify r fun c => { c with items := xs } }

/-- `self._instance = None; self._name = ''` (containers.py:86-87). -/
def unbind (r : Nat) (w : W) : W :=
  { w with cells := w.cells.modify r fun c => { c with bound := none } }

/-- `for val in value: out += [self.prop.validate(instance, val)]`
(containers.py:275-281). -/
def mapHM (f : Item → HM Item) : List Item → HM (List Item)
  | [] => fun w => (.ok [], w)
  | x :: xs => andThen (f x) fun y => andThen (mapHM f xs) fun ys w => (.ok (y :: ys), w)

/-- The new container with the validated items, which is bound to the instance
and the name if mutations are observed (containers.py:281, 409-413 and
observable_copy 108-138). -/
def rebuild (validItem : Item → HM Item) (k : Nat) (ob : Bool) (build : List Item → List Item) (i n : Nat)
    (xs : List Item) : HM Nat :=
  andThen (mapHM validItem xs) fun out =>
    alloc { kind := k, items := build out, bound := if ob then some (i, n) else none }

mutual
/-- `prop.validate(instance, value)` of a container property
(containers.py:261-281, 409-413): class check, coercion of a single value, and a
new container. -/
def validate : CSpec → Nat → Nat → Item → HM Nat
  | .mk k co ob it build, i, n, v => fun w =>
    match v with
    | .val _ =>
        if co then rebuild (validItem it i n) k ob build i n [v] w
        else (.error .invalid, w)
    | .ref r => match w.cells[r]? with
        | none => (.error .invalid, w)
        | some c =>
            if !co && c.kind != k then (.error .invalid, w)
            else rebuild (validItem it i n) k ob build i n c.items w
/-- `self.prop.validate(instance, val)` of one item. -/
def validItem : ISpec → Nat → Nat → Item → HM Item
  | .plain check, _, _, x => fun w => (check x, w)
  | .nested sp, i, n, x => andThen (validate sp i n x) fun r w => (.ok (.ref r), w)
end

/-- The operations of a listener, one after the other. -/
def execAll (rec : Op → HM Item) : List Op → HM Unit
  | [] => fun w => (.ok (), w)
  | o :: os => andThen (rec o) fun _ => execAll rec os

/-- `self._notify(change)` (base.py:349-355). -/
def notify (E : Env) (rec : Op → HM Item) (m : Mode) (i n : Nat) (prev value : Option Nat) : HM Unit := fun w =>
  let w := { w with log := w.log ++ [⟨m, i, n, prev, value⟩] }
  execAll rec (E.listener m i n w) w

/-- `self._set(name, value)` (base.py:357-375), without listeners that replace
`change['value']`. -/
def setSlot (E : Env) (rec : Op → HM Item) (i n : Nat) (value : Option Nat) : HM Unit := fun w =>
  let prev := w.slots i n
  andThen (notify E rec .validate i n prev value) (fun _ w =>
    let w := { w with slots := fun a b => if a = i ∧ b = n then value else w.slots a b }
    let differ := match prev, value with
      | none, none => false
      | some p, some v => !E.equal i n (itemsOf w p) (itemsOf w v)
      | _, _ => true
    andThen (if differ then notify E rec .change i n prev value else fun w => (.ok (), w))
      (fun _ => notify E rec .set i n prev value) w) w

/-- `setattr(instance, name, value)`. -/
def assign (E : Env) (rec : Op → HM Item) (i n : Nat) (v : Item) : HM Unit :=
  andThen (validate (E.spec i n) i n v) fun r => setSlot E rec i n (some r)

/-- `getattr(super(cls, self), name)(*args, **kwargs)` (containers.py:81): the
method of the builtin class. -/
def plainMut (r : Nat) (f : Mut) : HM Item := fun w =>
  match f (itemsOf w r) with
  | (res, xs) => (res, setItems r xs w)

/-- The test of `properties_mutator` (containers.py:76-80): the container is
the value of a property. -/
def attachedTo (w : W) (r : Nat) : Option (Nat × Nat) :=
  match w.cells[r]? with
  | some c => match c.bound with
      | some (i, n) => if w.slots i n = some r then some (i, n) else none
      | none => none
  | none => none

/-- The wrapper of `properties_mutator` (containers.py:66-93). -/
def mutate (E : Env) (rec : Op → HM Item) (r : Nat) (f : Mut) : HM Item := fun w =>
  match attachedTo w r with
  | none => plainMut r f w
  | some (i, n) =>
      andThen (alloc { kind := ((w.cells[r]?).map (·.kind)).getD 0, items := itemsOf w r }) (fun copy =>
        andThen (plainMut copy f) fun val =>
          andThen (assign E rec i n (.ref copy)) fun _ w => (.ok val, unbind r w)) w

/-- The wrapper with `ioper=True`: the assignment is left to the statement;
the result is the copy. -/
def imutate (r : Nat) (f : Mut) : HM Nat := fun w =>
  match attachedTo w r with
  | none => andThen (plainMut r f) (fun _ w => (.ok r, w)) w
  | some _ =>
      andThen (alloc { kind := ((w.cells[r]?).map (·.kind)).getD 0, items := itemsOf w r }) (fun copy =>
        andThen (plainMut copy f) fun _ w => (.ok copy, unbind r w)) w

/-- One operation. -/
def step (E : Env) (rec : Op → HM Item) : Op → HM Item
  | .fail e => fun w => (.error e, w)
  | .new k xs => andThen (alloc { kind := k, items := xs }) fun r w => (.ok (.ref r), w)
  | .assign i n v => andThen (assign E rec i n v) fun _ w => (.ok (.val .none), w)
  | .delete i n => andThen (setSlot E rec i n none) fun _ w => (.ok (.val .none), w)
  | .mutate r f => mutate E rec r f
  | .imutate r f => andThen (imutate r f) fun c w => (.ok (.ref c), w)
  | .iassign i n f => fun w => match w.slots i n with
      | none => (.error (.other 0), w)
      | some r => andThen (imutate r f) (fun c =>
          andThen (assign E rec i n (.ref c)) fun _ w => (.ok (.val .none), w)) w

/-- Execution with a stack of depth `k`. -/
def exec (E : Env) : Nat → Op → HM Item
  | 0 => fun _ w => (.error .recursion, w)
  | k + 1 => step E (exec E k)

/-- A history: errors are caught by the program, which goes on. -/
def history (E : Env) (k : Nat) : List Op → W → W
  | [], w => w
  | o :: os, w => history E k os (exec E k o w).2

/-- No instance has a value yet. -/
def start : W := ⟨[], fun _ _ => none, []⟩

end Verif.Obs
