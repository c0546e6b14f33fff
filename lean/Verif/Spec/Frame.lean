import Verif.Core.Types

/-!
# Specification: what callbacks may do, and unchanged data
-/

namespace Verif.Spec

/-- Calls that modify an instance: set, delete, reset, register a listener. -/
def Modifies : Call → Bool
  | .reset .. => true
  | .setattr .. => true
  | .delattr .. => true
  | .observe .. => true
  | _ => false

/-- User code that makes no modifying call; it may read, compare, serialize,
validate, construct, deserialize, copy and keep its own state. -/
def ReadOnly : Prog → Prop
  | .ret _ => True
  | .raise _ => True
  | .call c k => Modifies c = false ∧ ∀ x, ReadOnly (k x)
  | .disabled _ body k => ReadOnly body ∧ ∀ x, ReadOnly (k x)

/-- Calls that run validations of existing instances or deserialize. -/
def Validates : Call → Bool
  | .assertValid .. => true
  | .hpValidate _ => true
  | .validateProps _ => true
  | .deserializeP .. => true
  | .hpDeserialize .. => true
  | .copy .. => true
  | _ => false

/-- Read-only user code that does not call `validate()`, deserialize or copy;
these call validator listeners of existing instances. -/
def Quiet : Prog → Prop
  | .ret _ => True
  | .raise _ => True
  | .call c k => Modifies c = false ∧ Validates c = false ∧ ∀ x, Quiet (k x)
  | .disabled _ body k => Quiet body ∧ ∀ x, Quiet (k x)

/-- Class, stored values and listeners agree. -/
def SameData (o o' : Obj) : Prop :=
  o'.cls = o.cls ∧ o'.backend = o.backend ∧ o'.listeners = o.listeners

/-- Every instance of `w` is still there in `w'` with the same data. -/
def DataUnchanged (w w' : World) : Prop :=
  ∀ (r : Nat) (o : Obj), w.objs[r]? = some o → ∃ o', w'.objs[r]? = some o' ∧ SameData o o'

/-- The listener calls on instances that exist in `w`, oldest first. -/
def eventsOn (w : World) (trace : List Event) : List Event :=
  trace.filter (fun e => decide (e.inst < w.objs.length))

/-- Those of them that are observer calls (not validators). -/
def observerCallsOn (w : World) (trace : List Event) : List Event :=
  trace.filter (fun e => decide (e.inst < w.objs.length) && (e.mode != .validate))

end Verif.Spec
