import Verif.Spec.Assign
import Verif.Spec.LinkProg

/-!
# Properties as variables
-/

namespace Verif.Spec
open LinkProg.Spec

/-- An operation on property `name` of instance `inst`: an assignment, or a
deletion if there is no value. -/
structure VarOp where
  inst : Nat
  name : PyStr
  value : Option Val

/-- The state after a sequence of operations, each of which may raise. -/
def afterOps (E : Env) (n : Nat) : List VarOp → World → World
  | [], w => w
  | o :: os, w => afterOps E n os (match o.value with
      | some v => (run E n (.setattr o.inst o.name v) w).2
      | none => (run E n (.delattr o.inst o.name) w).2)

/-- What `prop.validate(None, v)` gives when nothing else is there, if it
returns. -/
def accepted (E : Env) (p : PropSpec) (v : Val) : Option Val :=
  match (run E (depth p) (.validate [] p none v) {}).1 with
  | .ok x => some x
  | .error _ => none

/-- A variable that holds the last value that was accepted since the last
deletion. -/
def lastOf (E : Env) (p : PropSpec) : Option Val → List (Option Val) → Option Val
  | cur, [] => cur
  | _, none :: os => lastOf E p none os
  | cur, some v :: os => lastOf E p (match accepted E p v with | some x => some x | none => cur) os

/-- The operations of a history on one property. -/
def opsOn (r : Nat) (name : PyStr) (os : List VarOp) : List (Option Val) :=
  (os.filter fun o => o.inst == r && o.name == name).map VarOp.value

/-- `name` is a property of instance `r` without listeners, of a type without
instances and colours; errors call no user code. -/
def Variable (E : Env) (n : Nat) (w : World) (r : Nat) (name : PyStr) (p : PropSpec) : Prop :=
  ∃ o, w.objs[r]? = some o ∧ lookupS name (E.classes o.cls).props = some (.mutable p) ∧
    (∀ l ∈ o.listeners, l.name ≠ name) ∧ (E.classes o.cls).hook = none ∧ ¬ Stirs p ∧ depth p < n

end Verif.Spec
