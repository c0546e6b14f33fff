import Verif.Core.Types

/-!
# Specification: what ValidationErrors and error hooks are told

Written from the documentation of `ValidationError`: error tuples consist of a
reason, the name of a property and an instance.
-/

namespace Verif.Spec.Tell

/-- The error tuples of the library: a required property without value, an
invalid value, a validation that failed otherwise (a class validator returned
False). -/
def Form (t : ErrTuple) : Prop :=
  (t.reason = some (s% "missing") ∧ t.prop.isSome ∧ t.inst.isSome) ∨
  (t.reason = some (s% "invalid") ∧ t.prop.isSome) ∨
  (t.reason = none ∧ t.prop = none)

/-- At least one error tuple, all of them with `T`. -/
def Says (T : ErrTuple → Prop) (ts : List ErrTuple) : Prop := ts ≠ [] ∧ ∀ t ∈ ts, T t

/-- If it is a ValidationError it has error tuples. -/
def Tells (T : ErrTuple → Prop) (e : PyErr) : Prop := e.kind = .validation → Says T e.tuples

/-- User code that raises such errors only, if the calls it makes do. -/
def Honest (T : ErrTuple → Prop) : Prog → Prop
  | .ret _ => True
  | .raise e => Tells T e
  | .call _ k => ∀ x, (∀ e, x = .error e → Tells T e) → Honest T (k x)
  | .disabled _ body k => Honest T body ∧ ∀ x, (∀ e, x = .error e → Tells T e) → Honest T (k x)

/-- States in which error tuples collected so far are of kind `T`, and error
hooks were called with error tuples of kind `T`, at least one each time. -/
def Kept (T : ErrTuple → Prop) (w : World) : Prop :=
  (∀ o ∈ w.objs, ∀ es, o.errs = some es → ∀ t ∈ es, T t) ∧ ∀ h ∈ w.hooks, Says T h.2

end Verif.Spec.Tell
