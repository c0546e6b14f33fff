import Verif.Spec.Assign
import Verif.Spec.Initial

/-!
# Specification: one assignment, seen from the instance

As in `Spec/Assign`, for listeners that may do anything to other instances: only the instance
that is assigned to is described.
-/

namespace Verif.Spec

/-- Instance `r` is as `o`, except that property `name` holds `s`. -/
def SelfWith (o : Obj) (r : Nat) (name : PyStr) (s : Val) (u : World) : Prop :=
  ∃ o', u.objs[r]? = some o' ∧ o'.cls = o.cls ∧ o'.listeners = o.listeners ∧
    (lookupS name o'.backend).getD .undef = s ∧
    ∀ nm, nm ≠ name → lookupS nm o'.backend = lookupS nm o.backend

/-- The calls of observers of `r`, in order. -/
def observersOf (r : Nat) (t : List Event) : List Event :=
  t.filter (fun e => e.inst == r && e.mode != .validate)

/-- Callback `l`, called with value `a` while `r` is as `o` with `name` holding `s`, returns and
leaves value `b`. -/
def SelfReturned (E : Env) (n : Nat) (o : Obj) (r : Nat) (name : PyStr) (s : Val) (mode : Mode)
    (prev : Val) (l : Listener) (a b : Val) : Prop :=
  ∃ x x', SelfWith o r name s x ∧
    runProg E n (E.fn l.fn [.obj r, .str name, prev, a, .str (modeText mode)]) x = (.ok b, x')

/-- The same, raising `e`. -/
def SelfRaised (E : Env) (n : Nat) (o : Obj) (r : Nat) (name : PyStr) (s : Val) (mode : Mode)
    (prev : Val) (l : Listener) (a : Val) (e : PyErr) : Prop :=
  ∃ x x', SelfWith o r name s x ∧
    runProg E n (E.fn l.fn [.obj r, .str name, prev, a, .str (modeText mode)]) x = (.error e, x')

/-- Replacing `prev` by `v` is a change. -/
def SelfChanges (E : Env) (n : Nat) (o : Obj) (r : Nat) (name : PyStr) (p : PropSpec) (prev v : Val) : Prop :=
  (prev = .undef ∧ v ≠ .undef) ∨ (prev ≠ .undef ∧ v = .undef) ∨
  (prev ≠ .undef ∧ v ≠ .undef ∧ ∃ x x' b, SelfWith o r name v x ∧
    run E n (.propEqual p prev v) x = (.ok b, x') ∧ b.truthy = false)

/-- Replacing `prev` by `v` is no change. -/
def SelfKeeps (E : Env) (n : Nat) (o : Obj) (r : Nat) (name : PyStr) (p : PropSpec) (prev v : Val) : Prop :=
  (prev = .undef ∧ v = .undef) ∨
  (prev ≠ .undef ∧ v ≠ .undef ∧ ∃ x x' b, SelfWith o r name v x ∧
    run E n (.propEqual p prev v) x = (.ok b, x') ∧ b.truthy = true)

/-- The listener protocol of one assignment of the (coerced) value `v0`: `ev1`, `ev2`, `ev3` are
the calls of validators, change observers and set observers, `v1` is the value stored. -/
structure SelfProtocol (E : Env) (n : Nat) (w : World) (r : Nat) (o : Obj) (name : PyStr)
    (p : PropSpec) (v0 v1 : Val) (ev1 ev2 ev3 : List Event) : Prop where
  validators : Notified r .validate name (storedOr w r name)
    (SelfReturned E n o r name (storedOr w r name) .validate (storedOr w r name))
    (enabled w o .validate name) v0 ev1 v1
  observers : ∃ v2 v3,
    ((SelfChanges E n o r name p (storedOr w r name) v1 ∧
        Notified r .change name (storedOr w r name)
          (SelfReturned E n o r name v1 .change (storedOr w r name))
          (enabled w o .change name) v1 ev2 v2) ∨
      (SelfKeeps E n o r name p (storedOr w r name) v1 ∧ ev2 = [] ∧ v2 = v1)) ∧
    Notified r .set name (storedOr w r name)
      (SelfReturned E n o r name v1 .set (storedOr w r name)) (enabled w o .set name) v2 ev3 v3

end Verif.Spec
