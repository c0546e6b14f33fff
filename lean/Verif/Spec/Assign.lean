import Verif.Spec.Frame
import Verif.Core.Interp

/-!
# Specification: one assignment

The listeners of a mode are called in registration order, once each; each
receives the value as amended by those before it.
-/

namespace Verif.Spec

/-- What is stored for property `name` of instance `r`. -/
def storedAt (w : World) (r : Nat) (name : PyStr) : Option Val :=
  (w.objs[r]?).bind (fun o => lookupS name o.backend)

/-- The stored value, `undefined` if there is none. -/
def storedOr (w : World) (r : Nat) (name : PyStr) : Val := (storedAt w r name).getD .undef

/-- `u` has the same instances, listeners and stored values as `w`, except that
property `name` of instance `r` holds `s`. -/
def AsWith (w : World) (r : Nat) (name : PyStr) (s : Val) (u : World) : Prop :=
  storedOr u r name = s ∧
  (∀ (i : Nat) (nm : PyStr), i < w.objs.length → (i ≠ r ∨ nm ≠ name) →
    storedAt u i nm = storedAt w i nm) ∧
  (∀ (i : Nat) (o : Obj), w.objs[i]? = some o →
    ∃ o', u.objs[i]? = some o' ∧ o'.cls = o.cls ∧ o'.listeners = o.listeners)

/-- Property `name` of `r` holds `v`; nothing is stored for `undefined`. -/
def Holds (w : World) (r : Nat) (name : PyStr) (v : Val) : Prop :=
  (v = .undef ∧ storedAt w r name = none) ∨ (v ≠ .undef ∧ storedAt w r name = some v)

/-- What reading a property gives when it holds `v`. -/
def asRead : Val → Val
  | .undef => .none
  | v => v

/-- The enabled listeners of an instance for a name and mode, in registration
order. -/
def enabled (w : World) (o : Obj) (mode : Mode) (name : PyStr) : List Listener :=
  if w.quar.has mode then []
  else o.listeners.filter (fun l => l.name == name && l.mode == mode)

/-- The listeners `ls` are called in order, starting with value `v`; `evs` are
the calls, the last listener leaves value `v'`. -/
inductive Notified (r : Nat) (mode : Mode) (name : PyStr) (prev : Val)
    (returns : Listener → Val → Val → Prop) : List Listener → Val → List Event → Val → Prop
  | nil (v : Val) : Notified r mode name prev returns [] v [] v
  | cons {l : Listener} {ls : List Listener} {v v' v'' : Val} {evs : List Event} :
      returns l v v' → Notified r mode name prev returns ls v' evs v'' →
      Notified r mode name prev returns (l :: ls) v
        ({ inst := r, mode := mode, name := name, prev := prev, value := v, fn := l.fn } :: evs) v''

/-- One of the listeners raises `e`, those before it return; `evs` are the
calls made. -/
inductive NotifyRaised (r : Nat) (mode : Mode) (name : PyStr) (prev : Val)
    (returns : Listener → Val → Val → Prop) (raises : Listener → Val → PyErr → Prop) :
    List Listener → Val → List Event → PyErr → Prop
  | here {l : Listener} {ls : List Listener} {v : Val} {e : PyErr} : raises l v e →
      NotifyRaised r mode name prev returns raises (l :: ls) v
        [{ inst := r, mode := mode, name := name, prev := prev, value := v, fn := l.fn }] e
  | later {l : Listener} {ls : List Listener} {v v' : Val} {evs : List Event} {e : PyErr} :
      returns l v v' → NotifyRaised r mode name prev returns raises ls v' evs e →
      NotifyRaised r mode name prev returns raises (l :: ls) v
        ({ inst := r, mode := mode, name := name, prev := prev, value := v, fn := l.fn } :: evs) e

/-- What a callback is told it is called for. -/
def modeText : Mode → PyStr
  | .validate => s% "validate"
  | .set => s% "observe_set"
  | .change => s% "observe_change"

/-- Callback `l`, called with value `a` while property `name` of `r` holds `s`
and everything else is as in `w`, returns and leaves value `b`. -/
def Returned (E : Env) (n : Nat) (w : World) (r : Nat) (name : PyStr) (s : Val) (mode : Mode)
    (prev : Val) (l : Listener) (a b : Val) : Prop :=
  ∃ x x', AsWith w r name s x ∧
    runProg E n (E.fn l.fn [.obj r, .str name, prev, a, .str (modeText mode)]) x = (.ok b, x')

/-- The same, raising `e`. -/
def Raised (E : Env) (n : Nat) (w : World) (r : Nat) (name : PyStr) (s : Val) (mode : Mode)
    (prev : Val) (l : Listener) (a : Val) (e : PyErr) : Prop :=
  ∃ x x', AsWith w r name s x ∧
    runProg E n (E.fn l.fn [.obj r, .str name, prev, a, .str (modeText mode)]) x = (.error e, x')

/-- Replacing `prev` by `v` is a change: exactly one of them is undefined, or
the property type says they are not equal. -/
def Changes (E : Env) (n : Nat) (w : World) (r : Nat) (name : PyStr) (p : PropSpec)
    (prev v : Val) : Prop :=
  (prev = .undef ∧ v ≠ .undef) ∨ (prev ≠ .undef ∧ v = .undef) ∨
  (prev ≠ .undef ∧ v ≠ .undef ∧ ∃ x x' b, AsWith w r name v x ∧
    run E n (.propEqual p prev v) x = (.ok b, x') ∧ b.truthy = false)

/-- Replacing `prev` by `v` is no change. -/
def Keeps (E : Env) (n : Nat) (w : World) (r : Nat) (name : PyStr) (p : PropSpec)
    (prev v : Val) : Prop :=
  (prev = .undef ∧ v = .undef) ∨
  (prev ≠ .undef ∧ v ≠ .undef ∧ ∃ x x' b, AsWith w r name v x ∧
    run E n (.propEqual p prev v) x = (.ok b, x') ∧ b.truthy = true)

/-- The listener protocol of one assignment of the (coerced) value `v0` to
property `name` of instance `r` (object `o`) in state `w`: `ev1`, `ev2`, `ev3`
are the calls of validators, change observers and set observers, `v1` is the
value stored. -/
structure Protocol (E : Env) (n : Nat) (w : World) (r : Nat) (o : Obj) (name : PyStr)
    (p : PropSpec) (v0 v1 : Val) (ev1 ev2 ev3 : List Event) : Prop where
  /-- the validators run while the old value is still stored; what they leave
  is the value to store -/
  validators : Notified r .validate name (storedOr w r name)
    (Returned E n w r name (storedOr w r name) .validate (storedOr w r name))
    (enabled w o .validate name) v0 ev1 v1
  /-- then, with the new value stored, the change observers if it is a change,
  and the set observers -/
  observers : ∃ v2 v3,
    ((Changes E n w r name p (storedOr w r name) v1 ∧
        Notified r .change name (storedOr w r name)
          (Returned E n w r name v1 .change (storedOr w r name))
          (enabled w o .change name) v1 ev2 v2) ∨
      (Keeps E n w r name p (storedOr w r name) v1 ∧ ev2 = [] ∧ v2 = v1)) ∧
    Notified r .set name (storedOr w r name)
      (Returned E n w r name v1 .set (storedOr w r name)) (enabled w o .set name) v2 ev3 v3

end Verif.Spec
