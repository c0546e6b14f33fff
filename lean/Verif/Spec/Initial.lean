import Verif.Core.Interp

/-!
# Specification: what a new instance holds
-/

namespace Verif.Spec

/-- User code that does not set, delete or reset properties of instance `r` and
registers no listeners on it. -/
def Spares (r : Nat) : Prog → Prop
  | .ret _ => True
  | .raise _ => True
  | .call (.reset x _) k => x ≠ r ∧ ∀ y, Spares r (k y)
  | .call (.setattr x _ _) k => x ≠ r ∧ ∀ y, Spares r (k y)
  | .call (.delattr x _) k => x ≠ r ∧ ∀ y, Spares r (k y)
  | .call (.observe x _ _ _) k => x ≠ r ∧ ∀ y, Spares r (k y)
  | .call _ k => ∀ y, Spares r (k y)
  | .disabled _ body k => Spares r body ∧ ∀ y, Spares r (k y)

/-- The default declared for property `k`: the entry of the class dictionary
`_defaults`, or else the one of the property. -/
inductive Declared (C : ClassDef) (k : PyStr) : Entry → Dflt → Prop
  | ofClass (e : Entry) (d : Dflt) : lookupS k C.defaults = some d → Declared C k e d
  | ofProperty (p : PropSpec) : lookupS k C.defaults = none → Declared C k (.mutable p) p.default
  | ofImmutable (p : PropSpec) : lookupS k C.defaults = none → Declared C k (.gettable p) p.default
  | ofDynamic (p : PropSpec) (g : FnId) (s d : Option FnId) : lookupS k C.defaults = none →
      Declared C k (.dynamic p g s d) .undef
  | ofRenamed (new : PyStr) : lookupS k C.defaults = none → Declared C k (.renamed new) .undef

/-- The value of a default: a callable is called. -/
inductive Evaluates (E : Env) (n : Nat) : Dflt → World → Val → World → Prop
  | undef (w : World) : Evaluates E n .undef w .undef w
  | val (v : Val) (w : World) : Evaluates E n (.val v) w v w
  | fn (f : FnId) (w : World) (v : Val) (w' : World) :
      runProg E n (E.fn f []) w = (.ok v, w') → Evaluates E n (.fn f) w v w'
  | cls (c : ClsId) (w : World) (v : Val) (w' : World) :
      run E n (.construct c []) w = (.ok v, w') → Evaluates E n (.cls c) w v w'
  | uuid4 (w : World) :
      Evaluates E n .uuid4 w (.uuid (E.uuid4 w.tick)) { w with tick := w.tick + 1 }

/-- What a new instance `r` holds for the mutable property `p` called `k`: the
declared default, evaluated when `r` exists already, and coerced; nothing if that
is `undefined`. -/
def HoldsDefault (E : Env) (C : ClassDef) (r : Nat) (k : PyStr) (p : PropSpec) (stored : Option Val) :
    Prop :=
  ∃ n m d w1 v w2, r < w1.objs.length ∧ Declared C k (.mutable p) d ∧ Evaluates E n d w1 v w2 ∧
    ((v = .undef ∧ stored = none) ∨
     (v ≠ .undef ∧ ∃ v' w3, run E m (.validate k p (some r) v) w2 = (.ok v', w3) ∧
        stored = (if v'.isUndef then none else some v')))

/-- The same for an immutable property. -/
def HoldsFixed (E : Env) (C : ClassDef) (r : Nat) (k : PyStr) (p : PropSpec) (stored : Option Val) :
    Prop :=
  ∃ d, Declared C k (.gettable p) d ∧
    (((d = .undef ∨ d = .val .undef) ∧ stored = none) ∨
     ((d ≠ .undef ∧ d ≠ .val .undef) ∧ ∃ n m w1 v w2 v' w3, r < w1.objs.length ∧
        Evaluates E n d w1 v w2 ∧
        run E m (.validate k p (some r) v) w2 = (.ok v', w3) ∧ stored = some v'))

end Verif.Spec
