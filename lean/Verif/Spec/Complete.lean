import Verif.Spec.Valid
import Verif.Spec.Survives
import Verif.Spec.Idempotent
import Verif.Spec.Guards

/-!
# Specification: complete instances

What `validate()` adds to the checks every assignment makes: required
properties, lengths of containers, and numbers that are not finite.
-/

namespace Verif.Spec

/-- Neither NaN nor infinite. -/
def IsFinite : PyFloat → Prop
  | .fin _ => True
  | _ => False

/-- A Float or Complex property that holds a finite number; a property of
another type. -/
def FiniteAs : PropTy → Val → Prop
  | .float .., .float f => IsFinite f
  | .complex _, .cplx a b => IsFinite a ∧ IsFinite b
  | _, _ => True

/-- The properties of the instance are in order, looking into containers but not
into other instances. -/
structure InOrder (E : Env) (w : World) (r : Nat) : Prop where
  required : ∀ o nm rq s d df ty, w.objs[r]? = some o →
    (nm, Entry.mutable (.mk rq s d df ty)) ∈ (E.classes o.cls).props → rq = true → held w r nm ≠ .none
  lengths : ∀ nm p v k item lo hi c xs, Inside E w r nm p v → p.ty = .seq k item lo hi c →
    v.iter? = some xs → WithinLength lo hi xs.length
  finite : ∀ nm p v, Part E w r nm p v → FiniteAs p.ty v

/-- `s` is `r`, or is found from `r` by following Instance properties, also
through containers. -/
inductive Leads (E : Env) (w : World) : Nat → Nat → Prop
  | refl (r : Nat) : Leads E w r r
  | step (r s t : Nat) (nm : PyStr) (p : PropSpec) (c : ClsId) : Inside E w r nm p (.obj s) →
      p.ty = .inst c → Leads E w s t → Leads E w r t

/-- Everything found from `r` is in order. -/
def Complete (E : Env) (w : World) (r : Nat) : Prop := ∀ s, Leads E w r s → InOrder E w s

/-- Classes that only declare properties (no dynamic ones, no Unions), nested at
most `D` deep, and Renamed ones that refer to them: no class validators but the
default one and no error hooks. -/
structure HasDecl (E : Env) (D : Nat) : Prop where
  names : DistinctNames E
  hook : ∀ c, (E.classes c).hook = none
  validators : ∀ c, (E.classes c).validators = [none]
  entries : ∀ c nm e, (nm, e) ∈ (E.classes c).props →
    (∃ p, OwnSpec e p ∧ Repeatable E false p ∧ depth p ≤ D) ∨
    (∃ new e' p, e = .renamed new ∧ lookupS new (E.classes c).props = some e' ∧ OwnSpec e' p)
  transparent : ∀ f args, Transparent (E.fn f args)
  zero : E.rnd 0 = .fin 0

mutual
/-- No number in the value that is not finite. -/
def AllFinite : PropSpec → Val → Prop
  | .mk _ _ _ _ ty, v => AllFiniteTy ty v
def AllFiniteTy : PropTy → Val → Prop
  | .seq _ item _ _ _, v => ∀ xs, v.iter? = some xs → ∀ x ∈ xs, AllFinite item x
  | .dict kp vp _, v => ∀ kvs, v = .dict kvs → ∀ kv ∈ kvs, AllFinite kp kv.1 ∧ AllFinite vp kv.2
  | ty, v => FiniteAs ty v
end

/-- The values of the state are values Python can have: items of sets and keys
of dictionaries are distinct, hashable and equal to themselves.  Containers
contain no None, sets and keys no numbers that are not finite, and values without
a type equal themselves.  Nothing is stored under the old name of a Renamed property. -/
structure Regular (E : Env) (w : World) : Prop where
  untyped : ∀ r nm p v, Part E w r nm p v → p.ty = .any → v ≠ .none → pyEq v v = true
  items : ∀ r nm p v k item lo hi c xs, Part E w r nm p v → p.ty = .seq k item lo hi c →
    v.iter? = some xs → Val.none ∉ xs ∧ (k = .set → DistinctItems xs ∧ ∀ x ∈ xs, AllFinite item x)
  keys : ∀ r nm p kvs kp vp c, Part E w r nm p (.dict kvs) → p.ty = .dict kp vp c →
    DistinctItems (kvs.map (·.1)) ∧
    ∀ kv ∈ kvs, kv.1 ≠ .none ∧ kv.2 ≠ .none ∧ pyEq kv.1 kv.1 = true ∧ AllFinite kp kv.1
  old : ∀ r o nm new, w.objs[r]? = some o → (nm, Entry.renamed new) ∈ (E.classes o.cls).props →
    held w r nm = .none

/-- The same without what holds of every set and every dictionary. -/
structure OrdinaryValues (E : Env) (w : World) : Prop where
  untyped : ∀ r nm p v, Part E w r nm p v → p.ty = .any → v ≠ .none → pyEq v v = true
  items : ∀ r nm p v k item lo hi c xs, Part E w r nm p v → p.ty = .seq k item lo hi c →
    v.iter? = some xs → Val.none ∉ xs ∧ (k = .set → ∀ x ∈ xs, AllFinite item x)
  keys : ∀ r nm p kvs kp vp c, Part E w r nm p (.dict kvs) → p.ty = .dict kp vp c →
    ∀ kv ∈ kvs, kv.1 ≠ .none ∧ kv.2 ≠ .none ∧ pyEq kv.1 kv.1 = true ∧ AllFinite kp kv.1
  old : ∀ r o nm new, w.objs[r]? = some o → (nm, Entry.renamed new) ∈ (E.classes o.cls).props →
    held w r nm = .none

/-- No validators are registered (or they are disabled). -/
def NoValidators (w : World) : Prop := ∀ r nm, validatorsOf w r nm = []

end Verif.Spec
