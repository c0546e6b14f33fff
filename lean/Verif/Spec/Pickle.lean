import Verif.Spec.Equal
import Verif.Spec.Locality

/-!
# Specification: unpickled instances
-/

namespace Verif.Spec

/-- The two values differ in the instances only: where the first has `r` the second has
`f r`. -/
inductive SameBut (f : Nat → Nat) : Val → Val → Prop
  | same (v : Val) : (∀ r, ¬ RefIn r v) → SameBut f v v
  | obj (r : Nat) : SameBut f (.obj r) (.obj (f r))
  | list (xs ys : List Val) : List.Forall₂ (SameBut f) xs ys → SameBut f (.list xs) (.list ys)
  | tup (xs ys : List Val) : List.Forall₂ (SameBut f) xs ys → SameBut f (.tup xs) (.tup ys)
  | set (xs ys : List Val) : List.Forall₂ (SameBut f) xs ys → SameBut f (.set xs) (.set ys)
  | dict (xs ys : List (Val × Val)) : List.Forall₂ (fun a b => SameBut f a.1 b.1) xs ys →
      List.Forall₂ (fun a b => SameBut f a.2 b.2) xs ys → SameBut f (.dict xs) (.dict ys)

/-- `b` is of the class of `a`, has the same listeners and values that differ in the
instances only. -/
structure Twin (f : Nat → Nat) (a b : Obj) : Prop where
  cls : b.cls = a.cls
  values : List.Forall₂ (fun x y => x.1 = y.1 ∧ SameBut f x.2 y.2) a.backend b.backend
  listeners : b.listeners = a.listeners
  marks : b.gv = a.gv ∧ b.gs = a.gs ∧ b.te = a.te

mutual
/-- The value equals itself as a value of the property, and has instances only where the
property, or an alternative of it, is an Instance. -/
def ReEqual (E : Env) : PropSpec → Val → Prop
  | .mk _ _ _ _ ty, v => ReEqualTy E ty v
def ReEqualTy (E : Env) : PropTy → Val → Prop
  | .seq .set item _ _ _, v => ∃ xs, v = .set xs ∧ ∀ x ∈ xs, ReEqual E item x
  | .seq .tup item _ _ _, v => ∃ xs, v = .tup xs ∧ ∀ x ∈ xs, ReEqual E item x
  | .seq .list item _ _ _, v => ∃ xs, v = .list xs ∧ ∀ x ∈ xs, ReEqual E item x
  | .dict _ vp _, v => ∃ kvs, v = .dict kvs ∧ (∀ kv ∈ kvs, (∀ r, ¬ RefIn r kv.1) ∧ pyEq kv.1 kv.1 = true) ∧
      ∀ kv ∈ kvs, ReEqual E vp kv.2
  | .inst _, v => ∃ r, v = .obj r
  | .union ps _, v => ReEqualAny E ps v
  | ty, v => (∀ r, ¬ RefIn r v) ∧ scalarEqual E ty v v = some (.ok true)
def ReEqualAny (E : Env) : List PropSpec → Val → Prop
  | [], _ => False
  | p :: ps, v => ReEqual E p v ∨ ReEqualAny E ps v
end

/-- All values of all instances equal themselves; a renamed property stands for no value
with instances. -/
def ReEqualWorld (E : Env) (w : World) : Prop :=
  ∀ (r : Nat) (o : Obj), w.objs[r]? = some o → ∀ nm e, (nm, e) ∈ (E.classes o.cls).props →
    readAs o nm e ≠ .none →
    match e with
    | .mutable p => ReEqual E p (readAs o nm e)
    | .gettable p => ReEqual E p (readAs o nm e)
    | .dynamic .. => False
    | .renamed _ => (∀ r, ¬ RefIn r (readAs o nm e)) ∧ pyEq (readAs o nm e) (readAs o nm e) = true

end Verif.Spec
