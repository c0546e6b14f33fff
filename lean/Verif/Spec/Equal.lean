import Verif.Spec.Serialize
import Verif.Spec.Recursion
import Mathlib.Data.List.Forall2

/-!
# Specification: equality of values and instances

`Same` is what `properties.equal` is meant to decide.  It knows neither the
marks by which `equal` notices cycles nor the order in which items are compared.
-/

namespace Verif.Spec

/-- The items of the two lists can be paired one to one so that paired items are
related. -/
def Pairing {α β : Type} (R : α → β → Prop) (xs : List α) (ys : List β) : Prop :=
  ∃ zs, List.Forall₂ R xs zs ∧ zs.Perm ys

mutual
/-- `a` and `b` are equal as values of the property, if `O` is equality of
instances. -/
def SameP (E : Env) (O : Nat → Nat → Prop) : PropSpec → Val → Val → Prop
  | .mk _ _ _ _ ty, a, b => SameTy E O ty a b
/-- Sets: the items can be paired.  Lists and tuples: item by item.
Dictionaries: the entries can be paired, by key and value.  Unions: equal for
some alternative. -/
def SameTy (E : Env) (O : Nat → Nat → Prop) : PropTy → Val → Val → Prop
  | .seq .set item _ _ _, a, b => ∃ xs ys, a = .set xs ∧ b = .set ys ∧
      Pairing (fun x y => SameP E O item x y) xs ys
  | .seq .tup item _ _ _, a, b => ∃ xs ys, a.iter? = some xs ∧ b.iter? = some ys ∧
      List.Forall₂ (fun x y => SameP E O item x y) xs ys
  | .seq .list item _ _ _, a, b => ∃ xs ys, a.iter? = some xs ∧ b.iter? = some ys ∧
      List.Forall₂ (fun x y => SameP E O item x y) xs ys
  | .dict _ vp _, a, b => ∃ xs ys, a = .dict xs ∧ b = .dict ys ∧
      Pairing (fun x y => pyEq x.1 y.1 = true ∧ SameP E O vp x.2 y.2) xs ys
  | .inst _, .obj i, .obj j => O i j
  | .inst _, a, b => pyEq a b = true
  | .union ps _, a, b => SameAny E O ps a b
  | ty, a, b => scalarEqual E ty a b = some (.ok true)
def SameAny (E : Env) (O : Nat → Nat → Prop) : List PropSpec → Val → Val → Prop
  | [], _, _ => False
  | p :: ps, a, b => SameP E O p a b ∨ SameAny E O ps a b
end

/-- The value of the instance read under the name of the entry; a renamed
property gives the value stored under the new name. -/
def readAs (o : Obj) (nm : PyStr) : Entry → Val
  | .renamed new => (lookupS new o.backend).getD .none
  | _ => (lookupS nm o.backend).getD .none

/-- Both values are missing, or neither is and they are equal. -/
def SameEntry (E : Env) (O : Nat → Nat → Prop) (e : Entry) (x y : Val) : Prop :=
  (x = .none ∧ y = .none) ∨ (x ≠ .none ∧ y ≠ .none ∧
    match e with
    | .mutable p => SameP E O p x y
    | .gettable p => SameP E O p x y
    | .dynamic p _ _ _ => SameP E O p x y
    | .renamed _ => pyEq x y = true)

/-- Equality of instances, nested `k` deep: the same instance, or of the same
class with equal values for all properties. -/
def SameAt (E : Env) (w : World) : Nat → Nat → Nat → Prop
  | 0, i, j => i = j
  | k + 1, i, j => i = j ∨ ∃ a b, w.objs[i]? = some a ∧ w.objs[j]? = some b ∧ a.cls = b.cls ∧
      ∀ nm e, (nm, e) ∈ (E.classes a.cls).props →
        SameEntry E (SameAt E w k) e (readAs a nm e) (readAs b nm e)

/-- Equality of instances. -/
def Same (E : Env) (w : World) (i j : Nat) : Prop := ∃ k, SameAt E w k i j

/-- Subtracting the number from a float cannot raise OverflowError. -/
def Narrow (E : Env) (x : Option RealNum) : Prop := ∀ r, x = some r → ∃ f, r.toFloat E = .ok f

mutual
/-- Values the property can compare: of any type for scalars (but hashable, and
without OverflowError), sets for Sets, dictionaries with distinct keys for
Dictionaries; the instances in it are among `P`. -/
def Comparable (E : Env) (P : Nat → Prop) : PropSpec → Val → Prop
  | .mk _ _ _ _ ty, v => ComparableTy E P ty v
def ComparableTy (E : Env) (P : Nat → Prop) : PropTy → Val → Prop
  | .seq .set item _ _ _, v => (∃ xs, v = .set xs ∧ ∀ x ∈ xs, Comparable E P item x) ∨ v.iter? = none
  | .seq _ item _ _ _, v => ∀ xs, v.iter? = some xs → ∀ x ∈ xs, Comparable E P item x
  | .dict _ vp _, v => (∃ kvs, v = .dict kvs ∧
      (kvs.map (·.1)).Pairwise (fun a b => pyEq a b = false) ∧
      (∀ kv ∈ kvs, kv.1.hashable = true) ∧ ∀ kv ∈ kvs, Comparable E P vp kv.2) ∨ v.iter? = none
  | .inst _, v => (∃ r, v = .obj r ∧ P r) ∨ ((∀ r, v ≠ .obj r) ∧ v.hashable = true)
  | .union ps _, v => ComparableAll E P ps v
  | .boolean _, _ => True
  | .float _ _ _, v => Narrow E v.realNum?
  | .complex _, v => Narrow E v.realPart? ∧ Narrow E v.imagPart?
  | _, v => v.hashable = true
def ComparableAll (E : Env) (P : Nat → Prop) : List PropSpec → Val → Prop
  | [], _ => True
  | p :: ps, v => Comparable E P p v ∧ ComparableAll E P ps v
end

/-- An entry that is read without running user code, and a value it can compare. -/
def ComparableEntry (E : Env) (P : Nat → Prop) (c : ClassDef) (v : Val) : Entry → Prop
  | .mutable p => v ≠ .none → Comparable E P p v
  | .gettable p => v ≠ .none → Comparable E P p v
  | .dynamic .. => False
  | .renamed new => v.hashable = true ∧ ∃ e p, lookupS new c.props = some e ∧ OwnSpec e p

/-- All values can be compared, and the references between instances have no
cycle: a reference leads to an instance of smaller rank. -/
def ComparableWorld (E : Env) (rk : Nat → Nat) (w : World) : Prop :=
  ∀ r o, w.objs[r]? = some o → ∀ nm e, (nm, e) ∈ (E.classes o.cls).props →
    ComparableEntry E (fun s => (∃ o', w.objs[s]? = some o') ∧ rk s < rk r) (E.classes o.cls)
      (readAs o nm e) e

mutual
/-- A type without tolerance and without alternatives, at any depth; instances
are allowed if `I`. -/
def Exact (I : Prop) : PropSpec → Prop
  | .mk _ _ _ _ ty => ExactTy I ty
def ExactTy (I : Prop) : PropTy → Prop
  | .float .. | .complex _ | .union .. => False
  | .inst _ => I
  | .seq _ item _ _ _ => Exact I item
  | .dict _ vp _ => Exact I vp
  | _ => True
end

/-- All properties of all classes are without tolerance and alternatives. -/
def AllExact (E : Env) : Prop :=
  ∀ c nm e, (nm, e) ∈ (E.classes c).props → ∀ p, OwnSpec e p → Exact True p

mutual
/-- The items of Sets, at any depth, are compared without tolerance. -/
def SetsExact (I : Prop) : PropSpec → Prop
  | .mk _ _ _ _ ty => SetsExactTy I ty
def SetsExactTy (I : Prop) : PropTy → Prop
  | .seq .set item _ _ _ => Exact I item ∧ SetsExact I item
  | .seq _ item _ _ _ => SetsExact I item
  | .dict _ vp _ => SetsExact I vp
  | .union ps _ => SetsExactAll I ps
  | _ => True
def SetsExactAll (I : Prop) : List PropSpec → Prop
  | [] => True
  | p :: ps => SetsExact I p ∧ SetsExactAll I ps
end

/-- The items of Sets are compared without tolerance, in all classes. -/
def AllSetsExact (E : Env) : Prop :=
  ∀ c nm e, (nm, e) ∈ (E.classes c).props → ∀ p, OwnSpec e p → SetsExact (AllExact E) p

/-- `is` is an equivalence, and rounding treats `q` and `-q` alike. -/
structure LawfulEq (E : Env) : Prop where
  symm : ∀ a b, E.same a b = true → E.same b a = true
  trans : ∀ a b c, E.same a b = true → E.same b c = true → E.same a c = true
  round : ∀ q, (E.rnd (-q)).small = (E.rnd q).small

end Verif.Spec
