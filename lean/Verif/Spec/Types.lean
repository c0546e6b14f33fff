import Verif.Spec.Scalar

/-!
# Specification: the values a property type admits
-/

namespace Verif.Spec

/-- Instance `r` exists and is of class `c` or of a class derived from it. -/
def InstanceOf (E : Env) (w : World) (r : Nat) (c : ClsId) : Prop :=
  ∃ o, w.objs[r]? = some o ∧ (o.cls = c ∨ c ∈ (E.classes o.cls).ancestors)

/-- A float inside the bounds; NaN is not compared. -/
def FloatWithin (mn mx : Option Rat) : PyFloat → Prop
  | .fin q => Within mn mx q
  | .nan => True
  | .pinf => mx = none
  | .ninf => mn = none

/-- The text after `change_case`. -/
def recased (E : Env) : CaseMode → PyStr → PyStr
  | .keep, t => t
  | .upper, t => E.upper t
  | .lower, t => E.lower t

/-- The pattern, if any, is found in the text. -/
def Matches (E : Env) (regex : Option Nat) (s : PyStr) : Prop :=
  ∀ k, regex = some k → E.search k s = true

/-- `v` is a value a property of the given type may hold. -/
inductive Admits (E : Env) (w : World) : PropTy → Val → Prop
  | any (v : Val) : Admits E w .any v
  | boolean (c b : Bool) : Admits E w (.boolean c) (.bool b)
  | integer (c : Bool) (mn mx : Option Rat) (i : Int) : Within mn mx i →
      Admits E w (.integer c mn mx) (.int i)
  | float (c : Bool) (mn mx : Option Rat) (f : PyFloat) : FloatWithin mn mx f →
      Admits E w (.float c mn mx) (.float f)
  | complex (c : Bool) (a b : PyFloat) : Admits E w (.complex c) (.cplx a b)
  | string (cs : PyStr) (m : CaseMode) (regex : Option Nat) (s t : PyStr) :
      Matches E regex s → IsStripped cs s t → Admits E w (.string cs m regex) (.str (recased E m t))
  | choice (kvs : List (PyStr × List PyStr)) (c : Bool) (k : PyStr) (vs : List PyStr) :
      (k, vs) ∈ kvs → Admits E w (.choice kvs c) (.str k)
  | color (v : Val) : IsRGB v → Admits E w .color v
  | datetime (t : DateTime) : Admits E w .datetime (.dt t)
  | uuid (n : Nat) : Admits E w .uuid (.uuid n)
  | tup (item : PropSpec) (a b : Option Nat) (c : Bool) (xs : List Val) :
      (∀ x ∈ xs, Admits E w item.ty x) → Admits E w (.seq .tup item a b c) (.tup xs)
  | list (item : PropSpec) (a b : Option Nat) (c : Bool) (xs : List Val) :
      (∀ x ∈ xs, Admits E w item.ty x) → Admits E w (.seq .list item a b c) (.list xs)
  | set (item : PropSpec) (a b : Option Nat) (c : Bool) (xs : List Val) :
      (∀ x ∈ xs, Admits E w item.ty x) → Admits E w (.seq .set item a b c) (.set xs)
  | dict (kp vp : PropSpec) (c : Bool) (kvs : List (Val × Val)) :
      (∀ kv ∈ kvs, Admits E w kp.ty kv.1) → (∀ kv ∈ kvs, Admits E w vp.ty kv.2) →
      Admits E w (.dict kp vp c) (.dict kvs)
  | inst (c : ClsId) (r : Nat) : InstanceOf E w r c → Admits E w (.inst c) (.obj r)
  | union (ps : List PropSpec) (s : Bool) (p : PropSpec) (v : Val) : p ∈ ps →
      Admits E w p.ty v → Admits E w (.union ps s) v

/-- A value that may be stored for a property.  A Renamed property has no type
of its own. -/
def EntryAdmits (E : Env) (w : World) : Entry → Val → Prop
  | .mutable p, v => Admits E w p.ty v
  | .gettable p, v => Admits E w p.ty v
  | .dynamic p _ _ _, v => Admits E w p.ty v
  | .renamed _, _ => True

/-- Every stored value belongs to a property and is one it may hold. -/
def WellTyped (E : Env) (w : World) : Prop :=
  ∀ (r : Nat) (o : Obj), w.objs[r]? = some o → ∀ nm v, (nm, v) ∈ o.backend →
    ∃ e, lookupS nm (E.classes o.cls).props = some e ∧ EntryAdmits E w e v

/-- The property names of a class are distinct (they are dictionary keys). -/
def DistinctNames (E : Env) : Prop := ∀ c, ((E.classes c).props.map (·.1)).Nodup

/-- Every return of the program is of `v`. -/
def OnlyReturns (v : Val) : Prog → Prop
  | .ret x => x = v
  | .raise _ => True
  | .call _ k => ∀ x, OnlyReturns v (k x)
  | .disabled _ _ k => ∀ x, OnlyReturns v (k x)

/-- Validator listeners do not substitute the value they are given: whatever
function is called as a validator leaves it as it is. -/
def NoSubstitution (E : Env) : Prop :=
  ∀ f r (name : PyStr) prev v,
    OnlyReturns v (E.fn f [.obj r, .str name, prev, v, .str (s% "validate")])

end Verif.Spec
