import Verif.Core.Interp
import Verif.Spec.Types
import Verif.Spec.Locality
import Verif.Spec.Survives

/-!
# Specification: proper sets and dictionaries

In Python every set has hashable items no two of which are equal, every
dictionary hashable keys no two of which are equal.  Values of the model are
lists of items, for which this has to be shown.
-/

namespace Verif.Spec

/-- The sets and dictionaries in the value, at every depth, are sets and
dictionaries: items and keys are hashable, and no two of them are equal. -/
inductive Proper : Val → Prop
  | none : Proper .none
  | undef : Proper .undef
  | bool (b : Bool) : Proper (.bool b)
  | int (i : Int) : Proper (.int i)
  | float (f : PyFloat) : Proper (.float f)
  | cplx (re im : PyFloat) : Proper (.cplx re im)
  | str (s : PyStr) : Proper (.str s)
  | dt (t : DateTime) : Proper (.dt t)
  | uuid (n : Nat) : Proper (.uuid n)
  | obj (r : Nat) : Proper (.obj r)
  | opq (n : Nat) : Proper (.opq n)
  | list (xs : List Val) : (∀ x ∈ xs, Proper x) → Proper (.list xs)
  | tup (xs : List Val) : (∀ x ∈ xs, Proper x) → Proper (.tup xs)
  | set (xs : List Val) : (∀ x ∈ xs, Proper x) → DistinctItems xs → Proper (.set xs)
  | dict (kvs : List (Val × Val)) : (∀ kv ∈ kvs, Proper kv.1) → (∀ kv ∈ kvs, Proper kv.2) →
      DistinctItems (kvs.map (·.1)) → Proper (.dict kvs)

/-- What an instance stores: one value per name, and all of them proper. -/
structure ProperStore (l : List (PyStr × Val)) : Prop where
  names : (l.map (·.1)).Nodup
  values : ∀ kv ∈ l, Proper kv.2

/-- All instances store proper values, and so does the user code. -/
structure ProperWorld (w : World) : Prop where
  stores : ∀ (r : Nat) (o : Obj), w.objs[r]? = some o → ProperStore o.backend
  user : Proper w.user

/-- The values among the arguments of the call are proper. -/
def ProperCall : Call → Prop
  | .validate _ _ _ v => Proper v
  | .propEqual _ a b => Proper a ∧ Proper b
  | .assertValid _ _ _ v => Proper v
  | .serializeP _ _ v _ => Proper v
  | .deserializeP _ _ v _ => Proper v
  | .construct _ kw => ∀ kv ∈ kw, Proper kv.2
  | .setattr _ _ v => Proper v
  | .hpDeserialize _ v _ => Proper v
  | .equal a b => Proper a ∧ Proper b
  | .copy v _ _ => Proper v
  | .userPut v => Proper v
  | _ => True

/-- User code that makes proper values when it is given proper values. -/
def ProperProg : Prog → Prop
  | .ret v => Proper v
  | .raise _ => True
  | .call c k => ProperCall c ∧ (∀ e, ProperProg (k (.error e))) ∧ ∀ v, Proper v → ProperProg (k (.ok v))
  | .disabled _ body k => ProperProg body ∧ (∀ e, ProperProg (k (.error e))) ∧
      ∀ v, Proper v → ProperProg (k (.ok v))

/-- Values the program brings in are Python values: those its functions make,
those its declarations contain, and those `json` makes.  Classes have one
property per name. -/
structure ProperEnv (E : Env) : Prop where
  fns : ∀ f args, (∀ v ∈ args, Proper v) → ProperProg (E.fn f args)
  defaults : ∀ v, DefaultValue E v → Proper v
  json : ∀ v j, Proper v → E.jsonCopy v = some j → Proper j
  names : DistinctNames E

end Verif.Spec
