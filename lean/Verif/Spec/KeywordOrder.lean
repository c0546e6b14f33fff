import Verif.Core.Interp

/-!
# Two results of a construction that differ in the order of the stored entries only
-/

namespace Verif.Spec

/-- The states are the same, up to the order in which instance `r` stores its
values: every other instance and everything else is the same, and every name has
the same value on `r`. -/
structure SameValues (r : Nat) (w1 w2 : World) : Prop where
  rest : ∃ f : Obj → List (PyStr × Val), w2 = w1.setObj r (fun o => { o with backend := f o })
  values : ∃ o1 o2, w1.objs[r]? = some o1 ∧ w2.objs[r]? = some o2 ∧
    ∀ name, lookupS name o1.backend = lookupS name o2.backend

/-- Assign the values one after the other, whether or not the assignments
raise: what each of them ends with, and the state afterwards. -/
def assignEach (E : Env) (n r : Nat) : List (PyStr × Val) → World → List (Except PyErr Val) × World
  | [], w => ([], w)
  | kv :: kw, w =>
      let s := run E n (.setattr r kv.1 kv.2) w
      let t := assignEach E n r kw s.2
      (s.1 :: t.1, t.2)

end Verif.Spec
