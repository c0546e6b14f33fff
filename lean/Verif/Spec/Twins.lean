import Verif.Core.Interp

/-!
# States that differ in the order of the stored entries only
-/

namespace Verif.Spec

/-- The same instance, but for the order in which its values are stored. -/
def SameObj (o o' : Obj) : Prop :=
  ∃ b, o' = { o with backend := b } ∧ ∀ k, lookupS k b = lookupS k o.backend

/-- The same state, but for the order in which instances store their values. -/
def SameWorld (w w' : World) : Prop :=
  ∃ os, w' = { w with objs := os } ∧ os.length = w.objs.length ∧
    ∀ (i : Nat) (o : Obj), w.objs[i]? = some o → ∃ o', os[i]? = some o' ∧ SameObj o o'

/-- Calls that do not write dictionaries in the order of assignments: with
`save_dynamic=True` serialization goes by the order of the declarations. -/
def Orderless : Call → Prop
  | .serializeP _ _ _ kw => kw.saveDynamic = true
  | .hpSerialize _ kw => kw.saveDynamic = true
  | .copy _ skw _ => skw.saveDynamic = true
  | _ => True

/-- Programs that make such calls only. -/
def OrderlessProg : Prog → Prop
  | .ret _ => True
  | .raise _ => True
  | .call c k => Orderless c ∧ ∀ x, OrderlessProg (k x)
  | .disabled _ body k => OrderlessProg body ∧ ∀ x, OrderlessProg (k x)

/-- The same data, but for the order of the entries of dictionaries, at any
depth: the entries of one are, in some order, those of the other. -/
inductive SameJson : Val → Val → Prop
  | same (v : Val) : SameJson v v
  | list (xs ys : List Val) : xs.length = ys.length → (∀ xy ∈ xs.zip ys, SameJson xy.1 xy.2) →
      SameJson (.list xs) (.list ys)
  | dict (kvs mid kvs' : List (Val × Val)) : kvs.length = mid.length →
      (∀ ab ∈ kvs.zip mid, ab.1.1 = ab.2.1) → (∀ ab ∈ kvs.zip mid, SameJson ab.1.2 ab.2.2) →
      mid.Perm kvs' → SameJson (.dict kvs) (.dict kvs')

end Verif.Spec
