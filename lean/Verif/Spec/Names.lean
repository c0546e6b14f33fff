import Verif.Models.Names

/-!
# Specification: which name a property object has
-/

namespace Verif.Names.Spec

/-- `q` is `p` or nested in it. -/
inductive Within (h : List PObj) (p : PId) : PId → Prop
  | self : Within h p p
  | nested {q r : PId} {o : PObj} : Within h p q → h[q]? = some o → r ∈ o.kids → Within h p r

/-- Attribute `k` of class `c` is the property object `p`. -/
def Denotes (st : St) (c : Nat) (k : PyStr) (p : PId) : Prop :=
  ∃ cl, st.classes[c]? = some cl ∧ lookupS k cl.attrs = some p

/-- The step fits a labelling of property objects by names: a property object is declared
under its label only, and what is nested in it has the same label. -/
def Fits (label : PId → PyStr) (st : St) : Op → Prop
  | .prop kids => ∀ q ∈ kids, label q = label st.props.length
  | .setKids p kids => ∀ q ∈ kids, label q = label p
  | .rename p s => s = label p
  | .cls _ own => ∀ k p, (k, p) ∈ own → k = label p ∧ p < st.props.length
  | _ => True

/-- A history that never uses one property object under two names. -/
def Apart (E : Env) (n : Nat) (label : PId → PyStr) : St → List Op → Prop
  | _, [] => True
  | st, op :: ops => Fits label st op ∧ Apart E n label (exec E n st op) ops

/-- The value of attribute `k` of instance `i`, which is property `p`, after the steps: the last
one assigned to it that passed validation, None after a deletion. -/
def lastValue (E : Env) (p : PId) (i : Nat) (k : PyStr) : List Op → Val → Val
  | [], y => y
  | .set j k2 v :: ops, y =>
      lastValue E p i k ops (if j = i ∧ k2 = k then (E.validate p v).getD y else y)
  | .del j k2 :: ops, y => lastValue E p i k ops (if j = i ∧ k2 = k then .none else y)
  | _ :: ops, y => lastValue E p i k ops y

end Verif.Names.Spec
