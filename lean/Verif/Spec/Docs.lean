import Verif.Spec.Classes

/-!
# Specification: class documentation
-/

namespace Verif.Spec
open Cls

/-- A name that starts with an underscore. -/
def Private (n : PyStr) : Prop := ∃ t, n = '_' :: t

/-- The name is recorded for this property. -/
def Recorded (k : Class) (n : PyStr) (e : Entry) : Prop := (n, e) ∈ k.props

/-- A mutable property with this `required` flag. -/
def Requires (e : Entry) (b : Bool) : Prop := ∃ p, e = .mutable p ∧ p.required = b

/-- A documentation order and four sections that fit the properties of the
class: each property is in the order once, private ones only when asked for;
each section holds what its title says, in that order. -/
structure Documents (k : Class) (priv : Bool) : Prop where
  once : k.order.Nodup
  all : ∀ n, n ∈ k.order ↔ (∃ e, Recorded k n e) ∧ (Private n → priv = true)
  partition : (k.secReq ++ k.secOpt ++ k.secImm ++ k.secPriv).Perm k.order
  inOrder : k.secReq.Sublist k.order ∧ k.secOpt.Sublist k.order ∧ k.secImm.Sublist k.order ∧
    k.secPriv.Sublist k.order
  required : ∀ n, n ∈ k.secReq ↔ n ∈ k.order ∧ ¬ Private n ∧ ∃ e, Recorded k n e ∧ Requires e true
  optional : ∀ n, n ∈ k.secOpt ↔ n ∈ k.order ∧ ¬ Private n ∧ ∃ e, Recorded k n e ∧ Requires e false
  other : ∀ n, n ∈ k.secImm ↔ n ∈ k.order ∧ ¬ Private n ∧
    ∃ e, Recorded k n e ∧ ∀ b, ¬ Requires e b
  «private» : ∀ n, n ∈ k.secPriv ↔ n ∈ k.order ∧ Private n

/-- Text order: a prefix comes first, otherwise the first difference decides by
code point. -/
inductive Before : PyStr → PyStr → Prop
  | nil {t : PyStr} : Before [] t
  | less {a b : Char} {s t : PyStr} : a.toNat < b.toNat → Before (a :: s) (b :: t)
  | same {a : Char} {s t : PyStr} : Before s t → Before (a :: s) (a :: t)

end Verif.Spec
