import Verif.Core.Interp

/-!
# Specification: declarations whose deserialization is straightforward
-/

namespace Verif.Spec

/-- The types that do not refer to other property types or classes. -/
def IsScalar : PropTy → Prop
  | .seq .. => False
  | .dict .. => False
  | .inst _ => False
  | .union .. => False
  | _ => True

/-- No custom deserializer at any depth, no Union with `strict_instances`, and
no Union among the alternatives of a Union (at any depth).  With first argument
false there is no Union at all. -/
inductive Plain : Bool → PropSpec → Prop
  | scalar (u : Bool) (p : PropSpec) : p.deser = none → IsScalar p.ty → Plain u p
  | seq (u : Bool) (p : PropSpec) (k : SeqKind) (item : PropSpec) (a b : Option Nat) (c : Bool) :
      p.deser = none → p.ty = .seq k item a b c → Plain u item → Plain u p
  | dict (u : Bool) (p kp vp : PropSpec) (c : Bool) :
      p.deser = none → p.ty = .dict kp vp c → Plain u kp → Plain u vp → Plain u p
  | inst (u : Bool) (p : PropSpec) (c : ClsId) : p.deser = none → p.ty = .inst c → Plain u p
  | union (p : PropSpec) (ps : List PropSpec) : p.deser = none → p.ty = .union ps false →
      (∀ q ∈ ps, Plain false q) → Plain true p

/-- A class all of whose properties are plain; immutable and dynamic ones are
scalar; the error hook is not overridden. -/
def PlainEntry : Entry → Prop
  | .mutable p => Plain true p
  | .gettable p => p.deser = none ∧ IsScalar p.ty
  | .dynamic p _ _ _ => p.deser = none ∧ IsScalar p.ty
  | .renamed _ => True

/-- Immutable and dynamic properties hold scalars. -/
def ReadOnlyScalar : Entry → Prop
  | .gettable p => IsScalar p.ty
  | .dynamic p _ _ _ => IsScalar p.ty
  | _ => True

structure PlainClasses (E : Env) : Prop where
  hook : ∀ c, (E.classes c).hook = none
  entry : ∀ c nm e, lookupS nm (E.classes c).props = some e → PlainEntry e

end Verif.Spec
