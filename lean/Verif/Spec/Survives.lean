import Verif.Spec.RoundTrip
import Verif.Spec.Text

/-!
# Specification: values and declarations that survive JSON
-/

namespace Verif.Spec

/-- Python reads back the text it writes for NaN, the infinities and complex
numbers. -/
structure NumberText (E : Env) : Prop where
  nan : E.floatOfStr (s% "nan") = some .nan
  inf : E.floatOfStr (s% "inf") = some .pinf
  ninf : E.floatOfStr (s% "-inf") = some .ninf
  cplx : ∀ a b, E.cplxOfStr (E.strOfCplx a b) = some (a, b)

/-- What can be written without loss: of the dates those in whole seconds that
exist (and, if years are not padded to four digits, from the year 1000 on), of
the UUIDs those of 128 bits, and no instances. -/
def Lossless (padded : Bool) : Val → Prop
  | .dt t => Moment t ∧ (padded = true ∨ 1000 ≤ t.year) ∧ t.micro = 0
  | .uuid n => n < 2 ^ 128
  | .undef | .obj _ => False
  | _ => True

/-- Distinct hashable items, as in every set and among the keys of every
dictionary. -/
def DistinctItems (xs : List Val) : Prop :=
  (∀ x ∈ xs, x.hashable = true) ∧ xs.Pairwise (fun a b => pyEq a b = false)

mutual
/-- Nothing custom, no Unions, sets and dictionary keys of scalars, Strings and
StringChoices whose validation can be repeated. -/
def Storable (E : Env) : PropSpec → Prop
  | .mk _ s d _ ty => s = none ∧ d = none ∧ StorableTy E ty
def StorableTy (E : Env) : PropTy → Prop
  | .string cs m regex => StableText E cs m regex
  | .choice kvs b => ∃ d, declareChoices E b d = some kvs
  | .seq k item _ _ _ => (k = .set → ScalarTy item.ty) ∧ Storable E item
  | .dict kp vp _ => ScalarTy kp.ty ∧ Storable E kp ∧ Storable E vp
  | .union _ _ => False
  | _ => True
end

mutual
/-- All parts of the value can be written without loss, and every instance in it
is of a class that is found again when it is read. -/
def Lasts (E : Env) (padded ic tr : Bool) (w : World) : PropSpec → Val → Prop
  | .mk _ _ _ _ ty, v => LastsTy E padded ic tr w ty v
def LastsTy (E : Env) (padded ic tr : Bool) (w : World) : PropTy → Val → Prop
  | .seq k item _ _ _, v => ∀ xs, v.iter? = some xs →
      (k = .set → DistinctItems xs) ∧ ∀ x ∈ xs, Lasts E padded ic tr w item x
  | .dict kp vp _, v => ∀ kvs, v = .dict kvs → DistinctItems (kvs.map (·.1)) ∧
      (∀ kv ∈ kvs, ∀ j, scalarToJson E kp.ty kv.1 = some (.ok j) → j.hashable = true) ∧
      (kvs.map (·.1)).Pairwise (fun a b => ∀ i j, scalarToJson E kp.ty a = some (.ok i) →
        scalarToJson E kp.ty b = some (.ok j) → pyEq i j = false) ∧
      ∀ kv ∈ kvs, Lasts E padded ic tr w kp kv.1 ∧ Lasts E padded ic tr w vp kv.2
  | .inst c, v => ∀ r o, v = .obj r → w.objs[r]? = some o → Recovered E ic tr c o.cls
  | _, v => Lossless padded v
end

/-- The instance is of a class that can be built again from keywords, its
properties are storable, and its values other than None can be written without
loss. -/
structure Enduring (E : Env) (padded ic tr : Bool) (w : World) (o : Obj) : Prop where
  rebuild : Rebuildable E o
  distinct : (o.backend.map (·.1)).Nodup
  own : ∀ nm v e, (nm, v) ∈ o.backend → lookupS nm (E.classes o.cls).props = some e →
    ∃ p, OwnSpec e p ∧ Storable E p ∧ (v ≠ .none → Lasts E padded ic tr w p v)

end Verif.Spec
