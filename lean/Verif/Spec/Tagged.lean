import Verif.Spec.Serialize

/-!
# Input with and without the names of classes
-/

namespace Verif.Spec

/-- As input of a property the first is the second with `__class__` entries, of any
value, put at the end of dictionaries that an Instance property reads, at any
depth of containers and instances. -/
inductive Tagged (E : Env) : PropSpec → Val → Val → Prop
  | same (p : PropSpec) (v : Val) : Tagged E p v v
  | seq (p : PropSpec) (k : SeqKind) (it : PropSpec) (lo hi : Option Nat) (co : Bool) (xs ys : List Val) :
      p.deser = none → p.ty = .seq k it lo hi co → xs.length = ys.length →
      (∀ xy ∈ xs.zip ys, Tagged E it xy.1 xy.2) → Tagged E p (.list xs) (.list ys)
  | dict (p kp vp : PropSpec) (co : Bool) (kvs kvs' : List (Val × Val)) :
      p.deser = none → p.ty = .dict kp vp co → kvs.length = kvs'.length →
      (∀ ab ∈ kvs.zip kvs', ab.1.1 = ab.2.1) → (∀ ab ∈ kvs.zip kvs', Tagged E vp ab.1.2 ab.2.2) →
      Tagged E p (.dict kvs) (.dict kvs')
  | inst (p : PropSpec) (c : ClsId) (kvs kvs' tags : List (Val × Val)) :
      p.deser = none → p.ty = .inst c → kvs.length = kvs'.length →
      (∀ ab ∈ kvs.zip kvs', ab.1.1 = ab.2.1) →
      (∀ ab ∈ kvs.zip kvs', ∀ k e q, ab.1.1 = .str k → lookupS k (E.classes c).props = some e → OwnSpec e q →
        Tagged E q ab.1.2 ab.2.2) →
      (∀ ab ∈ kvs.zip kvs', ∀ k e, ab.1.1 = .str k → lookupS k (E.classes c).props = some e →
        (∀ q, ¬OwnSpec e q) → ab.1.2 = ab.2.2) →
      (∀ kv ∈ tags, kv.1 = .str (s% "__class__")) → lookupS (s% "__class__") (E.classes c).props = none →
      Tagged E p (.dict (kvs ++ tags)) (.dict kvs')

end Verif.Spec
