import Verif.Spec.Serialize

/-!
# Data with and without the names of classes
-/

namespace Verif.Spec

/-- The first is the second with an entry `__class__` put at the end of some
dictionaries, at any depth. -/
inductive PlusClass : Val → Val → Prop
  | same (v : Val) : PlusClass v v
  | list (xs ys : List Val) : xs.length = ys.length → (∀ xy ∈ xs.zip ys, PlusClass xy.1 xy.2) →
      PlusClass (.list xs) (.list ys)
  | dict (kvs kvs' : List (Val × Val)) : kvs.length = kvs'.length → (∀ ab ∈ kvs.zip kvs', ab.1.1 = ab.2.1) →
      (∀ ab ∈ kvs.zip kvs', PlusClass ab.1.2 ab.2.2) → PlusClass (.dict kvs) (.dict kvs')
  | inst (kvs kvs' : List (Val × Val)) (name : PyStr) : kvs.length = kvs'.length →
      (∀ ab ∈ kvs.zip kvs', ab.1.1 = ab.2.1) → (∀ ab ∈ kvs.zip kvs', PlusClass ab.1.2 ab.2.2) →
      (∀ kv ∈ kvs', kv.1 ≠ .str (s% "__class__")) →
      PlusClass (.dict (kvs ++ [(.str (s% "__class__"), .str name)])) (.dict kvs')

/-- No registered serializer, at any depth. -/
inductive OwnWriter : PropSpec → Prop
  | scalar (p : PropSpec) : p.ser = none → ScalarTy p.ty → OwnWriter p
  | seq (p : PropSpec) (k : SeqKind) (it : PropSpec) (lo hi : Option Nat) (co : Bool) : p.ser = none →
      p.ty = .seq k it lo hi co → OwnWriter it → OwnWriter p
  | dict (p kp vp : PropSpec) (co : Bool) : p.ser = none → p.ty = .dict kp vp co → OwnWriter kp →
      OwnWriter vp → OwnWriter p
  | inst (p : PropSpec) (c : ClsId) : p.ser = none → p.ty = .inst c → OwnWriter p
  | union (p : PropSpec) (ps : List PropSpec) (s : Bool) : p.ser = none → p.ty = .union ps s →
      (∀ q ∈ ps, OwnWriter q) → OwnWriter p

/-- No class has registered serializers for properties it stores, nor a property
named `__class__`. -/
def OwnWriters (E : Env) : Prop :=
  ∀ c, lookupS (s% "__class__") (E.classes c).props = none ∧
    ∀ nm e p, lookupS nm (E.classes c).props = some e → OwnSpec e p → OwnWriter p

end Verif.Spec
