import Verif.Spec.Serialize

/-!
# Input that names no class
-/

namespace Verif.Spec

/-- No dictionary, at any depth, has a value under `__class__` that Python takes
for true. -/
inductive Classless : Val → Prop
  | flat (v : Val) : v.iter? = none → Classless v
  | text (s : PyStr) : Classless (.str s)
  | list (xs : List Val) : (∀ x ∈ xs, Classless x) → Classless (.list xs)
  | tup (xs : List Val) : (∀ x ∈ xs, Classless x) → Classless (.tup xs)
  | set (xs : List Val) : (∀ x ∈ xs, Classless x) → Classless (.set xs)
  | dict (kvs : List (Val × Val)) : ((dictGet? kvs (.str (s% "__class__"))).getD .none).truthy = false →
      (∀ kv ∈ kvs, Classless kv.1) → (∀ kv ∈ kvs, Classless kv.2) → Classless (.dict kvs)

/-- No registered deserializer, at any depth. -/
inductive OwnReader : PropSpec → Prop
  | scalar (p : PropSpec) : p.deser = none → ScalarTy p.ty → OwnReader p
  | seq (p : PropSpec) (k : SeqKind) (it : PropSpec) (lo hi : Option Nat) (co : Bool) : p.deser = none →
      p.ty = .seq k it lo hi co → OwnReader it → OwnReader p
  | dict (p kp vp : PropSpec) (co : Bool) : p.deser = none → p.ty = .dict kp vp co → OwnReader kp →
      OwnReader vp → OwnReader p
  | inst (p : PropSpec) (c : ClsId) : p.deser = none → p.ty = .inst c → OwnReader p
  | union (p : PropSpec) (ps : List PropSpec) (s : Bool) : p.deser = none → p.ty = .union ps s →
      (∀ q ∈ ps, OwnReader q) → OwnReader p

/-- No class has registered deserializers. -/
def OwnReaders (E : Env) : Prop :=
  ∀ c nm e, lookupS nm (E.classes c).props = some e → match e with
    | .mutable p => OwnReader p
    | .gettable p => OwnReader p
    | .dynamic p _ _ _ => p.deser = none
    | .renamed _ => True

end Verif.Spec
