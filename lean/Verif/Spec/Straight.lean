import Verif.Spec.Serialize

/-!
# Properties read without choice
-/

namespace Verif.Spec

/-- No Union at any depth and no registered deserializer. -/
inductive Straight : PropSpec → Prop
  | scalar (p : PropSpec) : p.deser = none → ScalarTy p.ty → Straight p
  | seq (p : PropSpec) (k : SeqKind) (it : PropSpec) (lo hi : Option Nat) (co : Bool) : p.deser = none →
      p.ty = .seq k it lo hi co → Straight it → Straight p
  | dict (p kp vp : PropSpec) (co : Bool) : p.deser = none → p.ty = .dict kp vp co → Straight kp → Straight vp →
      Straight p
  | inst (p : PropSpec) (c : ClsId) : p.deser = none → p.ty = .inst c → Straight p

/-- All properties of all classes are. -/
def StraightEnv (E : Env) : Prop :=
  ∀ c nm e, lookupS nm (E.classes c).props = some e → match e with
    | .mutable p => Straight p
    | .gettable p => Straight p
    | .dynamic p _ _ _ => p.deser = none
    | .renamed _ => True

end Verif.Spec
