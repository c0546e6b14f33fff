import Verif.Core.Interp

/-!
# Specification: the classes named by declarations
-/

namespace Verif.Spec

/-- The class `c` occurs in the declaration: as the class of an Instance, as a
callable default, or at any depth inside containers and Unions. -/
inductive Names : PropSpec → ClsId → Prop
  | inst (r : Bool) (s d : Option FnId) (df : Dflt) (c : ClsId) : Names (.mk r s d df (.inst c)) c
  | default (r : Bool) (s d : Option FnId) (c : ClsId) (ty : PropTy) : Names (.mk r s d (.cls c) ty) c
  | item (r : Bool) (s d : Option FnId) (df : Dflt) (k : SeqKind) (p : PropSpec) (a b : Option Nat)
      (co : Bool) (c : ClsId) : Names p c → Names (.mk r s d df (.seq k p a b co)) c
  | key (r : Bool) (s d : Option FnId) (df : Dflt) (kp vp : PropSpec) (co : Bool) (c : ClsId) :
      Names kp c → Names (.mk r s d df (.dict kp vp co)) c
  | value (r : Bool) (s d : Option FnId) (df : Dflt) (kp vp : PropSpec) (co : Bool) (c : ClsId) :
      Names vp c → Names (.mk r s d df (.dict kp vp co)) c
  | alternative (r : Bool) (s d : Option FnId) (df : Dflt) (ps : List PropSpec) (si : Bool)
      (p : PropSpec) (c : ClsId) : p ∈ ps → Names p c → Names (.mk r s d df (.union ps si)) c

/-- The declaration inside a property of a class. -/
inductive DeclaredIn : Entry → PropSpec → Prop
  | mutable (p : PropSpec) : DeclaredIn (.mutable p) p
  | gettable (p : PropSpec) : DeclaredIn (.gettable p) p
  | dynamic (p : PropSpec) (g : FnId) (s d : Option FnId) : DeclaredIn (.dynamic p g s d) p

/-- Class `d` names class `c`: in a property or in its dictionary of defaults. -/
inductive RefersTo (E : Env) (d : ClsId) : ClsId → Prop
  | prop (nm : PyStr) (e : Entry) (p : PropSpec) (c : ClsId) : (nm, e) ∈ (E.classes d).props →
      DeclaredIn e p → Names p c → RefersTo E d c
  | default (nm : PyStr) (c : ClsId) : (nm, .cls c) ∈ (E.classes d).defaults → RefersTo E d c

/-- The classes that the declarations starting from the class `c` name, and the
classes of the instances in `w` with those that their declarations name. -/
inductive Foreseen (E : Env) (w : World) (c : ClsId) : ClsId → Prop
  | self : Foreseen E w c c
  | present (o : Obj) : o ∈ w.objs → Foreseen E w c o.cls
  | named (d d' : ClsId) : Foreseen E w c d → RefersTo E d d' → Foreseen E w c d'

/-- A call naming only classes in `D`, and trusting no input. -/
def Sober (D : ClsId → Prop) : Call → Prop
  | .validate _ p _ _ => ∀ c, Names p c → D c
  | .assertValid _ p _ _ => ∀ c, Names p c → D c
  | .serializeP _ p _ _ => ∀ c, Names p c → D c
  | .deserializeP _ p _ kw => (∀ c, Names p c → D c) ∧ kw.trusted = false
  | .construct c _ => D c
  | .hpDeserialize c _ kw => D c ∧ kw.trusted = false
  | .copy _ _ kw => kw.trusted = false
  | _ => True

/-- A program all of whose calls are such. -/
def SoberProg (D : ClsId → Prop) : Prog → Prop
  | .ret _ => True
  | .raise _ => True
  | .call c k => Sober D c ∧ ∀ x, SoberProg D (k x)
  | .disabled _ body k => SoberProg D body ∧ ∀ x, SoberProg D (k x)

end Verif.Spec
