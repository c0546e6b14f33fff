import Verif.Spec.Tagged

/-!
# Values whose instances are of the very class declared
-/

namespace Verif.Spec

/-- The class of an instance. -/
def classAt (w : World) (r : Nat) : Option ClsId := (w.objs[r]?).map Obj.cls

/-- As input of a property the first is the second with `__class__` entries, which
name the class declared, put at the end of dictionaries that an Instance property
reads, at any depth of containers and instances. -/
inductive Labelled (E : Env) : PropSpec → Val → Val → Prop
  | same (p : PropSpec) (v : Val) : Labelled E p v v
  | seq (p : PropSpec) (k : SeqKind) (it : PropSpec) (lo hi : Option Nat) (co : Bool) (xs ys : List Val) :
      p.deser = none → p.ty = .seq k it lo hi co → xs.length = ys.length →
      (∀ xy ∈ xs.zip ys, Labelled E it xy.1 xy.2) → Labelled E p (.list xs) (.list ys)
  | dict (p kp vp : PropSpec) (co : Bool) (kvs kvs' : List (Val × Val)) :
      p.deser = none → p.ty = .dict kp vp co → kvs.length = kvs'.length →
      (∀ ab ∈ kvs.zip kvs', ab.1.1 = ab.2.1) → (∀ ab ∈ kvs.zip kvs', Labelled E vp ab.1.2 ab.2.2) →
      Labelled E p (.dict kvs) (.dict kvs')
  | inst (p : PropSpec) (c : ClsId) (kvs kvs' : List (Val × Val)) :
      p.deser = none → p.ty = .inst c → kvs.length = kvs'.length →
      (∀ ab ∈ kvs.zip kvs', ab.1.1 = ab.2.1) →
      (∀ ab ∈ kvs.zip kvs', ∀ k e q, ab.1.1 = .str k → lookupS k (E.classes c).props = some e → OwnSpec e q →
        Labelled E q ab.1.2 ab.2.2) →
      (∀ ab ∈ kvs.zip kvs', ∀ k e, ab.1.1 = .str k → lookupS k (E.classes c).props = some e →
        (∀ q, ¬OwnSpec e q) → ab.1.2 = ab.2.2) →
      (∀ kv ∈ kvs', kv.1 ≠ .str (s% "__class__")) → lookupS (s% "__class__") (E.classes c).props = none →
      Labelled E p (.dict (kvs ++ [(.str (s% "__class__"), .str (E.classes c).name)])) (.dict kvs')

/-- No registered serializer, and no registered deserializer but for basic types;
no Unions; instances held by an Instance property are of the class it names (and
not of a subclass), at any depth of containers.  `cl` tells the classes. -/
inductive OwnClass (cl : Nat → Option ClsId) : PropSpec → Val → Prop
  | scalar (p : PropSpec) (v : Val) : p.ser = none → ScalarTy p.ty → OwnClass cl p v
  | seq (p : PropSpec) (k : SeqKind) (it : PropSpec) (lo hi : Option Nat) (co : Bool) (v : Val) : p.ser = none →
      p.deser = none → p.ty = .seq k it lo hi co → (∀ xs, v.iter? = some xs → ∀ x ∈ xs, OwnClass cl it x) →
      OwnClass cl p v
  | dict (p kp vp : PropSpec) (co : Bool) (v : Val) : p.ser = none → p.deser = none → p.ty = .dict kp vp co →
      (∀ kvs, v = .dict kvs → ∀ kv ∈ kvs, OwnClass cl kp kv.1) →
      (∀ kvs, v = .dict kvs → ∀ kv ∈ kvs, OwnClass cl vp kv.2) → OwnClass cl p v
  | inst (p : PropSpec) (c : ClsId) (v : Val) : p.ser = none → p.deser = none → p.ty = .inst c →
      (∀ r d, v = .obj r → cl r = some d → d = c) → OwnClass cl p v

/-- So it is for all that is stored, under names of properties other than
`__class__`. -/
def OwnClassWorld (E : Env) (w : World) : Prop :=
  ∀ (r : Nat) (o : Obj), w.objs[r]? = some o → (o.backend.map (·.1)).Nodup ∧
    lookupS (s% "__class__") (E.classes o.cls).props = none ∧
    ∀ nm v, (nm, v) ∈ o.backend → ∃ e p, lookupS nm (E.classes o.cls).props = some e ∧
      OwnSpec e p ∧ OwnClass (classAt w) p v

end Verif.Spec
