import Verif.Spec.OwnClass

/-!
# Values that are written and read by the library alone
-/

namespace Verif.Spec

/-- As input of a property the second is the first without the `__class__` entries
of dictionaries that an Instance property reads, each of which names the class
declared; all other keys of these name properties stored under their own names,
and nothing is read by registered functions or Unions. -/
inductive Written (E : Env) : PropSpec → Val → Val → Prop
  | none (p : PropSpec) : p.deser = none → Written E p .none .none
  | scalar (p : PropSpec) (v : Val) : p.deser = Option.none → ScalarTy p.ty → Written E p v v
  | seq (p : PropSpec) (k : SeqKind) (it : PropSpec) (lo hi : Option Nat) (co : Bool) (xs ys : List Val) :
      p.deser = Option.none → p.ty = .seq k it lo hi co → xs.length = ys.length →
      (∀ xy ∈ xs.zip ys, Written E it xy.1 xy.2) → Written E p (.list xs) (.list ys)
  | dict (p kp vp : PropSpec) (co : Bool) (kvs kvs' : List (Val × Val)) :
      p.deser = Option.none → p.ty = .dict kp vp co → kvs.length = kvs'.length →
      (∀ ab ∈ kvs.zip kvs', ab.1.1 = ab.2.1) → (∀ ab ∈ kvs.zip kvs', Written E kp ab.1.1 ab.1.1) →
      (∀ ab ∈ kvs.zip kvs', Written E vp ab.1.2 ab.2.2) →
      Written E p (.dict kvs) (.dict kvs')
  | inst (p : PropSpec) (c : ClsId) (kvs kvs' : List (Val × Val)) :
      p.deser = Option.none → p.ty = .inst c → kvs.length = kvs'.length →
      (∀ ab ∈ kvs.zip kvs', ab.1.1 = ab.2.1) →
      (∀ ab ∈ kvs.zip kvs', ∀ k e q, ab.1.1 = .str k → lookupS k (E.classes c).props = some e → OwnSpec e q →
        Written E q ab.1.2 ab.2.2) →
      (∀ ab ∈ kvs.zip kvs', ∃ k e q, ab.1.1 = .str k ∧ lookupS k (E.classes c).props = some e ∧ OwnSpec e q) →
      (∀ kv ∈ kvs', kv.1 ≠ .str (s% "__class__")) → lookupS (s% "__class__") (E.classes c).props = Option.none →
      Written E p (.dict (kvs ++ [(.str (s% "__class__"), .str (E.classes c).name)])) (.dict kvs')

/-- No registered serializer or deserializer, no Unions; an Instance property holds
None or instances of the class it names (and not of a subclass), at any depth of
containers.  `cl` tells the classes. -/
inductive PlainOwn (cl : Nat → Option ClsId) : PropSpec → Val → Prop
  | scalar (p : PropSpec) (v : Val) : p.ser = none → p.deser = none → ScalarTy p.ty → PlainOwn cl p v
  | seq (p : PropSpec) (k : SeqKind) (it : PropSpec) (lo hi : Option Nat) (co : Bool) (v : Val) : p.ser = none →
      p.deser = none → p.ty = .seq k it lo hi co → (∀ xs, v.iter? = some xs → ∀ x ∈ xs, PlainOwn cl it x) →
      PlainOwn cl p v
  | dict (p kp vp : PropSpec) (co : Bool) (v : Val) : p.ser = none → p.deser = none → p.ty = .dict kp vp co →
      (∀ kvs, v = .dict kvs → ∀ kv ∈ kvs, PlainOwn cl kp kv.1) →
      (∀ kvs, v = .dict kvs → ∀ kv ∈ kvs, PlainOwn cl vp kv.2) → PlainOwn cl p v
  | inst (p : PropSpec) (c : ClsId) (v : Val) : p.ser = none → p.deser = none → p.ty = .inst c →
      v = .none ∨ (∃ r, v = .obj r ∧ ∀ d, cl r = some d → d = c) → PlainOwn cl p v

/-- So it is for all that is stored, under names of properties other than
`__class__`. -/
def PlainOwnWorld (E : Env) (w : World) : Prop :=
  ∀ (r : Nat) (o : Obj), w.objs[r]? = some o → (o.backend.map (·.1)).Nodup ∧
    lookupS (s% "__class__") (E.classes o.cls).props = none ∧
    ∀ nm v, (nm, v) ∈ o.backend → ∃ e p, lookupS nm (E.classes o.cls).props = some e ∧
      OwnSpec e p ∧ PlainOwn (classAt w) p v

end Verif.Spec
