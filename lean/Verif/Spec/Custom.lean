import Verif.Spec.RoundTrip

/-!
# Specification: where registered serializers are reached
-/

namespace Verif.Spec

/-- In `v`, the value of property `nm` with declaration `p`, there is a value `x`
of declaration `q`: `v` itself, an item of a container, a key or value of a
dictionary, the value of a property of an instance, or the value of an alternative
of a Union.  A declaration with a serializer hides what is inside its values. -/
inductive InTree (E : Env) (w : World) (q : PropSpec) (x : Val) : PyStr → PropSpec → Val → Prop
  | here (nm : PyStr) : InTree E w q x nm q x
  | item (nm : PyStr) (p it : PropSpec) (k : SeqKind) (lo hi : Option Nat) (c : Bool) (v a : Val)
      (xs : List Val) : p.ser = none → p.ty = .seq k it lo hi c → v.iter? = some xs → a ∈ xs →
      InTree E w q x nm it a → InTree E w q x nm p v
  | key (nm : PyStr) (p kp vp : PropSpec) (c : Bool) (kvs : List (Val × Val)) (kv : Val × Val) :
      p.ser = none → p.ty = .dict kp vp c → kv ∈ kvs → InTree E w q x nm kp kv.1 →
      InTree E w q x nm p (.dict kvs)
  | value (nm : PyStr) (p kp vp : PropSpec) (c : Bool) (kvs : List (Val × Val)) (kv : Val × Val) :
      p.ser = none → p.ty = .dict kp vp c → kv ∈ kvs → InTree E w q x nm vp kv.2 →
      InTree E w q x nm p (.dict kvs)
  | inst (nm : PyStr) (p : PropSpec) (c : ClsId) (r : Nat) (o : Obj) (nm' : PyStr) (v : Val)
      (e : Entry) (p' : PropSpec) : p.ser = none → p.ty = .inst c → w.objs[r]? = some o →
      (nm', v) ∈ o.backend → lookupS nm' (E.classes o.cls).props = some e → OwnSpec e p' →
      InTree E w q x nm' p' v → InTree E w q x nm p (.obj r)
  | union (nm : PyStr) (p : PropSpec) (ps : List PropSpec) (st : Bool) (v : Val) (a : PropSpec) :
      p.ser = none → v ≠ .none → p.ty = .union ps st → Picks E w nm v ps (some a) →
      InTree E w q x nm a v → InTree E w q x nm p v

/-- What the wrapper of a registered function does with the outcome of the call
with options: a TypeError makes it call again, with the value alone, in the state
the first call left; every other outcome stands. -/
inductive Wrapped (E : Env) (n : Nat) (f : FnId) (v : Val) (kw : List Val) (w : World) :
    Except PyErr Val → World → Prop
  | value (x : Val) (w' : World) : runProg E n (E.fn f (v :: kw)) w = (.ok x, w') →
      Wrapped E n f v kw w (.ok x) w'
  | error (e : PyErr) (w' : World) : runProg E n (E.fn f (v :: kw)) w = (.error e, w') →
      e.kind ≠ .type → Wrapped E n f v kw w (.error e) w'
  | again (e : PyErr) (w' w'' : World) (x : Except PyErr Val) :
      runProg E n (E.fn f (v :: kw)) w = (.error e, w') → e.kind = .type →
      runProg E n (E.fn f [v]) w' = (x, w'') → Wrapped E n f v kw w x w''

end Verif.Spec
