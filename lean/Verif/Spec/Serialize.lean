import Verif.Spec.Valid
import Verif.Spec.Types

/-!
# Specification: serialization

`SerO r j` says that `j` is the serialized form of instance `r`; it knows
nothing of the marks `serialize()` puts on instances to detect cycles.
-/

namespace Verif.Spec

/-- What Python's `json` module can write as a key. -/
inductive JsonKey : Val → Prop
  | none : JsonKey .none
  | bool (b : Bool) : JsonKey (.bool b)
  | int (i : Int) : JsonKey (.int i)
  | float (f : PyFloat) : JsonKey (.float f)
  | str (s : PyStr) : JsonKey (.str s)

/-- Data a JSON text can express, with the non finite floats Python's `json`
module lets through. -/
inductive Json : Val → Prop
  | none : Json .none
  | bool (b : Bool) : Json (.bool b)
  | int (i : Int) : Json (.int i)
  | float (f : PyFloat) : Json (.float f)
  | str (s : PyStr) : Json (.str s)
  | list (xs : List Val) : (∀ x ∈ xs, Json x) → Json (.list xs)
  | dict (kvs : List (Val × Val)) : (∀ kv ∈ kvs, JsonKey kv.1) → (∀ kv ∈ kvs, Json kv.2) →
      Json (.dict kvs)

/-- Property `nm` with declaration `q` accepts `v`, given enough recursion
depth. -/
def Accepts (E : Env) (w : World) (nm : PyStr) (v : Val) (q : PropSpec) : Prop :=
  ∃ N x, ∀ n, N ≤ n → (run E n (.validate nm q none v) w).1 = .ok x

/-- Property `nm` with declaration `q` does not accept `v`. -/
def Rejects (E : Env) (w : World) (nm : PyStr) (v : Val) (q : PropSpec) : Prop :=
  ∃ N e, e.kind.isGeneric = true ∧ ∀ n, N ≤ n → (run E n (.validate nm q none v) w).1 = .error e

/-- The first of the alternatives to accept `v`; `none` if all reject it. -/
inductive Picks (E : Env) (w : World) (nm : PyStr) (v : Val) :
    List PropSpec → Option PropSpec → Prop
  | nil : Picks E w nm v [] none
  | here (q : PropSpec) (ps : List PropSpec) : Accepts E w nm v q → Picks E w nm v (q :: ps) (some q)
  | later (q : PropSpec) (ps : List PropSpec) (o : Option PropSpec) : Rejects E w nm v q →
      Picks E w nm v ps o → Picks E w nm v (q :: ps) o

/-- A property stored under its own name. -/
def OwnSpec (e : Entry) (p : PropSpec) : Prop := e = .mutable p ∨ e = .gettable p

/-- The serialized properties without those that are None, with the name of
the class if it is wanted. -/
def complete (includeClass : Bool) (name : PyStr) (data : List (Val × Val)) : List (Val × Val) :=
  if includeClass then
    dictSet (data.filter (fun kv => !kv.2.isNone)) (.str (s% "__class__")) (.str name)
  else data.filter (fun kv => !kv.2.isNone)

/-- Function `f`, called as serializers and deserializers are, gives `j`: with
the options `kw` or, when it refuses them with a TypeError, with the value
alone. -/
inductive Answers (E : Env) (f : FnId) (v : Val) (kw : List Val) : Val → Prop
  | full (j : Val) : E.fn f (v :: kw) = .ret j → Answers E f v kw j
  | short (e : PyErr) (j : Val) : E.fn f (v :: kw) = .raise e → e.kind = .type →
      E.fn f [v] = .ret j → Answers E f v kw j

/-- Function `f`, called as serializers and deserializers are, raises `e`. -/
inductive Raises (E : Env) (f : FnId) (v : Val) (kw : List Val) : PyErr → Prop
  | full (e : PyErr) : E.fn f (v :: kw) = .raise e → e.kind ≠ .type → Raises E f v kw e
  | short (e e' : PyErr) : E.fn f (v :: kw) = .raise e → e.kind = .type →
      E.fn f [v] = .raise e' → Raises E f v kw e'

/-- The options handed to a serializer. -/
def serOpts (ic : Bool) : List Val := [.bool ic, .bool false]

mutual
/-- `j` is the serialized form of `v` as a value of property `nm` with
declaration `p`.  A registered serializer decides alone, also about None. -/
inductive SerP (E : Env) (w : World) (ic : Bool) : PyStr → PropSpec → Val → Val → Prop
  | custom (nm : PyStr) (p : PropSpec) (f : FnId) (v j : Val) : p.ser = some f →
      Answers E f v (serOpts ic) j → SerP E w ic nm p v j
  | none (nm : PyStr) (p : PropSpec) : p.ser = Option.none → SerP E w ic nm p .none .none
  | scalar (nm : PyStr) (p : PropSpec) (v j : Val) : p.ser = Option.none → v ≠ .none →
      scalarToJson E p.ty v = some (.ok j) → SerP E w ic nm p v j
  | seq (nm : PyStr) (p it : PropSpec) (k : SeqKind) (lo hi : Option Nat) (c : Bool) (v : Val)
      (xs js : List Val) : p.ser = Option.none → v ≠ .none → p.ty = .seq k it lo hi c → v.iter? = some xs →
      SerL E w ic nm it xs js → SerP E w ic nm p v (.list js)
  | dict (nm : PyStr) (p kp vp : PropSpec) (c : Bool) (kvs jvs : List (Val × Val)) :
      p.ser = Option.none → p.ty = .dict kp vp c → SerD E w ic nm kp vp kvs jvs → (∀ kv ∈ jvs, kv.1.hashable = true) →
      SerP E w ic nm p (.dict kvs) (.dict (dictOfPairs jvs))
  | inst (nm : PyStr) (p : PropSpec) (c : ClsId) (r : Nat) (j : Val) :
      p.ser = Option.none → p.ty = .inst c → SerO E w ic r j → SerP E w ic nm p (.obj r) j
  | copy (nm : PyStr) (p : PropSpec) (c : ClsId) (v j : Val) :
      p.ser = Option.none → p.ty = .inst c → v ≠ .none →
      (∀ r, v ≠ .obj r) → E.jsonCopy v = some j → SerP E w ic nm p v j
  | union (nm : PyStr) (p : PropSpec) (ps : List PropSpec) (s : Bool) (v : Val) (q : PropSpec)
      (j : Val) : p.ser = Option.none → v ≠ .none → p.ty = .union ps s → Picks E w nm v ps (some q) →
      SerP E w ic nm q v j → SerP E w ic nm p v j
  | unionObj (nm : PyStr) (p : PropSpec) (ps : List PropSpec) (s : Bool) (r : Nat) (j : Val) :
      p.ser = Option.none → p.ty = .union ps s → Picks E w nm (.obj r) ps Option.none → SerO E w ic r j →
      SerP E w ic nm p (.obj r) j
  | unionAsIs (nm : PyStr) (p : PropSpec) (ps : List PropSpec) (s : Bool) (v : Val) :
      p.ser = Option.none → v ≠ .none → p.ty = .union ps s → Picks E w nm v ps Option.none → (∀ r, v ≠ .obj r) →
      SerP E w ic nm p v v
/-- Item by item. -/
inductive SerL (E : Env) (w : World) (ic : Bool) : PyStr → PropSpec → List Val → List Val → Prop
  | nil (nm : PyStr) (p : PropSpec) : SerL E w ic nm p [] []
  | cons (nm : PyStr) (p : PropSpec) (x j : Val) (xs js : List Val) : SerP E w ic nm p x j →
      SerL E w ic nm p xs js → SerL E w ic nm p (x :: xs) (j :: js)
/-- Pair by pair. -/
inductive SerD (E : Env) (w : World) (ic : Bool) : PyStr → PropSpec → PropSpec →
    List (Val × Val) → List (Val × Val) → Prop
  | nil (nm : PyStr) (kp vp : PropSpec) : SerD E w ic nm kp vp [] []
  | cons (nm : PyStr) (kp vp : PropSpec) (k x jk jx : Val) (kvs jvs : List (Val × Val)) :
      SerP E w ic nm kp k jk → SerP E w ic nm vp x jx → SerD E w ic nm kp vp kvs jvs →
      SerD E w ic nm kp vp ((k, x) :: kvs) ((jk, jx) :: jvs)
/-- `j` is the serialized form of instance `r`. -/
inductive SerO (E : Env) (w : World) (ic : Bool) : Nat → Val → Prop
  | mk (r : Nat) (o : Obj) (data : List (Val × Val)) : w.objs[r]? = some o →
      SerF E w ic o.cls o.backend data →
      SerO E w ic r (.dict (complete ic (E.classes o.cls).name data))
/-- Property by property. -/
inductive SerF (E : Env) (w : World) (ic : Bool) : ClsId → List (PyStr × Val) →
    List (Val × Val) → Prop
  | nil (c : ClsId) : SerF E w ic c [] []
  | cons (c : ClsId) (nm : PyStr) (v : Val) (e : Entry) (p : PropSpec) (j : Val)
      (rest : List (PyStr × Val)) (data : List (Val × Val)) :
      lookupS nm (E.classes c).props = some e → OwnSpec e p → SerP E w ic nm p v j →
      SerF E w ic c rest data → SerF E w ic c ((nm, v) :: rest) ((.str nm, j) :: data)
end

/-- Serializing `v` as a value of property `nm` with declaration `p` comes to
instance `s`. -/
inductive Visits (E : Env) (w : World) : PyStr → PropSpec → Val → Nat → Prop
  | inst (nm : PyStr) (p : PropSpec) (c : ClsId) (s : Nat) : p.ser = none → p.ty = .inst c →
      Visits E w nm p (.obj s) s
  | item (nm : PyStr) (p it : PropSpec) (k : SeqKind) (lo hi : Option Nat) (c : Bool) (v x : Val)
      (xs : List Val) (s : Nat) : p.ser = none → p.ty = .seq k it lo hi c → v.iter? = some xs → x ∈ xs →
      Visits E w nm it x s → Visits E w nm p v s
  | key (nm : PyStr) (p kp vp : PropSpec) (c : Bool) (kvs : List (Val × Val)) (kv : Val × Val)
      (s : Nat) : p.ser = none → p.ty = .dict kp vp c → kv ∈ kvs → Visits E w nm kp kv.1 s →
      Visits E w nm p (.dict kvs) s
  | value (nm : PyStr) (p kp vp : PropSpec) (c : Bool) (kvs : List (Val × Val)) (kv : Val × Val)
      (s : Nat) : p.ser = none → p.ty = .dict kp vp c → kv ∈ kvs → Visits E w nm vp kv.2 s →
      Visits E w nm p (.dict kvs) s
  | union (nm : PyStr) (p : PropSpec) (ps : List PropSpec) (st : Bool) (v : Val) (q : PropSpec)
      (s : Nat) : p.ser = none → p.ty = .union ps st → Picks E w nm v ps (some q) → Visits E w nm q v s →
      Visits E w nm p v s
  | unionObj (nm : PyStr) (p : PropSpec) (ps : List PropSpec) (st : Bool) (s : Nat) :
      p.ser = none → p.ty = .union ps st → Picks E w nm (.obj s) ps none → Visits E w nm p (.obj s) s

/-- Instance `r` refers to instance `s`: some property of `r` holds `s`, or a
list, set, tuple or dictionary with `s` in it. -/
def RefersOn (E : Env) (w : World) (r s : Nat) : Prop :=
  ∃ o nm v e p, w.objs[r]? = some o ∧ (nm, v) ∈ o.backend ∧
    lookupS nm (E.classes o.cls).props = some e ∧ OwnSpec e p ∧ Visits E w nm p v s

/-- `s` can be reached from `r`. -/
inductive Reaches (E : Env) (w : World) : Nat → Nat → Prop
  | refl (r : Nat) : Reaches E w r r
  | step (r s t : Nat) : RefersOn E w r s → Reaches E w s t → Reaches E w r t

/-- `r` can be reached from itself. -/
def OnCycle (E : Env) (w : World) (r : Nat) : Prop := ∃ s, RefersOn E w r s ∧ Reaches E w s r

/-- Apart from the instances in it, `v` can be serialized. -/
inductive Fine (E : Env) (w : World) (ic : Bool) : PyStr → PropSpec → Val → Prop
  | custom (nm : PyStr) (p : PropSpec) (f : FnId) (v j : Val) : p.ser = some f →
      Answers E f v (serOpts ic) j → Fine E w ic nm p v
  | none (nm : PyStr) (p : PropSpec) : p.ser = Option.none → Fine E w ic nm p .none
  | scalar (nm : PyStr) (p : PropSpec) (v j : Val) :
      p.ser = Option.none → scalarToJson E p.ty v = some (.ok j) → Fine E w ic nm p v
  | seq (nm : PyStr) (p it : PropSpec) (k : SeqKind) (lo hi : Option Nat) (c : Bool) (v : Val)
      (xs : List Val) : p.ser = Option.none → p.ty = .seq k it lo hi c → v.iter? = some xs →
      (∀ x ∈ xs, Fine E w ic nm it x) → Fine E w ic nm p v
  | dict (nm : PyStr) (p kp vp : PropSpec) (c : Bool) (kvs : List (Val × Val)) :
      p.ser = Option.none → p.ty = .dict kp vp c → (∀ kv ∈ kvs, Fine E w ic nm kp kv.1) →
      (∀ kv ∈ kvs, Fine E w ic nm vp kv.2) →
      (∀ kv ∈ kvs, ∀ j, SerP E w ic nm kp kv.1 j → j.hashable = true) →
      Fine E w ic nm p (.dict kvs)
  | inst (nm : PyStr) (p : PropSpec) (c : ClsId) (r : Nat) (o : Obj) : p.ser = Option.none → p.ty = .inst c →
      w.objs[r]? = some o → Fine E w ic nm p (.obj r)
  | copy (nm : PyStr) (p : PropSpec) (c : ClsId) (v j : Val) : p.ser = Option.none → p.ty = .inst c →
      (∀ r, v ≠ .obj r) → E.jsonCopy v = some j → Fine E w ic nm p v
  | union (nm : PyStr) (p : PropSpec) (ps : List PropSpec) (s : Bool) (v : Val) (q : PropSpec) :
      p.ser = Option.none → p.ty = .union ps s → Picks E w nm v ps (some q) → Fine E w ic nm q v → Fine E w ic nm p v
  | unionObj (nm : PyStr) (p : PropSpec) (ps : List PropSpec) (s : Bool) (r : Nat) (o : Obj) :
      p.ser = Option.none → p.ty = .union ps s → Picks E w nm (.obj r) ps Option.none → w.objs[r]? = some o →
      Fine E w ic nm p (.obj r)
  | unionAsIs (nm : PyStr) (p : PropSpec) (ps : List PropSpec) (s : Bool) (v : Val) :
      p.ser = Option.none → p.ty = .union ps s → Picks E w nm v ps Option.none → (∀ r, v ≠ .obj r) →
      Fine E w ic nm p v

/-- As a serializer, `f` answers for `v` or raises an error of its own. -/
def Computes (E : Env) (f : FnId) (v : Val) : Prop :=
  ∀ ic, (∃ j, Answers E f v (serOpts ic) j) ∨
    ∃ e, Raises E f v (serOpts ic) e ∧ e.kind ≠ .recursion

mutual
/-- Registered serializers compute their answer for `v` without touching
instances, and trying the alternatives of a Union on `v` builds no instances. -/
def Tame (E : Env) : PropSpec → Val → Prop
  | .mk _ s _ _ ty, v => (s = none ∧ TameTy E ty v) ∨ ∃ f, s = some f ∧ Computes E f v
def TameTy (E : Env) : PropTy → Val → Prop
  | .seq _ item _ _ _, v => ∀ xs, v.iter? = some xs → ∀ x ∈ xs, Tame E item x
  | .dict kp vp _, v => ∀ kvs, v = .dict kvs → ∀ kv ∈ kvs, Tame E kp kv.1 ∧ Tame E vp kv.2
  | .union ps _, v => TameAll E ps v
  | _, _ => True
def TameAll (E : Env) : List PropSpec → Val → Prop
  | [], _ => True
  | p :: ps, v => (Still p v ∧ Tame E p v) ∧ TameAll E ps v
end

/-- All stored values belong to properties stored under their own names, nested
at most `D` deep, with serializers that only compute. -/
def TameWorld (E : Env) (D : Nat) (w : World) : Prop :=
  ∀ (r : Nat) (o : Obj), w.objs[r]? = some o → (o.backend.map (·.1)).Nodup ∧
    ∀ nm v, (nm, v) ∈ o.backend → ∃ e p, lookupS nm (E.classes o.cls).props = some e ∧
      OwnSpec e p ∧ Tame E p v ∧ depth p ≤ D

/-- All stored values can be serialized, apart from cycles. -/
def FineWorld (E : Env) (ic : Bool) (w : World) : Prop :=
  ∀ (r : Nat) (o : Obj), w.objs[r]? = some o → ∀ nm v, (nm, v) ∈ o.backend →
    ∀ e p, lookupS nm (E.classes o.cls).props = some e → OwnSpec e p → Fine E w ic nm p v

/-- Types whose values are not built from other values. -/
def ScalarTy : PropTy → Prop
  | .seq .. | .dict .. | .inst _ | .union .. => False
  | _ => True

/-- The property has a JSON form for `v`: a scalar is one the type admits (for a
plain Property, one that is JSON data), and so are the items of a container.
The first alternative of a Union that accepts the value has a JSON form for it.
A registered serializer answers with JSON data, with None for None only. -/
inductive Expressible (E : Env) (w : World) : PyStr → PropSpec → Val → Prop
  | custom (nm : PyStr) (p : PropSpec) (f : FnId) (v : Val) : p.ser = some f →
      (∀ ic j, Answers E f v (serOpts ic) j → Json j ∧ (j = .none ↔ v = .none)) →
      Expressible E w nm p v
  | none (nm : PyStr) (p : PropSpec) : p.ser = Option.none → Expressible E w nm p .none
  | scalar (nm : PyStr) (p : PropSpec) (v : Val) : p.ser = Option.none → ScalarTy p.ty → Admits E w p.ty v →
      (p.ty = .any → Json v) → Expressible E w nm p v
  | seq (nm : PyStr) (p it : PropSpec) (k : SeqKind) (lo hi : Option Nat) (c : Bool) (v : Val) :
      p.ser = Option.none → p.ty = .seq k it lo hi c → (∀ xs, v.iter? = some xs → ∀ x ∈ xs, Expressible E w nm it x) →
      Expressible E w nm p v
  | dict (nm : PyStr) (p kp vp : PropSpec) (c : Bool) (v : Val) : p.ser = Option.none → p.ty = .dict kp vp c →
      (∀ kvs, v = .dict kvs → ∀ kv ∈ kvs, Expressible E w nm kp kv.1) →
      (∀ kvs, v = .dict kvs → ∀ kv ∈ kvs, Expressible E w nm vp kv.2) → Expressible E w nm p v
  | inst (nm : PyStr) (p : PropSpec) (c : ClsId) (v : Val) : p.ser = Option.none → p.ty = .inst c →
      Expressible E w nm p v
  | union (nm : PyStr) (p : PropSpec) (ps : List PropSpec) (s : Bool) (v : Val) :
      p.ser = Option.none → p.ty = .union ps s → (∀ q, Picks E w nm v ps (some q) → Expressible E w nm q v) →
      (Picks E w nm v ps Option.none → Json v ∨ ∃ r, v = .obj r) → Expressible E w nm p v

/-- All stored values have a JSON form. -/
def ExpressibleWorld (E : Env) (w : World) : Prop :=
  ∀ (r : Nat) (o : Obj), w.objs[r]? = some o → ∀ nm v, (nm, v) ∈ o.backend →
    ∀ e p, lookupS nm (E.classes o.cls).props = some e → OwnSpec e p → Expressible E w nm p v

/-- `json.loads(json.dumps(v))` is JSON data, and None only for None. -/
def JsonCopies (E : Env) : Prop :=
  ∀ v j, E.jsonCopy v = some j → Json j ∧ (j = .none → v = .none)

mutual
/-- Types with JSON forms for all the values they admit: neither plain Property
nor Union, nor a custom serializer, at any depth. -/
def Definite : PropSpec → Prop
  | .mk _ s _ _ ty => s = none ∧ DefiniteTy ty
def DefiniteTy : PropTy → Prop
  | .any | .union .. => False
  | .seq _ item _ _ _ => Definite item
  | .dict kp vp _ => Definite kp ∧ Definite vp
  | _ => True
end

/-- No `serialize()` call is in progress. -/
def Unmarked (w : World) : Prop :=
  ∀ (r : Nat) (o : Obj), w.objs[r]? = some o → o.gs = false

end Verif.Spec
