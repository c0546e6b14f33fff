import Verif.Core.Interp

/-!
# Specification: which instances a call can get hold of
-/

namespace Verif.Spec

/-- The instance `r` occurs in the value, at any depth inside containers. -/
inductive RefIn (r : Nat) : Val → Prop
  | obj : RefIn r (.obj r)
  | list (xs : List Val) (x : Val) : x ∈ xs → RefIn r x → RefIn r (.list xs)
  | tup (xs : List Val) (x : Val) : x ∈ xs → RefIn r x → RefIn r (.tup xs)
  | set (xs : List Val) (x : Val) : x ∈ xs → RefIn r x → RefIn r (.set xs)
  | key (kvs : List (Val × Val)) (kv : Val × Val) : kv ∈ kvs → RefIn r kv.1 → RefIn r (.dict kvs)
  | value (kvs : List (Val × Val)) (kv : Val × Val) : kv ∈ kvs → RefIn r kv.2 → RefIn r (.dict kvs)

/-- All instances in the value are in `O`. -/
def Only (O : Nat → Prop) (v : Val) : Prop := ∀ r, RefIn r v → O r

/-- The instance `s` occurs in a stored value of `r`. -/
def Stores (w : World) (r s : Nat) : Prop :=
  ∃ o nm v, w.objs[r]? = some o ∧ (nm, v) ∈ o.backend ∧ RefIn s v

/-- From an instance in `A` one gets to the instance through stored values. -/
inductive Connected (w : World) (A : Nat → Prop) : Nat → Prop
  | start (r : Nat) : A r → Connected w A r
  | next (r s : Nat) : Connected w A r → Stores w r s → Connected w A s

/-- The arguments of the call mention instance `r`. -/
inductive Mentions (r : Nat) : Call → Prop
  | validateInst (nm : PyStr) (p : PropSpec) (v : Val) : Mentions r (.validate nm p (some r) v)
  | validate (nm : PyStr) (p : PropSpec) (i : Option Nat) (v : Val) : RefIn r v →
      Mentions r (.validate nm p i v)
  | propEqual1 (p : PropSpec) (a b : Val) : RefIn r a → Mentions r (.propEqual p a b)
  | propEqual2 (p : PropSpec) (a b : Val) : RefIn r b → Mentions r (.propEqual p a b)
  | assertInst (nm : PyStr) (p : PropSpec) (v : Val) : Mentions r (.assertValid nm p r v)
  | assert (nm : PyStr) (p : PropSpec) (i : Nat) (v : Val) : RefIn r v → Mentions r (.assertValid nm p i v)
  | serializeP (nm : PyStr) (p : PropSpec) (v : Val) (kw : SerKw) : RefIn r v →
      Mentions r (.serializeP nm p v kw)
  | deserializeP (nm : PyStr) (p : PropSpec) (v : Val) (kw : DeKw) : RefIn r v →
      Mentions r (.deserializeP nm p v kw)
  | construct (c : ClsId) (kw : List (PyStr × Val)) (nm : PyStr) (v : Val) : (nm, v) ∈ kw →
      RefIn r v → Mentions r (.construct c kw)
  | reset (nm : Option PyStr) : Mentions r (.reset r nm)
  | getattr (nm : PyStr) : Mentions r (.getattr r nm)
  | setattrInst (nm : PyStr) (v : Val) : Mentions r (.setattr r nm v)
  | setattr (i : Nat) (nm : PyStr) (v : Val) : RefIn r v → Mentions r (.setattr i nm v)
  | delattr (nm : PyStr) : Mentions r (.delattr r nm)
  | hpValidate : Mentions r (.hpValidate r)
  | validateProps : Mentions r (.validateProps r)
  | hpSerialize (kw : SerKw) : Mentions r (.hpSerialize r kw)
  | hpDeserialize (c : ClsId) (v : Val) (kw : DeKw) : RefIn r v → Mentions r (.hpDeserialize c v kw)
  | equal1 (a b : Val) : RefIn r a → Mentions r (.equal a b)
  | equal2 (a b : Val) : RefIn r b → Mentions r (.equal a b)
  | copy (v : Val) (s : SerKw) (d : DeKw) : RefIn r v → Mentions r (.copy v s d)
  | observe (ns : ObsNames) (m : Mode) (f : FnId) : Mentions r (.observe r ns m f)

/-- The call is made on instances in `O` only. -/
def CallOn (O : Nat → Prop) (c : Call) : Prop := ∀ r, Mentions r c → O r

/-- User code that works on the instances in `O` only: on those it was given, and
those it gets from its calls.  What is in the user state is not trusted. -/
def Confined (O : Nat → Prop) : Prog → Prop
  | .ret v => Only O v
  | .raise _ => True
  | .call c k => CallOn O c ∧ (∀ e, Confined O (k (.error e))) ∧
      ∀ v, (Only O v ∨ c = .userGet) → Confined O (k (.ok v))
  | .disabled _ body k => Confined O body ∧ (∀ e, Confined O (k (.error e))) ∧
      ∀ v, Only O v → Confined O (k (.ok v))

/-- A plain default value, at any place of the classes. -/
inductive DefaultValue (E : Env) : Val → Prop
  | dict (c : ClsId) (nm : PyStr) (v : Val) : (nm, .val v) ∈ (E.classes c).defaults → DefaultValue E v
  | mutable (c : ClsId) (nm : PyStr) (p : PropSpec) (v : Val) : (nm, .mutable p) ∈ (E.classes c).props →
      p.default = .val v → DefaultValue E v
  | gettable (c : ClsId) (nm : PyStr) (p : PropSpec) (v : Val) : (nm, .gettable p) ∈ (E.classes c).props →
      p.default = .val v → DefaultValue E v

/-- The program gets at instances in `O` only: user functions applied to these work
on these, default values contain no others, nor do results of `json`. -/
structure ClosedUnder (E : Env) (O : Nat → Prop) : Prop where
  fns : ∀ f args, (∀ v ∈ args, Only O v) → Confined O (E.fn f args)
  defaults : ∀ v, DefaultValue E v → Only O v
  json : ∀ v j, E.jsonCopy v = some j → Only O j

/-- The user code and the declarations of the program know no instances. -/
def NoGlobals (E : Env) : Prop := ∀ O, ClosedUnder E O

end Verif.Spec
