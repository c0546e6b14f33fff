import Verif.Core.Interp
import Verif.Spec.Recursion

/-!
# Specification: valid instances

An instance is valid when its properties and class validators do not object
and the instances it refers to are valid.  References may form cycles, so
validity is the largest such notion: `r` is valid if it belongs to a set of
instances each of which is in order as far as the others in the set are.
-/

namespace Verif.Spec

/-- User code that only reads attributes and user state. -/
def Reader : Prog → Prop
  | .ret _ => True
  | .raise _ => True
  | .call (.getattr _ _) k => ∀ x, Reader (k x)
  | .call .userGet k => ∀ x, Reader (k x)
  | .call _ _ => False
  | .disabled .. => False

/-- What property `nm` of `r` holds; None if there is nothing. -/
def held (w : World) (r : Nat) (nm : PyStr) : Val :=
  match w.objs[r]? with
  | some o => (lookupS nm o.backend).getD .none
  | none => .none

/-- The value that is checked: None stands for the value the property holds. -/
def heldOr (w : World) (r : Nat) (nm : PyStr) (v : Val) : Val :=
  match v with
  | .none => held w r nm
  | v => v

/-- Validating `v` again succeeds and gives an equal value. -/
def Rechecks (E : Env) (m : Nat) (w : World) (nm : PyStr) (p : PropSpec) (r : Nat) (v : Val) :
    Prop :=
  ∃ v' t, (run E m (.validate nm p (some r) v) w).1 = .ok v' ∧
    (run E m (.propEqual p v v') w).1 = .ok t ∧ t.truthy = true

/-- `min_length <= n <= max_length`. -/
def WithinLength (lo hi : Option Nat) (n : Nat) : Prop :=
  (∀ a, lo = some a → a ≤ n) ∧ (∀ b, hi = some b → n ≤ b)

mutual
/-- `v` is in order for property `nm` of `r`, if the instances in `R` are
valid. -/
def Checks (E : Env) (m : Nat) (w : World) (R : Nat → Prop) (nm : PyStr) (r : Nat) :
    PropSpec → Val → Prop
  | .mk req s d df ty, v =>
      (heldOr w r nm v = .none → req = false) ∧
      (heldOr w r nm v ≠ .none → Rechecks E m w nm (.mk req s d df ty) r (heldOr w r nm v) ∧
        TyChecks E m w R nm r ty (heldOr w r nm v))
/-- The part that depends on the type: lengths, items, instances,
alternatives. -/
def TyChecks (E : Env) (m : Nat) (w : World) (R : Nat → Prop) (nm : PyStr) (r : Nat) :
    PropTy → Val → Prop
  | .seq _ item lo hi _, v => ∃ xs, v.iter? = some xs ∧ WithinLength lo hi xs.length ∧
      ∀ x ∈ xs, Checks E m w R nm r item x
  | .dict kp vp _, v => ∃ kvs, v = .dict kvs ∧
      ∀ kv ∈ kvs, Checks E m w R nm r kp kv.1 ∧ Checks E m w R nm r vp kv.2
  | .inst _, v => ∀ r', v = .obj r' → R r'
  | .union ps _, v => AnyChecks E m w R nm r ps v
  | _, _ => True
def AnyChecks (E : Env) (m : Nat) (w : World) (R : Nat → Prop) (nm : PyStr) (r : Nat) :
    List PropSpec → Val → Prop
  | [], _ => False
  | p :: ps, v => Checks E m w R nm r p v ∨ AnyChecks E m w R nm r ps v
end

/-- The validators registered for `nm`, called in order, each with what the
previous one returned, give `v'`. -/
inductive Passes (E : Env) (m : Nat) (w : World) (r : Nat) (nm : PyStr) (v0 : Val) :
    List FnId → Val → Val → Prop
  | nil (v : Val) : Passes E m w r nm v0 [] v v
  | cons (f : FnId) (fs : List FnId) (v v1 v2 : Val) :
      (runProg E m (E.fn f [.obj r, .str nm, v0, v, .str (s% "validate")]) w).1 = .ok v1 →
      Passes E m w r nm v0 fs v1 v2 → Passes E m w r nm v0 (f :: fs) v v2

/-- The validators of `nm` on `r` that are not switched off. -/
def validatorsOf (w : World) (r : Nat) (nm : PyStr) : List FnId :=
  match w.objs[r]? with
  | some o => if w.quar.validate then []
      else (o.listeners.filter (fun l => l.name == nm && l.mode == .validate)).map (·.fn)
  | none => []

/-- `v` and `v'` are equal in the sense of the property. -/
def EntrySame (E : Env) (m : Nat) (w : World) (e : Entry) (v v' : Val) : Prop :=
  match e with
  | .renamed _ => pyEq v v' = true
  | .mutable p => ∃ t, (run E m (.propEqual p v v') w).1 = .ok t ∧ t.truthy = true
  | .gettable p => ∃ t, (run E m (.propEqual p v v') w).1 = .ok t ∧ t.truthy = true
  | .dynamic p _ _ _ => ∃ t, (run E m (.propEqual p v v') w).1 = .ok t ∧ t.truthy = true

/-- The value property `nm` of `r` holds passes the checks of its declaration. -/
def EntryOk (E : Env) (m : Nat) (w : World) (R : Nat → Prop) (r : Nat) (nm : PyStr) (e : Entry) :
    Prop :=
  match e with
  | .mutable p => Checks E m w R nm r p .none
  | .gettable p => held w r nm ≠ .none → Rechecks E m w nm p r (held w r nm)
  | .dynamic p _ _ _ => held w r nm ≠ .none → Rechecks E m w nm p r (held w r nm)
  | .renamed _ => held w r nm ≠ .none → pyEq (held w r nm) (held w r nm) = true

/-- Property `nm` of `r` is in order: validators leave its value as it is, and
the value passes its own checks. -/
def PropOk (E : Env) (m : Nat) (w : World) (R : Nat → Prop) (r : Nat) (nm : PyStr) (e : Entry) :
    Prop :=
  (held w r nm ≠ .none → ∃ v', Passes E m w r nm (held w r nm) (validatorsOf w r nm)
      (held w r nm) v' ∧ EntrySame E m w e (held w r nm) v') ∧ EntryOk E m w R r nm e

/-- Class validator `f` returns something other than False. -/
def ValidatorOk (E : Env) (m : Nat) (w : World) (r : Nat) (f : FnId) : Prop :=
  ∃ v, (runProg E m (E.fn f [.obj r]) w).1 = .ok v ∧ v ≠ .bool false

/-- Instance `r` is in order if those in `R` are valid. -/
def LocallyValid (E : Env) (m : Nat) (w : World) (R : Nat → Prop) (r : Nat) : Prop :=
  ∃ o, w.objs[r]? = some o ∧ ∀ x ∈ (E.classes o.cls).validators, match x with
    | none => ∀ ne ∈ (E.classes o.cls).props, PropOk E m w R r ne.1 ne.2
    | some f => ValidatorOk E m w r f

/-- Instance `r` is valid, the instances in `G` being taken for granted. -/
def ValidGiven (E : Env) (m : Nat) (w : World) (G : Nat → Prop) (r : Nat) : Prop :=
  ∃ S : Nat → Prop, S r ∧ ∀ x, S x → G x ∨ LocallyValid E m w S x

/-- Instance `r` is valid. -/
def Valid (E : Env) (m : Nat) (w : World) (r : Nat) : Prop :=
  ∃ S : Nat → Prop, S r ∧ ∀ x, S x → LocallyValid E m w S x

/-- The declaration of a property; a renamed property has none of its own. -/
def specOf : Entry → Option PropSpec
  | .mutable p => some p
  | .gettable p => some p
  | .dynamic p _ _ _ => some p
  | .renamed _ => none

/-- Checking property `nm` of `r` involves checking `v` against `p`. -/
inductive Part (E : Env) (w : World) (r : Nat) (nm : PyStr) : PropSpec → Val → Prop
  | root (o : Obj) (e : Entry) (p : PropSpec) : w.objs[r]? = some o →
      (nm, e) ∈ (E.classes o.cls).props → specOf e = some p → Part E w r nm p (held w r nm)
  | item (p item : PropSpec) (k : SeqKind) (lo hi : Option Nat) (c : Bool) (v : Val) (xs : List Val)
      (x : Val) : Part E w r nm p v → p.ty = .seq k item lo hi c → v.iter? = some xs → x ∈ xs →
      Part E w r nm item (heldOr w r nm x)
  | key (p kp vp : PropSpec) (c : Bool) (kvs : List (Val × Val)) (kv : Val × Val) :
      Part E w r nm p (.dict kvs) → p.ty = .dict kp vp c → kv ∈ kvs →
      Part E w r nm kp (heldOr w r nm kv.1)
  | value (p kp vp : PropSpec) (c : Bool) (kvs : List (Val × Val)) (kv : Val × Val) :
      Part E w r nm p (.dict kvs) → p.ty = .dict kp vp c → kv ∈ kvs →
      Part E w r nm vp (heldOr w r nm kv.2)
  | alternative (p q : PropSpec) (ps : List PropSpec) (s : Bool) (v : Val) : Part E w r nm p v →
      p.ty = .union ps s → q ∈ ps → Part E w r nm q v

/-- Property `nm` of `r` holds a value in which `v` is a value of `p`, looking
inside nested containers. -/
inductive Inside (E : Env) (w : World) (r : Nat) (nm : PyStr) : PropSpec → Val → Prop
  | root (o : Obj) (p : PropSpec) : w.objs[r]? = some o →
      (nm, Entry.mutable p) ∈ (E.classes o.cls).props → Inside E w r nm p (held w r nm)
  | item (p item : PropSpec) (k : SeqKind) (lo hi : Option Nat) (c : Bool) (v : Val) (xs : List Val)
      (x : Val) : Inside E w r nm p v → p.ty = .seq k item lo hi c → v.iter? = some xs → x ∈ xs →
      Inside E w r nm item x
  | key (p kp vp : PropSpec) (c : Bool) (kvs : List (Val × Val)) (kv : Val × Val) :
      Inside E w r nm p (.dict kvs) → p.ty = .dict kp vp c → kv ∈ kvs → Inside E w r nm kp kv.1
  | value (p kp vp : PropSpec) (c : Bool) (kvs : List (Val × Val)) (kv : Val × Val) :
      Inside E w r nm p (.dict kvs) → p.ty = .dict kp vp c → kv ∈ kvs → Inside E w r nm vp kv.2

mutual
/-- Validating `v` builds no instance from a dictionary and draws no random
colour. -/
def Still : PropSpec → Val → Prop
  | .mk _ _ _ _ ty, v => StillTy ty v
def StillTy : PropTy → Val → Prop
  | .seq _ item _ _ _, v => (∀ x ∈ v.items, Still item x) ∧ (v.isContainer = false → Still item v)
  | .dict kp vp _, v => ∀ kvs, dictCoerce? v = some kvs → ∀ kv ∈ kvs, Still kp kv.1 ∧ Still vp kv.2
  | .inst _, v => ∀ kvs, v ≠ .dict kvs
  | .union ps _, v => StillAll ps v
  | .color, v => ∀ s, v ≠ .str s
  | _, _ => True
def StillAll : List PropSpec → Val → Prop
  | [], _ => True
  | p :: ps, v => Still p v ∧ StillAll ps v
end

mutual
/-- Nesting depth of a declaration. -/
def depth : PropSpec → Nat
  | .mk _ _ _ _ ty => depthTy ty + 1
def depthTy : PropTy → Nat
  | .seq _ item _ _ _ => depth item
  | .dict kp vp _ => max (depth kp) (depth vp)
  | .union ps _ => depthAll ps
  | _ => 0
def depthAll : List PropSpec → Nat
  | [] => 0
  | p :: ps => max (depth p) (depthAll ps)
end

/-- Declared nesting of a property of a class. -/
def entryDepth : Entry → Nat
  | .mutable p => depth p
  | .gettable p => depth p
  | .dynamic p _ _ _ => depth p
  | .renamed _ => 0

/-- An error the library handles; a ValidationError says what is wrong. -/
def Ordinary (e : PyErr) : Prop :=
  e.kind.isGeneric = true ∧ (e.kind = .validation → e.tuples ≠ [])

/-- Instance `x` is being validated or initialised. -/
def Busy (w : World) (x : Nat) : Prop := ∃ o, w.objs[x]? = some o ∧ o.gv = some true

/-- Classes for which reading an attribute only looks: getters read, and what
they return is not turned into new instances; error hooks are the default
one. -/
structure Looks (E : Env) : Prop where
  hook : ∀ c, (E.classes c).hook = none
  getter : ∀ c nm p g s d, (nm, Entry.dynamic p g s d) ∈ (E.classes c).props →
    ∀ args, Reader (E.fn g args)
  dynamic : ∀ c nm p g s d, (nm, Entry.dynamic p g s d) ∈ (E.classes c).props → ∀ v, Still p v

/-- User code lets RecursionError through, reading an attribute ends within
recursion depth `K`, and declarations are nested at most `D` deep. -/
structure Prompt (E : Env) (K D : Nat) : Prop where
  transparent : ∀ f args, Transparent (E.fn f args)
  getattr : ∀ n, K ≤ n → ∀ r nm w, ¬ Overflows (run E n (.getattr r nm) w)
  depth : ∀ c, ∀ ne ∈ (E.classes c).props, entryDepth ne.2 ≤ D

/-- User code that only reads, and whose errors satisfy `Z`. -/
def Civil (E : Env) (K : Nat) (w : World) (Z : PyErr → Prop) (p : Prog) : Prop :=
  Reader p ∧ ∀ n, K ≤ n → ∀ e, (runProg E n p w).1 = .error e → Z e

/-- Validators only read, checking what the instances hold builds no new
instances, and all errors that occur satisfy `Z`. -/
structure Calm (E : Env) (K m : Nat) (w : World) (Z : PyErr → Prop) : Prop where
  classValidator : ∀ r o f, w.objs[r]? = some o → some f ∈ (E.classes o.cls).validators →
    Civil E K w Z (E.fn f [.obj r])
  validator : ∀ r nm f v v', f ∈ validatorsOf w r nm →
    Civil E K w Z (E.fn f [.obj r, .str nm, v, v', .str (s% "validate")])
  still : ∀ r nm p v, Part E w r nm p v → v ≠ .none → Still p v
  validate : ∀ r nm p v e, Part E w r nm p v → v ≠ .none →
    (run E m (.validate nm p (some r) v) w).1 = .error e → Z e
  equal : ∀ r nm p v v' e, Part E w r nm p v → v ≠ .none →
    (run E m (.validate nm p (some r) v) w).1 = .ok v' →
    (run E m (.propEqual p v v') w).1 = .error e → Z e
  listened : ∀ r nm o en p v' e, w.objs[r]? = some o → (nm, en) ∈ (E.classes o.cls).props →
    specOf en = some p →
    Passes E m w r nm (held w r nm) (validatorsOf w r nm) (held w r nm) v' →
    (run E m (.propEqual p (held w r nm) v') w).1 = .error e → Z e

/-- Containers hold containers, and references refer to instances. -/
structure Tidy (E : Env) (w : World) : Prop where
  seq : ∀ r nm p v k item lo hi c, Part E w r nm p v → v ≠ .none → p.ty = .seq k item lo hi c →
    ∃ xs, v.iter? = some xs
  dict : ∀ r nm p v kp vp c, Part E w r nm p v → v ≠ .none → p.ty = .dict kp vp c →
    ∃ kvs, v = .dict kvs
  ref : ∀ r nm p r' c, Part E w r nm p (.obj r') → p.ty = .inst c → ∃ o, w.objs[r']? = some o

/-- A ValidationError that says what is wrong. -/
def Telling (e : PyErr) : Prop := e.kind = .validation ∧ e.tuples ≠ []

/-- Two lists of the same length, related item by item. -/
inductive Matched {α β : Type} (R : α → β → Prop) : List α → List β → Prop
  | nil : Matched R [] []
  | cons {a : α} {b : β} {as : List α} {bs : List β} : R a b → Matched R as bs →
      Matched R (a :: as) (b :: bs)

/-- One list of tuples for each declared property, empty if the property is in
order. -/
def Reported (E : Env) (m : Nat) (w : World) (R : Nat → Prop) (r : Nat) (o : Obj)
    (ts : List ErrTuple) : Prop :=
  ∃ pre tss post, ts = pre ++ tss.flatten ++ post ∧
    Matched (fun ne ts => PropOk E m w R r ne.1 ne.2 ↔ ts = []) (E.classes o.cls).props tss

/-- Recursion depth that suffices to validate one of `N` instances. -/
def validationDepth (K D N : Nat) : Nat := (N + 1) * (2 * D + K + 4) + D + K + 1

end Verif.Spec
