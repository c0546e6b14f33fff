import Verif.Models.LinkProg
import Verif.Spec.Links
import Verif.Spec.Serialize
import Verif.Spec.Valid

/-!
# When the main model and the model of links describe the same situation
-/

namespace Verif.LinkProg.Spec
open Verif.Links Verif.Spec

/-- A frame for linked properties: the properties `D`, numbered; where each of them is, its
declaration, the values it may hold; the link objects by number. -/
structure Frame where
  D : Nat → Prop
  at_ : Nat → Nat × PyStr
  prop : Nat → PropSpec
  good : Nat → Val → Prop
  tab : Nat → DLink

/-- Only the log of error hook calls differs. -/
def SameButHooks (W W' : World) : Prop := ∃ h, W' = { W with hooks := h }

/-- The property validates and compares as the abstract environment says, at every recursion limit
from `N` on, in every state in which errors call no user code. -/
structure Behaves (E : Env) (LE : LEnv Val) (N : Nat) (F : Frame) (i : Nat) : Prop where
  accepts : ∀ v x, v ≠ .undef → LE.coerce i v = some x → F.good i x ∧ ∀ n W o, N ≤ n →
    W.objs[(F.at_ i).1]? = some o → (E.classes o.cls).hook = none →
    ∃ W', run E n (.validate (F.at_ i).2 (F.prop i) (some (F.at_ i).1) v) W = (.ok x, W') ∧ SameButHooks W W'
  refuses : ∀ v, v ≠ .undef → LE.coerce i v = none → ∀ n W o, N ≤ n → W.objs[(F.at_ i).1]? = some o →
    (E.classes o.cls).hook = none →
    ∃ e W', run E n (.validate (F.at_ i).2 (F.prop i) (some (F.at_ i).1) v) W = (.error e, W') ∧
      e.kind ≠ .recursion ∧ SameButHooks W W'
  equal : ∀ a b, F.good i a → F.good i b → ∀ n W, N ≤ n →
    ∃ y, run E n (.propEqual (F.prop i) a b) W = (.ok y, W) ∧ y.truthy = LE.equal i a b
  defined : ¬ F.good i .undef

/-- The frame describes the environment. -/
structure Fits (E : Env) (LE : LEnv Val) (N : Nat) (F : Frame) : Prop where
  pos : 1 ≤ N
  none_ : LE.noneV = .none
  behaves : ∀ i, F.D i → Behaves E LE N F i
  apart : ∀ i j, F.D i → F.D j → F.at_ i = F.at_ j → i = j
  code : ∀ d args, E.fn (F.tab d).fn args = listenerProg (F.tab d) args
  ids : ∀ d, (F.tab d).id = d

/-- A link of the abstract model is the link object with the same number. -/
structure Is (F : Frame) (l : Lnk Val) : Prop where
  src : F.D l.src ∧ F.at_ l.src = ((F.tab l.id).sr, (F.tab l.id).sn)
  tgt : F.D l.tgt ∧ F.at_ l.tgt = ((F.tab l.id).tr, (F.tab l.id).tn)
  only : (F.tab l.id).changeOnly = l.changeOnly
  /-- the transform gives the same value or raises, and never gives `undefined` -/
  same : ∀ x, x ≠ .undef → match (F.tab l.id).transform x with
    | .ok y => l.transform x = some y ∧ y ≠ .undef
    | .error e => l.transform x = none ∧ e.kind ≠ .recursion

/-- The listeners of one mode that links have put on property `i`. -/
def listenersAt (F : Frame) (w : LW Val) (i : Nat) : Mode → List Listener
  | .validate => []
  | .change => (observers w i true).map fun l => ⟨(F.at_ i).2, .change, (F.tab l.id).fn⟩
  | .set => (observers w i false).map fun l => ⟨(F.at_ i).2, .set, (F.tab l.id).fn⟩

/-- Property `i` in the state of the main model. -/
structure Holds (E : Env) (F : Frame) (W : World) (w : LW Val) (i : Nat) (o : Obj) : Prop where
  obj : W.objs[(F.at_ i).1]? = some o
  entry : lookupS (F.at_ i).2 (E.classes o.cls).props = some (.mutable (F.prop i))
  hook : (E.classes o.cls).hook = none
  value : lookupS (F.at_ i).2 o.backend = w.vals i
  listeners : ∀ m, o.listeners.filter (fun l => l.name == (F.at_ i).2 && l.mode == m) = listenersAt F w i m

/-- The two states describe the same situation: no listener is disabled, each property holds the same
value and has the links as its only listeners, and the flags of the links agree. -/
structure Sim (E : Env) (F : Frame) (W : World) (w : LW Val) : Prop where
  quar : W.quar = {}
  holds : ∀ i, F.D i → ∃ o, Holds E F W w i o
  good : ∀ i v, F.D i → w.vals i = some v → F.good i v
  flags : ∃ us ds, W.user = .tup [.list us, .list ds] ∧ (∀ d, hasId d us = w.unl d) ∧ (∀ d, hasId d ds = w.upd d)
  links : ∀ l ∈ w.links, Is F l

/-- The call returned exactly if the abstract one did, and did not end in RecursionError. -/
def Agrees {α : Type} (x : Except PyErr α) (res : Except LErr Unit) : Prop :=
  ((∃ v, x = .ok v) ↔ res = .ok ()) ∧ ∀ e, x = .error e → e.kind ≠ .recursion

/-- The program that does one operation. -/
def opProg (F : Frame) : LOp Val → Prog
  | .assign i v => .call (.setattr (F.at_ i).1 (F.at_ i).2 v) (keepValue .none)
  | .delete i => .call (.delattr (F.at_ i).1 (F.at_ i).2) (keepValue .none)
  | .create l now => createProg (F.tab l.id) now
  | .unlink d => flagProg d true
  | .relink d => flagProg d false

/-- The state after a history of operations, each of which may raise. -/
def after (E : Env) (F : Frame) (n : Nat) : List (LOp Val) → World → World
  | [], W => W
  | o :: os, W => after E F n os (runProg E n (opProg F o) W).2

/-- Operations on the properties and links of the frame; a value that is assigned is not `undefined`. -/
def WfOp (F : Frame) : LOp Val → Prop
  | .assign i v => F.D i ∧ v ≠ .undef
  | .delete i => F.D i
  | .create l _ => Is F l
  | .unlink _ => True
  | .relink _ => True

/-- A state without links: no listener is disabled, the properties are there, have no listeners and
hold values of their type. -/
structure Start (E : Env) (F : Frame) (W : World) : Prop where
  quar : W.quar = {}
  user : W.user = .tup [.list [], .list []]
  holds : ∀ i, F.D i → ∃ o, W.objs[(F.at_ i).1]? = some o ∧
    lookupS (F.at_ i).2 (E.classes o.cls).props = some (.mutable (F.prop i)) ∧ (E.classes o.cls).hook = none ∧
    (∀ l ∈ o.listeners, l.name ≠ (F.at_ i).2) ∧ ∀ v, lookupS (F.at_ i).2 o.backend = some v → F.good i v

/-- The stored value of a property. -/
def stored (F : Frame) (W : World) (i : Nat) : Option Val :=
  (W.objs[(F.at_ i).1]?).bind fun o => lookupS (F.at_ i).2 o.backend

/-- The same state in the model of links. -/
def start (F : Frame) (W : World) : LW Val := ⟨stored F W, [], fun _ => false, fun _ => false⟩

/-- Types that validate by themselves and draw no random numbers. -/
def Plain (ty : PropTy) : Prop := ScalarTy ty ∧ ty ≠ .color

/-- What such a type accepts, and how it compares the values it accepts. -/
noncomputable def plainEnv (E : Env) (prop : Nat → PropSpec) (good : Nat → Val → Prop) : LEnv Val where
  noneV := .none
  coerce i v := match scalarValidate E 0 (prop i).ty v with
    | some (.ok x) => some x
    | _ => none
  equal i a b := @decide (good i a ∧ good i b ∧ scalarEqual E (prop i).ty a b = some (.ok true)) (Classical.propDecidable _)

/-- The values of a property. -/
def goodFor (E : Env) (prop : Nat → PropSpec) (i : Nat) (x : Val) : Prop :=
  x ≠ .undef ∧ ∃ w, Admits E w (prop i).ty x

/-- Declarations that involve instances or colours. -/
inductive Stirs : PropSpec → Prop
  | inst {p c} : p.ty = .inst c → Stirs p
  | color {p} : p.ty = .color → Stirs p
  | item {p k item lo hi c} : p.ty = .seq k item lo hi c → Stirs item → Stirs p
  | key {p kp vp c} : p.ty = .dict kp vp c → Stirs kp → Stirs p
  | value {p kp vp c} : p.ty = .dict kp vp c → Stirs vp → Stirs p
  | alternative {p ps s q} : p.ty = .union ps s → q ∈ ps → Stirs q → Stirs p

/-- What `prop.validate(None, value)` and `prop.equal(a, b)` answer when nothing else is there. -/
noncomputable def aloneEnv (E : Env) (prop : Nat → PropSpec) (good : Nat → Val → Prop) : LEnv Val where
  noneV := .none
  coerce i v := match (run E (depth (prop i)) (.validate [] (prop i) none v) {}).1 with
    | .ok x => some x
    | .error _ => none
  equal i a b := @decide (good i a ∧ good i b ∧
    ∃ y, (run E (depth (prop i)) (.propEqual (prop i) a b) {}).1 = .ok y ∧ y.truthy = true) (Classical.propDecidable _)

/-- Types whose `equal` holds of the same values only. -/
def Exact : PropTy → Prop
  | .boolean _ | .integer .. | .string .. | .choice .. | .datetime | .uuid => True
  | _ => False

/-- Lists and Tuples, at any depth, of such types. -/
inductive ExactSeq : PropSpec → Prop
  | scalar {p} : Exact p.ty → ExactSeq p
  | list {p item lo hi c} : p.ty = .seq .list item lo hi c → ExactSeq item → ExactSeq p
  | tup {p item lo hi c} : p.ty = .seq .tup item lo hi c → ExactSeq item → ExactSeq p

end Verif.LinkProg.Spec
