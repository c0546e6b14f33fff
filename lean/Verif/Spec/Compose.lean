import Verif.Models.Compose
import Verif.Spec.Initial
import Verif.Spec.Valid
import Verif.Spec.Locality
import Verif.Spec.Serialize

/-!
# Specification: declarations of composed properties
-/

namespace Verif.Spec
open Verif.Compose (Kw Decl Arg Leaf)

/-- A setting that must be a bool, and what it is without being given. -/
def BoolSetting (dflt : Bool) (given : Option Val) (b : Bool) : Prop :=
  (given = none ∧ b = dflt) ∨ given = some (.bool b)

/-- A limit of a length: not given, or an int or bool that is not negative. -/
def LengthSetting (given : Option Val) (lim : Option Nat) : Prop :=
  (given = none ∧ lim = none) ∨ (∃ m : Nat, given = some (.int m) ∧ lim = some m) ∨
  (given = some (.bool false) ∧ lim = some 0) ∨ (given = some (.bool true) ∧ lim = some 1)

/-- Limits in order. -/
def LimitsOrdered (lo hi : Option Nat) : Prop := ∀ a b, lo = some a → hi = some b → a ≤ b

/-- A property whose value can be assigned; GettableProperty and Uuid are not. -/
def IsProperty (d : Decl) : Prop :=
  (∀ kw, d ≠ .gettable kw) ∧ ∀ kw h, d ≠ .leaf kw ⟨.uuid, h⟩

/-- The property with the general keywords of the declaration: the default is the one
given, as it was given. -/
def withKw (kw : Kw) (req : Bool) (dflt : Dflt) (ty : PropTy) : PropSpec := .mk req kw.ser kw.deser dflt ty

mutual
/-- The declaration `d` is well-formed, leaving aside whether defaults are acceptable, and
declares `p`. -/
inductive Declares : Decl → PropSpec → Prop
  | gettable (kw : Kw) : kw.required = none →
      Declares (.gettable kw) (withKw kw true (kw.dflt.getD .undef) .any)
  /-- a Uuid takes no default -/
  | uuid (kw : Kw) (h) : kw.required = none → kw.dflt = none →
      Declares (.leaf kw ⟨.uuid, h⟩) (withKw kw true .undef .uuid)
  | leaf (kw : Kw) (ty : Leaf) (req : Bool) : ty.1 ≠ .uuid → BoolSetting true kw.required req →
      Declares (.leaf kw ty) (withKw kw req (kw.dflt.getD .undef) ty.1)
  | seq (kw : Kw) (k : SeqKind) (item : Option Arg) (minL maxL coerce : Option Val) (it : PropSpec)
      (req co : Bool) (lo hi : Option Nat) : DeclaresInner item it → BoolSetting true kw.required req →
      LengthSetting minL lo → LengthSetting maxL hi → LimitsOrdered lo hi → BoolSetting false coerce co →
      Declares (.seq kw k item minL maxL coerce) (withKw kw req (kw.dflt.getD .undef) (.seq k it lo hi co))
  | dict (kw : Kw) (key val : Option Arg) (coerce : Option Val) (kp vp : PropSpec) (req co : Bool) :
      DeclaresInner key kp → DeclaresInner val vp → BoolSetting true kw.required req →
      BoolSetting false coerce co →
      Declares (.dict kw key val coerce) (withKw kw req (kw.dflt.getD .undef) (.dict kp vp co))
  /-- `auto_create` makes the class the default if none is given -/
  | inst (kw : Kw) (c : ClsId) (auto : Option Val) (req au : Bool) : BoolSetting true kw.required req →
      BoolSetting false auto au →
      Declares (.inst kw (some c) auto)
        (withKw kw req (kw.dflt.getD (if au then .cls c else .undef)) (.inst c))
  | union (kw : Kw) (as : List Arg) (strict : Option Val) (ps : List PropSpec) (req st : Bool) :
      DeclaresAll as ps → BoolSetting true kw.required req → BoolSetting false strict st →
      Declares (.union kw (some as) strict) (withKw kw req (kw.dflt.getD .undef) (.union ps st))
/-- An inner property: any value is allowed if none is given. -/
inductive DeclaresInner : Option Arg → PropSpec → Prop
  | absent : DeclaresInner none (.mk true none none .undef .any)
  | given (a : Arg) (p : PropSpec) : DeclaresElem a p → DeclaresInner (some a) p
/-- An inner property that is given: a property, or a HasProperties class standing for
an Instance property of it without default. -/
inductive DeclaresElem : Arg → PropSpec → Prop
  | prop (d : Decl) (p : PropSpec) : IsProperty d → Declares d p → DeclaresElem (.prop d) p
  | cls (c : ClsId) : DeclaresElem (.cls c) (.mk true none none .undef (.inst c))
inductive DeclaresAll : List Arg → List PropSpec → Prop
  | nil : DeclaresAll [] []
  | cons (a : Arg) (as : List Arg) (p : PropSpec) (ps : List PropSpec) : DeclaresElem a p → DeclaresAll as ps →
      DeclaresAll (a :: as) (p :: ps)
end

/-- The keywords. -/
def keywords : Decl → Kw
  | .gettable kw | .leaf kw _ | .seq kw .. | .dict kw .. | .inst kw .. | .union kw .. => kw

/-- The arguments that stand for inner properties. -/
def arguments : Decl → List Arg
  | .seq _ _ item _ _ _ => item.toList
  | .dict _ key val _ => key.toList ++ val.toList
  | .union _ props _ => props.getD []
  | _ => []

/-- `d'` is written in `d`, at any depth, or is `d`. -/
inductive WrittenIn : Decl → Decl → Prop
  | self (d : Decl) : WrittenIn d d
  | inner (d' e d : Decl) : WrittenIn d' e → .prop e ∈ arguments d → WrittenIn d' d

/-- No default anywhere that has to be checked. -/
def NoDefaults (d : Decl) : Prop :=
  ∀ d', WrittenIn d' d → (keywords d').dflt = none ∨ (keywords d').dflt = some .undef

/-- The default `δ` is tried on one property: it is evaluated and the value validated. -/
inductive TriedOk (E : Env) (n : Nat) (δ : Dflt) (p : PropSpec) : World → World → Prop
  | mk (w v w1 x w2) : Evaluates E n δ w v w1 → run E n (.validate [] p none v) w1 = (.ok x, w2) →
      TriedOk E n δ p w w2

/-- The attempt fails with a ValueError, KeyError, TypeError or AttributeError. -/
inductive TriedBad (E : Env) (n : Nat) (δ : Dflt) (p : PropSpec) : World → World → Prop
  | refused (w v w1 e w2) : Evaluates E n δ w v w1 → run E n (.validate [] p none v) w1 = (.error e, w2) →
      e.kind.isGeneric = true → TriedBad E n δ p w w2
  | fn (f w e w2) : δ = .fn f → runProg E n (E.fn f []) w = (.error e, w2) → e.kind.isGeneric = true →
      TriedBad E n δ p w w2
  | cls (c w e w2) : δ = .cls c → run E n (.construct c []) w = (.error e, w2) → e.kind.isGeneric = true →
      TriedBad E n δ p w w2

/-- One of the properties takes the default, the ones before it do not. -/
inductive OneTakes (E : Env) (n : Nat) (δ : Dflt) : List PropSpec → World → World → Prop
  | here (p ps w w') : TriedOk E n δ p w w' → OneTakes E n δ (p :: ps) w w'
  | later (p ps w w1 w') : TriedBad E n δ p w w1 → OneTakes E n δ ps w1 w' → OneTakes E n δ (p :: ps) w w'

/-- Where the default in force of a property comes from: the declaration itself, the
class of an Instance with `auto_create`, `uuid4` for a Uuid, or, for a Union without a
default, one of its alternatives. -/
inductive Source : Decl → Dflt → Prop
  | own (d : Decl) (δ : Dflt) : (keywords d).dflt = some δ → Source d δ
  | auto (kw : Kw) (c : ClsId) : kw.dflt = none → Source (.inst kw (some c) (some (.bool true))) (.cls c)
  | uuid (kw : Kw) (h) : kw.dflt = none → Source (.leaf kw ⟨.uuid, h⟩) .uuid4
  | alternative (kw : Kw) (as : List Arg) (strict : Option Val) (d : Decl) (δ : Dflt) :
      (kw.dflt = none ∨ kw.dflt = some .undef) → .prop d ∈ as → Source d δ → Source (.union kw (some as) strict) δ

/-- A default that always gives `v` and does nothing else: the value, or a function that
only returns it. -/
inductive Gives (E : Env) (v : Val) : Dflt → Prop
  | val : Gives E v (.val v)
  | fn (f : FnId) : E.fn f [] = .ret v → Gives E v (.fn f)

/-- Nothing in `v` depends on the state: no instance and none to be built, no random colour. -/
inductive Constant (E : Env) (p : PropSpec) (v : Val) : Prop
  | still : Still p v → (∀ r, ¬ RefIn r v) → Constant E p v
  | colour (s : PyStr) : p.ty = .color → v = .str s → colorIsRandom E s = false → Constant E p v

/-- Property `e`, called `nm` in class `c`, has no default, or the one it was declared with, and
that is constant; or it is a Uuid. -/
inductive ConstantDefault (E : Env) (n : Nat) (c : ClsId) (nm : PyStr) (e : Entry) : Prop
  | absent : classDefault E c nm e = .undef → ConstantDefault E n c nm e
  | uuid (p : PropSpec) : OwnSpec e p → p.ty = .uuid → classDefault E c nm e = .uuid4 → ConstantDefault E n c nm e
  | declared (p : PropSpec) (d : Decl) (k : Nat) (w w' : World) (δ : Dflt) (v : Val) : OwnSpec e p →
      classDefault E c nm e = δ → (keywords d).dflt = some δ → Gives E v δ →
      Compose.declare E (run E k) d w = (.ok p, w') → Constant E p v → depth p ≤ n →
      ConstantDefault E n c nm e

end Verif.Spec
