import Verif.Core.Types

/-!
# Which exceptions a call may end with

Written from the documentation of the library and the signatures of its
methods: the classes of exceptions each kind of call may raise on its own, and
what it means for user code to raise no others.
-/

namespace Verif.Spec.Exc

/-- Reading, writing, comparing, validating and constructing: ValidationError,
TypeError, AttributeError, OverflowError of number conversions, IndexError of
comparing a Dictionary with a list, RecursionError. -/
def access : ErrKind → Prop
  | .validation | .type | .attr | .overflow | .index | .recursion => True
  | _ => False

/-- Exceptions a call may end with on its own. -/
def own : Call → ErrKind → Prop
  | .serializeP .., k => access k ∨ k = .key ∨ k = .selfRef
  | .hpSerialize .., k => access k ∨ k = .key ∨ k = .selfRef
  | .deserializeP .., k => access k ∨ k = .value
  | .hpDeserialize .., k => access k ∨ k = .value
  | .copy .., k => access k ∨ k = .key ∨ k = .selfRef ∨ k = .value
  | .observe .., k => k = .attr ∨ k = .recursion
  | .userGet, k => k = .recursion
  | .userPut _, k => k = .recursion
  | _, k => access k

/-- User code that raises exceptions of the classes `U` only, provided the
calls it makes raise nothing but their own exceptions and those of `U`. -/
def Raises (U : ErrKind → Prop) : Prog → Prop
  | .ret _ => True
  | .raise e => U e.kind
  | .call c k => ∀ x, (∀ e, x = .error e → own c e.kind ∨ U e.kind) → Raises U (k x)
  | .disabled _ body k => Raises U body ∧
      ∀ x, (∀ e, x = .error e → U e.kind) → Raises U (k x)

/-- Declarations whose `validate` puts values into a set or a dict. -/
inductive Hashes : PropSpec → Prop
  | set {p item lo hi c} : p.ty = .seq .set item lo hi c → Hashes p
  | item {p k item lo hi c} : p.ty = .seq k item lo hi c → Hashes item → Hashes p
  | dict {p kp vp c} : p.ty = .dict kp vp c → Hashes p

/-- Declarations whose `validate` converts numbers or builds instances. -/
inductive Converts : PropSpec → Prop
  | integer {p c lo hi} : p.ty = .integer c lo hi → Converts p
  | float {p c lo hi} : p.ty = .float c lo hi → Converts p
  | complex {p c} : p.ty = .complex c → Converts p
  | inst {p c} : p.ty = .inst c → Converts p
  | item {p k item lo hi c} : p.ty = .seq k item lo hi c → Converts item → Converts p
  | key {p kp vp c} : p.ty = .dict kp vp c → Converts kp → Converts p
  | value {p kp vp c} : p.ty = .dict kp vp c → Converts vp → Converts p
  | alternative {p ps s q} : p.ty = .union ps s → q ∈ ps → Converts q → Converts p

/-- Declarations whose `validate` may build an instance. -/
inductive Builds : PropSpec → Prop
  | inst {p c} : p.ty = .inst c → Builds p
  | item {p k item lo hi c} : p.ty = .seq k item lo hi c → Builds item → Builds p
  | key {p kp vp c} : p.ty = .dict kp vp c → Builds kp → Builds p
  | value {p kp vp c} : p.ty = .dict kp vp c → Builds vp → Builds p
  | alternative {p ps s q} : p.ty = .union ps s → q ∈ ps → Builds q → Builds p

/-- What validating a value against declaration `p` may raise instead of
accepting it. -/
def rejects (p : PropSpec) (k : ErrKind) : Prop :=
  k = .validation ∨ k = .recursion ∨ (k = .type ∧ Hashes p) ∨ (k = .overflow ∧ Converts p) ∨
    (k = .index ∧ Builds p)

/-- Declarations whose `equal` compares instances. -/
inductive Visits : PropSpec → Prop
  | inst {p c} : p.ty = .inst c → Visits p
  | item {p k item lo hi c} : p.ty = .seq k item lo hi c → Visits item → Visits p
  | value {p kp vp c} : p.ty = .dict kp vp c → Visits vp → Visits p
  | alternative {p ps s q} : p.ty = .union ps s → q ∈ ps → Visits q → Visits p

/-- Declarations whose `equal` subtracts numbers. -/
inductive Subtracts : PropSpec → Prop
  | float {p c lo hi} : p.ty = .float c lo hi → Subtracts p
  | complex {p c} : p.ty = .complex c → Subtracts p
  | item {p k item lo hi c} : p.ty = .seq k item lo hi c → Subtracts item → Subtracts p
  | value {p kp vp c} : p.ty = .dict kp vp c → Subtracts vp → Subtracts p
  | alternative {p ps s q} : p.ty = .union ps s → q ∈ ps → Subtracts q → Subtracts p

/-- Declarations whose `equal` looks keys up. -/
inductive Looks : PropSpec → Prop
  | dict {p kp vp c} : p.ty = .dict kp vp c → Looks p
  | item {p k item lo hi c} : p.ty = .seq k item lo hi c → Looks item → Looks p
  | alternative {p ps s q} : p.ty = .union ps s → q ∈ ps → Looks q → Looks p

/-- What `equal` of declaration `p` may raise instead of answering: OverflowError
of subtracting a float from a huge int, IndexError of a Dictionary given lists,
RecursionError. -/
def differs (p : PropSpec) (k : ErrKind) : Prop :=
  k = .recursion ∨ (k = .overflow ∧ Subtracts p) ∨ (k = .index ∧ Looks p)

/-- Declarations with, at some depth, a Union one of whose alternatives subtracts
numbers or looks keys up. -/
inductive Mixes : PropSpec → Prop
  | here {p ps s q} : p.ty = .union ps s → q ∈ ps → Subtracts q ∨ Looks q → Mixes p
  | item {p k item lo hi c} : p.ty = .seq k item lo hi c → Mixes item → Mixes p
  | value {p kp vp c} : p.ty = .dict kp vp c → Mixes vp → Mixes p

end Verif.Spec.Exc
