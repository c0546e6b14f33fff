import Verif.Spec.Locality

/-!
# Specification: where instances are held
-/

namespace Verif.Spec

/-- One step from a value to a value inside of it. -/
inductive Hop
  /-- the item of a list, tuple or set with this number -/
  | item (i : Nat)
  /-- the key of the entry of a dictionary with this number -/
  | key (i : Nat)
  /-- the value of the entry of a dictionary with this number -/
  | entry (i : Nat)
  /-- the value of a property of an instance -/
  | prop (nm : PyStr)
  deriving DecidableEq

/-- Going from `v` along `π` leads to the instance `r`. -/
inductive Path (w : World) : Val → List Hop → Nat → Prop
  | here (r : Nat) : Path w (.obj r) [] r
  | list (xs : List Val) (i : Nat) (x : Val) (π : List Hop) (r : Nat) : xs[i]? = some x → Path w x π r →
      Path w (.list xs) (.item i :: π) r
  | tup (xs : List Val) (i : Nat) (x : Val) (π : List Hop) (r : Nat) : xs[i]? = some x → Path w x π r →
      Path w (.tup xs) (.item i :: π) r
  | set (xs : List Val) (i : Nat) (x : Val) (π : List Hop) (r : Nat) : xs[i]? = some x → Path w x π r →
      Path w (.set xs) (.item i :: π) r
  | key (kvs : List (Val × Val)) (i : Nat) (kv : Val × Val) (π : List Hop) (r : Nat) : kvs[i]? = some kv →
      Path w kv.1 π r → Path w (.dict kvs) (.key i :: π) r
  | entry (kvs : List (Val × Val)) (i : Nat) (kv : Val × Val) (π : List Hop) (r : Nat) : kvs[i]? = some kv →
      Path w kv.2 π r → Path w (.dict kvs) (.entry i :: π) r
  | prop (s : Nat) (o : Obj) (nm : PyStr) (v : Val) (π : List Hop) (r : Nat) : w.objs[s]? = some o →
      lookupS nm o.backend = some v → Path w v π r → Path w (.obj s) (.prop nm :: π) r

/-- No instance is held in two places: different ways from `v` lead to different
instances.  There is no cycle either. -/
def Unshared (w : World) (v : Val) : Prop := ∀ π ρ r, Path w v π r → Path w v ρ r → π = ρ

/-- No instance in the value itself. -/
def RefFree (v : Val) : Prop := ∀ r, ¬ RefIn r v

end Verif.Spec
