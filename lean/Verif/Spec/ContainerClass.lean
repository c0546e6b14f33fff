import Verif.Models.ContainerClass

/-!
# Subclasses, and when a property accepts a value
-/

namespace Verif.Spec.ContCls
open Verif.ContCls

/-- `issubclass(c, b)`. -/
inductive Sub (ps : List (Option Nat)) : Nat → Nat → Prop
  | refl (c : Nat) : Sub ps c c
  | base {c p b : Nat} : ps[c]? = some (some p) → Sub ps p b → Sub ps c b

/-- A property takes a value of class `c`: an instance of its container, or anything if it
coerces. -/
def Takes (w : World) (p : PDecl) (c : Nat) (pairs : Bool) : Prop :=
  if p.coerce then (p.kind = .dict → pairs = true) else Sub w.parents c (builtin p.kind)

/-- The class that the value has before it is made observable: the class that was given, if it
may stay; the builtin one otherwise. -/
def Base (w : World) (p : PDecl) (c d : Nat) : Prop :=
  (d = c ∧ Sub w.parents c (builtin p.kind) ∧ ¬(p.kind = .dict ∧ p.coerce = true)) ∨
  (d = builtin p.kind ∧ (¬Sub w.parents c (builtin p.kind) ∨ (p.kind = .dict ∧ p.coerce = true)))

/-- Mutations of the value are observed. -/
def Watched (p : PDecl) : Prop := p.observe = true ∧ p.kind ≠ .tuple

/-- `c` was made by `observable_copy`. -/
def Made (w : World) (c : Nat) : Prop := ∃ d, (d, c) ∈ w.registry

/-- What the history keeps: classes are derived from earlier classes; a class has one
observable class, which is derived from it and is not the observable class of another; no
class made by `observable_copy` has an observable class itself. -/
structure Tidy (w : World) : Prop where
  size : 6 ≤ w.parents.length
  roots : ∀ c : Nat, c < 6 → w.parents[c]? = some none
  below : ∀ c p : Nat, w.parents[c]? = some (some p) → p < c
  known : ∀ d o, (d, o) ∈ w.registry → w.parents[o]? = some (some d)
  oneCopy : ∀ d o o', (d, o) ∈ w.registry → (d, o') ∈ w.registry → o = o'
  oneSource : ∀ d d' o, (d, o) ∈ w.registry → (d', o) ∈ w.registry → d = d'
  noTower : ∀ d o o', (d, o) ∈ w.registry → (o, o') ∉ w.registry
  stored : ∀ n c, w.slots n = some c → c < w.parents.length

/-- How many classes a program derives itself. -/
def derives : List Op → Nat
  | [] => 0
  | .derive _ :: l => derives l + 1
  | _ :: l => derives l

end Verif.Spec.ContCls
