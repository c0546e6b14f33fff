import Mathlib.Data.List.Forall2
import Verif.Core.Types

/-!
# Specification: containers item by item, alternatives in order
-/

namespace Verif.Spec

/-- The items are processed in order, each in the state the one before left. -/
inductive Each {α β : Type} (f : α → World → β → World → Prop) :
    List α → World → List β → World → Prop
  | nil (w : World) : Each f [] w [] w
  | cons {a : α} {as : List α} {b : β} {bs : List β} {w w1 w2 : World} :
      f a w b w1 → Each f as w1 bs w2 → Each f (a :: as) w (b :: bs) w2

/-- `ys` are the distinct ones among `xs`: the first of each group of equal
items, in order. -/
structure DistinctOf (xs ys : List Val) : Prop where
  sub : ys.Sublist xs
  distinct : ys.Pairwise (fun a b => pyEq a b = false)
  covers : ∀ pre x post, xs = pre ++ x :: post → x ∈ ys ∨ ∃ y ∈ ys, y ∈ pre ∧ pyEq y x = true

/-- Container `x` of the given kind holds the items `ys`. -/
inductive Packed : SeqKind → List Val → Val → Prop
  | tup (ys : List Val) : Packed .tup ys (.tup ys)
  | list (ys : List Val) : Packed .list ys (.list ys)
  | set (ys zs : List Val) : DistinctOf ys zs → (∀ y ∈ ys, y.hashable = true) →
      Packed .set ys (.set zs)

/-- `v` is a container of the kind. -/
def IsKind : SeqKind → Val → Prop
  | .tup, v => ∃ xs, v = .tup xs
  | .list, v => ∃ xs, v = .list xs
  | .set, v => ∃ xs, v = .set xs

/-- What a value offered to a container property is made of: the items of a
list, tuple or set, otherwise the value itself as only item. -/
inductive ItemsOf : Val → List Val → Prop
  | tup (xs : List Val) : ItemsOf (.tup xs) xs
  | list (xs : List Val) : ItemsOf (.list xs) xs
  | set (xs : List Val) : ItemsOf (.set xs) xs
  | single (v : Val) : (∀ k, ¬ IsKind k v) → ItemsOf v [v]

/-- `v` is an iterable of pairs `ps` with hashable first components. -/
def IsPairs (v : Val) (ps : List (Val × Val)) : Prop :=
  ∃ xs, v.iter? = some xs ∧
    List.Forall₂ (fun x (q : Val × Val) => x.iter? = some [q.1, q.2] ∧ q.1.hashable = true) xs ps

/-- Dictionary `d` results from inserting the pairs in order: its keys are the
distinct ones, each with the value inserted last for it. -/
structure DictOf (ps d : List (Val × Val)) : Prop where
  keys : DistinctOf (ps.map (·.1)) (d.map (·.1))
  last : ∀ k v, (k, v) ∈ d → ∃ pre k' post, ps = pre ++ (k', v) :: post ∧
    (k' = k ∨ pyEq k k' = true) ∧ ∀ q ∈ post, pyEq k q.1 = false

/-- The first alternative that accepts does so with result `x`; those before
it fail with errors of the classes that are skipped. -/
inductive First (skip : ErrKind → Bool) (f : PropSpec → World → Except PyErr Val × World) :
    List PropSpec → World → Val → World → Prop
  | here {p : PropSpec} {ps : List PropSpec} {w w' : World} {x : Val} :
      f p w = (.ok x, w') → First skip f (p :: ps) w x w'
  | later {p : PropSpec} {ps : List PropSpec} {w w1 w' : World} {e : PyErr} {x : Val} :
      f p w = (.error e, w1) → skip e.kind = true → First skip f ps w1 x w' →
      First skip f (p :: ps) w x w'

/-- All alternatives fail with skipped errors. -/
inductive AllSkipped (skip : ErrKind → Bool) (f : PropSpec → World → Except PyErr Val × World) :
    List PropSpec → World → World → Prop
  | nil (w : World) : AllSkipped skip f [] w w
  | cons {p : PropSpec} {ps : List PropSpec} {w w1 w' : World} {e : PyErr} :
      f p w = (.error e, w1) → skip e.kind = true → AllSkipped skip f ps w1 w' →
      AllSkipped skip f (p :: ps) w w'

/-- After skipped failures an alternative raises an error that is not skipped. -/
inductive Escapes (skip : ErrKind → Bool) (f : PropSpec → World → Except PyErr Val × World) :
    List PropSpec → World → PyErr → World → Prop
  | here {p : PropSpec} {ps : List PropSpec} {w w' : World} {e : PyErr} :
      f p w = (.error e, w') → skip e.kind = false → Escapes skip f (p :: ps) w e w'
  | later {p : PropSpec} {ps : List PropSpec} {w w1 w' : World} {e e' : PyErr} :
      f p w = (.error e, w1) → skip e.kind = true → Escapes skip f ps w1 e' w' →
      Escapes skip f (p :: ps) w e' w'

end Verif.Spec
