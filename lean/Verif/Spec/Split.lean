import Verif.Core.Types

/-!
# Specification: splitting a dictionary
-/

namespace Verif.Spec

/-- `a` are the entries of the first list whose key satisfies `P`, `b` the
others, both in order. -/
inductive Split (P : Val → Prop) :
    List (Val × Val) → List (Val × Val) → List (Val × Val) → Prop
  | nil : Split P [] [] []
  | left {k v : Val} {l a b : List (Val × Val)} : P k → Split P l a b →
      Split P ((k, v) :: l) ((k, v) :: a) b
  | right {k v : Val} {l a b : List (Val × Val)} : ¬ P k → Split P l a b →
      Split P ((k, v) :: l) a ((k, v) :: b)

/-- A dictionary has no two equal keys. -/
def DistinctKeys (d : List (Val × Val)) : Prop :=
  (d.map Prod.fst).Pairwise (fun a b => pyEq a b = false)

/-- A property that can be assigned: a mutable one or a renaming. -/
def Assignable : Entry → Prop
  | .mutable _ => True
  | .renamed _ => True
  | .gettable _ => False
  | .dynamic .. => False

/-- The key names a property that is to go into the first dictionary. -/
def Selected (E : Env) (c : ClsId) (includeImmutable : Bool) (k : Val) : Prop :=
  ∃ s e, k = .str s ∧ (s, e) ∈ (E.classes c).props ∧ (includeImmutable = true ∨ Assignable e)

end Verif.Spec
