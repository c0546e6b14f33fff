import Verif.Models.LinkArgs

/-!
# What `link` and `directional_link` take
-/

namespace Verif.Spec.LinkArgs

open Verif.Links Verif.LinkArgs

variable {V : Type}

/-- A pair of an instance and the name of a property it has, whose place is `n`. -/
def Names (A : Attrs) (x : Arg) (n : Nat) : Prop := ∃ r s, x = .tuple [.inst r, .str s] ∧ A r s = some n

/-- Different properties are different places. -/
def Apart (A : Attrs) : Prop := ∀ r s r' s' n, A r s = some n → A r' s' = some n → r = r' ∧ s = s'

/-- The function a transform argument stands for: the identity, a callable without a code
object, or a function of one argument. -/
inductive Stands : TArg V → (V → Option V) → Prop
  | none : Stands .none some
  | opaque (f) : Stands (.callable none f) f
  | unary (f) : Stands (.callable (some 1) f) f

/-- The arguments are those of a link from `a` to `b`. -/
def Good (A : Attrs) (src tgt : Arg) (kw : Kw V) (a b : Nat) (f : V → Option V) : Prop :=
  Names A src a ∧ Names A tgt b ∧ src ≠ tgt ∧ Stands kw.transform f

/-- The ordered pairs of different positions, in the order of the loops. -/
def positions (n : Nat) : List (Nat × Nat) :=
  ((List.range n).flatMap fun i => (List.range n).map fun j => (i, j)).filter fun p => p.1 != p.2

/-- A pair of positions whose items can be linked. -/
def Fits (A : Attrs) (items : List Arg) (p : Nat × Nat) : Prop :=
  ∃ x y a b, items[p.1]? = some x ∧ items[p.2]? = some y ∧ Names A x a ∧ Names A y b ∧ x ≠ y

/-- The links for some pairs of positions. -/
def Joins (A : Attrs) (items : List Arg) (changeOnly : Bool) (l : Lnk V) (p : Nat × Nat) : Prop :=
  ∃ x y, items[p.1]? = some x ∧ items[p.2]? = some y ∧ Names A x l.src ∧ Names A y l.tgt ∧
    l.transform = some ∧ l.changeOnly = changeOnly

end Verif.Spec.LinkArgs
