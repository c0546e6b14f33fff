import Verif.Models.Observable
import Mathlib.Data.List.Forall2

/-!
# What observing mutations should guarantee
-/

namespace Verif.Obs.Spec

/-- The instance `i` holds the container `r` as its property `n`. -/
def Holds (w : W) (i n r : Nat) : Prop := w.slots i n = some r

/-- No property holds the container. -/
def Stale (w : W) (r : Nat) : Prop := r < w.cells.length ∧ ∀ i n, ¬ Holds w i n r

/-- Values that belong to a container property: the results of validating some
items. -/
def Allowed (sp : CSpec) (items : List Item) : Prop :=
  match sp.item with
  | .plain check => ∃ ys zs, List.Forall₂ (fun y z => check y = .ok z) ys zs ∧ items = sp.build zs
  | .nested _ => True

/-- Operations other than the in-place operators. -/
def Op.notInPlace : Op → Prop
  | .imutate .. => False
  | .iassign .. => False
  | _ => True

/-- What a listener for `validate` may do: look, create containers, raise. -/
def Op.onlyLooks : Op → Prop
  | .fail _ => True
  | .new .. => True
  | _ => False

/-- Listeners that use no in-place operators and whose validators only look. -/
structure FairListeners (E : Env) : Prop where
  plain : ∀ m i n w, ∀ o ∈ E.listener m i n w, Op.notInPlace o
  looks : ∀ i n w, ∀ o ∈ E.listener .validate i n w, Op.onlyLooks o

/-- Nothing but the items of one container differs. -/
structure OnlyItemsOf (r : Nat) (w w' : W) : Prop where
  slots : w'.slots = w.slots
  log : w'.log = w.log
  length : w'.cells.length = w.cells.length
  others : ∀ s, s ≠ r → w'.cells[s]? = w.cells[s]?

/-- New containers may exist; all else is as before. -/
structure OnlyCreates (w w' : W) : Prop where
  slots : w'.slots = w.slots
  log : w'.log = w.log
  cells : ∃ new, w'.cells = w.cells ++ new

end Verif.Obs.Spec
