import Verif.Models.ChoiceSet

/-! # What a StringChoice should be -/

namespace Verif.ChoiceSet.Spec
open Verif.ChoiceSet

/-- Two texts are the same choice. -/
def Alike (E : Env) (case : Bool) (a b : PyStr) : Prop :=
  a = b ∨ (case = false ∧ E.upper a = E.upper b)

/-- The text stands for the choice: it is the choice or one of its aliases. -/
def Stands (E : Env) (case : Bool) (t : Table) (s k : PyStr) : Prop :=
  ∃ a, (Item.text k, a) ∈ t ∧ (Alike E case s k ∨ ∃ x, Item.text x ∈ a.list ∧ Alike E case s x)

/-- A dictionary of choices: keys and aliases are text, and no text stands for two choices. -/
structure Sound (E : Env) (case : Bool) (t : Table) : Prop where
  keys : ∀ k a, (k, a) ∈ t → ∃ s, k = .text s
  aliases : ∀ k a, (k, a) ∈ t → ∃ xs, a = .many xs ∧ ∀ x ∈ xs, ∃ s, x = .text s
  one : ∀ s k k', Stands E case t s k → Stands E case t s k' → k = k'

/-- The keys of a dictionary are distinct. -/
def Dict {α : Type} (t : List (Item × α)) : Prop := (t.map (·.1)).Nodup

/-- The client writes dictionaries, and does not write to one that is in use. -/
def Owned (E : Env) : World → List Op → Prop
  | _, [] => True
  | w, op :: ops => (match op with
      | .table t => Dict t
      | .descr d => Dict d
      | .write i t => Dict t ∧ ∀ p ∈ w.props, p.choices ≠ i
      | .writeDescr j d => Dict d ∧ ∀ p ∈ w.props, p.descr ≠ some j
      | _ => True) ∧ Owned E (exec E w op) ops

/-- No property is switched from case sensitive to not. -/
def Firm (E : Env) : World → List Op → Prop
  | _, [] => True
  | w, op :: ops => (match op with
      | .case p (some false) => ∀ s, w.props[p]? = some s → s.case = false
      | _ => True) ∧ Firm E (exec E w op) ops

/-- The choices of a property with descriptions are not set again. -/
def Settled (E : Env) : World → List Op → Prop
  | _, [] => True
  | w, op :: ops => (match op with
      | .choices p _ => ∀ s, w.props[p]? = some s → s.descr = none
      | _ => True) ∧ Settled E (exec E w op) ops

/-- Each choice has exactly one description, and each description is of a choice and is text. -/
def Describes (d : Descr) (t : Table) : Prop :=
  (∀ k, (∃ a, (k, a) ∈ t) ↔ ∃ x, (k, x) ∈ d) ∧ ∀ k x, (k, x) ∈ d → ∃ s, x = .text s

end Verif.ChoiceSet.Spec
