import Verif.Models.ChangeDict
import Verif.Spec.Assign

/-!
# Specification: what the listeners of an assignment are handed
-/

namespace Verif.Spec.ChangeDict
open Verif Verif.ChangeDict Verif.Spec

/-- The dictionary says that property `name` with value `prev` is assigned, in
this phase. -/
def Says (c : Change) (name : PyStr) (prev : Val) (mode : PyStr) : Prop :=
  lookupS (s% "name") c = some (.str name) ∧ lookupS (s% "previous") c = some prev ∧
  lookupS (s% "mode") c = some (.str mode)

/-- Apart from what `Says` says the entries are those of `c`. -/
def Rest (c c' : Change) : Prop :=
  ∀ k, k ≠ s% "name" → k ≠ s% "previous" → k ≠ s% "mode" → lookupS k c' = lookupS k c

/-- The listeners are called one after the other, each with the dictionary and the
state that the one before left. -/
inductive Passed (D : Does) (r : Nat) : List Listener → Change → World → Change → World → Prop
  | nil (c : Change) (w : World) : Passed D r [] c w c w
  | cons {l : Listener} {ls : List Listener} {c c' c'' : Change} {w w' w'' : World} :
      D l.fn r c w = (.ok c', w') → Passed D r ls c' w' c'' w'' → Passed D r (l :: ls) c w c'' w''

/-- One of the listeners raises. -/
inductive Failed (D : Does) (r : Nat) : List Listener → Change → World → PyErr → World → Prop
  | here {l : Listener} {ls : List Listener} {c : Change} {w w' : World} {e : PyErr} :
      D l.fn r c w = (.error e, w') → Failed D r (l :: ls) c w e w'
  | later {l : Listener} {ls : List Listener} {c c' : Change} {w w' w'' : World} {e : PyErr} :
      D l.fn r c w = (.ok c', w') → Failed D r ls c' w' e w'' → Failed D r (l :: ls) c w e w''

/-- One phase: the listeners of property `name` in this mode are called, those that
are enabled when it starts, with a dictionary that says so. -/
def Phase (D : Does) (r : Nat) (name : PyStr) (prev : Val) (mode : Mode) (text : PyStr)
    (c : Change) (w : World) (c' : Change) (w' : World) : Prop :=
  Says c name prev text ∧ ∃ o, w.objs[r]? = some o ∧ Passed D r (enabled w o mode name) c w c' w'

/-- State `w` with `v` as value of property `name` of `r`. -/
def stored (w : World) (r : Nat) (name : PyStr) (v : Val) : World :=
  w.setObj r (fun o => { o with
    backend := match v with
      | .undef => eraseS name o.backend
      | v => setS name v o.backend })

/-- Whether the listeners for changes are called. -/
def Differs (rec : Rec) (p : PropSpec) (prev v : Val) (w : World) (b : Bool) (w' : World) : Prop :=
  (prev = .undef ∧ v = .undef ∧ b = false ∧ w' = w) ∨
  ((prev = .undef ∧ v ≠ .undef ∨ prev ≠ .undef ∧ v = .undef) ∧ b = true ∧ w' = w) ∨
  (prev ≠ .undef ∧ v ≠ .undef ∧ ∃ e, rec (.propEqual p prev v) w = (.ok e, w') ∧ b = !e.truthy)

end Verif.Spec.ChangeDict
