import Verif.Core.Types

/-!
# Specification: chains of renamings
-/

namespace Verif.Spec

/-- In a class with properties `props` the name `nm` leads to `target` through
`k` renamings. -/
inductive RenamedTo (props : List (PyStr × Entry)) : Nat → PyStr → PyStr → Prop
  | here (nm : PyStr) : RenamedTo props 0 nm nm
  | step (k : Nat) (nm new target : PyStr) : lookupS nm props = some (.renamed new) →
      RenamedTo props k new target → RenamedTo props (k + 1) nm target

/-- Every name of the set is renamed to a name of the set: a cycle, or an
endless chain, of renamings. -/
def RenamedForever (props : List (PyStr × Entry)) (S : PyStr → Prop) : Prop :=
  ∀ nm, S nm → ∃ new, lookupS nm props = some (.renamed new) ∧ S new

end Verif.Spec
