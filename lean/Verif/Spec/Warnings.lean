import Verif.Models.Warnings

/-!
# Specification: chains of renamings, one by one
-/

namespace Verif.Spec

/-- The renamings that lead from one name to another, in order. -/
inductive Renamings (props : List (PyStr × Entry)) : PyStr → List Warnings.Warning → PyStr → Prop
  | here (nm : PyStr) : Renamings props nm [] nm
  | step (nm new target : PyStr) (l : List Warnings.Warning) : (nm, .renamed new) ∈ props →
      Renamings props new l target → Renamings props nm (⟨nm, new⟩ :: l) target

/-- The name is not that of a Renamed property. -/
def Final (props : List (PyStr × Entry)) (nm : PyStr) : Prop := ∀ new, (nm, .renamed new) ∉ props

end Verif.Spec
