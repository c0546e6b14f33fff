import Verif.Spec.Classes

/-!
# Specification: class defaults
-/

namespace Verif.Spec
open Cls

/-- The body of the class gives this default for the name. -/
def DeclaresDefault (T : Table) (n : PyStr) (c : ClsId) (v : Dflt) : Prop :=
  ∃ k l, T[c]? = some k ∧ k.ownDefaults = some l ∧ (n, v) ∈ l

/-- The first class of the list that declares a default for the name declares
this one. -/
inductive FindsDefault (T : Table) (n : PyStr) : List ClsId → Dflt → Prop
  | here {c : ClsId} {l : List ClsId} {v : Dflt} : DeclaresDefault T n c v →
      FindsDefault T n (c :: l) v
  | there {c : ClsId} {l : List ClsId} {v : Dflt} : (∀ u, ¬ DeclaresDefault T n c u) →
      FindsDefault T n l v → FindsDefault T n (c :: l) v

end Verif.Spec
