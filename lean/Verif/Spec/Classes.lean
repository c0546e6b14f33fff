import Verif.Models.Classes

/-!
# Specification: attribute lookup on classes
-/

namespace Verif.Spec
open Cls

/-- The body of the class binds the name to the attribute. -/
def Binds (T : Table) (n : PyStr) (c : ClsId) (a : Attr) : Prop :=
  ∃ k, T[c]? = some k ∧ (n, a) ∈ k.body

/-- The body of the class binds the name. -/
def Defines (T : Table) (n : PyStr) (c : ClsId) : Prop := ∃ a, Binds T n c a

/-- Python attribute lookup: class `c`, the first of the MRO whose body binds
the name, binds it to `a`. -/
inductive Finds (T : Table) (n : PyStr) : List ClsId → ClsId → Attr → Prop
  | here {c : ClsId} {l : List ClsId} {a : Attr} : Binds T n c a → Finds T n (c :: l) c a
  | there {c c' : ClsId} {l : List ClsId} {a : Attr} : ¬ Defines T n c → Finds T n l c' a →
      Finds T n (c :: l) c' a

/-- The class has the metaclass, so that its body was processed. -/
def IsHp (T : Table) (c : ClsId) : Prop := ∃ k, T[c]? = some k ∧ k.hp = true

/-- Every class of the MRO has at most one base. -/
def SingleInheritance (T : Table) (mro : List ClsId) : Prop :=
  ∀ c ∈ mro, ∀ k, T[c]? = some k → k.bases.length ≤ 1

/-- The classes of the MRO that bind the name are in one line of descent, and
each binds it to something of the given sort. -/
structure OneLine {α : Type} (T : Table) (sel : Attr → Option α) (n : PyStr) (mro : List ClsId) :
    Prop where
  line : ∀ c ∈ mro, ∀ d ∈ mro, Defines T n c → Defines T n d → c ∈ T.mro d ∨ d ∈ T.mro c
  sort : ∀ c ∈ mro, ∀ a, Binds T n c a → IsHp T c ∧ (sel a).isSome = true

end Verif.Spec
