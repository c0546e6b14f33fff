import Verif.Models.Dynamic

/-!
# Which registration of a dynamic property counts

`Allowed` says which objects may be registered; `LastAllowed` finds the one that counts
in a sequence of attempts, without running them.
-/

namespace Verif.Dynamic.Spec

/-- A callable object which, if it is a Python function, takes `n` arguments. -/
def Takes (n : Nat) (f : Func) : Prop := f.callable = true ∧ ∀ k, f.argcount = some k → k = n

/-- A property without default. -/
def NoDefault (o : Offer) : Prop := ∃ p, o = some p ∧ p.default = .undef

/-- What may be registered on a property with the name `s`. -/
def Allowed (s : PyStr) : Op → Prop
  | .getter f => Takes 1 f
  | .prop o => NoDefault o
  | .setter f => Takes 2 f ∧ f.name = some s
  | .deleter f => Takes 1 f ∧ f.name = some s
  | .named _ => True

/-- The name after a sequence of attempts: the last one it was given. -/
def nameAfter (s : PyStr) (ops : List Op) : PyStr :=
  ((ops.filterMap fun | .named t => some t | _ => none).getLast?).getD s

/-- The attempts of one kind, as picked out by `pick`. -/
abbrev Pick (α : Type) := Op → Option α

def getters : Pick Func | .getter f => some f | _ => none
def props : Pick Offer | .prop o => some o | _ => none
def setters : Pick Func | .setter f => some f | _ => none
def deleters : Pick Func | .deleter f => some f | _ => none

/-- No attempt of this kind is allowed. -/
def NoneAllowed {α : Type} (pick : Pick α) (s : PyStr) (ops : List Op) : Prop :=
  ∀ before o after, ops = before ++ o :: after → (pick o).isSome → ¬ Allowed (nameAfter s before) o

/-- `x` is the last one of this kind that was allowed. -/
def LastAllowed {α : Type} (pick : Pick α) (s : PyStr) (ops : List Op) (x : α) : Prop :=
  ∃ before o after, ops = before ++ o :: after ∧ pick o = some x ∧ Allowed (nameAfter s before) o ∧
    NoneAllowed pick (nameAfter s (before ++ [o])) after

/-- The registrations of a program. -/
def regsOf : List Step → List Op := List.filterMap fun | .reg o => some o | .call _ => none

end Verif.Dynamic.Spec
