import Verif.Core.Types

/-!
# Specification: in-progress markers

An instance is *being validated* while `_getting_validated` is True, *being
serialized* while `_getting_serialized` is True, *being compared* while
`_testing_equality` is True (base.py:306, 411, 496, 637).
-/

namespace Verif.Spec

def BeingValidated (o : Obj) : Prop := o.gv = some true
def BeingSerialized (o : Obj) : Prop := o.gs = true
def BeingCompared (o : Obj) : Prop := o.te = true

/-- The object carries the same markers. -/
def SameMarkers (o o' : Obj) : Prop :=
  (BeingValidated o ↔ BeingValidated o') ∧ (BeingSerialized o ↔ BeingSerialized o') ∧
    (BeingCompared o ↔ BeingCompared o')

/-- No marker is set and no error list is open. -/
def Idle (o : Obj) : Prop :=
  ¬ BeingValidated o ∧ ¬ BeingSerialized o ∧ ¬ BeingCompared o ∧ o.errs = none

/-- All objects of a state are idle: the state between two top-level calls. -/
def AllIdle (w : World) : Prop := ∀ (r : Nat) (o : Obj), w.objs[r]? = some o → Idle o

end Verif.Spec
