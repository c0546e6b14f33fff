import Verif.Models.Task
import Verif.Spec.Frame
import Verif.Spec.Valid
import Verif.Spec.Types

/-!
# What tasks promise
-/

namespace Verif.Task.Spec
open Verif.Spec

/-- In state `w'`, `validate()` of instance `r` has just returned True: with the
conditions of C17, `r` is valid, and has its values from then. -/
def Approved (E : Env) (n : Nat) (r : Nat) (w' : World) : Prop :=
  ∃ w, run E n (.hpValidate r) w = (.ok (.bool true), w') ∧
    ∀ K D m, Looks E → Prompt E K D → Calm E K m w Ordinary → validationDepth K D w.objs.length ≤ m →
      validationDepth K D w.objs.length ≤ n → (∀ x, ¬ Busy w x) → Valid E m w r ∧ DataUnchanged w w'

/-- The calls of one execution are in order: first `run` with a new, approved
instance of the input class, then `process_output` with an approved instance of
BaseOutput. -/
inductive InOrder (E : Env) (n : Nat) (T : Task) (w : World) : List Stage → Prop
  | nothing : InOrder E n T w []
  | computed (r : Nat) (o : Obj) (w1 : World) : w.objs.length ≤ r → w1.objs[r]? = some o → o.cls = T.input →
      Approved E n r w1 → InOrder E n T w [.compute (.obj r) w1]
  | processed (r : Nat) (o : Obj) (w1 : World) (q : Nat) (w2 : World) : w.objs.length ≤ r → w1.objs[r]? = some o →
      o.cls = T.input → Approved E n r w1 → InstanceOf E w2 q T.baseOutput → Approved E n q w2 →
      InOrder E n T w [.compute (.obj r) w1, .process (.obj q) w2]

/-- Every class derived from TaskStatus has the progress of TaskStatus,
`Float(required=False, min=0, max=1)`, and a message that is not dynamic
(task.py:31-40). -/
def StatusClass (E : Env) (c : ClsId) : Prop :=
  ∀ d, (d = c ∨ c ∈ (E.classes d).ancestors) →
    (∃ b p, lookupS (s% "progress") (E.classes d).props = some (.mutable p) ∧ p.ty = .float b (some 0) (some 1)) ∧
    ∃ p, lookupS (s% "message") (E.classes d).props = some (.mutable p)

/-- Rounding of a number between 0 and 100 stays between them, as both are floats. -/
def RoundsInside (E : Env) : Prop := ∀ q, 0 ≤ q → q ≤ 100 → ∃ p, E.rnd q = .fin p ∧ 0 ≤ p ∧ p ≤ 100

end Verif.Task.Spec
