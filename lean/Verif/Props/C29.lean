import Verif.Props.C09
import Verif.Props.C58

/-!
# C29: operations that do not modify data

Comparison, serialization, reading, validation, construction, deserialization
and copying leave every existing instance as it was, whatever their outcome,
provided user code makes no modifying call either.
-/

namespace Verif
open Spec

/-- C29: every call that is not a modifying one leaves the class, the stored
values and the listeners of every existing instance unchanged and calls none of
their observers. -/
theorem C29_data_unchanged (E : Env) (hE : ∀ f args, ReadOnly (E.fn f args)) (n : Nat) (c : Call)
    (hc : Modifies c = false) (w : World) :
    DataUnchanged w (run E n c w).2 ∧
      observerCallsOn w (run E n c w).2.trace = observerCallsOn w w.trace := by
  have hf := run_frame_readOnly hE n c hc w
  refine ⟨dataUnchanged_of_frame hf, ?_⟩
  rw [observerCallsOn_eq, observerCallsOn_eq]; exact hf.events

/-- C29 for reading, comparing, serializing (and any other call that neither
modifies nor validates): validators are not called either, if user code does
not run validations. -/
theorem C29_no_listener_called (E : Env) (hE : ∀ f args, Quiet (E.fn f args)) (n : Nat) (c : Call)
    (hc : Modifies c = false) (hv : Validates c = false) (w : World) :
    DataUnchanged w (run E n c w).2 ∧
      eventsOn w (run E n c w).2.trace = eventsOn w w.trace := by
  have hf := run_frame_quiet hE n c hc hv w
  refine ⟨dataUnchanged_of_frame hf, ?_⟩
  rw [eventsOn_eq, eventsOn_eq]; exact hf.events

/-- C29 for a program of such calls, in any order and number. -/
theorem C29_histories (E : Env) (hE : ∀ f args, ReadOnly (E.fn f args)) (n : Nat) (p : Prog)
    (hp : ReadOnly p) (w : World) : DataUnchanged w (runProg E n p w).2 ∧
      observerCallsOn w (runProg E n p w).2.trace = observerCallsOn w w.trace := by
  have S := frame_stable E w.objs.length true fun f a => uses_of_readOnly _ (hE f a)
  have hf := pres_execProg S.toBase (S.run_ok n) p (uses_of_readOnly _ hp) w (Nat.le_refl _)
  refine ⟨dataUnchanged_of_frame hf, ?_⟩
  rw [observerCallsOn_eq, observerCallsOn_eq]; exact hf.events

/-! Non-vacuity: the calls named in the property meet the hypotheses, and the
comparison of C58 runs on a graph of four instances. -/

example (a b : Val) (r : Nat) (kw : SerKw) (nm : PyStr) :
    Modifies (.equal a b) = false ∧ Validates (.equal a b) = false ∧
    Modifies (.hpSerialize r kw) = false ∧ Validates (.hpSerialize r kw) = false ∧
    Modifies (.getattr r nm) = false ∧ Validates (.getattr r nm) = false := by simp [Modifies, Validates]

example : ∀ f args, Quiet (nestEnv.fn f args) := fun _ _ => trivial

example : DataUnchanged nestWorld (run nestEnv 4 (.equal (.obj 0) (.obj 1)) nestWorld).2 :=
  (C29_data_unchanged nestEnv (fun _ _ => trivial) 4 _ rfl nestWorld).1

end Verif
