import Verif.Lemmas.Restored
import Verif.Models.Demo

/-!
# C19, C20: in-progress markers and the listener quarantine are restored

Both hold for every environment (class table, user callbacks), every recursion
limit, every call and every outcome.
-/

namespace Verif
open Spec

/-- C19: whatever a call does and however it ends, every instance that existed
before has the markers it had before. -/
theorem C19_markers_restored (E : Env) (n : Nat) (c : Call) (w : World) (r : Nat) (o : Obj)
    (ho : w.objs[r]? = some o) :
    ∃ o', (run E n c w).2.objs[r]? = some o' ∧ SameMarkers o o' := by
  obtain ⟨o', h1, k⟩ := (run_restored E n c w).old r o ho
  refine ⟨o', h1, k.gv.symm, ?_, ?_⟩
  · unfold BeingSerialized; rw [k.gs]
  · unfold BeingCompared; rw [k.te]

/-- C19 for histories: any program of API calls, run between top-level calls,
leaves every instance, old or new, without markers.  So no later call is
short-circuited by a marker left behind. -/
theorem C19_histories_end_idle (E : Env) (n : Nat) (p : Prog) (w : World) (h : AllIdle w) :
    AllIdle (runProg E n p w).2 := by
  have hr := runProg_restored E n p w
  intro r o' ho'
  by_cases hlt : r < w.objs.length
  · obtain ⟨o'', h1, k⟩ := hr.old r _ (List.getElem?_eq_getElem hlt)
    rw [ho'] at h1; cases h1
    exact k.idle (h r _ (List.getElem?_eq_getElem hlt))
  · exact hr.new r o' (by omega) ho'

/-- C20: the set of disabled listener modes after a call is the one before. -/
theorem C20_quarantine_restored (E : Env) (n : Nat) (c : Call) (w : World) :
    (run E n c w).2.quar = w.quar := (run_restored E n c w).quar

/-- C20 for programs, which may use `with listeners_disabled(...)` blocks and
leave them by exceptions. -/
theorem C20_histories_keep_quarantine (E : Env) (n : Nat) (p : Prog) (w : World) :
    (runProg E n p w).2.quar = w.quar := (runProg_restored E n p w).quar

/-! Non-vacuity: the hypotheses hold for a state with an instance, and a call
that fails half way (a class validator raising an error that nothing catches)
exercises them. -/

/-- A class whose only class validator raises an exception outside the generic
errors. -/
def guardEnv : Env := { demoEnv with
  classes := fun _ => { name := s% "Foo", props := [(s% "x", .mutable default)],
                        validators := [some 0] }
  fn := fun _ _ => .raise ⟨.other 7, []⟩ }

def guardWorld : World := { objs := [{ cls := 0 }] }

example : AllIdle guardWorld := by
  intro r o h
  match r with
  | 0 => cases h; exact ⟨by simp [BeingValidated], by simp [BeingSerialized], by simp [BeingCompared], rfl⟩
  | n + 1 => simp [guardWorld] at h

/-- The call really raises and really passes through the marked state. -/
example : (run guardEnv 3 (.hpValidate 0) guardWorld).1 = .error ⟨.other 7, []⟩ := by
  rfl

example : ((run guardEnv 3 (.hpValidate 0) guardWorld).2.objs[0]?.map (·.gv)) = some (some false) := by
  rfl

end Verif
