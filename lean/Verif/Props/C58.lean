import Verif.Lemmas.Approx
import Verif.Models.Demo

/-!
# C58: a larger recursion limit never changes a result

For user code that does not handle RecursionError itself.
-/

namespace Verif
open Spec

/-- C58: an API call that ends without RecursionError under limit `n` gives the
same outcome and the same final state under every larger limit. -/
theorem C58_limit_irrelevant (E : Env) (hE : ∀ f args, Transparent (E.fn f args)) (n m : Nat)
    (hnm : n ≤ m) (c : Call) (w : World) (h : ¬ Overflows (run E n c w)) :
    run E m c w = run E n c w := by
  obtain ⟨k, rfl⟩ := Nat.exists_eq_add_of_le hnm
  rcases run_approx hE n k c w with h1 | h1
  · exact absurd h1 h
  · exact h1.symm

/-- C58 for histories of API calls. -/
theorem C58_histories (E : Env) (hE : ∀ f args, Transparent (E.fn f args)) (n m : Nat)
    (hnm : n ≤ m) (p : Prog) (hp : Transparent p) (w : World)
    (h : ¬ Overflows (runProg E n p w)) : runProg E m p w = runProg E n p w := by
  obtain ⟨k, rfl⟩ := Nat.exists_eq_add_of_le hnm
  rcases approx_execProg (run_approx hE n k) p hp w with h1 | h1
  · exact absurd h1 h
  · exact h1.symm

/-! Non-vacuity: an instance whose property is itself an instance is compared
with limit 4, and a callback that handles RecursionError shows why transparency
is needed. -/

/-- Class 0 has a property holding an instance of class 1 with an untyped
property. -/
def nestEnv : Env := { demoEnv with
  classes := fun c => if c = 0 then
      { name := s% "Outer", props := [(s% "p", .mutable (.mk true none none .undef (.inst 1)))] }
    else { name := s% "Inner", props := [(s% "x", .mutable default)] } }

def nestWorld : World := { objs := [
  { cls := 0, backend := [(s% "p", .obj 2)] }, { cls := 0, backend := [(s% "p", .obj 3)] },
  { cls := 1, backend := [(s% "x", .str (s% "v"))] }, { cls := 1, backend := [(s% "x", .str (s% "v"))] }] }

example : ∀ f args, Transparent (nestEnv.fn f args) := fun _ _ => trivial

theorem nest_equal :
    (run nestEnv 4 (.equal (.obj 0) (.obj 1)) nestWorld).1 = .ok (.bool true) := by
  with_unfolding_all rfl

example : ¬ Overflows (run nestEnv 4 (.equal (.obj 0) (.obj 1)) nestWorld) := by
  rintro ⟨e, h, _⟩; rw [nest_equal] at h; cases h

example : Overflows (run nestEnv 3 (.equal (.obj 0) (.obj 1)) nestWorld) :=
  ⟨{ kind := .recursion }, rfl, rfl⟩

/-- A program that answers a RecursionError with None is not transparent, and
its result depends on the limit. -/
theorem C58_needs_transparency :
    ∃ p : Prog, (runProg nestEnv 3 p nestWorld).1 = .ok .none ∧
      (runProg nestEnv 4 p nestWorld).1 = .ok (.bool true) := by
  refine ⟨.call (.equal (.obj 0) (.obj 1))
    (fun x => match x with | .ok v => .ret v | .error _ => .ret .none), by rfl, ?_⟩
  simp only [runProg, execProg, nest_equal]
  rfl

end Verif
