import Verif.Models.StopRecursion

/-!
# Specification: a method runs once per object
-/

namespace Verif.Spec
open StopRec

variable {μ ο : Type}

/-- Events that may happen while the given method and object pairs are in
progress: a body starts only for an object that is not in progress, and ends; the
backup is used only for one that is. -/
inductive Once (same : ο → ο → Prop) : List (μ × ο) → List (Event μ ο) → Prop
  | nil {p : List (μ × ο)} : Once same p []
  | run {p : List (μ × ο)} {m : μ} {o : ο} {t1 t2 : List (Event μ ο)} :
      (∀ x, (m, x) ∈ p → ¬ same x o) → Once same ((m, o) :: p) t1 → Once same p t2 →
      Once same p (.start m o :: t1 ++ .stop m o :: t2)
  | backup {p : List (μ × ο)} {m : μ} {o x : ο} {t : List (Event μ ο)} :
      (m, x) ∈ p → same x o → Once same p t → Once same p (.backup m o :: t)

/-- A program that makes no calls to decorated methods. -/
inductive Simple : Prog μ ο → Prop
  | ret {r : Ret} : Simple (.ret r)
  | raise {n : Nat} : Simple (.raise n)

end Verif.Spec
