import Verif.Core.Types

/-!
# Specification: RecursionError

A call *overflows* when it ends with RecursionError.  User code is *transparent*
when it does not handle RecursionError: a failing call ends the program with
the same exception.  (Python code doing `except Exception` around API calls
is not transparent; results of such code do depend on the recursion limit.)
-/

namespace Verif.Spec

/-- The outcome is a RecursionError. -/
def Overflows {α : Type} (x : Except PyErr α × World) : Prop :=
  ∃ e, x.1 = .error e ∧ e.kind = .recursion

/-- A program that lets every RecursionError through. -/
def Transparent : Prog → Prop
  | .ret _ => True
  | .raise _ => True
  | .call _ k => (∀ e : PyErr, e.kind = .recursion → k (.error e) = .raise e) ∧
      ∀ x, Transparent (k x)
  | .disabled _ body k => Transparent body ∧
      (∀ e : PyErr, e.kind = .recursion → k (.error e) = .raise e) ∧ ∀ x, Transparent (k x)

end Verif.Spec
