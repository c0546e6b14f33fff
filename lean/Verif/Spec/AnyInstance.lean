import Verif.Models.AnyInstance
import Verif.Spec.JsonText

/-!
# Specification: Instance properties of any class
-/

namespace Verif.AnyInst.Spec
open Verif.Spec

variable {σ O : Type}

/-- Calling the class gives instances of the class. -/
structure MakesInstances (C : AnyClass σ O) : Prop where
  one : ∀ v s x s', C.one v s = (.ok x, s') → C.isInst x = true
  kw : ∀ v s x s', C.kw v s = (.ok x, s') → C.isInst x = true

/-- The class called with `v`: with keywords if `v` is a dictionary. -/
inductive Called (C : AnyClass σ O) (v : O) (s : σ) : Except ErrKind O → σ → Prop
  | one (r : Except ErrKind O) (s' : σ) : C.asDict v = none → C.one v s = (r, s') → Called C v s r s'
  | kw (kvs : List (O × O)) (names : List PyStr) (r : Except ErrKind O) (s' : σ) : C.asDict v = some kvs →
      names.map some = kvs.map (fun kv => C.text kv.1) →
      C.kw (names.zip (kvs.map (·.2))) s = (r, s') → Called C v s r s'
  | noText (kvs : List (O × O)) (kv : O × O) : C.asDict v = some kvs → kv ∈ kvs → C.text kv.1 = none →
      Called C v s (.error .type) s

/-- The errors that say that a value is not acceptable. -/
def Refusal : ErrKind → Prop
  | .validation | .value | .type | .key | .attr => True
  | _ => False

end Verif.AnyInst.Spec
