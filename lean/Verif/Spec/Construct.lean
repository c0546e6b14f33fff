import Verif.Core.Interp

/-!
# Specification: keywords of a constructor
-/

namespace Verif.Spec

/-- `_validate_props`, a private method, is not called by user code. -/
def Indirect : Prog → Prop
  | .ret _ => True
  | .raise _ => True
  | .call (.validateProps _) _ => False
  | .call _ k => ∀ x, Indirect (k x)
  | .disabled _ body k => Indirect body ∧ ∀ x, Indirect (k x)

/-- A keyword is accepted if it names a property that is not dynamic, or some
other attribute of the class. -/
def Accepted (c : ClassDef) (k : PyStr) : Prop :=
  (∃ e, lookupS k c.props = some e ∧ ∀ p g s d, e ≠ .dynamic p g s d) ∨
  (lookupS k c.props = none ∧ (k ∈ c.attrs ∨ k = s% "_backend"))

/-- The error tuples of a result. -/
def tuplesOf {α : Type} : Except PyErr α → List ErrTuple
  | .ok _ => []
  | .error e => if e.kind = .validation then e.tuples else []

/-- The first error that is no ValidationError. -/
def firstOther {α : Type} : List (Except PyErr α) → Option PyErr
  | [] => none
  | .ok _ :: xs => firstOther xs
  | .error e :: xs => if e.kind = .validation then firstOther xs else some e

/-- The tuples `ts` are noted on `r`. -/
def noted (r : Nat) (ts : List ErrTuple) (w : World) : World :=
  w.setObj r (fun o => { o with errs := o.errs.map (· ++ ts) })

/-- The keywords are assigned to instance `r` one after the other, with results
`xs`, errors notwithstanding; keywords that are not accepted and errors that are
not handled end this with error `stop`. -/
inductive Tries (E : Env) (n r : Nat) (c : ClassDef) :
    List (PyStr × Val) → World → List (Except PyErr Val) → Option PyErr → World → Prop
  | done (w : World) : Tries E n r c [] w [] none w
  | refused (k : PyStr) (v : Val) (rest : List (PyStr × Val)) (w : World) : ¬ Accepted c k →
      Tries E n r c ((k, v) :: rest) w [] (some ⟨.attr, []⟩) w
  | tried (k : PyStr) (v : Val) (rest : List (PyStr × Val)) (w w1 w2 : World)
      (x : Except PyErr Val) (xs : List (Except PyErr Val)) (stop : Option PyErr) : Accepted c k →
      run E n (.setattr r k v) w = (x, w1) → (∀ e, x = .error e → e.kind.isGeneric = true) →
      Tries E n r c rest (noted r (tuplesOf x) w1) xs stop w2 →
      Tries E n r c ((k, v) :: rest) w (x :: xs) stop w2
  | broken (k : PyStr) (v : Val) (rest : List (PyStr × Val)) (w w1 : World) (e : PyErr) :
      Accepted c k → run E n (.setattr r k v) w = (.error e, w1) → e.kind.isGeneric = false →
      Tries E n r c ((k, v) :: rest) w [] (some e) w1

end Verif.Spec
