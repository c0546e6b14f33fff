import Verif.Models.Handlers

/-! # Specification of the context managers: lexical scoping -/

namespace Verif.Spec.Handlers
open Verif.Handlers

/-- The modes a context asks to disable. -/
def requested (c : Ctx) : Quar := match c.ty with
  | none => Quar.all
  | some q => q

/-- What a program does when the disabled modes are lexically scoped: `q` is
disabled here; inside `with c`, `q` and what `c` asks for. Result: the
exception that escapes and what the probes see. -/
def lexical : Blk → Quar → Option Nat × List Quar
  | .skip, _ => (none, [])
  | .raise n, _ => (some n, [])
  | .probe, q => (none, [q])
  | .seq a b, q => match lexical a q with
      | (some e, l) => (some e, l)
      | (none, l) => ((lexical b q).1, l ++ (lexical b q).2)
  | .with_ c body, q => lexical body (q.union (requested c))
  | .try_ a b, q => match lexical a q with
      | (none, l) => (none, l)
      | (some _, l) => ((lexical b q).1, l ++ (lexical b q).2)

/-- No context object is entered again while it is entered (`open_` are the
enclosing ones). -/
def Distinct : Blk → List Nat → Prop
  | .skip, _ => True
  | .raise _, _ => True
  | .probe, _ => True
  | .seq a b, o => Distinct a o ∧ Distinct b o
  | .with_ c body, o => c.id ∉ o ∧ Distinct body (c.id :: o)
  | .try_ a b, o => Distinct a o ∧ Distinct b o

/-- Sequences of enters and exits in stack order: the context left is always
the one entered last among those still open. -/
inductive Lifo : List Op → Prop where
  | nil : Lifo []
  | block (c : Ctx) (xs ys : List Op) : Lifo xs →
      (∀ o ∈ xs, ∀ d, o = .enter d → d.id ≠ c.id) →
      (∀ o ∈ xs, ∀ d, o = .exit d → d.id ≠ c.id) →
      Lifo ys → Lifo (.enter c :: xs ++ .exit c :: ys)

/-- The operation enters context `i`. -/
def enters (i : Nat) : Op → Bool
  | .enter c => c.id == i
  | .exit _ => false

/-- The operation leaves context `i`. -/
def leaves (i : Nat) : Op → Bool
  | .exit c => c.id == i
  | .enter _ => false

/-- Every context entered is left later and vice versa (each once): the
condition of the general claim. -/
def Closed (ops : List Op) : Prop :=
  ∀ i : Nat, ((ops.filter (enters i)).length = 1 ∧ (ops.filter (leaves i)).length = 1 ∧
     ∃ (pre post : List Op) (c d : Ctx), ops = pre ++ post ∧ c.id = i ∧ d.id = i ∧ Op.enter c ∈ pre ∧ Op.exit d ∈ post)
   ∨ (∀ o ∈ ops, ∀ c, (o = .enter c ∨ o = .exit c) → c.id ≠ i)

end Verif.Spec.Handlers
