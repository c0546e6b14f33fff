import Verif.Models.Links

/-!
# What links should guarantee
-/

namespace Verif.Links.Spec
variable {V : Type}

/-- A link that has not been unlinked. -/
def Active (w : LW V) (l : Lnk V) : Prop := l ∈ w.links ∧ w.unl l.id = false

/-- A consistent choice of values: on the nodes `R`, closed under links, the
target's value is the validated transform of the source's value. -/
structure Consistent (E : LEnv V) (w : LW V) (R : Nat → Prop) (G : Nat → V) : Prop where
  closed : ∀ l, Active w l → R l.src → R l.tgt
  image : ∀ l, Active w l → R l.src → ∃ y, l.transform (G l.src) = some y ∧ E.coerce l.tgt y = some (G l.tgt)

/-- `prop.equal` holds of the same values only. -/
def ExactEqual (E : LEnv V) (R : Nat → Prop) : Prop := ∀ n a b, R n → E.equal n a b = true → a = b

/-- Reachable through links. -/
inductive Reach (w : LW V) (a : Nat) : Nat → Prop
  | here : Reach w a a
  | step {l : Lnk V} : Reach w a l.src → Active w l → Reach w a l.tgt

/-- The target is in step with the source: it holds the validated transform of
the source's value. -/
def InStep (E : LEnv V) (w : LW V) (l : Lnk V) : Prop :=
  ∀ x, w.vals l.src = some x → ∃ y z, l.transform x = some y ∧ E.coerce l.tgt y = some z ∧ w.vals l.tgt = some z

/-- No propagation is going on. -/
def Idle (w : LW V) : Prop := ∀ d, w.upd d = false

/-- Link objects are distinct. -/
def DistinctLinks (w : LW V) : Prop := ∀ l m, l ∈ w.links → m ∈ w.links → l.id = m.id → l = m

/-- The state without one of the links. -/
def without (d : Nat) (w : LW V) : LW V := { w with links := w.links.filter (fun l => l.id != d) }

end Verif.Links.Spec
