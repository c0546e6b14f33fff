import Verif.Lemmas.Monad

/-!
# Attribute access by kind of property
-/

namespace Verif

theorem entryOf_apply {E : Env} {w : World} {r : Nat} {o : Obj} (ho : w.objs[r]? = some o)
    (nm : PyStr) : entryOf E r nm w = (.ok (lookupS nm (E.classes o.cls).props), w) := by
  unfold entryOf
  rw [bind_ok (getObj_some ho)]; rfl

section
variable {E : Env} {rec : Rec} {w : World} {r : Nat} {o : Obj} (ho : w.objs[r]? = some o)
  {nm : PyStr}
include ho

theorem getStored_apply : getStored r nm w = (.ok ((lookupS nm o.backend).getD .none), w) := by
  unfold getStored
  rw [bind_ok (getObj_some ho)]; rfl

theorem getattr_mutable {p : PropSpec} (hl : lookupS nm (E.classes o.cls).props = some (.mutable p)) :
    getattrBody E rec r nm w = (.ok ((lookupS nm o.backend).getD .none), w) := by
  unfold getattrBody
  rw [bind_ok (entryOf_apply ho nm), hl]
  exact getStored_apply ho

theorem getattr_gettable {p : PropSpec}
    (hl : lookupS nm (E.classes o.cls).props = some (.gettable p)) :
    getattrBody E rec r nm w = (.ok ((lookupS nm o.backend).getD .none), w) := by
  unfold getattrBody
  rw [bind_ok (entryOf_apply ho nm), hl]
  exact getStored_apply ho

theorem getattr_dynamic {p : PropSpec} {g : FnId} {s d : Option FnId}
    (hl : lookupS nm (E.classes o.cls).props = some (.dynamic p g s d)) :
    getattrBody E rec r nm w = (callFn E rec g [.obj r] >>= fun v => match v with
      | .none => pure .none
      | .undef => pure .none
      | v => rec (.validate nm p (some r) v)) w := by
  unfold getattrBody
  rw [bind_ok (entryOf_apply ho nm), hl]
  rfl

theorem getattr_renamed {new : PyStr} (hl : lookupS nm (E.classes o.cls).props = some (.renamed new)) :
    getattrBody E rec r nm w = rec (.getattr r new) w := by
  unfold getattrBody
  rw [bind_ok (entryOf_apply ho nm), hl]

theorem setattr_assign {p : PropSpec} (v : Val)
    (hl : lookupS nm (E.classes o.cls).props = some (.mutable p)) :
    setattrBody E rec r nm v w = assignBody E rec r nm p v w := by
  unfold setattrBody
  rw [bind_ok (entryOf_apply ho nm), hl]

theorem setattr_gettable {p : PropSpec} (v : Val)
    (hl : lookupS nm (E.classes o.cls).props = some (.gettable p)) :
    setattrBody E rec r nm v w = (.error ⟨.attr, []⟩, w) := by
  unfold setattrBody
  rw [bind_ok (entryOf_apply ho nm), hl]
  rfl

theorem setattr_dynamic {p : PropSpec} {g : FnId} {s d : Option FnId} (v : Val)
    (hl : lookupS nm (E.classes o.cls).props = some (.dynamic p g s d)) :
    setattrBody E rec r nm v w = (match (generalizing := false) s with
      | none => raiseK .attr
      | some f => do
          let v' ← rec (.validate nm p (some r) v)
          let _ ← callFn E rec f [.obj r, v']
          pure .none : M Val) w := by
  unfold setattrBody
  rw [bind_ok (entryOf_apply ho nm), hl]
  cases s <;> rfl

theorem setattr_renamed {new : PyStr} (v : Val)
    (hl : lookupS nm (E.classes o.cls).props = some (.renamed new)) :
    setattrBody E rec r nm v w = rec (.setattr r new v) w := by
  unfold setattrBody
  rw [bind_ok (entryOf_apply ho nm), hl]

theorem delattr_renamed {new : PyStr} (hl : lookupS nm (E.classes o.cls).props = some (.renamed new)) :
    delattrBody E rec r nm w = rec (.delattr r new) w := by
  unfold delattrBody
  rw [bind_ok (entryOf_apply ho nm), hl]

theorem delattr_dynamic {p : PropSpec} {g : FnId} {s d : Option FnId}
    (hl : lookupS nm (E.classes o.cls).props = some (.dynamic p g s d)) :
    delattrBody E rec r nm w = (match (generalizing := false) d with
      | none => raiseK .attr
      | some f => do
          let _ ← callFn E rec f [.obj r]
          pure .none : M Val) w := by
  unfold delattrBody
  rw [bind_ok (entryOf_apply ho nm), hl]
  cases d <;> rfl

end

end Verif
