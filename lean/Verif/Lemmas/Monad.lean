import Verif.Core.Interp

/-! # Equations for running computations -/

namespace Verif

theorem bind_apply {α β : Type} (m : M α) (f : α → M β) (w : World) :
    (m >>= f) w = match m w with
      | (.ok a, w') => f a w'
      | (.error e, w') => (.error e, w') := rfl

theorem bind_ok {α β : Type} {m : M α} {f : α → M β} {w w' : World} {a : α}
    (h : m w = (.ok a, w')) : (m >>= f) w = f a w' := by rw [bind_apply, h]

theorem bind_err {α β : Type} {m : M α} {f : α → M β} {w w' : World} {e : PyErr}
    (h : m w = (.error e, w')) : (m >>= f) w = (.error e, w') := by rw [bind_apply, h]

theorem bind_ok_inv {α β : Type} {m : M α} {f : α → M β} {w w' : World} {b : β}
    (h : (m >>= f) w = (.ok b, w')) : ∃ a w1, m w = (.ok a, w1) ∧ f a w1 = (.ok b, w') := by
  rw [bind_apply] at h
  cases hm : m w with
  | mk x w1 => cases x with
    | ok a => rw [hm] at h; exact ⟨a, w1, rfl, h⟩
    | error e => rw [hm] at h; cases h

theorem bind_err_inv {α β : Type} {m : M α} {f : α → M β} {w w' : World} {e : PyErr}
    (h : (m >>= f) w = (.error e, w')) :
    m w = (.error e, w') ∨ ∃ a w1, m w = (.ok a, w1) ∧ f a w1 = (.error e, w') := by
  rw [bind_apply] at h
  cases hm : m w with
  | mk x w1 => cases x with
    | ok a => rw [hm] at h; exact .inr ⟨a, w1, rfl, h⟩
    | error e' => rw [hm] at h; exact .inl (by simpa using h)

@[simp] theorem pure_apply {α : Type} (a : α) (w : World) : (pure a : M α) w = (.ok a, w) := rfl
@[simp] theorem ret_apply {α : Type} (a : α) (w : World) : (M.ret a : M α) w = (.ok a, w) := rfl
@[simp] theorem raise_apply {α : Type} (e : PyErr) (w : World) :
    (M.raise e : M α) w = (.error e, w) := rfl
@[simp] theorem raiseK_apply {α : Type} (k : ErrKind) (w : World) :
    (raiseK k : M α) w = (.error ⟨k, []⟩, w) := rfl
@[simp] theorem get_apply (w : World) : M.get w = (.ok w, w) := rfl
@[simp] theorem modify_apply (f : World → World) (w : World) : M.modify f w = (.ok (), f w) := rfl
@[simp] theorem modObj_apply (r : Nat) (f : Obj → Obj) (w : World) :
    modObj r f w = (.ok (), w.setObj r f) := rfl
@[simp] theorem attempt_apply {α : Type} (m : M α) (w : World) :
    M.attempt m w = (.ok (m w).1, (m w).2) := rfl
@[simp] theorem fin_apply {α : Type} (m : M α) (f : World → World) (w : World) :
    M.fin m f w = ((m w).1, f (m w).2) := rfl

theorem getObj_some {r : Nat} {w : World} {o : Obj} (h : w.objs[r]? = some o) :
    getObj r w = (.ok o, w) := by unfold getObj; rw [h]

theorem getObj_none {r : Nat} {w : World} (h : w.objs[r]? = none) :
    getObj r w = (.error ⟨.attr, []⟩, w) := by unfold getObj; rw [h]

theorem catchIf_ok {α : Type} {pred : ErrKind → Bool} {m : M α} {h : PyErr → M α} {w w' : World}
    {a : α} (hm : m w = (.ok a, w')) : M.catchIf pred m h w = (.ok a, w') := by
  unfold M.catchIf; rw [hm]

theorem catchIf_err {α : Type} {pred : ErrKind → Bool} {m : M α} {h : PyErr → M α} {w w' : World}
    {e : PyErr} (hm : m w = (.error e, w')) (hp : pred e.kind = true) :
    M.catchIf pred m h w = h e w' := by
  unfold M.catchIf; rw [hm]; simp [hp]

theorem catchIf_pass {α : Type} {pred : ErrKind → Bool} {m : M α} {h : PyErr → M α} {w w' : World}
    {e : PyErr} (hm : m w = (.error e, w')) (hp : pred e.kind = false) :
    M.catchIf pred m h w = (.error e, w') := by
  unfold M.catchIf; rw [hm]; simp [hp]

@[simp] theorem liftK_ok {α : Type} (a : α) (w : World) : liftK (.ok a) w = (.ok a, w) := rfl
@[simp] theorem liftK_err {α : Type} (k : ErrKind) (w : World) :
    (liftK (.error k) : M α) w = (.error ⟨k, []⟩, w) := rfl

end Verif
