import Verif.Py.Val
import Mathlib.Tactic.SplitIfs

/-!
# Python's `==` on hashable values is symmetric and transitive
-/

namespace Verif

theorem PyFloat.eq_comm (a b : PyFloat) : PyFloat.eq a b = PyFloat.eq b a := by
  cases a <;> cases b <;> simp only [PyFloat.eq]
  rw [Bool.eq_iff_iff]
  simp only [beq_iff_eq]
  exact ⟨Eq.symm, Eq.symm⟩

theorem PyFloat.eq_trans {a b c : PyFloat} (h : PyFloat.eq a b = true) (k : PyFloat.eq b c = true) :
    PyFloat.eq a c = true := by
  cases a <;> cases b <;> simp [PyFloat.eq] at h <;> cases c <;> simp [PyFloat.eq] at k <;>
    simp [PyFloat.eq, h, k]

theorem pyEq_num {a b : Val} {x y : PyFloat} (h : a.num? = some (x, y)) :
    pyEq a b = true ↔ ∃ u v, b.num? = some (u, v) ∧ PyFloat.eq x u = true ∧ PyFloat.eq y v = true := by
  cases a <;> simp only [Val.num?, reduceCtorEq, Option.some.injEq, Prod.mk.injEq] at h <;>
    obtain ⟨rfl, rfl⟩ := h <;>
  · unfold pyEq
    cases hb : b.num? with
    | none => simp
    | some p =>
      obtain ⟨u, v⟩ := p
      simp only [Bool.and_eq_true, Option.some.injEq, Prod.mk.injEq]
      exact ⟨fun h => ⟨u, v, ⟨rfl, rfl⟩, h⟩, fun ⟨_, _, ⟨h1, h2⟩, h⟩ => h1 ▸ h2 ▸ h⟩

theorem pyEq_num_none {a b : Val} (ha : a.num? = none) (h : pyEq a b = true) : b.num? = none := by
  cases a <;> simp only [Val.num?, reduceCtorEq] at ha <;> unfold pyEq at h <;> split at h <;>
    first | rfl | cases h

mutual
theorem pyEq_symm : ∀ {a b : Val}, a.hashable = true → pyEq a b = true → pyEq b a = true
  | .none, b, _, h => by unfold pyEq at h; split at h <;> first | simp [pyEq] | cases h
  | .undef, b, _, h => by unfold pyEq at h; split at h <;> first | simp [pyEq] | cases h
  | .str a, b, _, h => by
      unfold pyEq at h; split at h
      · unfold pyEq; simp only [beq_iff_eq] at *; exact h.symm
      · cases h
  | .dt a, b, _, h => by
      unfold pyEq at h; split at h
      · unfold pyEq; simp only [beq_iff_eq] at *; exact h.symm
      · cases h
  | .uuid a, b, _, h => by
      unfold pyEq at h; split at h
      · unfold pyEq; simp only [beq_iff_eq] at *; exact h.symm
      · cases h
  | .obj a, b, _, h => by
      unfold pyEq at h; split at h
      · unfold pyEq; simp only [beq_iff_eq] at *; exact h.symm
      · cases h
  | .opq a, b, _, h => by
      unfold pyEq at h; split at h
      · unfold pyEq; simp only [beq_iff_eq] at *; exact h.symm
      · cases h
  | .list _, _, h, _ => by cases h
  | .set _, _, h, _ => by cases h
  | .dict _, _, h, _ => by cases h
  | .tup xs, b, hh, h => by
      unfold pyEq at h; split at h
      · unfold pyEq
        unfold Val.hashable at hh
        exact pyEqL_symm hh h
      · cases h
  | .bool a, b, _, h => num_symm (a := .bool a) rfl h
  | .int a, b, _, h => num_symm (a := .int a) rfl h
  | .float a, b, _, h => num_symm (a := .float a) rfl h
  | .cplx a c, b, _, h => num_symm (a := .cplx a c) rfl h
theorem pyEqL_symm : ∀ {xs ys : List Val}, hashableL xs = true → pyEqL xs ys = true →
    pyEqL ys xs = true
  | [], [], _, _ => by simp [pyEqL]
  | [], _ :: _, _, h => by simp [pyEqL] at h
  | _ :: _, [], _, h => by simp [pyEqL] at h
  | x :: xs, y :: ys, hh, h => by
      unfold hashableL at hh
      unfold pyEqL at h ⊢
      rw [Bool.and_eq_true] at *
      exact ⟨pyEq_symm hh.1 h.1, pyEqL_symm hh.2 h.2⟩
theorem num_symm {a b : Val} {x y : PyFloat} (ha : a.num? = some (x, y)) (h : pyEq a b = true) :
    pyEq b a = true := by
  obtain ⟨u, v, hb, h1, h2⟩ := (pyEq_num ha).1 h
  exact (pyEq_num hb).2 ⟨x, y, ha, by rw [PyFloat.eq_comm]; exact h1,
    by rw [PyFloat.eq_comm]; exact h2⟩
end

theorem num_trans {a b c : Val} {x y : PyFloat} (ha : a.num? = some (x, y)) (h : pyEq a b = true)
    (k : pyEq b c = true) : pyEq a c = true := by
  obtain ⟨u, v, hb, h1, h2⟩ := (pyEq_num ha).1 h
  obtain ⟨p, q, hc, k1, k2⟩ := (pyEq_num hb).1 k
  exact (pyEq_num ha).2 ⟨p, q, hc, PyFloat.eq_trans h1 k1, PyFloat.eq_trans h2 k2⟩

mutual
theorem pyEq_trans : ∀ {a b c : Val}, a.hashable = true → pyEq a b = true → pyEq b c = true →
    pyEq a c = true
  | .none, b, c, _, h, k => by unfold pyEq at h; split at h <;> first | exact k | cases h
  | .undef, b, c, _, h, k => by unfold pyEq at h; split at h <;> first | exact k | cases h
  | .str a, b, c, _, h, k => by
      unfold pyEq at h; split at h
      · simp only [beq_iff_eq] at h; subst h; exact k
      · cases h
  | .dt a, b, c, _, h, k => by
      unfold pyEq at h; split at h
      · simp only [beq_iff_eq] at h; subst h; exact k
      · cases h
  | .uuid a, b, c, _, h, k => by
      unfold pyEq at h; split at h
      · simp only [beq_iff_eq] at h; subst h; exact k
      · cases h
  | .obj a, b, c, _, h, k => by
      unfold pyEq at h; split at h
      · simp only [beq_iff_eq] at h; subst h; exact k
      · cases h
  | .opq a, b, c, _, h, k => by
      unfold pyEq at h; split at h
      · simp only [beq_iff_eq] at h; subst h; exact k
      · cases h
  | .list _, _, _, h, _, _ => by cases h
  | .set _, _, _, h, _, _ => by cases h
  | .dict _, _, _, h, _, _ => by cases h
  | .tup xs, b, c, hh, h, k => by
      unfold pyEq at h; split at h
      · unfold pyEq at k; split at k
        · unfold pyEq
          unfold Val.hashable at hh
          exact pyEqL_trans hh h k
        · cases k
      · cases h
  | .bool a, b, c, _, h, k => num_trans (a := .bool a) rfl h k
  | .int a, b, c, _, h, k => num_trans (a := .int a) rfl h k
  | .float a, b, c, _, h, k => num_trans (a := .float a) rfl h k
  | .cplx a d, b, c, _, h, k => num_trans (a := .cplx a d) rfl h k
theorem pyEqL_trans : ∀ {xs ys zs : List Val}, hashableL xs = true → pyEqL xs ys = true →
    pyEqL ys zs = true → pyEqL xs zs = true
  | [], [], [], _, _, _ => by simp [pyEqL]
  | [], [], _ :: _, _, _, h => by simp [pyEqL] at h
  | [], _ :: _, _, _, h, _ => by simp [pyEqL] at h
  | _ :: _, [], _, _, h, _ => by simp [pyEqL] at h
  | _ :: _, _ :: _, [], _, _, h => by simp [pyEqL] at h
  | x :: xs, y :: ys, z :: zs, hh, h, k => by
      unfold hashableL at hh
      unfold pyEqL at h k ⊢
      rw [Bool.and_eq_true] at *
      exact ⟨pyEq_trans hh.1 h.1 k.1, pyEqL_trans hh.2 h.2 k.2⟩
end

end Verif
