import Verif.Core.Interp

/-! # Which exceptions the scalar types let through -/

namespace Verif

theorem pyInt_error {E : Env} {v : Val} {k : ErrKind} (h : pyInt E v = .error k) :
    k = .value ∨ k = .type ∨ k = .overflow := by
  unfold pyInt at h
  split at h <;> first | (cases h; done) | (cases h; simp; done) | skip
  split at h
  · cases h
  · cases h; simp

theorem floatOfInt_error {E : Env} {i : Int} {k : ErrKind} (h : floatOfInt E i = .error k) :
    k = .overflow := by
  unfold floatOfInt at h
  split at h <;> cases h
  rfl

theorem pyFloat_error {E : Env} {v : Val} {k : ErrKind} (h : pyFloat E v = .error k) :
    k = .value ∨ k = .type ∨ k = .overflow := by
  unfold pyFloat at h
  split at h <;> first | (cases h; done) | (cases h; simp; done) | skip
  · exact .inr (.inr (floatOfInt_error h))
  · split at h
    · cases h
    · cases h; simp

theorem pyComplex_error {E : Env} {v : Val} {k : ErrKind} (h : pyComplex E v = .error k) :
    k = .value ∨ k = .type ∨ k = .overflow := by
  unfold pyComplex at h
  split at h <;> first | (cases h; done) | (cases h; simp; done) | skip
  · rename_i i
    cases hf : floatOfInt E i with
    | ok f => rw [hf] at h; cases h
    | error k' => rw [hf] at h; cases h; exact .inr (.inr (floatOfInt_error hf))
  · split at h
    · cases h
    · cases h; simp

theorem scalar_raw {E : Env} {pick : Nat} {ty : PropTy} {v : Val} {k : ErrKind}
    (h : scalarValidate E pick ty v = some (.error (.raw k))) : k = .overflow := by
  unfold scalarValidate at h
  split at h <;> (try simp only [Option.some.injEq, reduceCtorEq] at h)
  · unfold boolValidate at h
    dsimp only at h
    split at h <;> cases h
  · unfold intValidate at h
    cases hp : pyInt E v with
    | error k' =>
      rw [hp] at h
      rcases pyInt_error hp with rfl | rfl | rfl
      · cases h
      · cases h
      · cases h; rfl
    | ok i =>
      rw [hp] at h
      dsimp only at h
      split at h
      · rename_i e he
        cases h
        split at he
        · cases he
        · split at he <;> cases he
      · split at h <;> cases h
  · unfold floatValidate at h
    cases hp : pyFloat E v with
    | error k' =>
      rw [hp] at h
      rcases pyFloat_error hp with rfl | rfl | rfl
      · cases h
      · cases h
      · cases h; rfl
    | ok i =>
      rw [hp] at h
      dsimp only at h
      split at h
      · cases h
      · split at h <;> cases h
  · unfold complexValidate at h
    cases hp : pyComplex E v with
    | error k' =>
      rw [hp] at h
      rcases pyComplex_error hp with rfl | rfl | rfl
      · cases h
      · cases h
      · cases h; rfl
    | ok i =>
      rw [hp] at h
      dsimp only at h
      split at h <;> cases h
  · unfold stringValidate at h
    split at h
    · split at h <;> cases h
    · cases h
  · unfold choiceValidate at h
    split at h
    · split at h <;> cases h
    · cases h
  · have hi : ∀ xs, colorOfItems xs ≠ .error (.raw k) := by
      intro xs hx
      unfold colorOfItems at hx
      split at hx
      · split at hx <;> cases hx
      · cases hx
    unfold colorValidate at h
    split at h
    · dsimp only at h
      split at h
      · exact absurd h (hi _)
      · rename_i e he
        cases h
        unfold colorOfText hexPairs at he
        split at he
        · split at he <;> cases he
        · cases he
    · exact absurd h (hi _)
    · exact absurd h (hi _)
    · cases h
  · unfold dtValidate at h
    split at h
    · cases h
    · split at h <;> cases h
    · cases h
  · unfold uuidValidate at h
    split at h <;> cases h

theorem realClose_error {E : Env} {a b : RealNum} {k : ErrKind} (h : realClose E a b = .error k) :
    k = .overflow := by
  have hf : ∀ (x : RealNum) k, x.toFloat E = .error k → k = .overflow := by
    intro x k h
    cases x with
    | int i => exact floatOfInt_error h
    | flt f => cases h
  unfold realClose at h
  split at h
  · cases h
  · split at h
    · rename_i k' hk; cases h; exact hf _ _ hk
    · split at h
      · rename_i k' hk; cases h; exact hf _ _ hk
      · cases h

theorem scalarEqual_error {E : Env} {ty : PropTy} {a b : Val} {k : ErrKind}
    (h : scalarEqual E ty a b = some (.error k)) : k = .overflow := by
  unfold scalarEqual at h
  split at h <;> (try simp only [Option.some.injEq, reduceCtorEq] at h)
  · unfold floatEqual at h
    split at h
    · exact realClose_error h
    · split at h <;> cases h
  · unfold complexEqual at h
    split at h
    · split at h
      · rename_i k' hk; cases h; exact realClose_error hk
      · split at h
        · rename_i k' hk; cases h; exact realClose_error hk
        · cases h
    · cases h

theorem pyIndex_error {a k : Val} {e : ErrKind} (h : pyIndex a k = .error e) : e ≠ .recursion := by
  unfold pyIndex at h
  dsimp only at h
  repeat' split at h
  all_goals first | (cases h; simp) | cases h

theorem pyPop_error {a k : Val} {e : ErrKind} (h : pyPop a k = .error e) : e ≠ .recursion := by
  unfold pyPop at h
  dsimp only at h
  repeat' split at h
  all_goals first | (cases h; simp) | cases h

end Verif
