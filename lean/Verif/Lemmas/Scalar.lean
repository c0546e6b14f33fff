import Mathlib.Tactic.Linarith
import Mathlib.Data.Rat.Floor
import Verif.Lemmas.Monad
import Verif.Spec.Scalar

/-! # Lemmas about the scalar validators -/

namespace Verif
open Spec

/-- The instance exists and its class does not override the error hook. -/
def QuietInst (E : Env) (w : World) (inst : Option Nat) : Prop :=
  ∀ r, inst = some r → ∃ o, w.objs[r]? = some o ∧ (E.classes o.cls).hook = none

theorem raiseVal_never_ok {α : Type} (E : Env) (rec : Rec) (reason prop : Option PyStr)
    (inst : Option Nat) (w : World) (a : α) : (raiseVal E rec reason prop inst w).1 ≠ .ok a := by
  unfold raiseVal
  cases inst with
  | none => simp
  | some r =>
    dsimp only
    cases ho : w.objs[r]? with
    | none => rw [bind_err (getObj_none ho)]; simp
    | some o =>
      rw [bind_ok (getObj_some ho)]
      split
      · rw [bind_apply]; split <;> simp
      · simp

theorem propError_never_ok {α : Type} (E : Env) (rec : Rec) (nm : PyStr) (inst : Option Nat)
    (w : World) (a : α) : (propError E rec nm inst w).1 ≠ .ok a :=
  raiseVal_never_ok E rec _ _ inst w a

/-- The exception does not depend on the expected result. -/
theorem raiseVal_cast {α β : Type} {E : Env} {rec : Rec} {reason prop : Option PyStr}
    {inst : Option Nat} {w w' : World} {e : PyErr}
    (h : (raiseVal E rec reason prop inst w : Except PyErr α × World) = (.error e, w')) :
    (raiseVal E rec reason prop inst w : Except PyErr β × World) = (.error e, w') := by
  unfold raiseVal at *
  cases inst with
  | none => cases h; rfl
  | some r =>
    dsimp only at *
    rcases bind_err_inv h with h | ⟨o, w1, h1, h2⟩
    · rw [bind_err h]
    · rw [bind_ok h1]
      split at h2
      · rename_i hg
        rw [if_pos hg]
        rcases bind_err_inv h2 with h | ⟨_, w2, h3, h4⟩
        · rw [bind_err h]
        · rw [bind_ok h3]; cases h4; rfl
      · rename_i hg
        rw [if_neg hg]
        cases h2; rfl

theorem runHook_quiet (E : Env) (rec : Rec) (r : Nat) (ts : List ErrTuple) (w : World) (o : Obj)
    (ho : w.objs[r]? = some o) (hq : (E.classes o.cls).hook = none) :
    runHook E rec r ts w = (.ok (), { w with hooks := w.hooks ++ [(r, ts)] }) := by
  unfold runHook
  rw [bind_ok (getObj_some ho), bind_ok (modify_apply _ _), hq]
  rfl

theorem raiseVal_quiet {α : Type} (E : Env) (rec : Rec) (reason prop : Option PyStr)
    (inst : Option Nat) (w : World) (h : QuietInst E w inst) :
    ∃ hs, (raiseVal E rec reason prop inst w : Except PyErr α × World)
      = (.error ⟨.validation, [⟨reason, prop, inst⟩]⟩, { w with hooks := hs }) := by
  unfold raiseVal
  cases inst with
  | none => exact ⟨_, rfl⟩
  | some r =>
    obtain ⟨o, ho, hq⟩ := h r rfl
    dsimp only
    rw [bind_ok (getObj_some ho)]
    split
    · rw [bind_ok (runHook_quiet E rec r _ w o ho hq)]
      exact ⟨_, rfl⟩
    · exact ⟨_, rfl⟩

theorem propError_quiet {α : Type} (E : Env) (rec : Rec) (nm : PyStr) (inst : Option Nat)
    (w : World) (h : QuietInst E w inst) :
    ∃ w', (propError E rec nm inst w : Except PyErr α × World)
      = (.error ⟨.validation, [⟨some (s% "invalid"), some nm, inst⟩]⟩, w') ∧ w'.objs = w.objs := by
  obtain ⟨hs, h⟩ := raiseVal_quiet (α := α) E rec (some (s% "invalid")) (some nm) inst w h
  exact ⟨_, h, rfl⟩

theorem liftScalar_ok (E : Env) (rec : Rec) (nm : PyStr) (inst : Option Nat) (x : Except SErr Val)
    (w : World) (v : Val) : (liftScalar E rec nm inst x w).1 = .ok v ↔ x = .ok v := by
  unfold liftScalar
  split
  · simp [pure, M.ret]
  · simp [raiseK, M.raise]
  · simp only [reduceCtorEq, iff_false]
    unfold M.catchIf
    have h1 := propError_never_ok (α := Val) E rec nm inst w
    rcases hp : propError (α := Val) E rec nm inst w with ⟨x, w'⟩
    rw [hp] at h1
    cases x with
    | ok a => exact absurd rfl (h1 a)
    | error e =>
      simp only
      split
      · exact propError_never_ok E rec nm inst w' v
      · simp
  · simp only [reduceCtorEq, iff_false]
    exact propError_never_ok E rec nm inst w v

theorem liftScalar_invalid (E : Env) (rec : Rec) (nm : PyStr) (inst : Option Nat) (k : Nat)
    (w : World) (h : QuietInst E w inst) :
    IsValidationError (liftScalar E rec nm inst (.error (.invalid k)) w).1 := by
  obtain ⟨w', h1, h2⟩ := propError_quiet (α := Val) E rec nm inst w h
  by_cases hk : k = 2
  · subst hk
    have e : liftScalar E rec nm inst (.error (.invalid 2)) = M.catchIf isTypeOrValue
      (propError E rec nm inst) (fun _ => propError E rec nm inst) := rfl
    rw [e, catchIf_err h1 rfl]
    obtain ⟨w'', h3, _⟩ := propError_quiet (α := Val) E rec nm inst w' (fun r hr => h2 ▸ h r hr)
    rw [h3]
    exact ⟨_, rfl, rfl⟩
  · have : liftScalar E rec nm inst (.error (.invalid k)) = propError E rec nm inst := by
      unfold liftScalar
      split
      · rename_i heq; cases heq
      · rename_i heq; cases heq
      · rename_i heq; cases heq; exact absurd rfl hk
      · rfl
    rw [this, h1]; exact ⟨_, rfl, rfl⟩

theorem ratTrunc_nonneg {q : Rat} (h : 0 ≤ q) : ratTrunc q = ⌊q⌋ := by
  unfold ratTrunc
  rw [Rat.floor_def', Int.tdiv_eq_ediv_of_nonneg (Rat.num_nonneg.2 h)]

theorem ratTrunc_neg (q : Rat) : ratTrunc (-q) = - ratTrunc q := by
  unfold ratTrunc
  simp [Int.neg_tdiv]

theorem ratTrunc_nonpos {q : Rat} (h : q ≤ 0) : ratTrunc q = -⌊-q⌋ := by
  have := ratTrunc_neg (-q)
  rw [neg_neg] at this
  rw [this, ratTrunc_nonneg (by linarith)]

theorem isTruncation_ratTrunc (q : Rat) : IsTruncation q (ratTrunc q) := by
  constructor
  · intro h
    rw [ratTrunc_nonneg h]
    exact ⟨Int.floor_le q, Int.lt_floor_add_one q⟩
  · intro h
    rw [ratTrunc_nonpos h]
    have h1 := Int.floor_le (-q)
    have h2 := Int.lt_floor_add_one (-q)
    push_cast
    constructor <;> linarith

theorem isTruncation_unique {q : Rat} {i j : Int} (hi : IsTruncation q i) (hj : IsTruncation q j) :
    i = j := by
  rcases le_total 0 q with h | h
  · have a := hi.1 h
    have b := hj.1 h
    have h1 : (i : Rat) < j + 1 := by linarith
    have h2 : (j : Rat) < i + 1 := by linarith
    have h1' : i < j + 1 := by exact_mod_cast h1
    have h2' : j < i + 1 := by exact_mod_cast h2
    omega
  · have a := hi.2 h
    have b := hj.2 h
    have h1 : (i : Rat) - 1 < j := by linarith
    have h2 : (j : Rat) - 1 < i := by linarith
    have h1' : i - 1 < j := by exact_mod_cast h1
    have h2' : j - 1 < i := by exact_mod_cast h2
    omega

theorem isTruncation_int (i : Int) : IsTruncation (i : Rat) i :=
  ⟨fun _ => ⟨le_refl _, by linarith⟩, fun _ => ⟨le_refl _, by linarith⟩⟩

theorem inBounds_iff (mn mx : Option Rat) (q : Rat) :
    inBounds mn mx q = true ↔ Within mn mx q := by
  unfold inBounds Within
  cases mn <;> cases mx <;> simp [not_lt]

theorem ratAbs_le (q t : Rat) : ratAbs q ≤ t ↔ q ≤ t ∧ -q ≤ t := by
  unfold ratAbs
  split
  · constructor
    · intro h; constructor <;> linarith
    · intro h; exact h.2
  · constructor
    · intro h; constructor <;> linarith
    · intro h; exact h.1

theorem near_iff (q : Rat) (i : Int) : ¬ ratAbs (q - i) > TOL ↔ Near q i := by
  rw [not_lt, ratAbs_le]
  unfold Near TOL
  rw [show -(q - (i : Rat)) = i - q by ring]

/-- `int(v)` for a number with an exact value. -/
theorem pyInt_exact (E : Env) {v : Val} {q : Rat} (h : exactly v = some q) :
    ∃ i, pyInt E v = .ok i ∧ IsTruncation q i := by
  unfold exactly at h
  split at h
  · rename_i b; cases h
    cases b
    · exact ⟨0, rfl, by simpa using isTruncation_int 0⟩
    · exact ⟨1, rfl, by simpa using isTruncation_int 1⟩
  · rename_i i; cases h; exact ⟨i, rfl, isTruncation_int i⟩
  · rename_i f; cases h; exact ⟨_, rfl, isTruncation_ratTrunc q⟩
  · cases h

theorem intFar_exact {v : Val} {q : Rat} (h : exactly v = some q) (i : Int) :
    intFar v i = some (decide (ratAbs (q - i) > TOL)) := by
  unfold exactly at h
  split at h
  · rename_i b; cases h; rfl
  · rename_i j; cases h; rfl
  · rename_i f; cases h; rfl
  · cases h

theorem intValidate_iff (E : Env) (mn mx : Option Rat) {v : Val} {q : Rat}
    (h : exactly v = some q) (x : Val) :
    intValidate E false mn mx v = .ok x ↔
      ∃ i : Int, x = .int i ∧ IsTruncation q i ∧ Near q i ∧ Within mn mx i := by
  obtain ⟨i, h1, h2⟩ := pyInt_exact E h
  unfold intValidate
  simp only [h1, intFar_exact h, Bool.false_eq_true, if_false]
  by_cases hn : ratAbs (q - i) > TOL
  · simp only [hn, decide_true]
    simp only [reduceCtorEq, false_iff]
    rintro ⟨j, _, hj, hnear, _⟩
    cases isTruncation_unique h2 hj
    exact (near_iff q i).2 hnear hn
  · simp only [hn, decide_false]
    by_cases hb : inBounds mn mx i = true
    · simp only [hb, if_true]
      constructor
      · intro hx; cases hx
        exact ⟨i, rfl, h2, (near_iff q i).1 hn, (inBounds_iff ..).1 hb⟩
      · rintro ⟨j, rfl, hj, _, _⟩
        rw [isTruncation_unique h2 hj]
    · simp only [hb]
      simp only [Bool.false_eq_true, if_false, reduceCtorEq, false_iff]
      rintro ⟨j, _, hj, _, hw⟩
      cases isTruncation_unique h2 hj
      exact hb ((inBounds_iff ..).2 hw)

theorem intValidate_cast_iff (E : Env) (mn mx : Option Rat) {v : Val} {q : Rat}
    (h : exactly v = some q) (x : Val) :
    intValidate E true mn mx v = .ok x ↔
      ∃ i : Int, x = .int i ∧ IsTruncation q i ∧ Within mn mx i := by
  obtain ⟨i, h1, h2⟩ := pyInt_exact E h
  unfold intValidate
  simp only [h1, if_true]
  by_cases hb : inBounds mn mx i = true
  · simp only [hb, if_true]
    constructor
    · intro hx; cases hx
      exact ⟨i, rfl, h2, (inBounds_iff ..).1 hb⟩
    · rintro ⟨j, rfl, hj, _⟩
      rw [isTruncation_unique h2 hj]
  · simp only [hb]
    simp only [Bool.false_eq_true, if_false, reduceCtorEq, false_iff]
    rintro ⟨j, _, hj, hw⟩
    cases isTruncation_unique h2 hj
    exact hb ((inBounds_iff ..).2 hw)

/-- Whatever the input, an accepted Integer value is an int inside the bounds. -/
theorem intValidate_sound (E : Env) (c : Bool) (mn mx : Option Rat) (v x : Val)
    (h : intValidate E c mn mx v = .ok x) : ∃ i : Int, x = .int i ∧ Within mn mx i := by
  unfold intValidate at h
  split at h
  any_goals cases h
  rename_i i _
  dsimp only at h
  split at h
  · cases h
  · split at h
    · rename_i hb
      cases h
      exact ⟨i, rfl, (inBounds_iff ..).1 hb⟩
    · cases h

end Verif
