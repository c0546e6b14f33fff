import Verif.Lemmas.Scalar

/-!
# C03: what Integer and Float accept

`validated E n ty inst v w` is the outcome of `prop.validate(inst, v)`.
`exactly v` is the exact value of a bool, an int or a finite float.
-/

namespace Verif
open Spec

theorem validated_integer (E : Env) (n : Nat) (c : Bool) (mn mx : Option Rat) (inst : Option Nat)
    (v : Val) (w : World) :
    validated E n (.integer c mn mx) inst v w
      = (liftScalar E (run E n) (s% "p") inst (intValidate E c mn mx v) w).1 := rfl

theorem validated_float (E : Env) (n : Nat) (c : Bool) (mn mx : Option Rat) (inst : Option Nat)
    (v : Val) (w : World) :
    validated E n (.float c mn mx) inst v w
      = (liftScalar E (run E n) (s% "p") inst (floatValidate E c mn mx v) w).1 := rfl

/-- C03, Integer: a number is accepted iff it is within 1e-9 of its truncation
and the truncation is inside the bounds; the result is the truncation. -/
theorem C03_integer_accepts (E : Env) (n : Nat) (mn mx : Option Rat) (inst : Option Nat)
    (v : Val) (w : World) (q : Rat) (hv : exactly v = some q) (x : Val) :
    validated E n (.integer false mn mx) inst v w = .ok x ↔
      ∃ i : Int, x = .int i ∧ IsTruncation q i ∧ Near q i ∧ Within mn mx i := by
  rw [validated_integer, liftScalar_ok, intValidate_iff E mn mx hv]

/-- The same with `cast=True`: only the bounds matter. -/
theorem C03_integer_cast_accepts (E : Env) (n : Nat) (mn mx : Option Rat) (inst : Option Nat)
    (v : Val) (w : World) (q : Rat) (hv : exactly v = some q) (x : Val) :
    validated E n (.integer true mn mx) inst v w = .ok x ↔
      ∃ i : Int, x = .int i ∧ IsTruncation q i ∧ Within mn mx i := by
  rw [validated_integer, liftScalar_ok, intValidate_cast_iff E mn mx hv]

/-- A number that is not accepted gives ValidationError (the error hook of the
instance, if there is an instance, not being overridden). -/
theorem C03_integer_rejects (E : Env) (n : Nat) (c : Bool) (mn mx : Option Rat)
    (inst : Option Nat) (v : Val) (w : World) (q : Rat) (hv : exactly v = some q)
    (hq : QuietInst E w inst)
    (h : ∀ x, validated E n (.integer c mn mx) inst v w ≠ .ok x) :
    IsValidationError (validated E n (.integer c mn mx) inst v w) := by
  rw [validated_integer]
  simp only [validated_integer, ne_eq, liftScalar_ok] at h
  obtain ⟨i, hi, _⟩ := pyInt_exact E hv
  have : ∃ k, intValidate E c mn mx v = .error (.invalid k) := by
    unfold intValidate at h ⊢
    simp only [hi, intFar_exact hv] at h ⊢
    generalize decide (ratAbs (q - (i : Rat)) > TOL) = b at h ⊢
    generalize inBounds mn mx (i : Rat) = b2 at h ⊢
    cases c <;> cases b <;> cases b2 <;> simp at h ⊢
  obtain ⟨k, hk⟩ := this
  rw [hk]
  exact liftScalar_invalid E (run E n) _ inst k w hq

/-- An accepted Integer value is an int inside the bounds, whatever the input
(text, UUID, numpy excepted). -/
theorem C03_integer_in_bounds (E : Env) (n : Nat) (c : Bool) (mn mx : Option Rat)
    (inst : Option Nat) (v : Val) (w : World) (x : Val)
    (h : validated E n (.integer c mn mx) inst v w = .ok x) :
    ∃ i : Int, x = .int i ∧ Within mn mx i := by
  rw [validated_integer, liftScalar_ok] at h
  exact intValidate_sound E c mn mx v x h

/-- Infinity is neither accepted nor rejected with ValidationError: OverflowError
escapes. -/
theorem C03_integer_infinity_overflows (E : Env) (n : Nat) (c : Bool) (mn mx : Option Rat)
    (inst : Option Nat) (w : World) :
    validated E n (.integer c mn mx) inst (.float .pinf) w = .error ⟨.overflow, []⟩ ∧
    validated E n (.integer c mn mx) inst (.float .ninf) w = .error ⟨.overflow, []⟩ :=
  ⟨rfl, rfl⟩

/-- C03, Float: a bool or a finite float is accepted iff it is inside the
bounds, and the float with that value is returned. -/
theorem C03_float_accepts (E : Env) (n : Nat) (c : Bool) (mn mx : Option Rat) (inst : Option Nat)
    (v : Val) (w : World) (q : Rat) (hv : exactly v = some q) (hi : ∀ i, v ≠ .int i) (x : Val) :
    validated E n (.float c mn mx) inst v w = .ok x ↔ x = .float (.fin q) ∧ Within mn mx q := by
  have hb : inBoundsF mn mx (.fin q) = true ↔ Within mn mx q := by
    rw [← inBounds_iff]; rfl
  have he : pyFloat E v = .ok (.fin q) ∧ (∀ s, v ≠ .str s) := by
    unfold exactly at hv
    split at hv
    · cases hv; exact ⟨rfl, by simp⟩
    · rename_i j; exact absurd rfl (hi j)
    · cases hv; exact ⟨rfl, by simp⟩
    · cases hv
  rw [validated_float, liftScalar_ok]
  unfold floatValidate
  rw [he.1]
  dsimp only
  have ht : v.isStr = false := by
    unfold Val.isStr
    split
    · exact absurd rfl (he.2 _)
    · rfl
  rw [ht]
  simp only [Bool.false_and, Bool.false_eq_true, if_false]
  by_cases h : Within mn mx q
  · simp [hb.2 h, h, eq_comm]
  · have : inBoundsF mn mx (.fin q) = false := by
      cases hc : inBoundsF mn mx (.fin q)
      · rfl
      · exact absurd (hb.1 hc) h
    simp [this, h]

/-- An int is accepted iff it fits a float that is inside the bounds; a huge
int raises OverflowError. -/
theorem C03_float_accepts_int (E : Env) (n : Nat) (c : Bool) (mn mx : Option Rat)
    (inst : Option Nat) (i : Int) (w : World) (x : Val) :
    (validated E n (.float c mn mx) inst (.int i) w = .ok x ↔
      ∃ q, E.rnd i = .fin q ∧ x = .float (.fin q) ∧ Within mn mx q) ∧
    ((∀ q, E.rnd i ≠ .fin q) →
      validated E n (.float c mn mx) inst (.int i) w = .error ⟨.overflow, []⟩) := by
  rw [validated_float, liftScalar_ok]
  unfold floatValidate
  cases hr : E.rnd i with
  | fin q =>
    simp only [pyFloat, floatOfInt, hr, Val.isStr, Bool.false_and, Bool.false_eq_true, if_false]
    have hb : inBoundsF mn mx (.fin q) = true ↔ Within mn mx q := by
      rw [← inBounds_iff]; rfl
    refine ⟨?_, fun h => absurd rfl (h q)⟩
    by_cases h : Within mn mx q
    · simp [hb.2 h, h, eq_comm]
    · have : inBoundsF mn mx (.fin q) = false := by
        cases hc : inBoundsF mn mx (.fin q)
        · rfl
        · exact absurd (hb.1 hc) h
      simp [this, h]
  | _ => simp [pyFloat, floatOfInt, hr, liftScalar]

/-- C03: an accepted Float value is a float; if it is not NaN it is inside the
bounds (an infinity only if there is no bound on that side).  Missing for the
full claim: NaN, see `C03_nan_ignores_bounds`. -/
theorem C03_float_in_bounds (E : Env) (n : Nat) (c : Bool) (mn mx : Option Rat)
    (inst : Option Nat) (v : Val) (w : World) (x : Val)
    (h : validated E n (.float c mn mx) inst v w = .ok x) :
    ∃ f, x = .float f ∧ (∀ q, f = .fin q → Within mn mx q) ∧ (f = .pinf → mx = none) ∧
      (f = .ninf → mn = none) := by
  rw [validated_float, liftScalar_ok] at h
  unfold floatValidate at h
  split at h
  · cases h
  · cases h
  · cases h
  rename_i f _
  split at h
  · cases h
  · split at h
    · rename_i hb
      cases h
      refine ⟨f, rfl, ?_, ?_, ?_⟩
      · rintro q rfl; rw [← inBounds_iff]; exact hb
      · rintro rfl; unfold inBoundsF at hb; cases mx
        · rfl
        · simp [PyFloat.lt] at hb
      · rintro rfl; unfold inBoundsF at hb; cases mn
        · rfl
        · simp [PyFloat.lt] at hb
    · cases h

/-- C03 fails for NaN: it is accepted whatever the bounds are. -/
theorem C03_nan_ignores_bounds (E : Env) (n : Nat) (c : Bool) (mn mx : Option Rat)
    (inst : Option Nat) (w : World) :
    validated E n (.float c mn mx) inst (.float .nan) w = .ok (.float .nan) := by
  rw [validated_float, liftScalar_ok]
  cases mn <;> cases mx <;> rfl

/-- C03: what an Integer does not accept raises ValidationError, whatever it is, except
the two infinities. -/
theorem C03_integer_refuses (E : Env) (n : Nat) (c : Bool) (mn mx : Option Rat) (inst : Option Nat) (v : Val) (w : World)
    (hq : QuietInst E w inst) (hinf : v ≠ .float .pinf ∧ v ≠ .float .ninf)
    (h : ∀ x, validated E n (.integer c mn mx) inst v w ≠ .ok x) :
    IsValidationError (validated E n (.integer c mn mx) inst v w) := by
  rw [validated_integer]
  simp only [validated_integer, ne_eq, liftScalar_ok] at h
  have : ∃ k, intValidate E c mn mx v = .error (.invalid k) := by
    unfold intValidate at h ⊢
    cases hp : pyInt E v with
    | error k =>
      have hk : k = .value ∨ k = .type := by
        cases v with
        | str t =>
          unfold pyInt at hp
          cases ht : E.intOfStr t with
          | none => simp only [ht] at hp; cases hp; exact .inl rfl
          | some i => simp only [ht] at hp; cases hp
        | float f =>
          cases f with
          | fin q => cases hp
          | nan => cases hp; exact .inl rfl
          | pinf => exact absurd rfl hinf.1
          | ninf => exact absurd rfl hinf.2
        | bool b => cases hp
        | int i => cases hp
        | uuid k => cases hp
        | _ => cases hp; exact .inr rfl
      rcases hk with rfl | rfl <;> exact ⟨1, rfl⟩
    | ok i =>
      simp only [hp] at h ⊢
      generalize intFar v i = b at h ⊢
      generalize inBounds mn mx (i : Rat) = b2 at h ⊢
      cases c <;> rcases b with _ | _ | _ <;> cases b2 <;> simp at h ⊢
  obtain ⟨k, hk⟩ := this
  rw [hk]
  exact liftScalar_invalid E (run E n) _ inst k w hq

/-- C03: what a Float does not accept raises ValidationError, whatever it is, except
ints that no float is near to. -/
theorem C03_float_refuses (E : Env) (n : Nat) (c : Bool) (mn mx : Option Rat) (inst : Option Nat) (v : Val) (w : World)
    (hq : QuietInst E w inst) (hint : ∀ i, v = .int i → ∃ q, E.rnd i = .fin q)
    (h : ∀ x, validated E n (.float c mn mx) inst v w ≠ .ok x) :
    IsValidationError (validated E n (.float c mn mx) inst v w) := by
  rw [validated_float]
  simp only [validated_float, ne_eq, liftScalar_ok] at h
  have : ∃ k, floatValidate E c mn mx v = .error (.invalid k) := by
    unfold floatValidate at h ⊢
    cases hp : pyFloat E v with
    | error k =>
      have hk : k = .value ∨ k = .type := by
        unfold pyFloat at hp
        split at hp
        · cases hp
        · rename_i i
          obtain ⟨q, hq⟩ := hint i rfl
          unfold floatOfInt at hp
          rw [hq] at hp
          cases hp
        · cases hp
        · split at hp
          · cases hp
          · cases hp; exact .inl rfl
        · cases hp; exact .inr rfl
      rcases hk with rfl | rfl <;> exact ⟨1, rfl⟩
    | ok f =>
      simp only [hp] at h ⊢
      generalize inBoundsF mn mx f = b2 at h ⊢
      generalize v.isStr = b1 at h ⊢
      cases b1 <;> cases c <;> cases b2 <;> simp at h ⊢
  obtain ⟨k, hk⟩ := this
  rw [hk]
  exact liftScalar_invalid E (run E n) _ inst k w hq

/-! Non-vacuity: 3.0 for an Integer in [1, 5]; 3.5 is rejected; 0.9999999999
is rejected although it is near 1, because truncation gives 0. -/

example : exactly (.float (.fin 3)) = some 3 ∧ IsTruncation 3 3 ∧ Near 3 3 ∧
    Within (some 1) (some 5) 3 := by
  refine ⟨rfl, ⟨fun _ => ?_, fun _ => ?_⟩, ⟨?_, ?_⟩, ⟨?_, ?_⟩⟩ <;> norm_num

example : ¬ ∃ i : Int, IsTruncation (7 / 2) i ∧ Near (7 / 2) i := by
  rintro ⟨i, h1, h2⟩
  have h3 : IsTruncation (7 / 2) 3 := ⟨fun _ => by norm_num, fun h => by norm_num at h⟩
  cases isTruncation_unique h1 h3
  unfold Near at h2
  norm_num at h2

example : ¬ ∃ i : Int, IsTruncation (9999999999 / 10000000000) i ∧ Near (9999999999 / 10000000000) i := by
  rintro ⟨i, h1, h2⟩
  have h3 : IsTruncation (9999999999 / 10000000000) 0 :=
    ⟨fun _ => by norm_num, fun h => by norm_num at h⟩
  cases isTruncation_unique h1 h3
  unfold Near at h2
  norm_num at h2

example (E : Env) (w : World) : QuietInst E w none := by intro r h; cases h

end Verif
