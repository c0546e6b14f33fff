import Verif.Spec.Reads
import Verif.Lemmas.Idempotent
import Verif.Props.C03

/-!
# C76: what the basic property types accept, for every value

`validated E n ty inst v w` is the outcome of `prop.validate(inst, v)`.
-/

namespace Verif
open Spec

theorem truthy_false_iff (v : Val) : v.truthy = false ↔ Falsy v := by
  constructor
  · intro h
    cases v with
    | none => exact .none
    | bool b => cases b <;> first | exact .false | cases h
    | int i =>
      have : i = 0 := by simpa [Val.truthy] using h
      subst this; exact .int
    | float f =>
      cases f with
      | fin q =>
        have : q = 0 := by simpa [Val.truthy, PyFloat.eq] using h
        subst this; exact .float
      | _ => cases h
    | cplx a b =>
      cases a <;> cases b <;> simp [Val.truthy, PyFloat.eq] at h
      obtain ⟨rfl, rfl⟩ := h
      exact .cplx
    | str s => cases s <;> first | exact .str | cases h
    | list s => cases s <;> first | exact .list | cases h
    | tup s => cases s <;> first | exact .tup | cases h
    | set s => cases s <;> first | exact .set | cases h
    | dict s => cases s <;> first | exact .dict | cases h
    | _ => cases h
  · intro h
    cases h <;> rfl

/-- **C76**, Property: everything is accepted, as it is. -/
theorem C76_any (E : Env) (n : Nat) (inst : Option Nat) (v : Val) (w : World) :
    validated E n .any inst v w = .ok v := rfl

/-- **C76**, Boolean: exactly the two booleans, as they are. -/
theorem C76_boolean (E : Env) (n : Nat) (inst : Option Nat) (v x : Val) (w : World) :
    validated E n (.boolean false) inst v w = .ok x ↔ x = v ∧ ∃ b, v = .bool b := by
  rw [show validated E n (.boolean false) inst v w
    = (liftScalar E (run E n) (s% "p") inst (boolValidate false v) w).1 from rfl, liftScalar_ok]
  unfold boolValidate
  cases v <;> simp [eq_comm]

/-- **C76**, Boolean with `cast`: everything is accepted, and becomes its truth value. -/
theorem C76_boolean_cast (E : Env) (n : Nat) (inst : Option Nat) (v : Val) (w : World) :
    ∃ b, validated E n (.boolean true) inst v w = .ok (.bool b) ∧ (b = false ↔ Falsy v) :=
  ⟨v.truthy, by
    rw [show validated E n (.boolean true) inst v w
      = (liftScalar E (run E n) (s% "p") inst (boolValidate true v) w).1 from rfl, liftScalar_ok]
    rfl, truthy_false_iff v⟩

/-- **C76**, Integer: exactly the values read as an integer inside the bounds; the integer is the result. -/
theorem C76_integer (E : Env) (n : Nat) (c : Bool) (mn mx : Option Rat) (inst : Option Nat) (v x : Val) (w : World) :
    validated E n (.integer c mn mx) inst v w = .ok x ↔
      ∃ i, x = .int i ∧ ReadsInteger E c v i ∧ Within mn mx i := by
  cases hv : exactly v with
  | some q =>
    cases c with
    | false =>
      rw [C03_integer_accepts E n mn mx inst v w q hv]
      constructor
      · rintro ⟨i, h1, h2, h3, h4⟩
        exact ⟨i, h1, .number hv h2 fun _ => h3, h4⟩
      · rintro ⟨i, h1, h2, h4⟩
        cases h2 with
        | number h5 h6 h7 => cases hv.symm.trans h5; exact ⟨i, h1, h6, h7 rfl, h4⟩
        | text h5 => cases h5
        | uuid _ h5 => cases h5
    | true =>
      rw [C03_integer_cast_accepts E n mn mx inst v w q hv]
      constructor
      · rintro ⟨i, h1, h2, h4⟩
        exact ⟨i, h1, .number hv h2 nofun, h4⟩
      · rintro ⟨i, h1, h2, h4⟩
        cases h2 with
        | number h5 h6 _ => cases hv.symm.trans h5; exact ⟨i, h1, h6, h4⟩
        | text _ _ => cases hv
        | uuid _ _ => cases hv
  | none =>
    rw [validated_integer, liftScalar_ok]
    constructor
    · intro h
      unfold intValidate at h
      cases v with
      | str s =>
        cases hs : E.intOfStr s with
        | none => simp [pyInt, hs] at h
        | some i =>
          cases c with
          | false => simp [pyInt, hs, intFar] at h
          | true =>
            simp only [pyInt, hs, if_true] at h
            split at h
            · rename_i hb
              cases h
              exact ⟨i, rfl, .text rfl hs, (inBounds_iff ..).1 hb⟩
            · cases h
      | uuid m =>
        cases c with
        | false => simp [pyInt, intFar] at h
        | true =>
          simp only [pyInt, if_true] at h
          split at h
          · rename_i hb
            cases h
            exact ⟨m, rfl, .uuid m rfl, (inBounds_iff ..).1 hb⟩
          · cases h
      | float f => cases f <;> first | cases h | cases hv
      | bool b => cases hv
      | int i => cases hv
      | _ => cases h
    · rintro ⟨i, rfl, h2, h3⟩
      cases h2 with
      | number h5 _ _ => cases hv.symm.trans h5
      | text hc hs =>
        subst hc
        simp [intValidate, pyInt, hs, (inBounds_iff ..).2 h3]
      | uuid m hc =>
        subst hc
        simpa [intValidate, pyInt] using (inBounds_iff ..).2 h3

theorem inBoundsF_iff (mn mx : Option Rat) (f : PyFloat) : inBoundsF mn mx f = true ↔ FloatWithin mn mx f :=
  ⟨inBoundsF_within, inBoundsF_of_within⟩

/-- `float(v)`, text only with `cast`, gives what is read. -/
theorem pyFloat_reads (E : Env) (c : Bool) (v : Val) (f : PyFloat) :
    (pyFloat E v = .ok f ∧ (v.isStr && !c) = false) ↔ ReadsFloat E c v f := by
  constructor
  · rintro ⟨h, hc⟩
    cases v with
    | bool b => cases h; exact .bool b
    | int i =>
      simp only [pyFloat, floatOfInt] at h
      cases hr : E.rnd i with
      | fin q => rw [hr] at h; cases h; exact .int hr
      | _ => rw [hr] at h; cases h
    | float g => cases h; exact .float _
    | str s =>
      cases c with
      | false => cases hc
      | true =>
        cases hs : E.floatOfStr s with
        | none => simp [pyFloat, hs] at h
        | some g =>
          have : g = f := by simpa [pyFloat, hs] using h
          subst this
          exact .text rfl hs
    | _ => cases h
  · intro h
    cases h with
    | bool b => exact ⟨rfl, rfl⟩
    | int hr => exact ⟨by simp [pyFloat, floatOfInt, hr], rfl⟩
    | float => exact ⟨rfl, rfl⟩
    | text hc hs => subst hc; exact ⟨by simp [pyFloat, hs], rfl⟩

/-- **C76**, Float: exactly the values read as a float inside the bounds; the float is the result. -/
theorem C76_float (E : Env) (n : Nat) (c : Bool) (mn mx : Option Rat) (inst : Option Nat) (v x : Val) (w : World) :
    validated E n (.float c mn mx) inst v w = .ok x ↔
      ∃ f, x = .float f ∧ ReadsFloat E c v f ∧ FloatWithin mn mx f := by
  rw [validated_float, liftScalar_ok]
  unfold floatValidate
  constructor
  · intro h
    cases hp : pyFloat E v with
    | error k =>
      rw [hp] at h
      cases k <;> cases h
    | ok f =>
      rw [hp] at h
      dsimp only at h
      split at h
      · cases h
      · rename_i hc
        split at h
        · rename_i hb
          cases h
          exact ⟨f, rfl, (pyFloat_reads ..).1 ⟨hp, by simpa using hc⟩, (inBoundsF_iff ..).1 hb⟩
        · cases h
  · rintro ⟨f, rfl, hr, hb⟩
    obtain ⟨hp, hc⟩ := (pyFloat_reads ..).2 hr
    simp only [hp]
    rw [if_neg (by rw [hc]; decide), if_pos ((inBoundsF_iff ..).2 hb)]

/-- `complex(v)`, text only with `cast`, gives what is read. -/
theorem pyComplex_reads (E : Env) (c : Bool) (v : Val) (a b : PyFloat) :
    (pyComplex E v = .ok (a, b) ∧ (v.isStr && !c) = false) ↔ ReadsComplex E c v a b := by
  constructor
  · rintro ⟨h, hc⟩
    cases v with
    | bool b => cases h; exact .bool b
    | int i =>
      simp only [pyComplex, floatOfInt] at h
      cases hr : E.rnd i with
      | fin q => rw [hr] at h; cases h; exact .int hr
      | _ => rw [hr] at h; cases h
    | float g => cases h; exact .float _
    | cplx g g' => cases h; exact .cplx _ _
    | str s =>
      cases c with
      | false => cases hc
      | true =>
        cases hs : E.cplxOfStr s with
        | none => simp [pyComplex, hs] at h
        | some g =>
          have : g = (a, b) := by simpa [pyComplex, hs] using h
          subst this
          exact .text rfl hs
    | _ => cases h
  · intro h
    cases h with
    | bool b => exact ⟨rfl, rfl⟩
    | int hr => exact ⟨by simp [pyComplex, floatOfInt, hr, Except.map], rfl⟩
    | float => exact ⟨rfl, rfl⟩
    | cplx => exact ⟨rfl, rfl⟩
    | text hc hs => subst hc; exact ⟨by simp [pyComplex, hs], rfl⟩

theorem validated_complex (E : Env) (n : Nat) (c : Bool) (inst : Option Nat) (v : Val) (w : World) :
    validated E n (.complex c) inst v w
      = (liftScalar E (run E n) (s% "p") inst (complexValidate E c v) w).1 := rfl

/-- **C76**, Complex: exactly the values read as a complex number, which is the result. -/
theorem C76_complex (E : Env) (n : Nat) (c : Bool) (inst : Option Nat) (v x : Val) (w : World) :
    validated E n (.complex c) inst v w = .ok x ↔ ∃ a b, x = .cplx a b ∧ ReadsComplex E c v a b := by
  rw [validated_complex, liftScalar_ok]
  unfold complexValidate
  constructor
  · intro h
    cases hp : pyComplex E v with
    | error k =>
      rw [hp] at h
      cases k <;> cases h
    | ok z =>
      rw [hp] at h
      dsimp only at h
      split at h
      · cases h
      · rename_i hc
        cases h
        exact ⟨z.1, z.2, rfl, (pyComplex_reads ..).1 ⟨hp, by simpa using hc⟩⟩
  · rintro ⟨a, b, rfl, hr⟩
    obtain ⟨hp, hc⟩ := (pyComplex_reads ..).2 hr
    simp only [hp]
    rw [if_neg (by rw [hc]; decide)]

/-- **C76**, Complex: what is not accepted raises ValidationError, except an integer too large for a float,
which raises OverflowError. -/
theorem C76_complex_refuses (E : Env) (n : Nat) (c : Bool) (inst : Option Nat) (v : Val) (w : World)
    (hq : QuietInst E w inst) (h : ∀ x, validated E n (.complex c) inst v w ≠ .ok x) :
    ((∃ i, v = .int i) → validated E n (.complex c) inst v w = .error ⟨.overflow, []⟩) ∧
      ((∀ i, v ≠ .int i) → IsValidationError (validated E n (.complex c) inst v w)) := by
  have key : (∃ i, v = .int i) ∨ ∃ k, complexValidate E c v = .error (.invalid k) := by
    simp only [ne_eq, C76_complex] at h
    cases hp : pyComplex E v with
    | error k =>
      cases v <;> try (simp [pyComplex] at hp)
      · exact .inr ⟨1, rfl⟩
      · exact .inr ⟨1, rfl⟩
      · exact .inl ⟨_, rfl⟩
      · rename_i s
        cases hs : E.cplxOfStr s with
        | none => exact .inr ⟨1, by simp [complexValidate, pyComplex, hs]⟩
        | some z => rw [hs] at hp; cases hp
      all_goals exact .inr ⟨1, rfl⟩
    | ok z =>
      obtain ⟨a, b⟩ := z
      refine .inr ⟨1, ?_⟩
      simp only [complexValidate, hp]
      cases hc : (v.isStr && !c) with
      | true => simp
      | false => exact (h _ ⟨a, b, rfl, (pyComplex_reads ..).1 ⟨hp, hc⟩⟩).elim
  rw [validated_complex]
  constructor
  · rintro ⟨i, rfl⟩
    cases hr : E.rnd i with
    | fin q => exact (h _ ((C76_complex ..).2 ⟨_, _, rfl, .int hr⟩)).elim
    | _ => simp [complexValidate, pyComplex, floatOfInt, hr, Except.map, liftScalar, raiseK, M.raise]
  · intro hi
    obtain ⟨k, hk⟩ := key.resolve_left fun ⟨i, h⟩ => hi i h
    rw [hk]
    exact liftScalar_invalid E (run E n) _ inst k w hq

/-- **C76**, DateTime: exactly the moments, as they are, and the text that denotes one. -/
theorem C76_datetime (E : Env) (n : Nat) (inst : Option Nat) (v x : Val) (w : World) :
    validated E n .datetime inst v w = .ok x ↔
      ∃ t, x = .dt t ∧ (v = .dt t ∨ ∃ s, v = .str s ∧ E.dtOfStr s = some t) := by
  rw [show validated E n .datetime inst v w
    = (liftScalar E (run E n) (s% "p") inst (dtValidate E v) w).1 from rfl, liftScalar_ok]
  unfold dtValidate
  cases v with
  | dt t => simp [eq_comm]
  | str s => cases hs : E.dtOfStr s <;> simp [hs, eq_comm]
  | _ => simp

/-- **C76**, Uuid: exactly the UUIDs, as they are. -/
theorem C76_uuid (E : Env) (n : Nat) (inst : Option Nat) (v x : Val) (w : World) :
    validated E n .uuid inst v w = .ok x ↔ x = v ∧ ∃ m, v = .uuid m := by
  rw [show validated E n .uuid inst v w
    = (liftScalar E (run E n) (s% "p") inst (uuidValidate v) w).1 from rfl, liftScalar_ok]
  unfold uuidValidate
  cases v <;> simp [eq_comm]

/-- **C76**: a Boolean, DateTime or Uuid raises ValidationError for what it does not accept. -/
theorem C76_refuses (E : Env) (n : Nat) (ty : PropTy) (inst : Option Nat) (v : Val) (w : World)
    (hq : QuietInst E w inst) (ht : (∃ c, ty = .boolean c) ∨ ty = .datetime ∨ ty = .uuid)
    (h : ∀ x, validated E n ty inst v w ≠ .ok x) : IsValidationError (validated E n ty inst v w) := by
  rcases ht with ⟨c, rfl⟩ | rfl | rfl
  · have e : validated E n (.boolean c) inst v w
      = (liftScalar E (run E n) (s% "p") inst (boolValidate c v) w).1 := rfl
    rw [e]
    simp only [e, ne_eq, liftScalar_ok] at h
    have : ∃ k, boolValidate c v = .error (.invalid k) := by
      unfold boolValidate at h ⊢
      dsimp only at h ⊢
      split
      · rename_i b hb
        rw [hb] at h
        exact (h _ rfl).elim
      · exact ⟨1, rfl⟩
    obtain ⟨k, hk⟩ := this
    rw [hk]
    exact liftScalar_invalid E (run E n) _ inst k w hq
  · have e : validated E n .datetime inst v w
      = (liftScalar E (run E n) (s% "p") inst (dtValidate E v) w).1 := rfl
    rw [e]
    simp only [e, ne_eq, liftScalar_ok] at h
    have : ∃ k, dtValidate E v = .error (.invalid k) := by
      unfold dtValidate at h ⊢
      cases v with
      | dt t => exact (h _ rfl).elim
      | str s => cases hs : E.dtOfStr s <;> simp [hs] at h ⊢
      | _ => exact ⟨1, rfl⟩
    obtain ⟨k, hk⟩ := this
    rw [hk]
    exact liftScalar_invalid E (run E n) _ inst k w hq
  · have e : validated E n .uuid inst v w
      = (liftScalar E (run E n) (s% "p") inst (uuidValidate v) w).1 := rfl
    rw [e]
    simp only [e, ne_eq, liftScalar_ok] at h
    have : ∃ k, uuidValidate v = .error (.invalid k) := by
      unfold uuidValidate at h ⊢
      cases v with
      | uuid t => exact (h _ rfl).elim
      | _ => exact ⟨1, rfl⟩
    obtain ⟨k, hk⟩ := this
    rw [hk]
    exact liftScalar_invalid E (run E n) _ inst k w hq

/-! Non-vacuity: the text `7` is an integer only with `cast`; a Boolean with `cast` takes a
nonempty list for True, and the empty one for False. -/

example (E : Env) (h : E.intOfStr (s% "7") = some 7) :
    (∃ i, ReadsInteger E true (.str (s% "7")) i) ∧ ¬ ∃ i, ReadsInteger E false (.str (s% "7")) i := by
  refine ⟨⟨7, .text rfl h⟩, ?_⟩
  rintro ⟨i, hi⟩
  cases hi with
  | number h1 => cases h1
  | text h1 => cases h1

example : Falsy (.list []) ∧ ¬ Falsy (.list [.none]) ∧ ¬ Falsy .undef :=
  ⟨.list, nofun, nofun⟩

example (E : Env) (h : E.rnd 3 = .fin 3) : ReadsComplex E false (.int 3) (.fin 3) (.fin 0) := .int h

end Verif
