import Verif.Spec.Close
import Verif.Lemmas.Scalar
import Verif.Models.Demo

/-!
# C82: when two numbers count as equal
-/

namespace Verif
open Verif.Spec

/-- The tolerance is one billionth, up to the precision of floats. -/
theorem billionth_near : billionth - 1 / 1000000000 < 1 / 10 ^ 25 ∧ 1 / 1000000000 - billionth < 1 / 10 ^ 25 := by
  unfold billionth
  constructor <;> norm_num

theorem ratAbs_small (d : Rat) : ratAbs d ≤ TOL ↔ Small d := by
  unfold ratAbs Small
  have e : TOL = billionth := rfl
  have hp : 0 < billionth := by unfold billionth; norm_num
  rw [e]
  split
  · constructor
    · intro h; constructor <;> linarith
    · intro h; linarith [h.1]
  · constructor
    · intro h; constructor <;> linarith
    · intro h; exact h.2

theorem small_int (i j : Int) : Small ((i : Rat) - j) ↔ i = j := by
  have hp : (0 : Rat) < billionth ∧ billionth < 1 := by unfold billionth; constructor <;> norm_num
  constructor
  · intro h
    obtain ⟨h1, h2⟩ := h
    have a : (i : Rat) - j < 1 := by linarith
    have b : -1 < (i : Rat) - j := by linarith
    have a' : ((i - j : Int) : Rat) < ((1 : Int) : Rat) := by push_cast; exact a
    have b' : (((-1 : Int)) : Rat) < ((i - j : Int) : Rat) := by push_cast; exact b
    have a2 := Int.cast_lt.1 a'
    have b2 := Int.cast_lt.1 b'
    omega
  · rintro rfl
    simp only [sub_self]
    exact ⟨by linarith, by linarith⟩

/-- What the comparison of two real numbers answers. -/
theorem close_floats {E : Env} (a b : PyFloat) (c : Bool) :
    realClose E (.flt a) (.flt b) = .ok c ↔ (c = true ↔ CloseF E a b) := by
  have key : PyFloat.small (PyFloat.sub E a b) = true ↔ CloseF E a b := by
    unfold CloseF
    cases a with
    | fin x =>
      cases b with
      | fin y =>
        show PyFloat.small (E.rnd (x - y)) = true ↔ _
        cases hr : E.rnd (x - y) with
        | fin d =>
          show decide (ratAbs d ≤ TOL) = true ↔ _
          rw [decide_eq_true_iff, ratAbs_small]
          constructor
          · intro h; exact ⟨x, y, d, rfl, rfl, hr, h⟩
          · rintro ⟨x', y', d', h1, h2, h3, h4⟩
            cases h1; cases h2
            rw [hr] at h3; cases h3
            exact h4
        | _ =>
          refine ⟨fun h => (by cases h), ?_⟩
          rintro ⟨x', y', d', h1, h2, h3, h4⟩
          cases h1; cases h2
          rw [hr] at h3; cases h3
      | _ => exact ⟨fun h => (by cases h), fun ⟨_, _, _, _, h, _⟩ => (by cases h)⟩
    | _ =>
      refine ⟨fun h => ?_, fun ⟨_, _, _, h, _⟩ => (by cases h)⟩
      cases b <;> cases h
  show Except.ok (PyFloat.small (PyFloat.sub E a b)) = .ok c ↔ _
  rw [← key]
  cases c <;> cases PyFloat.small (PyFloat.sub E a b) <;> simp

theorem propEqual_float (E : Env) (n : Nat) (p : PropSpec) {c : Bool} {mn mx : Option Rat} (hp : p.ty = .float c mn mx)
    (a b : Val) (w : World) : run E (n + 1) (.propEqual p a b) w = (liftK (floatEqual E a b) >>= fun r => pure (.bool r)) w := by
  show propEqualBody E (run E n) p a b w = _
  unfold propEqualBody
  rw [hp]
  rfl

theorem propEqual_complex (E : Env) (n : Nat) (p : PropSpec) {c : Bool} (hp : p.ty = .complex c)
    (a b : Val) (w : World) : run E (n + 1) (.propEqual p a b) w = (liftK (complexEqual E a b) >>= fun r => pure (.bool r)) w := by
  show propEqualBody E (run E n) p a b w = _
  unfold propEqualBody
  rw [hp]
  rfl

/-- C82: two values of a Float are equal exactly if both are finite and their difference, as a
float, is at most one billionth; the comparison changes nothing. -/
theorem C82_float (E : Env) (n : Nat) (p : PropSpec) {c : Bool} {mn mx : Option Rat} (hp : p.ty = .float c mn mx)
    (a b : PyFloat) (w : World) :
    ∃ r, run E (n + 1) (.propEqual p (.float a) (.float b)) w = (.ok (.bool r), w) ∧ (r = true ↔ CloseF E a b) := by
  have h : floatEqual E (.float a) (.float b) = realClose E (.flt a) (.flt b) := rfl
  have hr : realClose E (.flt a) (.flt b) = .ok (PyFloat.small (PyFloat.sub E a b)) := rfl
  refine ⟨_, ?_, (close_floats a b _).1 hr⟩
  rw [propEqual_float E n p hp, h, hr]
  rfl

/-- C82: two values of a Complex are equal exactly if the real parts and the imaginary parts count
as equal floats. -/
theorem C82_complex (E : Env) (n : Nat) (p : PropSpec) {c : Bool} (hp : p.ty = .complex c)
    (a a' b b' : PyFloat) (w : World) :
    ∃ r, run E (n + 1) (.propEqual p (.cplx a a') (.cplx b b')) w = (.ok (.bool r), w) ∧
      (r = true ↔ CloseF E a b ∧ CloseF E a' b') := by
  have hr : realClose E (.flt a) (.flt b) = .ok (PyFloat.small (PyFloat.sub E a b)) := rfl
  have hi : realClose E (.flt a') (.flt b') = .ok (PyFloat.small (PyFloat.sub E a' b')) := rfl
  have h : complexEqual E (.cplx a a') (.cplx b b') =
      .ok (PyFloat.small (PyFloat.sub E a b) && PyFloat.small (PyFloat.sub E a' b')) := by
    unfold complexEqual
    simp only [Val.realPart?, Val.imagPart?]
    rw [hr, hi]
  refine ⟨PyFloat.small (PyFloat.sub E a b) && PyFloat.small (PyFloat.sub E a' b'), ?_, ?_⟩
  · rw [propEqual_complex E n p hp, h]
    rfl
  · rw [Bool.and_eq_true, (close_floats a b _).1 hr, (close_floats a' b' _).1 hi]

/-- C82: two whole numbers are equal exactly if they are the same, for an Integer and for a Float. -/
theorem C82_integer (E : Env) (n : Nat) (p : PropSpec) {c : Bool} {mn mx : Option Rat}
    (hp : p.ty = .integer c mn mx ∨ p.ty = .float c mn mx) (i j : Int) (w : World) :
    run E (n + 1) (.propEqual p (.int i) (.int j)) w = (.ok (.bool (decide (i = j))), w) := by
  rcases hp with hp | hp
  · show propEqualBody E (run E n) p (.int i) (.int j) w = _
    unfold propEqualBody
    rw [hp]
    show (liftK (.ok (pyEq (.int i) (.int j))) >>= fun r => pure (Val.bool r)) w = _
    have : pyEq (.int i) (.int j) = decide (i = j) := by
      by_cases h : i = j
      · subst h; simp [pyEq, Val.num?, PyFloat.eq]
      · simp [pyEq, Val.num?, PyFloat.eq, h]
    rw [this]
    rfl
  · rw [propEqual_float E n p hp]
    have : floatEqual E (.int i) (.int j) = .ok (decide (i = j)) := by
      show Except.ok (decide (ratAbs ((i : Rat) - j) ≤ TOL)) = _
      congr 1
      exact decide_eq_decide.2 ((ratAbs_small _).trans (small_int i j))
    rw [this]
    rfl

theorem wholeNum_real {v : Val} {i : Int} (h : WholeNum v i) : v.realNum? = some (.int i) := by
  cases h <;> rfl

/-- C82: a Float takes True for 1 and False for 0. -/
theorem C82_whole (E : Env) (n : Nat) (p : PropSpec) {c : Bool} {mn mx : Option Rat} (hp : p.ty = .float c mn mx)
    {a b : Val} {i j : Int} (ha : WholeNum a i) (hb : WholeNum b j) (w : World) :
    run E (n + 1) (.propEqual p a b) w = (.ok (.bool (decide (i = j))), w) := by
  rw [propEqual_float E n p hp]
  unfold floatEqual
  simp only [wholeNum_real ha, wholeNum_real hb]
  have h : realClose E (.int i) (.int j) = .ok (decide (i = j)) := by
    show Except.ok (decide (ratAbs ((i : Rat) - j) ≤ TOL)) = _
    congr 1
    rw [decide_eq_decide, ratAbs_small, small_int]
  rw [h]
  rfl

/-- C82: a whole number is turned into a float to be compared with one, and equals the floats close
to that; if it is too large for a float, OverflowError. -/
theorem C82_mixed (E : Env) (n : Nat) (p : PropSpec) {c : Bool} {mn mx : Option Rat} (hp : p.ty = .float c mn mx)
    {a : Val} {i : Int} (ha : WholeNum a i) (f : PyFloat) (w : World) :
    (∀ x, E.rnd i = .fin x → ∃ r s, run E (n + 1) (.propEqual p a (.float f)) w = (.ok (.bool r), w) ∧
      run E (n + 1) (.propEqual p (.float f) a) w = (.ok (.bool s), w) ∧
      (r = true ↔ CloseF E (.fin x) f) ∧ (s = true ↔ CloseF E f (.fin x))) ∧
    ((∀ x, E.rnd i ≠ .fin x) →
      ∃ e1 e2 : PyErr, run E (n + 1) (.propEqual p a (.float f)) w = (.error e1, w) ∧ e1.kind = .overflow ∧
        run E (n + 1) (.propEqual p (.float f) a) w = (.error e2, w) ∧ e2.kind = .overflow) := by
  rw [propEqual_float E n p hp, propEqual_float E n p hp]
  have h1 : floatEqual E a (.float f) = realClose E (.int i) (.flt f) := by
    unfold floatEqual
    simp only [wholeNum_real ha]
    rfl
  have h2 : floatEqual E (.float f) a = realClose E (.flt f) (.int i) := by
    unfold floatEqual
    simp only [wholeNum_real ha]
    rfl
  rw [h1, h2]
  refine ⟨fun x hx => ?_, fun hx => ?_⟩
  · have h3 : floatOfInt E i = .ok (.fin x) := by
      unfold floatOfInt
      rw [hx]
    have h4 : realClose E (.int i) (.flt f) = realClose E (.flt (.fin x)) (.flt f) := by
      unfold realClose
      simp only [RealNum.toFloat, h3]
    have h5 : realClose E (.flt f) (.int i) = realClose E (.flt f) (.flt (.fin x)) := by
      unfold realClose
      simp only [RealNum.toFloat, h3]
    rw [h4, h5]
    exact ⟨_, _, rfl, rfl, (close_floats _ _ _).1 rfl, (close_floats _ _ _).1 rfl⟩
  · have h3 : floatOfInt E i = .error .overflow := by
      unfold floatOfInt
      cases h : E.rnd i with
      | fin x => exact absurd h (hx x)
      | _ => rfl
    have h4 : realClose E (.int i) (.flt f) = .error .overflow := by
      unfold realClose
      simp only [RealNum.toFloat, h3]
    have h5 : realClose E (.flt f) (.int i) = .error .overflow := by
      unfold realClose
      simp only [RealNum.toFloat, h3]
    rw [h4, h5]
    exact ⟨_, _, rfl, rfl, rfl, rfl⟩

theorem planePoint_num {v : Val} {x y : Rat} (h : PlanePoint v x y) : v.num? = some (.fin x, .fin y) := by
  cases h with
  | whole _ i hi => cases hi <;> simp [Val.num?]
  | float => rfl
  | complex => rfl

/-- C82: where a Float compares with a complex number, the distance in the plane counts. -/
theorem C82_distance (E : Env) (n : Nat) (p : PropSpec) {c : Bool} {mn mx : Option Rat} (hp : p.ty = .float c mn mx)
    {a b : Val} {x y x' y' : Rat} (ha : PlanePoint a x y) (hb : PlanePoint b x' y')
    (hc : (∃ f g, a = .cplx f g) ∨ ∃ f g, b = .cplx f g) (w : World) :
    ∃ r, run E (n + 1) (.propEqual p a b) w = (.ok (.bool r), w) ∧
      (r = true ↔ (x - x') ^ 2 + (y - y') ^ 2 ≤ billionth ^ 2) := by
  rw [propEqual_float E n p hp]
  have h : floatEqual E a b = .ok (decide ((x - x') * (x - x') + (y - y') * (y - y') ≤ TOL * TOL)) := by
    unfold floatEqual
    simp only [planePoint_num ha, planePoint_num hb]
    have hn : (∃ f g, a = .cplx f g) → a.realNum? = none := by rintro ⟨f, g, rfl⟩; rfl
    have hn' : (∃ f g, b = .cplx f g) → b.realNum? = none := by rintro ⟨f, g, rfl⟩; rfl
    rcases hc with hc | hc
    · simp only [hn hc]
    · simp only [hn' hc]
      cases a.realNum? <;> rfl
  refine ⟨_, by rw [h]; rfl, ?_⟩
  rw [decide_eq_true_iff, pow_two, pow_two, pow_two]
  rfl

/-- C82: a value that is no number equals nothing for a Float. -/
theorem C82_other (E : Env) (n : Nat) (p : PropSpec) {c : Bool} {mn mx : Option Rat} (hp : p.ty = .float c mn mx)
    {a b : Val} (h : ¬ IsNumber a ∨ ¬ IsNumber b) (w : World) :
    run E (n + 1) (.propEqual p a b) w = (.ok (.bool false), w) := by
  rw [propEqual_float E n p hp]
  have hno : ∀ v, ¬ IsNumber v → v.realNum? = none ∧ v.num? = none := fun v hv => by
    cases v with
    | bool b =>
      refine absurd (.inl ?_) hv
      cases b
      · exact ⟨0, .false⟩
      · exact ⟨1, .true⟩
    | int i => exact absurd (.inl ⟨i, .int i⟩) hv
    | float f => exact absurd (.inr (.inl ⟨f, rfl⟩)) hv
    | cplx f g => exact absurd (.inr (.inr ⟨f, g, rfl⟩)) hv
    | _ => exact ⟨rfl, rfl⟩
  have : floatEqual E a b = .ok false := by
    unfold floatEqual
    rcases h with h | h
    · simp only [(hno a h).1, (hno a h).2]
    · simp only [(hno b h).1, (hno b h).2]
      cases a.realNum? <;> cases a.num? with
      | none => rfl
      | some q => obtain ⟨q1, q2⟩ := q; cases q1 <;> cases q2 <;> rfl
  rw [this]
  rfl

/-- C82: for a Boolean, True equals True and False equals False, and a bool equals nothing else: not
even the number that Python holds equal to it. -/
theorem C82_boolean (E : Env) (n : Nat) (p : PropSpec) {c : Bool} (hp : p.ty = .boolean c) (a : Bool) (b : Val)
    (w : World) :
    ∃ r s, run E (n + 1) (.propEqual p (.bool a) b) w = (.ok (.bool r), w) ∧
      run E (n + 1) (.propEqual p b (.bool a)) w = (.ok (.bool s), w) ∧
      (r = true ↔ b = .bool a) ∧ (s = true ↔ b = .bool a) := by
  have h : ∀ x y, run E (n + 1) (.propEqual p x y) w = (.ok (.bool (isSame E x y)), w) := fun x y => by
    show propEqualBody E (run E n) p x y w = _
    unfold propEqualBody
    rw [hp]
    rfl
  refine ⟨_, _, h _ _, h _ _, ?_, ?_⟩
  · cases b <;> simp [isSame, eq_comm (a := a)]
  · cases b <;> simp [isSame]

/-- C82: equality of finite floats is symmetric and reflexive if rounding is odd and exact at zero. -/
theorem C82_laws {E : Env} (h0 : E.rnd 0 = .fin 0) (hn : ∀ q d, E.rnd q = .fin d → E.rnd (-q) = .fin (-d)) (a b : PyFloat) :
    (CloseF E a b → CloseF E b a) ∧ (CloseF E a a ↔ ∃ x, a = .fin x) := by
  refine ⟨?_, ?_, ?_⟩
  · rintro ⟨x, y, d, rfl, rfl, h1, h2⟩
    refine ⟨y, x, -d, rfl, rfl, ?_, ?_⟩
    · rw [← hn _ _ h1]
      congr 1
      ring
    · exact ⟨by linarith [h2.2], by linarith [h2.1]⟩
  · rintro ⟨x, y, d, h, _⟩
    exact ⟨x, h⟩
  · rintro ⟨x, rfl⟩
    refine ⟨x, x, 0, rfl, rfl, by rw [sub_self]; exact h0, ?_⟩
    unfold Small billionth
    constructor <;> norm_num

def c82Float : PropSpec := .mk false none none .undef (.float false none none)
def c82Complex : PropSpec := .mk false none none .undef (.complex false)

/-- C82: neither NaN nor an infinity is equal to itself; three values can be equal one after
another although the first is not equal to the last; the parts of a complex number both count. -/
theorem C82_example :
    (run demoEnv 1 (.propEqual c82Float (.float .nan) (.float .nan)) {}).1 = .ok (.bool false) ∧
    (run demoEnv 1 (.propEqual c82Float (.float .pinf) (.float .pinf)) {}).1 = .ok (.bool false) ∧
    (run demoEnv 1 (.propEqual c82Float (.float (.fin 0)) (.float (.fin (1 / 2000000000)))) {}).1 = .ok (.bool true) ∧
    (run demoEnv 1 (.propEqual c82Float (.float (.fin (1 / 2000000000))) (.float (.fin (1 / 800000000)))) {}).1 = .ok (.bool true) ∧
    (run demoEnv 1 (.propEqual c82Float (.float (.fin 0)) (.float (.fin (1 / 800000000)))) {}).1 = .ok (.bool false) ∧
    (run demoEnv 1 (.propEqual c82Complex (.cplx (.fin 1) (.fin 2)) (.cplx (.fin 1) (.fin 3))) {}).1 = .ok (.bool false) ∧
    (run demoEnv 1 (.propEqual c82Complex (.cplx (.fin 1) (.fin 2)) (.cplx (.fin 3) (.fin 2))) {}).1 = .ok (.bool false) ∧
    (run demoEnv 1 (.propEqual c82Complex (.cplx (.fin 1) (.fin 2)) (.cplx (.fin 1) (.fin 2))) {}).1 = .ok (.bool true) := by
  refine ⟨rfl, rfl, ?_, ?_, ?_, ?_, ?_, ?_⟩ <;> with_unfolding_all rfl

/-- Cases of the mixed comparisons. -/
theorem C82_mixed_example :
    (run demoEnv 1 (.propEqual c82Float (.bool true) (.float (.fin 1))) {}).1 = .ok (.bool true) ∧
    (run demoEnv 1 (.propEqual c82Float (.cplx (.fin 1) (.fin 1)) (.int 1)) {}).1 = .ok (.bool false) ∧
    (run demoEnv 1 (.propEqual c82Float (.cplx (.fin 1) (.fin 0)) (.int 1)) {}).1 = .ok (.bool true) ∧
    (run demoEnv 1 (.propEqual c82Float (.str (s% "1")) (.int 1)) {}).1 = .ok (.bool false) := by
  refine ⟨?_, ?_, ?_, ?_⟩ <;> with_unfolding_all rfl

end Verif
