import Verif.Props.C64
import Mathlib.Tactic.Linarith
import Mathlib.Tactic.Ring
import Mathlib.Algebra.Order.Ring.Unbundled.Rat

/-!
# C68: which arrays an Array property takes for equal
-/

namespace Verif.ArrJson
open Spec

/-! ### Specification -/

/-- Element `i` of the array, as a float. -/
inductive Elem (E : JEnv) : Data → Nat → PyFloat → Prop
  | bool (l : List Bool) (i : Nat) (b : Bool) : l[i]? = some b → Elem E (.bools l) i (.fin (if b then 1 else 0))
  | int (l : List Int) (i : Nat) (n : Int) : l[i]? = some n → Elem E (.ints l) i (E.rnd n)
  | float (l : List PyFloat) (i : Nat) (f : PyFloat) : l[i]? = some f → Elem E (.floats l) i f

/-- Both NaN, the same infinity, or numbers that differ by no more than the
tolerance and a 100000th part of the second. -/
inductive Near (tol : Rat) : PyFloat → PyFloat → Prop
  | nan : Near tol .nan .nan
  | pinf : Near tol .pinf .pinf
  | ninf : Near tol .ninf .ninf
  | fin (a b : Rat) : |a - b| ≤ tol + |b| / 100000 → Near tol (.fin a) (.fin b)

/-! ### Proof -/

theorem isClose_fin {tol a b : Rat} : isClose tol (.fin a) (.fin b) = true ↔ |a - b| ≤ tol + |b| / 100000 := by
  simp only [isClose, decide_eq_true_eq]
  have h1 : |a - b| = if a ≤ b then b - a else a - b := by
    split
    · rw [abs_of_nonpos (by linarith)]; ring
    · rw [abs_of_nonneg (by linarith)]
  have h2 : |b| = if 0 ≤ b then b else -b := by
    split
    · rw [abs_of_nonneg (by linarith)]
    · rw [abs_of_nonpos (by linarith)]
  rw [h1, h2]

theorem near_iff {tol : Rat} {x y : PyFloat} :
    Near tol x y ↔ (x == .nan) = (y == .nan) ∧ (x ≠ .nan → isClose tol x y = true) := by
  constructor
  · intro h
    cases h with
    | nan => exact ⟨rfl, fun h => absurd rfl h⟩
    | pinf => exact ⟨rfl, fun _ => rfl⟩
    | ninf => exact ⟨rfl, fun _ => rfl⟩
    | fin a b h => exact ⟨rfl, fun _ => isClose_fin.2 h⟩
  · rintro ⟨h1, h2⟩
    cases x with
    | nan =>
      cases y <;> first | exact .nan | (cases h1; done)
    | fin a =>
      have h2 := h2 (by simp)
      cases y <;> first | exact .fin _ _ (isClose_fin.1 h2) | (cases h2; done)
    | pinf =>
      have h2 := h2 (by simp)
      cases y <;> first | exact .pinf | (cases h2; done)
    | ninf =>
      have h2 := h2 (by simp)
      cases y <;> first | exact .ninf | (cases h2; done)

theorem allClose_iff {tol : Rat} : ∀ (xs ys : List PyFloat), xs.length = ys.length →
    ((xs.map (· == .nan) = ys.map (· == .nan) ∧ allClose tol (xs.map (· == .nan)) xs ys = true) ↔
      ∀ (i : Nat) x y, xs[i]? = some x → ys[i]? = some y → Near tol x y)
  | [], [], _ => by simp [allClose]
  | x :: xs, y :: ys, hl => by
    have ih := allClose_iff (tol := tol) xs ys (by simpa using hl)
    have hsplit : (∀ (i : Nat) a b, (x :: xs)[i]? = some a → (y :: ys)[i]? = some b → Near tol a b) ↔
        Near tol x y ∧ ∀ (i : Nat) a b, xs[i]? = some a → ys[i]? = some b → Near tol a b := by
      constructor
      · intro h
        exact ⟨h 0 x y rfl rfl, fun i a b ha hb => h (i + 1) a b (by simpa using ha) (by simpa using hb)⟩
      · rintro ⟨h0, h⟩ i a b ha hb
        cases i with
        | zero => cases ha; cases hb; exact h0
        | succ i => exact h i a b (by simpa using ha) (by simpa using hb)
    rw [hsplit, ← ih, near_iff]
    simp only [List.map_cons, List.cons.injEq]
    by_cases hx : x = .nan
    · subst hx
      have : allClose tol ((PyFloat.nan == .nan) :: xs.map (· == .nan)) (.nan :: xs) (y :: ys) =
        allClose tol (xs.map (· == .nan)) xs ys := rfl
      rw [this]
      constructor
      · rintro ⟨⟨h1, h2⟩, h3⟩
        exact ⟨⟨h1, fun h => absurd rfl h⟩, h2, h3⟩
      · rintro ⟨⟨h1, _⟩, h2, h3⟩
        exact ⟨⟨h1, h2⟩, h3⟩
    · have hb : (x == PyFloat.nan) = false := by simpa using hx
      have : allClose tol ((x == .nan) :: xs.map (· == .nan)) (x :: xs) (y :: ys) =
        (isClose tol x y && allClose tol (xs.map (· == .nan)) xs ys) := by rw [hb]; rfl
      rw [this, Bool.and_eq_true]
      constructor
      · rintro ⟨⟨h1, h2⟩, h3, h4⟩
        exact ⟨⟨h1, fun _ => h3⟩, h2, h4⟩
      · rintro ⟨⟨h1, h3⟩, h2, h4⟩
        exact ⟨⟨h1, h2⟩, h3 hx, h4⟩

theorem mask_asFlts {E : JEnv} (hrnd : ∀ i, E.rnd i ≠ .nan) {d : Data} (h : ∀ l, d ≠ .texts l) :
    nanMask d = some ((d.asFlts E).map (· == .nan)) := by
  cases d with
  | texts l => exact absurd rfl (h l)
  | floats l => rfl
  | bools l =>
    simp only [nanMask, Data.asFlts, List.map_map, Option.some.injEq, List.map_inj_left]
    intro b _
    cases b <;> rfl
  | ints l =>
    simp only [nanMask, Data.asFlts, List.map_map, Option.some.injEq, List.map_inj_left]
    intro i _
    have := hrnd i
    simpa using this

theorem elem_iff {E : JEnv} {d : Data} (h : ∀ l, d ≠ .texts l) (i : Nat) (f : PyFloat) :
    Elem E d i f ↔ (d.asFlts E)[i]? = some f := by
  cases d with
  | texts l => exact absurd rfl (h l)
  | floats l => exact ⟨fun h => by cases h; assumption, .float l i f⟩
  | bools l =>
    simp only [Data.asFlts, List.getElem?_map, Option.map_eq_some_iff]
    constructor
    · intro h
      cases h with
      | bool _ _ b hb => exact ⟨b, hb, by cases b <;> rfl⟩
    · rintro ⟨b, hb, rfl⟩
      have := Elem.bool (E := E) l i b hb
      cases b <;> exact this
  | ints l =>
    simp only [Data.asFlts, List.getElem?_map, Option.map_eq_some_iff]
    constructor
    · intro h
      cases h with
      | int _ _ b hb => exact ⟨b, hb, rfl⟩
    · rintro ⟨b, hb, rfl⟩
      exact .int l i b hb

/-- C68: two arrays are equal exactly when they have the same shape, NaN at the
same places, and elsewhere elements that are close. -/
theorem C68_equal_iff {E : JEnv} (hrnd : ∀ i, E.rnd i ≠ .nan) {tol : Rat} {a b : NArr} (ha : Filled a) (hb : Filled b)
    (hta : ∀ l, a.data ≠ .texts l) (htb : ∀ l, b.data ≠ .texts l) :
    equal E tol a b = true ↔ a.shape = b.shape ∧ ∀ i x y, Elem E a.data i x → Elem E b.data i y → Near tol x y := by
  have hlen : a.shape = b.shape → (a.data.asFlts E).length = (b.data.asFlts E).length := by
    intro h
    have hc : ∀ d : Data, (d.asFlts E).length = count d := by intro d; cases d <;> simp [Data.asFlts, count]
    rw [hc, hc]
    unfold Filled at ha hb
    rw [ha, hb, h]
  unfold equal
  rw [mask_asFlts hrnd hta, mask_asFlts hrnd htb]
  simp only []
  constructor
  · intro h
    split at h
    · rename_i hs
      refine ⟨hs.1, fun i x y hx hy => ?_⟩
      exact (allClose_iff _ _ (hlen hs.1)).1 ⟨hs.2, h⟩ i x y ((elem_iff hta i x).1 hx) ((elem_iff htb i y).1 hy)
    · cases h
  · rintro ⟨hs, h⟩
    obtain ⟨h1, h2⟩ := (allClose_iff (tol := tol) _ _ (hlen hs)).2 fun i x y hx hy =>
      h i x y ((elem_iff hta i x).2 hx) ((elem_iff htb i y).2 hy)
    rw [if_pos ⟨hs, h1⟩]
    exact h2

/-- C68: NaN equals NaN only. -/
theorem C68_nan_differs {E : JEnv} (hrnd : ∀ i, E.rnd i ≠ .nan) {tol : Rat} {a b : NArr} (ha : Filled a) (hb : Filled b)
    (hta : ∀ l, a.data ≠ .texts l) (htb : ∀ l, b.data ≠ .texts l) {i : Nat} {x y : PyFloat} (hx : Elem E a.data i x)
    (hy : Elem E b.data i y) (hxy : (x = .nan ∧ y ≠ .nan) ∨ (x ≠ .nan ∧ y = .nan)) : equal E tol a b = false := by
  refine Bool.eq_false_iff.2 fun h => ?_
  cases ((C68_equal_iff hrnd ha hb hta htb).1 h).2 i x y hx hy <;>
    rcases hxy with ⟨h1, h2⟩ | ⟨h1, h2⟩ <;> first | exact h1 rfl | exact h2 rfl | (cases h1; done) | (cases h2; done)

/-- C68: arrays with the same elements are equal whatever their types. -/
theorem C68_types {E : JEnv} (hrnd : ∀ i, E.rnd i ≠ .nan) {tol : Rat} (ht : 0 ≤ tol) {s : List Nat} {l : List Int}
    (hf : Filled ⟨s, .ints l⟩) : equal E tol ⟨s, .ints l⟩ ⟨s, .floats (l.map E.rnd)⟩ = true := by
  refine (C68_equal_iff hrnd hf (by simpa [Filled, count] using hf) (by simp) (by simp)).2 ⟨rfl, ?_⟩
  intro i x y hx hy
  cases hx with
  | int _ _ n hn =>
    cases hy with
    | float _ _ f hf =>
      rw [List.getElem?_map, hn] at hf
      cases hf
      exact near_iff.2 ⟨rfl, fun h => isClose_refl ht _ h⟩

/-! ### Examples -/

/-- The tolerance of the library. -/
def c68Tol : Rat := 1 / 1000000000

/-- The hypotheses hold for arrays with NaN and infinities. -/
theorem C68_example : Filled ⟨[3], .floats [.nan, .pinf, .fin 1]⟩ ∧ Filled ⟨[3], .floats [.nan, .pinf, .fin (100001 / 100000)]⟩ ∧
    equal demoEnv c68Tol ⟨[3], .floats [.nan, .pinf, .fin 1]⟩ ⟨[3], .floats [.nan, .pinf, .fin (100001 / 100000)]⟩ = true ∧
    equal demoEnv c68Tol ⟨[3], .floats [.nan, .pinf, .fin 1]⟩ ⟨[3], .floats [.fin 0, .pinf, .fin 1]⟩ = false ∧
    equal demoEnv c68Tol ⟨[3], .floats [.nan, .pinf, .fin 1]⟩ ⟨[3], .floats [.nan, .ninf, .fin 1]⟩ = false ∧
    equal demoEnv c68Tol ⟨[1], .floats [.fin 1]⟩ ⟨[1, 1], .floats [.fin 1]⟩ = false := by
  refine ⟨rfl, rfl, ?_⟩
  decide +kernel

/-- Equality of arrays is not symmetric: the tolerance depends on the second. -/
theorem C68_not_symmetric :
    equal demoEnv 0 ⟨[1], .floats [.fin 99999]⟩ ⟨[1], .floats [.fin 100000]⟩ = true ∧
    equal demoEnv 0 ⟨[1], .floats [.fin 100000]⟩ ⟨[1], .floats [.fin 99999]⟩ = false := by
  decide +kernel

/-- Nor is it with the tolerance of the library. -/
theorem C68_not_symmetric_tol :
    equal demoEnv c68Tol ⟨[1], .floats [.fin (10 ^ 20 - 10 ^ 15)]⟩ ⟨[1], .floats [.fin (10 ^ 20)]⟩ = true ∧
    equal demoEnv c68Tol ⟨[1], .floats [.fin (10 ^ 20)]⟩ ⟨[1], .floats [.fin (10 ^ 20 - 10 ^ 15)]⟩ = false := by
  decide +kernel

/-- Nor transitive: small steps add up. -/
theorem C68_not_transitive :
    equal demoEnv c68Tol ⟨[1], .floats [.fin 0]⟩ ⟨[1], .floats [.fin (1 / 1000000000)]⟩ = true ∧
    equal demoEnv c68Tol ⟨[1], .floats [.fin (1 / 1000000000)]⟩ ⟨[1], .floats [.fin (2 / 1000000000)]⟩ = true ∧
    equal demoEnv c68Tol ⟨[1], .floats [.fin 0]⟩ ⟨[1], .floats [.fin (2 / 1000000000)]⟩ = false := by
  decide +kernel

end Verif.ArrJson
