import Verif.Spec.Limits
import Verif.Props.C36

/-!
# C59 and the limits part of C31
-/

namespace Verif.Limits
open Spec Cls

theorem pyLt_false {a b : Bound} (ha : a ≠ .num .nan) (hb : b ≠ .num .nan) :
    pyLt a b = some false ↔ BoundLe b a := by
  constructor
  · intro h
    cases a <;> cases b <;> simp only [pyLt, reduceCtorEq, Option.some.injEq] at h
    · rename_i a b
      refine .num ?_
      cases a <;> cases b <;> first
        | exact absurd rfl ha
        | exact absurd rfl hb
        | exact .fin (Rat.not_lt.1 (by simpa [PyFloat.lt] using h))
        | exact .ninf (by simp)
        | exact .pinf (by simp)
        | cases h
    · rename_i a b
      rw [Bool.and_eq_false_iff] at h
      refine .text ?_
      rcases h with h | h
      · exact (before_total a b).resolve_left fun h' => by rw [strLe_iff.2 h'] at h; cases h
      · exact strLe_iff.1 (by simpa using h)
  · intro h
    cases h with
    | num h =>
      cases h with
      | fin h => simpa [pyLt, PyFloat.lt] using Rat.not_lt.2 h
      | ninf h => rename_i x; cases x <;> simp_all [pyLt, PyFloat.lt]
      | pinf h => rename_i x; cases x <;> simp_all [pyLt, PyFloat.lt]
    | text h => simp [pyLt, strLe_iff.2 h]

/-- Both bounds are set only with `min <= max`, and neither is NaN. -/
def Good (s : Bounds) : Prop :=
  s.min ≠ .num .nan ∧ s.max ≠ .num .nan ∧
    (s.min ≠ .none → s.max ≠ .none → BoundLe s.min s.max)

theorem good_apply {s : Bounds} (h : Good s) {x : Setting} (hx : Spec.Setting.bound x ≠ .num .nan) :
    Good (apply s x).1 := by
  obtain ⟨h1, h2, h3⟩ := h
  cases x with
  | min v =>
    unfold apply
    dsimp only
    split
    · split
      · rename_i hl
        exact ⟨hx, h2, fun _ _ => (pyLt_false h2 hx).1 hl⟩
      · exact ⟨h1, h2, h3⟩
    · rename_i hm
      exact ⟨hx, h2, fun _ h => absurd h hm⟩
  | max v =>
    unfold apply
    dsimp only
    split
    · split
      · rename_i hl
        exact ⟨h1, hx, fun _ _ => (pyLt_false hx h1).1 hl⟩
      · exact ⟨h1, h2, h3⟩
    · rename_i hm
      exact ⟨h1, hx, fun h _ => absurd h hm⟩

/-- After any history of settings of values other than NaN, starting with none
set, `min <= max` if both are set; in particular they compare. -/
theorem C59_min_le_max (l : List Setting) (hl : ∀ x ∈ l, Spec.Setting.bound x ≠ .num .nan)
    (h1 : (applyAll {} l).min ≠ .none) (h2 : (applyAll {} l).max ≠ .none) :
    BoundLe (applyAll {} l).min (applyAll {} l).max := by
  have : ∀ (l : List Setting) (s : Bounds), Good s → (∀ x ∈ l, Spec.Setting.bound x ≠ .num .nan) →
      Good (applyAll s l) := by
    intro l
    induction l with
    | nil => exact fun s h _ => h
    | cons x l ih =>
      exact fun s h hl => ih _ (good_apply h (hl x (by simp)))
        fun y hy => hl y (List.mem_cons_of_mem _ hy)
  exact (this l {} ⟨by simp, by simp, fun h => absurd rfl h⟩ hl).2.2 h1 h2

/-- A setting is accepted exactly if the other bound is not set or lies on the
right side; accepted, it takes effect and leaves the other bound alone;
rejected, it changes nothing. -/
theorem C59_setting (s : Bounds) (v : Bound) (hv : v ≠ .num .nan) (h1 : s.min ≠ .num .nan)
    (h2 : s.max ≠ .num .nan) :
    ((apply s (.min v)).2 = true ↔ s.max = .none ∨ BoundLe v s.max) ∧
    ((apply s (.max v)).2 = true ↔ s.min = .none ∨ BoundLe s.min v) ∧
    (apply s (.min v)).1 = (if (apply s (.min v)).2 then ⟨v, s.max⟩ else s) ∧
    (apply s (.max v)).1 = (if (apply s (.max v)).2 then ⟨s.min, v⟩ else s) := by
  refine ⟨?_, ?_, ?_, ?_⟩
  · rw [← pyLt_false h2 hv]
    unfold apply
    dsimp only
    split
    · rename_i hm
      split <;> simp_all
    · rename_i hm
      simp at hm
      simp [hm]
  · rw [← pyLt_false hv h1]
    unfold apply
    dsimp only
    split
    · rename_i hm
      split <;> simp_all
    · rename_i hm
      simp at hm
      simp [hm]
  · unfold apply
    dsimp only
    split
    · split <;> rfl
    · rfl
  · unfold apply
    dsimp only
    split
    · split <;> rfl
    · rfl

/-- NaN passes both setters, after which any other bound passes too: the
hypothesis is needed. -/
theorem C59_nan_breaks : applyAll {} [.max (.num (.fin 1)), .min (.num .nan), .max (.num (.fin (-5))),
    .min (.num (.fin 3))] = ⟨.num .nan, .num (.fin (-5))⟩ := by
  decide +kernel

example : applyAll {} [.max (.num (.fin 5)), .min (.num (.fin 7)), .min (.num (.fin 2)),
    .max (.num (.fin 1)), .max (.num .pinf)] = ⟨.num (.fin 2), .num .pinf⟩ := by decide +kernel

/-- After any history of settings of container limits, both are non-negative
and `min_length <= max_length` if both are set. -/
theorem C31_limits (l : List LenSetting) :
    (∀ m, (applyLens {} l).min = some m → 0 ≤ m) ∧ (∀ m, (applyLens {} l).max = some m → 0 ≤ m) ∧
    (∀ m n, (applyLens {} l).min = some m → (applyLens {} l).max = some n → m ≤ n) := by
  have : ∀ (l : List LenSetting) (s : Lengths), ((∀ m, s.min = some m → 0 ≤ m) ∧
      (∀ m, s.max = some m → 0 ≤ m) ∧ ∀ m n, s.min = some m → s.max = some n → m ≤ n) →
      ((∀ m, (applyLens s l).min = some m → 0 ≤ m) ∧ (∀ m, (applyLens s l).max = some m → 0 ≤ m) ∧
      (∀ m n, (applyLens s l).min = some m → (applyLens s l).max = some n → m ≤ n)) := by
    intro l
    induction l with
    | nil => exact fun s h => h
    | cons x l ih =>
      intro s h
      refine ih _ ?_
      obtain ⟨h1, h2, h3⟩ := h
      cases x with
      | min v =>
        unfold applyLen
        dsimp only
        split
        · exact ⟨h1, h2, h3⟩
        · split
          · exact ⟨h1, h2, h3⟩
          · split
            · split
              · exact ⟨h1, h2, h3⟩
              · rename_i i _ hi _ m hm hle
                refine ⟨fun m h => ?_, h2, fun a b h h' => ?_⟩
                · cases h; omega
                · cases h
                  rw [hm] at h'
                  cases h'
                  omega
            · rename_i i _ hi _ hm
              refine ⟨fun m h => ?_, h2, fun a b h h' => ?_⟩
              · cases h; omega
              · dsimp only at h'; rw [hm] at h'; cases h'
      | max v =>
        unfold applyLen
        dsimp only
        split
        · exact ⟨h1, h2, h3⟩
        · split
          · exact ⟨h1, h2, h3⟩
          · split
            · split
              · exact ⟨h1, h2, h3⟩
              · rename_i i _ hi _ m hm hle
                refine ⟨h1, fun m h => ?_, fun a b h h' => ?_⟩
                · cases h; omega
                · cases h'
                  rw [hm] at h
                  cases h
                  omega
            · rename_i i _ hi _ hm
              refine ⟨h1, fun m h => ?_, fun a b h h' => ?_⟩
              · cases h; omega
              · dsimp only at h; rw [hm] at h; cases h
  exact this l {} ⟨fun m h => (by cases h), fun m h => (by cases h), fun m n h => (by cases h)⟩

example : applyLens {} [.max (.int 3), .min (.int 4), .min (.int (-1)), .min (.bool true),
    .max (.int 0), .max (.str []), .max (.int 2)] = ⟨some 1, some 2⟩ := by decide +kernel

end Verif.Limits
