import Mathlib.Data.List.Perm.Basic
import Verif.Spec.Equal

/-!
# One to one pairings of lists, and the greedy search for them
-/

namespace Verif
open Spec

theorem forall₂_mem {α β : Type} {R : α → β → Prop} {xs : List α} {ys : List β}
    (h : List.Forall₂ R xs ys) : List.Forall₂ (fun x y => R x y ∧ x ∈ xs ∧ y ∈ ys) xs ys := by
  induction h with
  | nil => exact .nil
  | cons h _ ih =>
    exact .cons ⟨h, by simp, by simp⟩ (ih.imp fun _ _ h => ⟨h.1, by simp [h.2.1], by simp [h.2.2]⟩)

theorem forall₂_symm {α β : Type} {R : α → β → Prop} {S : β → α → Prop} {xs : List α} {ys : List β}
    (hs : ∀ x ∈ xs, ∀ y ∈ ys, R x y → S y x) (h : List.Forall₂ R xs ys) : List.Forall₂ S ys xs := by
  have : List.Forall₂ (flip S) xs ys := (forall₂_mem h).imp fun x y h => hs x h.2.1 y h.2.2 h.1
  exact this.flip

theorem forall₂_trans {α : Type} {R : α → α → Prop} :
    ∀ {xs ys zs : List α}, (∀ x ∈ xs, ∀ y ∈ ys, ∀ z ∈ zs, R x y → R y z → R x z) →
      List.Forall₂ R xs ys → List.Forall₂ R ys zs → List.Forall₂ R xs zs
  | _, _, _, _, .nil, .nil => .nil
  | _, _, _, ht, .cons h hs, .cons k ks =>
    .cons (ht _ (by simp) _ (by simp) _ (by simp) h k)
      (forall₂_trans (fun x hx y hy z hz => ht x (by simp [hx]) y (by simp [hy]) z (by simp [hz])) hs ks)

theorem pairing_symm {α β : Type} {R : α → β → Prop} {S : β → α → Prop} {xs : List α} {ys : List β}
    (hs : ∀ x ∈ xs, ∀ y ∈ ys, R x y → S y x) (h : Pairing R xs ys) : Pairing S ys xs := by
  obtain ⟨zs, h1, h2⟩ := h
  have h3 := forall₂_symm (fun x hx y hy => hs x hx y (h2.subset hy)) h1
  exact List.perm_comp_forall₂ h2.symm h3

theorem pairing_trans {α : Type} {R : α → α → Prop} {xs ys zs : List α}
    (ht : ∀ x ∈ xs, ∀ y ∈ ys, ∀ z ∈ zs, R x y → R y z → R x z)
    (h : Pairing R xs ys) (k : Pairing R ys zs) : Pairing R xs zs := by
  obtain ⟨us, h1, h2⟩ := h
  obtain ⟨vs, k1, k2⟩ := k
  obtain ⟨ws, l1, l2⟩ := List.perm_comp_forall₂ h2 k1
  refine ⟨ws, forall₂_trans (fun x hx y hy z hz => ?_) h1 l1, l2.trans k2⟩
  exact ht x hx y (h2.subset hy) z (k2.subset (l2.subset hz))

theorem pairing_length {α β : Type} {R : α → β → Prop} {xs : List α} {ys : List β}
    (h : Pairing R xs ys) : xs.length = ys.length := by
  obtain ⟨zs, h1, h2⟩ := h
  rw [h1.length_eq, h2.length_eq]

theorem pairing_mono {α β : Type} {R S : α → β → Prop} {xs : List α} {ys : List β}
    (hs : ∀ x ∈ xs, ∀ y ∈ ys, R x y → S x y) (h : Pairing R xs ys) : Pairing S xs ys := by
  obtain ⟨zs, h1, h2⟩ := h
  exact ⟨zs, (forall₂_mem h1).imp fun x y h => hs x h.2.1 y (h2.subset h.2.2) h.1, h2⟩

theorem pairing_cons {α β : Type} {R : α → β → Prop} {x : α} {y : β} {xs : List α}
    {pre post : List β} (h : R x y) (hs : Pairing R xs (pre ++ post)) :
    Pairing R (x :: xs) (pre ++ y :: post) := by
  obtain ⟨zs, h1, h2⟩ := hs
  exact ⟨y :: zs, .cons h h1, (h2.cons y).trans List.perm_middle.symm⟩

theorem forall₂_replace {α β : Type} {R : α → β → Prop} {y z : β} {b : List β} :
    ∀ {a : List β} {xs : List α}, List.Forall₂ R xs (a ++ y :: b) →
      (∀ x ∈ xs, R x y → R x z) → List.Forall₂ R xs (a ++ z :: b)
  | [], _, .cons h hs, hr => .cons (hr _ (by simp) h) hs
  | _ :: _, _, .cons h hs, hr => .cons h (forall₂_replace hs fun x hx => hr x (by simp [hx]))

/-- Whoever is related to two items is related to the same ones as any other
related to one of them; so a pairing may start with any related item. -/
theorem pairing_swap {α β : Type} {R : α → β → Prop} {x : α} {y : β} {xs : List α}
    {pre post : List β}
    (hd : ∀ a ∈ x :: xs, ∀ a' ∈ x :: xs, ∀ b ∈ pre ++ y :: post, ∀ b' ∈ pre ++ y :: post,
      R a b → R a' b → R a' b' → R a b')
    (hxy : R x y) (h : Pairing R (x :: xs) (pre ++ y :: post)) : Pairing R xs (pre ++ post) := by
  obtain ⟨zs, h1, h2⟩ := h
  cases h1 with
  | @cons _ z _ zs hxz hs =>
    have hp : (z :: zs).Perm (y :: (pre ++ post)) := h2.trans List.perm_middle
    -- is `y` the item paired with `x`?
    rcases List.mem_cons.1 (hp.symm.subset (List.mem_cons_self)) with rfl | hy
    · exact ⟨zs, hs, (List.perm_cons y).1 hp⟩
    · obtain ⟨a, b, rfl⟩ := List.append_of_mem hy
      -- `x'` is paired with `y`: pair it with `z` instead
      have hz : z ∈ pre ++ y :: post := h2.subset (by simp)
      refine ⟨a ++ z :: b, forall₂_replace hs fun x' hx' hr => ?_, ?_⟩
      · exact hd x' (by simp [hx']) x (by simp) y (by simp) z hz hr hxy hxz
      · have h3 : (z :: (a ++ y :: b)).Perm (y :: z :: (a ++ b)) :=
          (List.perm_middle.cons z).trans (List.Perm.swap y z _)
        have h4 := (List.perm_cons y).1 (h3.symm.trans hp)
        exact List.perm_middle.trans h4

/-- The first item of `ys` related to `x` is taken away, if there is one. -/
def takeFirst {α β : Type} (R : α → β → Bool) (x : α) : List β → Option (List β)
  | [] => none
  | y :: ys => if R x y then some ys else (takeFirst R x ys).map (y :: ·)

/-- What is left of `ys` when the items of `xs` have taken their items away. -/
def leftOver {α β : Type} (R : α → β → Bool) (xs : List α) (ys : List β) : List β :=
  xs.foldl (fun ys x => (takeFirst R x ys).getD ys) ys

theorem takeFirst_some {α β : Type} {R : α → β → Bool} {x : α} :
    ∀ {ys zs : List β}, takeFirst R x ys = some zs →
      ∃ pre y post, ys = pre ++ y :: post ∧ zs = pre ++ post ∧ R x y = true
  | [], _, h => by cases h
  | y :: ys, zs, h => by
    unfold takeFirst at h
    split at h
    · cases h
      exact ⟨[], y, ys, rfl, rfl, by assumption⟩
    · cases hf : takeFirst R x ys with
      | none => rw [hf] at h; cases h
      | some us =>
        rw [hf] at h
        cases h
        obtain ⟨pre, y', post, rfl, rfl, h3⟩ := takeFirst_some hf
        exact ⟨y :: pre, y', post, rfl, rfl, h3⟩

theorem takeFirst_none {α β : Type} {R : α → β → Bool} {x : α} :
    ∀ {ys : List β}, takeFirst R x ys = none → ∀ y ∈ ys, R x y = false
  | [], _, _, h => by cases h
  | y :: ys, h, z, hz => by
    unfold takeFirst at h
    split at h
    · cases h
    · rename_i hn
      have h : takeFirst R x ys = none := by
        cases hf : takeFirst R x ys with
        | none => rfl
        | some us => rw [hf] at h; cases h
      rcases List.mem_cons.1 hz with rfl | hz
      · simpa using hn
      · exact takeFirst_none h z hz

theorem leftOver_length {α β : Type} {R : α → β → Bool} :
    ∀ (xs : List α) (ys : List β), ys.length ≤ (leftOver R xs ys).length + xs.length
  | [], ys => by simp [leftOver]
  | x :: xs, ys => by
    have ih := leftOver_length (R := R) xs ((takeFirst R x ys).getD ys)
    have : ys.length ≤ ((takeFirst R x ys).getD ys).length + 1 := by
      cases h : takeFirst R x ys with
      | none => simp
      | some zs =>
        obtain ⟨pre, y, post, rfl, rfl, _⟩ := takeFirst_some h
        simp; omega
    show ys.length ≤ (leftOver R xs ((takeFirst R x ys).getD ys)).length + (xs.length + 1)
    omega

/-- The greedy search finds a pairing if there is one, provided that related
items are related to the same items. -/
theorem leftOver_nil {α β : Type} {R : α → β → Bool} :
    ∀ {xs : List α} {ys : List β}, xs.length = ys.length →
      (∀ x ∈ xs, ∀ x' ∈ xs, ∀ y ∈ ys, ∀ y' ∈ ys,
        R x y = true → R x' y = true → R x' y' = true → R x y' = true) →
      (leftOver R xs ys = [] ↔ Pairing (fun x y => R x y = true) xs ys)
  | [], ys, hl, _ => by
    have : ys = [] := List.length_eq_zero_iff.1 hl.symm
    subst this
    exact ⟨fun _ => ⟨[], .nil, .nil⟩, fun _ => rfl⟩
  | x :: xs, ys, hl, hd => by
    show leftOver R xs ((takeFirst R x ys).getD ys) = [] ↔ _
    cases hf : takeFirst R x ys with
    | none =>
      refine ⟨fun h => ?_, fun ⟨zs, h1, h2⟩ => ?_⟩
      · have := leftOver_length (R := R) xs ys
        simp only [Option.getD_none] at h
        rw [h] at this
        simp at this hl
        omega
      · cases h1 with
        | @cons _ z _ zs h _ =>
          have := takeFirst_none hf z (h2.subset (by simp))
          rw [this] at h
          cases h
    | some us =>
      obtain ⟨pre, y, post, rfl, rfl, hxy⟩ := takeFirst_some hf
      have ih := leftOver_nil (R := R) (xs := xs) (ys := pre ++ post) (by simp at hl ⊢; omega)
        fun a ha b hb c hc d hd' => hd a (by simp [ha]) b (by simp [hb]) c
          (by simp only [List.mem_append, List.mem_cons] at hc ⊢; tauto) d
          (by simp only [List.mem_append, List.mem_cons] at hd' ⊢; tauto)
      rw [Option.getD_some, ih]
      exact ⟨pairing_cons hxy, pairing_swap hd hxy⟩

end Verif
