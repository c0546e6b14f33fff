import Verif.Lemmas.Ends
import Verif.Lemmas.Differs

/-!
# Comparing values by a property without instances, at every recursion limit

`run_sure`: from the nesting of the declaration on, the answer depends neither
on the recursion limit nor on the state.
-/

namespace Verif
open Spec Spec.Exc

/-- The same result for every index and in every state, not RecursionError, and
the state is left alone. -/
def Sure {ι α : Type} (m : ι → M α) : Prop :=
  ∃ x, (∀ e, x = .error e → e.kind ≠ .recursion) ∧ ∀ i w, m i w = (x, w)

section
variable {ι α β : Type}

theorem sure_pure (a : α) : Sure fun _ : ι => (pure a : M α) := ⟨.ok a, nofun, fun _ _ => rfl⟩

theorem sure_raiseK (k : ErrKind) (hk : k ≠ .recursion) : Sure fun _ : ι => (raiseK k : M α) :=
  ⟨.error ⟨k, []⟩, fun e h => by cases h; exact hk, fun _ _ => rfl⟩

theorem sure_bind {m : ι → M α} {f : ι → α → M β} (hm : Sure m) (hf : ∀ a, Sure fun i => f i a) :
    Sure fun i => m i >>= f i := by
  obtain ⟨x, hk, hx⟩ := hm
  cases x with
  | error e => exact ⟨.error e, fun e' h => by cases h; exact hk e rfl, fun i w => bind_err (hx i w)⟩
  | ok a =>
    obtain ⟨y, hk', hy⟩ := hf a
    exact ⟨y, hk', fun i w => (bind_ok (hx i w)).trans (hy i w)⟩

theorem sure_catchIf {pred : ErrKind → Bool} {m : ι → M α} {k : PyErr → M α} (hm : Sure m)
    (hk : ∀ e, Sure fun _ : ι => k e) : Sure fun i => M.catchIf pred (m i) k := by
  obtain ⟨x, hn, hx⟩ := hm
  cases x with
  | ok a => exact ⟨.ok a, nofun, fun i w => catchIf_ok (hx i w)⟩
  | error e =>
    cases hp : pred e.kind with
    | true =>
      obtain ⟨y, hn', hy⟩ := hk e
      exact ⟨y, hn', fun i w => (catchIf_err (hx i w) hp).trans (hy i w)⟩
    | false => exact ⟨.error e, hn, fun i w => catchIf_pass (hx i w) hp⟩

theorem sure_liftK (x : Except ErrKind α) (hx : x ≠ .error .recursion) : Sure fun _ : ι => liftK x := by
  cases x with
  | ok a => exact sure_pure _
  | error k => exact sure_raiseK _ fun h => hx (by rw [h])

theorem sure_foldML {f : ι → β → α → M β} (hf : ∀ b a, Sure fun i => f i b a) :
    ∀ xs b, Sure fun i => foldML (f i) b xs
  | [], _ => sure_pure _
  | x :: xs, b => sure_bind (f := fun i b' => foldML (f i) b' xs) (hf b x) fun b' => sure_foldML hf xs b'

variable {rec : ι → Rec}

theorem sure_zipEqual {p : PropSpec} (h : ∀ a b, Sure fun i => rec i (.propEqual p a b)) :
    ∀ xs ys, Sure fun i => zipEqual (rec i) p xs ys
  | x :: xs, y :: ys => sure_bind (h x y) fun e =>
      sure_bind (f := fun _ r => pure (e.truthy && r)) (sure_zipEqual h xs ys) fun _ => sure_pure _
  | [], _ => by unfold zipEqual; exact sure_pure _
  | _ :: _, [] => sure_pure _

theorem sure_setRemove {p : PropSpec} (h : ∀ a b, Sure fun i => rec i (.propEqual p a b)) (a : Val) :
    ∀ ys, Sure fun i => setRemove (rec i) p a ys
  | [] => sure_pure _
  | y :: ys => by
      unfold setRemove
      refine sure_bind (h a y) fun e => ?_
      cases e.truthy with
      | true => exact sure_pure _
      | false =>
        exact sure_bind (f := fun _ r => pure (r.map (y :: ·))) (sure_setRemove h a ys) fun _ => sure_pure _

theorem sure_unionEqual {a b : Val} : ∀ (ps : List PropSpec),
    (∀ p ∈ ps, Sure fun i => rec i (.propEqual p a b)) → Sure fun i => unionEqual (rec i) a b ps
  | [], _ => sure_pure _
  | p :: ps, h => by
      unfold unionEqual
      refine sure_bind (h p (by simp)) fun e => ?_
      cases e.truthy with
      | true => exact sure_pure _
      | false => exact sure_unionEqual ps fun q hq => h q (by simp [hq])

theorem sure_setEqual {p : PropSpec} (h : ∀ a b, Sure fun i => rec i (.propEqual p a b)) (a b : Val) :
    Sure fun i => setEqual (rec i) p a b := by
  unfold setEqual
  refine sure_catchIf ?_ fun _ => sure_pure _
  cases a.iter? with
  | none => exact sure_raiseK _ (by simp)
  | some xs =>
    cases b.iter? with
    | none => exact sure_raiseK _ (by simp)
    | some ys =>
      dsimp only
      by_cases hl : xs.length ≠ ys.length
      · simp only [if_pos hl]; exact sure_pure _
      · simp only [if_neg hl]
        have key : ∀ (d : Bool) (xs ys : List Val), Sure fun i =>
            (foldML (fun copy x => do
                let r ← setRemove (rec i) p x copy
                match r with
                | some copy' => if d then raiseK .attr else pure copy'
                | none => pure copy) ys xs : M (List Val)) := fun d xs ys =>
          sure_foldML (f := fun i copy x => do
                let r ← setRemove (rec i) p x copy
                match r with
                | some copy' => if d then raiseK .attr else pure copy'
                | none => pure copy) (fun copy x => sure_bind (f := fun _ r => match r with
                | some copy' => if d then raiseK .attr else pure copy'
                | none => pure copy) (sure_setRemove h x copy) fun r => by
            cases r with
            | none => exact sure_pure _
            | some c => cases d with
              | true => exact sure_raiseK _ (by simp)
              | false => exact sure_pure _) xs ys
        cases b <;> first
          | exact sure_raiseK _ (by simp)
          | exact sure_bind (f := fun _ rest => pure (Val.bool rest.isEmpty)) (key _ _ _) fun _ => sure_pure _

theorem sure_tupEqual {p : PropSpec} (h : ∀ a b, Sure fun i => rec i (.propEqual p a b)) (a b : Val) :
    Sure fun i => tupEqual (rec i) p a b := by
  unfold tupEqual
  refine sure_catchIf ?_ fun _ => sure_pure _
  cases a.iter? with
  | none => exact sure_raiseK _ (by simp)
  | some xs =>
    cases b.iter? with
    | none => exact sure_raiseK _ (by simp)
    | some ys =>
      dsimp only
      by_cases hl : xs.length = ys.length
      · simp only [if_pos hl]
        exact sure_bind (f := fun _ e => pure (Val.bool e)) (sure_zipEqual h _ _) fun _ => sure_pure _
      · simp only [if_neg hl]; exact sure_pure _

theorem sure_dictEqual {p : PropSpec} (h : ∀ a b, Sure fun i => rec i (.propEqual p a b)) (a b : Val) :
    Sure fun i => dictEqual (rec i) p a b := by
  have key : ∀ (c : Val) (ks : List Val), Sure fun i =>
      (foldML (fun copy k => do
          let x ← liftK (pyIndex a k)
          let y ← liftK (pyIndex b k)
          let e ← rec i (.propEqual p x y)
          if e.truthy then liftK (pyPop copy k) else pure copy) c ks : M Val) := fun c ks =>
    sure_foldML (f := fun i copy k => do
          let x ← liftK (pyIndex a k)
          let y ← liftK (pyIndex b k)
          let e ← rec i (.propEqual p x y)
          if e.truthy then liftK (pyPop copy k) else pure copy) (fun copy k =>
      sure_bind (f := fun i x => do
          let y ← liftK (pyIndex b k)
          let e ← rec i (.propEqual p x y)
          if e.truthy then liftK (pyPop copy k) else pure copy)
        (sure_liftK _ fun h => pyIndex_error h rfl) fun x =>
      sure_bind (f := fun i y => do
          let e ← rec i (.propEqual p x y)
          if e.truthy then liftK (pyPop copy k) else pure copy)
        (sure_liftK _ fun h => pyIndex_error h rfl) fun y =>
      sure_bind (f := fun _ e => if e.truthy then liftK (pyPop copy k) else pure copy) (h x y) fun e => by
        cases e.truthy with
        | true => exact sure_liftK _ fun h => pyPop_error h rfl
        | false => exact sure_pure _) ks c
  unfold dictEqual
  refine sure_catchIf ?_ fun _ => sure_pure _
  cases a.iter? with
  | none => exact sure_raiseK _ (by simp)
  | some xs =>
    cases b.iter? with
    | none => exact sure_raiseK _ (by simp)
    | some ys =>
      dsimp only
      by_cases hl : xs.length ≠ ys.length
      · simp only [if_pos hl]; exact sure_pure _
      · simp only [if_neg hl]
        cases b <;> first
          | exact sure_raiseK _ (by simp)
          | exact sure_bind (key _ _) fun _ => sure_pure _

theorem sure_propEqualBody {E : Env} (p : PropSpec) (hp : ¬ Visits p)
    (hr : ∀ q a b, depth q ≤ depthTy p.ty → ¬ Visits q → Sure fun i => rec i (.propEqual q a b))
    (a b : Val) : Sure fun i => propEqualBody E (rec i) p a b := by
  unfold propEqualBody
  split <;> rename_i hty
  · exact sure_setEqual (fun a b => hr _ a b (by rw [hty]; unfold depthTy; exact Nat.le_refl _)
      fun hv => hp (.item hty hv)) a b
  · rename_i hty
    exact sure_tupEqual (fun a b => hr _ a b (by rw [hty]; unfold depthTy; exact Nat.le_refl _)
      fun hv => hp (.item hty hv)) a b
  · exact sure_dictEqual (fun a b => hr _ a b (by rw [hty]; unfold depthTy; exact Nat.le_max_right _ _)
      fun hv => hp (.value hty hv)) a b
  · exact absurd (.inst hty) hp
  · exact sure_unionEqual _ fun q hq =>
      hr q a b (by rw [hty]; unfold depthTy; exact depthAll_le hq) fun hv => hp (.alternative hty hq hv)
  · cases hx : scalarEqual E p.ty a b with
    | none => exact sure_raiseK _ (by simp)
    | some x =>
      refine sure_bind (f := fun _ b => pure (Val.bool b)) (sure_liftK _ fun h => ?_) fun _ => sure_pure _
      subst h
      cases scalarEqual_error hx
end

/-- From the nesting of the declaration on, the answer is the same at every
recursion limit and in every state. -/
theorem run_sure {E : Env} : ∀ (d : Nat) (p : PropSpec), depth p ≤ d → ¬ Visits p → ∀ a b,
    Sure fun i : { n // depth p ≤ n } => run E i.1 (.propEqual p a b)
  | 0, p, h, _, _, _ => by rw [depth_eq] at h; omega
  | d + 1, p, h, hp, a, b => by
    have h1 := depth_eq p
    obtain ⟨x, hk, hx⟩ := sure_propEqualBody (ι := { n // depth p ≤ n }) (E := E)
      (rec := fun i => run E (i.1 - 1)) p hp (fun q a b hq hv => by
        obtain ⟨y, hk, hy⟩ := run_sure (E := E) d q (by omega) hv a b
        exact ⟨y, hk, fun i w => hy ⟨i.1 - 1, by have := i.2; omega⟩ w⟩) a b
    refine ⟨x, hk, fun i w => ?_⟩
    have := hx i w
    dsimp only at this ⊢
    have hi := i.2
    obtain ⟨k, hk⟩ : ∃ k, i.1 = k + 1 := ⟨i.1 - 1, by omega⟩
    rw [hk] at this ⊢
    exact this

end Verif
