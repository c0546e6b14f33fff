import Verif.Lemmas.Differs
import Verif.Lemmas.Monad

/-!
# Comparing values by a property without instances is a function
-/

namespace Verif
open Spec.Exc

/-- The result does not depend on the state and the state is left alone. -/
def StateFree {α : Type} (m : M α) : Prop := ∃ x, ∀ w, m w = (x, w)

section
variable {α β : Type}

theorem stateFree_pure (a : α) : StateFree (pure a : M α) := ⟨.ok a, fun _ => rfl⟩

theorem stateFree_raiseK (k : ErrKind) : StateFree (raiseK k : M α) := ⟨.error ⟨k, []⟩, fun _ => rfl⟩

theorem stateFree_bind {m : M α} {f : α → M β} (hm : StateFree m) (hf : ∀ a, StateFree (f a)) :
    StateFree (m >>= f) := by
  obtain ⟨x, hx⟩ := hm
  cases x with
  | error e => exact ⟨.error e, fun w => bind_err (hx w)⟩
  | ok a =>
    obtain ⟨y, hy⟩ := hf a
    exact ⟨y, fun w => (bind_ok (hx w)).trans (hy w)⟩

theorem stateFree_catchIf {pred : ErrKind → Bool} {m : M α} {k : PyErr → M α} (hm : StateFree m)
    (hk : ∀ e, StateFree (k e)) : StateFree (M.catchIf pred m k) := by
  obtain ⟨x, hx⟩ := hm
  cases x with
  | ok a => exact ⟨.ok a, fun w => by simp only [M.catchIf, hx]⟩
  | error e =>
    by_cases hp : pred e.kind = true
    · obtain ⟨y, hy⟩ := hk e
      exact ⟨y, fun w => by simp only [M.catchIf, hx, hp, if_true, hy]⟩
    · exact ⟨.error e, fun w => by simp only [M.catchIf, hx, hp]; rfl⟩

theorem stateFree_liftK (x : Except ErrKind α) : StateFree (liftK x) := by
  cases x with
  | ok a => exact stateFree_pure _
  | error k => exact stateFree_raiseK _

theorem stateFree_foldML {f : β → α → M β} (hf : ∀ b a, StateFree (f b a)) : ∀ xs b, StateFree (foldML f b xs)
  | [], _ => stateFree_pure _
  | x :: xs, b => stateFree_bind (hf b x) fun b' => stateFree_foldML hf xs b'

variable {rec : Rec}

theorem stateFree_zipEqual {p : PropSpec} (h : ∀ a b, StateFree (rec (.propEqual p a b))) :
    ∀ xs ys, StateFree (zipEqual rec p xs ys) := by
  intro xs
  induction xs with
  | nil => intro ys; unfold zipEqual; exact stateFree_pure _
  | cons x xs ih =>
    intro ys
    cases ys with
    | nil => unfold zipEqual; exact stateFree_pure _
    | cons y ys =>
      unfold zipEqual
      exact stateFree_bind (h x y) fun _ => stateFree_bind (ih ys) fun _ => stateFree_pure _

theorem stateFree_setRemove {p : PropSpec} (h : ∀ a b, StateFree (rec (.propEqual p a b))) (a : Val) :
    ∀ ys, StateFree (setRemove rec p a ys)
  | [] => by unfold setRemove; exact stateFree_pure _
  | y :: ys => by
      unfold setRemove
      refine stateFree_bind (h a y) fun e => ?_
      split
      · exact stateFree_pure _
      · exact stateFree_bind (stateFree_setRemove h a ys) fun _ => stateFree_pure _

theorem stateFree_unionEqual {a b : Val} : ∀ (ps : List PropSpec),
    (∀ p ∈ ps, StateFree (rec (.propEqual p a b))) → StateFree (unionEqual rec a b ps)
  | [], _ => by unfold unionEqual; exact stateFree_pure _
  | p :: ps, h => by
      unfold unionEqual
      refine stateFree_bind (h p (by simp)) fun e => ?_
      split
      · exact stateFree_pure _
      · exact stateFree_unionEqual ps fun q hq => h q (by simp [hq])

theorem stateFree_setEqual {p : PropSpec} (h : ∀ a b, StateFree (rec (.propEqual p a b))) (a b : Val) :
    StateFree (setEqual rec p a b) := by
  unfold setEqual
  refine stateFree_catchIf ?_ fun _ => stateFree_pure _
  split
  · split
    · exact stateFree_pure _
    · have key : ∀ (d : Bool) (xs ys : List Val), StateFree
          (foldML (fun copy x => do
              let r ← setRemove rec p x copy
              match r with
              | some copy' => if d then raiseK .attr else pure copy'
              | none => pure copy) ys xs) := fun d xs ys =>
        stateFree_foldML (fun copy x => stateFree_bind (stateFree_setRemove h x copy) fun r => by
          split
          · split
            · exact stateFree_raiseK _
            · exact stateFree_pure _
          · exact stateFree_pure _) xs ys
      split
      · exact stateFree_bind (key _ _ _) fun _ => stateFree_pure _
      · exact stateFree_bind (key _ _ _) fun _ => stateFree_pure _
      · exact stateFree_bind (key _ _ _) fun _ => stateFree_pure _
      · exact stateFree_raiseK _
  · exact stateFree_raiseK _

theorem stateFree_tupEqual {p : PropSpec} (h : ∀ a b, StateFree (rec (.propEqual p a b))) (a b : Val) :
    StateFree (tupEqual rec p a b) := by
  unfold tupEqual
  refine stateFree_catchIf ?_ fun _ => stateFree_pure _
  split
  · split
    · exact stateFree_bind (stateFree_zipEqual h _ _) fun _ => stateFree_pure _
    · exact stateFree_pure _
  · exact stateFree_raiseK _

theorem stateFree_dictEqual {p : PropSpec} (h : ∀ a b, StateFree (rec (.propEqual p a b))) (a b : Val) :
    StateFree (dictEqual rec p a b) := by
  unfold dictEqual
  refine stateFree_catchIf ?_ fun _ => stateFree_pure _
  split
  · split
    · exact stateFree_pure _
    · have key : ∀ (c : Val) (ks : List Val), StateFree
          (foldML (fun copy k => do
              let x ← liftK (pyIndex a k)
              let y ← liftK (pyIndex b k)
              let e ← rec (.propEqual p x y)
              if e.truthy then liftK (pyPop copy k) else pure copy) c ks) := fun c ks =>
        stateFree_foldML (fun copy k => stateFree_bind (stateFree_liftK _) fun x =>
          stateFree_bind (stateFree_liftK _) fun y => stateFree_bind (h x y) fun e => by
            split
            · exact stateFree_liftK _
            · exact stateFree_pure _) ks c
      split
      · exact stateFree_bind (key _ _) fun _ => stateFree_pure _
      · exact stateFree_bind (key _ _) fun _ => stateFree_pure _
      · exact stateFree_bind (key _ _) fun _ => stateFree_pure _
      · exact stateFree_raiseK _
  · exact stateFree_raiseK _
end

theorem run_fixed {E : Env} : ∀ (n : Nat) (p : PropSpec), ¬ Visits p → ∀ a b,
    StateFree (run E n (.propEqual p a b))
  | 0, _, _, _, _ => ⟨_, fun _ => rfl⟩
  | n + 1, p, hp, a, b => by
      have ih := run_fixed (E := E) n
      show StateFree (propEqualBody E (run E n) p a b)
      unfold propEqualBody
      split
      · rename_i hty; exact stateFree_setEqual (ih _ fun hv => hp (.item hty hv)) a b
      · rename_i hty; exact stateFree_tupEqual (ih _ fun hv => hp (.item hty hv)) a b
      · rename_i hty; exact stateFree_dictEqual (ih _ fun hv => hp (.value hty hv)) a b
      · rename_i hty; exact absurd (.inst hty) hp
      · rename_i hty
        exact stateFree_unionEqual _ fun q hq => ih q (fun hv => hp (.alternative hty hq hv)) a b
      · split
        · exact stateFree_bind (stateFree_liftK _) fun _ => stateFree_pure _
        · exact stateFree_raiseK _

end Verif
