import Verif.Lemmas.Errs

/-!
# What comparing values by a property raises
-/

namespace Verif
open Spec.Exc

section
variable {rec : Rec} {Z : ErrKind → Prop}

theorem differs_zipEqual {p : PropSpec} (h : ∀ a b, Errs Z (rec (.propEqual p a b))) :
    ∀ xs ys, Errs Z (zipEqual rec p xs ys) := by
  intro xs
  induction xs with
  | nil => intro ys; unfold zipEqual; exact errs_pure _
  | cons x xs ih =>
    intro ys
    cases ys with
    | nil => unfold zipEqual; exact errs_pure _
    | cons y ys =>
      unfold zipEqual
      exact errs_bind (h x y) fun _ => errs_bind (ih ys) fun _ => errs_pure _

theorem differs_setRemove {p : PropSpec} (h : ∀ a b, Errs Z (rec (.propEqual p a b))) (a : Val) :
    ∀ ys, Errs Z (setRemove rec p a ys)
  | [] => by unfold setRemove; exact errs_pure _
  | y :: ys => by
      unfold setRemove
      refine errs_bind (h a y) fun e => ?_
      split
      · exact errs_pure _
      · exact errs_bind (differs_setRemove h a ys) fun _ => errs_pure _

theorem differs_unionEqual {a b : Val} : ∀ (ps : List PropSpec),
    (∀ p ∈ ps, Errs Z (rec (.propEqual p a b))) → Errs Z (unionEqual rec a b ps)
  | [], _ => by unfold unionEqual; exact errs_pure _
  | p :: ps, h => by
      unfold unionEqual
      refine errs_bind (h p (by simp)) fun e => ?_
      split
      · exact errs_pure _
      · exact differs_unionEqual ps fun q hq => h q (by simp [hq])

theorem differs_setEqual {p : PropSpec} (h : ∀ a b, Errs Z (rec (.propEqual p a b))) (a b : Val) :
    Errs Z (setEqual rec p a b) := by
  have h' : ∀ a b, Errs (fun k => Z k ∨ k = .attr ∨ k = .type) (rec (.propEqual p a b)) :=
    fun a b => (h a b).weaken fun _ hk => .inl hk
  unfold setEqual
  refine errs_catchIf_sharp (Y := fun k => Z k ∨ k = .attr ∨ k = .type) ?_ ?_ fun _ => errs_pure _
  · split
    · split
      · exact errs_pure _
      · have key : ∀ (d : Bool) (xs ys : List Val), Errs (fun k => Z k ∨ k = .attr ∨ k = .type)
            (foldML (fun copy x => do
                let r ← setRemove rec p x copy
                match r with
                | some copy' => if d then raiseK .attr else pure copy'
                | none => pure copy) ys xs) := fun d xs ys =>
          errs_foldML (fun copy x => errs_bind (differs_setRemove h' x copy) fun r => by
            split
            · split
              · exact errs_raiseK _ (.inr (.inl rfl))
              · exact errs_pure _
            · exact errs_pure _) xs ys
        split
        · exact errs_bind (key _ _ _) fun _ => errs_pure _
        · exact errs_bind (key _ _ _) fun _ => errs_pure _
        · exact errs_bind (key _ _ _) fun _ => errs_pure _
        · exact errs_raiseK _ (.inr (.inl rfl))
    · exact errs_raiseK _ (.inr (.inr rfl))
  · rintro x (hx | rfl | rfl) hp
    · exact hx
    · cases hp
    · cases hp

theorem differs_tupEqual {p : PropSpec} (h : ∀ a b, Errs Z (rec (.propEqual p a b))) (a b : Val) :
    Errs Z (tupEqual rec p a b) := by
  have h' : ∀ a b, Errs (fun k => Z k ∨ k = .type) (rec (.propEqual p a b)) :=
    fun a b => (h a b).weaken fun _ hk => .inl hk
  unfold tupEqual
  refine errs_catchIf_sharp (Y := fun k => Z k ∨ k = .type) ?_ ?_ fun _ => errs_pure _
  · split
    · split
      · exact errs_bind (differs_zipEqual h' _ _) fun _ => errs_pure _
      · exact errs_pure _
    · exact errs_raiseK _ (.inr rfl)
  · rintro x (hx | rfl) hp
    · exact hx
    · cases hp

theorem differs_dictEqual {p : PropSpec} (hi : Z .index)
    (h : ∀ a b, Errs Z (rec (.propEqual p a b))) (a b : Val) : Errs Z (dictEqual rec p a b) := by
  have h' : ∀ a b, Errs (fun k => Z k ∨ k = .key ∨ k = .attr ∨ k = .type)
      (rec (.propEqual p a b)) := fun a b => (h a b).weaken fun _ hk => .inl hk
  have h1 : ∀ {x : Except ErrKind Val}, (∀ k, x = .error k → k = .index ∨ k = .key ∨ k = .type) →
      Errs (fun k => Z k ∨ k = .key ∨ k = .attr ∨ k = .type) (liftK x) :=
    fun hx => errs_liftK _ fun k hk => by
      rcases hx k hk with rfl | rfl | rfl
      · exact .inl hi
      · exact .inr (.inl rfl)
      · exact .inr (.inr (.inr rfl))
  unfold dictEqual
  refine errs_catchIf_sharp (Y := fun k => Z k ∨ k = .key ∨ k = .attr ∨ k = .type) ?_ ?_
    fun _ => errs_pure _
  · split
    · split
      · exact errs_pure _
      · have key : ∀ (c : Val) (ks : List Val), Errs (fun k => Z k ∨ k = .key ∨ k = .attr ∨ k = .type)
            (foldML (fun copy k => do
                let x ← liftK (pyIndex a k)
                let y ← liftK (pyIndex b k)
                let e ← rec (.propEqual p x y)
                if e.truthy then liftK (pyPop copy k) else pure copy) c ks) := fun c ks =>
          errs_foldML (fun copy k => errs_bind (h1 fun _ => pyIndex_kind) fun x =>
            errs_bind (h1 fun _ => pyIndex_kind) fun y => errs_bind (h' x y) fun e => by
              split
              · exact h1 fun _ => pyPop_kind
              · exact errs_pure _) ks c
        split
        · exact errs_bind (key _ _) fun _ => errs_pure _
        · exact errs_bind (key _ _) fun _ => errs_pure _
        · exact errs_bind (key _ _) fun _ => errs_pure _
        · exact errs_raiseK _ (.inr (.inr (.inl rfl)))
    · exact errs_raiseK _ (.inr (.inr (.inr rfl)))
  · rintro x (hx | rfl | rfl | rfl) hp
    · exact hx
    · cases hp
    · cases hp
    · cases hp
end

/-- `equal` raises nothing but RecursionError, OverflowError of numbers and
IndexError of Dictionaries. -/
theorem run_differs {E : Env} : ∀ (n : Nat) (p : PropSpec), ¬ Visits p → ∀ a b,
    Errs (differs p) (run E n (.propEqual p a b))
  | 0, _, _, _, _ => fun w e he => by
      have : (run E 0 (.propEqual _ _ _) w).1 = .error e := he
      simp only [run] at this
      cases this
      exact .inl rfl
  | n + 1, p, hp, a, b => by
      have ih := run_differs (E := E) n
      show Errs (differs p) (propEqualBody E (run E n) p a b)
      have up : ∀ {k item lo hi c}, p.ty = .seq k item lo hi c → ∀ x y,
          Errs (differs p) (run E n (.propEqual item x y)) := fun hty x y =>
        (ih _ (fun hv => hp (.item hty hv)) x y).weaken fun k hk => by
          rcases hk with hk | ⟨hk, hk'⟩ | ⟨hk, hk'⟩
          · exact .inl hk
          · exact .inr (.inl ⟨hk, .item hty hk'⟩)
          · exact .inr (.inr ⟨hk, .item hty hk'⟩)
      unfold propEqualBody
      split
      · rename_i hty; exact differs_setEqual (up hty) a b
      · rename_i hty; exact differs_tupEqual (up hty) a b
      · rename_i hty
        exact differs_dictEqual (.inr (.inr ⟨rfl, .dict hty⟩)) (fun x y =>
          (ih _ (fun hv => hp (.value hty hv)) x y).weaken fun k hk => by
            rcases hk with hk | ⟨hk, hk'⟩ | ⟨hk, _⟩
            · exact .inl hk
            · exact .inr (.inl ⟨hk, .value hty hk'⟩)
            · exact .inr (.inr ⟨hk, .dict hty⟩)) a b
      · rename_i hty; exact absurd (.inst hty) hp
      · rename_i hty
        exact differs_unionEqual _ fun q hq =>
          (ih q (fun hv => hp (.alternative hty hq hv)) a b).weaken fun k hk => by
            rcases hk with hk | ⟨hk, hk'⟩ | ⟨hk, hk'⟩
            · exact .inl hk
            · exact .inr (.inl ⟨hk, .alternative hty hq hk'⟩)
            · exact .inr (.inr ⟨hk, .alternative hty hq hk'⟩)
      · rename_i h1 h2 h3 h4 h5
        split
        · rename_i x hx
          refine errs_bind (errs_liftK _ fun k hk => ?_) fun _ => errs_pure _
          subst hk
          have hk := scalarEqual_kind hx
          refine .inr (.inl ⟨hk, ?_⟩)
          cases hty : p.ty with
          | float c lo hi => exact .float hty
          | complex c => exact .complex hty
          | _ => rw [hty] at hx; simp [scalarEqual] at hx
        · rename_i hx
          exfalso
          cases hty : p.ty <;> rw [hty] at hx <;> simp [scalarEqual] at hx <;>
            first | exact h4 _ hty | exact h5 _ _ hty | exact h3 _ _ _ hty | exact h2 _ _ _ _ _ hty

end Verif
