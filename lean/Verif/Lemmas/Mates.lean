import Verif.Lemmas.Differs
import Verif.Lemmas.EqualRun
import Verif.Lemmas.Rebuild

/-!
# Comparing two values of the type of a property
-/

namespace Verif
open Spec Spec.Exc

section
variable {rec : Rec} {Z : ErrKind → Prop}

theorem mates_zipEqual {p : PropSpec} {A B : Val → Prop}
    (h : ∀ a b, A a → B b → Errs Z (rec (.propEqual p a b))) :
    ∀ xs ys, (∀ x ∈ xs, A x) → (∀ y ∈ ys, B y) → Errs Z (zipEqual rec p xs ys)
  | x :: xs, y :: ys, hx, hy => errs_bind (h x y (hx x (by simp)) (hy y (by simp))) fun _ =>
      errs_bind (mates_zipEqual h xs ys (fun z hz => hx z (by simp [hz])) fun z hz => hy z (by simp [hz]))
        fun _ => errs_pure _
  | [], _, _, _ => by unfold zipEqual; exact errs_pure _
  | _ :: _, [], _, _ => errs_pure _

theorem mates_setRemove {p : PropSpec} {A B : Val → Prop}
    (h : ∀ a b, A a → B b → Errs Z (rec (.propEqual p a b))) {a : Val} (ha : A a) :
    ∀ ys, (∀ y ∈ ys, B y) → Outs Z (fun r => ∀ zs, r = some zs → ∀ z ∈ zs, B z) (setRemove rec p a ys)
  | [], _ => outs_pure (by simp)
  | y :: ys, hy => by
      unfold setRemove
      refine outs_bind (h a y ha (hy y (by simp))).outs fun e _ => ?_
      split
      · refine outs_pure fun zs hz z hm => ?_
        cases hz
        exact hy z (by simp [hm])
      · refine outs_bind (mates_setRemove h ha ys fun z hz => hy z (by simp [hz])) fun r hr => outs_pure ?_
        intro zs hz z hm
        cases r with
        | none => cases hz
        | some us =>
          cases hz
          rcases List.mem_cons.1 hm with rfl | hm
          · exact hy _ (by simp)
          · exact hr us rfl z hm

theorem mates_setEqual {p : PropSpec} {A B : Val → Prop}
    (h : ∀ a b, A a → B b → Errs Z (rec (.propEqual p a b))) {xs ys : List Val} (hx : ∀ x ∈ xs, A x)
    (hy : ∀ y ∈ ys, B y) : Errs Z (setEqual rec p (.set xs) (.set ys)) := by
  unfold setEqual
  refine errs_catchIf_sharp (Y := Z) ?_ (fun _ h _ => h) fun _ => errs_pure _
  simp only [Val.iter?]
  split
  · exact errs_pure _
  · refine errs_bind ?_ fun _ => errs_pure _
    have key : ∀ us, (∀ x ∈ us, A x) → ∀ zs, (∀ z ∈ zs, B z) → Outs Z (fun out => ∀ z ∈ out, B z)
        (foldML (fun copy x => do
          let r ← setRemove rec p x copy
          match r with
          | some copy' => if false = true then raiseK .attr else pure copy'
          | none => pure copy) zs us) := by
      intro us
      induction us with
      | nil => intro _ zs hz; exact outs_pure hz
      | cons u us ih =>
        intro hu zs hz
        refine outs_bind (P := fun out => ∀ z ∈ out, B z) ?_ fun out ho => ih (fun x hx => hu x (by simp [hx])) out ho
        refine outs_bind (mates_setRemove h (hu u (by simp)) zs hz) fun r hr => ?_
        cases r with
        | none => exact outs_pure hz
        | some c => exact outs_pure (hr c rfl)
    exact (key xs hx ys hy).errs

theorem pyIndex_dict {kvs : List (Val × Val)} {k x : Val} (h : pyIndex (.dict kvs) k = .ok x) :
    ∃ k', (k', x) ∈ kvs := by
  unfold pyIndex at h
  dsimp only at h
  split at h
  · cases hg : dictGet? kvs k with
    | none => rw [hg] at h; cases h
    | some y =>
      rw [hg] at h
      cases h
      obtain ⟨k', hm, _⟩ := dictGet_some hg
      exact ⟨k', hm⟩
  · cases h

theorem pyIndex_dict_kind {kvs : List (Val × Val)} {k : Val} {e : ErrKind}
    (h : pyIndex (.dict kvs) k = .error e) : e = .key ∨ e = .type := by
  unfold pyIndex at h
  dsimp only at h
  split at h
  · cases hg : dictGet? kvs k with
    | none => rw [hg] at h; cases h; exact .inl rfl
    | some y => rw [hg] at h; cases h
  · cases h; exact .inr rfl

theorem mates_dictEqual {p : PropSpec} {A B : Val → Prop}
    (h : ∀ a b, A a → B b → Errs Z (rec (.propEqual p a b))) {xs ys : List (Val × Val)}
    (hx : ∀ x ∈ xs, A x.2) (hy : ∀ y ∈ ys, B y.2) :
    Errs Z (dictEqual rec p (.dict xs) (.dict ys)) := by
  have h' : ∀ a b, A a → B b → Errs (fun k => Z k ∨ k = .key ∨ k = .type) (rec (.propEqual p a b)) :=
    fun a b ha hb => (h a b ha hb).weaken fun _ hk => .inl hk
  have look : ∀ (kvs : List (Val × Val)) (C : Val → Prop), (∀ x ∈ kvs, C x.2) → ∀ k,
      Outs (fun k => Z k ∨ k = .key ∨ k = .type) C (liftK (pyIndex (.dict kvs) k)) := by
    intro kvs C hc k
    cases hi : pyIndex (.dict kvs) k with
    | ok x => obtain ⟨k', hm⟩ := pyIndex_dict hi; exact outs_pure (hc _ hm)
    | error e => exact outs_raise (.inr (pyIndex_dict_kind hi))
  unfold dictEqual
  refine errs_catchIf_sharp (Y := fun k => Z k ∨ k = .key ∨ k = .type) ?_ ?_ fun _ => errs_pure _
  · simp only [Val.iter?]
    split
    · exact errs_pure _
    · refine errs_bind ?_ fun _ => errs_pure _
      have key : ∀ us zs, Outs (fun k => Z k ∨ k = .key ∨ k = .type) (fun out => ∃ kvs, out = .dict kvs)
          (foldML (fun copy k => do
            let x ← liftK (pyIndex (.dict xs) k)
            let y ← liftK (pyIndex (.dict ys) k)
            let e ← rec (.propEqual p x y)
            if e.truthy then liftK (pyPop copy k) else pure copy) (.dict zs) us) := by
        intro us
        induction us with
        | nil => intro zs; exact outs_pure ⟨zs, rfl⟩
        | cons u us ih =>
          intro zs
          refine outs_bind (P := fun out => ∃ kvs, out = .dict kvs) ?_ fun out ho => ?_
          · refine outs_bind (look xs A hx u) fun x hx' => outs_bind (look ys B hy u) fun y hy' =>
              outs_bind (h' x y hx' hy').outs fun e _ => ?_
            split
            · unfold pyPop
              dsimp only
              split
              · exact outs_pure ⟨_, rfl⟩
              · exact outs_raise (.inr (.inl rfl))
            · exact outs_pure ⟨zs, rfl⟩
          · obtain ⟨kvs, rfl⟩ := ho
            exact ih kvs
      exact (key _ ys).errs
  · rintro x (hx | rfl | rfl) hp
    · exact hx
    · cases hp
    · cases hp

theorem mates_tupEqual {p : PropSpec} {A B : Val → Prop}
    (h : ∀ a b, A a → B b → Errs Z (rec (.propEqual p a b))) {a b : Val} {xs ys : List Val}
    (ha : a.iter? = some xs) (hb : b.iter? = some ys) (hx : ∀ x ∈ xs, A x)
    (hy : ∀ y ∈ ys, B y) : Errs Z (tupEqual rec p a b) := by
  unfold tupEqual
  refine errs_catchIf_sharp (Y := Z) ?_ (fun _ h _ => h) fun _ => errs_pure _
  simp only [ha, hb]
  split
  · exact errs_bind (mates_zipEqual h xs ys hx hy) fun _ => errs_pure _
  · exact errs_pure _
end

/-- Two values of the type of a property are compared without exceptions, the
recursion limit aside, unless a Union compares them by a type of another
alternative. -/
theorem run_mates {E : Env} {w1 w2 : World} : ∀ (n : Nat) (p : PropSpec), ¬ Visits p → ¬ Mixes p → ∀ a b,
    Admits E w1 p.ty a → Admits E w2 p.ty b → Errs (fun k => k = .recursion) (run E n (.propEqual p a b))
  | 0, _, _, _, _, _, _, _ => fun w e he => by
      have : (run E 0 (.propEqual _ _ _) w).1 = .error e := he
      simp only [run] at this
      cases this
      rfl
  | n + 1, p, hp, hm, a, b, ha, hb => by
      have ih := run_mates (E := E) (w1 := w1) (w2 := w2) n
      show Errs _ (propEqualBody E (run E n) p a b)
      cases hty : p.ty with
      | seq k item lo hi c =>
        rw [hty] at ha hb
        have hi := fun a b => ih item (fun hv => hp (.item hty hv)) (fun hv => hm (.item hty hv)) a b
        unfold propEqualBody
        rw [hty]
        cases ha with
        | set _ _ _ _ xs hx =>
          cases hb with
          | set _ _ _ _ ys hy => exact mates_setEqual hi hx hy
        | list _ _ _ _ xs hx =>
          cases hb with
          | list _ _ _ _ ys hy => exact mates_tupEqual hi rfl rfl hx hy
        | tup _ _ _ _ xs hx =>
          cases hb with
          | tup _ _ _ _ ys hy => exact mates_tupEqual hi rfl rfl hx hy
      | dict kp vp c =>
        rw [hty] at ha hb
        have hi := fun a b => ih vp (fun hv => hp (.value hty hv)) (fun hv => hm (.value hty hv)) a b
        unfold propEqualBody
        rw [hty]
        cases ha with
        | dict _ _ _ xs _ hx =>
          cases hb with
          | dict _ _ _ ys _ hy => exact mates_dictEqual hi hx hy
      | inst c => exact absurd (.inst hty) hp
      | union ps s =>
        unfold propEqualBody
        rw [hty]
        refine differs_unionEqual _ fun q hq => ?_
        refine (run_differs n q (fun hv => hp (.alternative hty hq hv)) a b).weaken fun k hk => ?_
        rcases hk with hk | ⟨_, hk⟩ | ⟨_, hk⟩
        · exact hk
        · exact absurd (.here hty hq (.inl hk)) hm
        · exact absurd (.here hty hq (.inr hk)) hm
      | _ =>
        intro w e he
        obtain ⟨r, hr⟩ := scalar_equal_ok (ty := p.ty) (by rw [hty]; trivial) ha hb
        rw [propEqualBody_scalar (by rw [hty]; trivial) hr w] at he
        cases he

end Verif
