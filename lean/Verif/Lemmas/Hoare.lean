import Verif.Lemmas.Monad
import Verif.Lemmas.Pres
import Verif.Lemmas.Scalar

/-!
# Results of computations
-/

namespace Verif

/-- Started in a state with `P`, a normal result and its state satisfy `Q`. -/
def Hoare {α : Type} (P : World → Prop) (m : M α) (Q : α → World → Prop) : Prop :=
  ∀ w, P w → ∀ a w', m w = (.ok a, w') → Q a w'

theorem Hoare.bind {α β : Type} {P : World → Prop} {m : M α} {f : α → M β}
    {Q : α → World → Prop} {T : β → World → Prop} (hm : Hoare P m Q)
    (hf : ∀ a, Hoare (Q a) (f a) T) : Hoare P (m >>= f) T := by
  intro w hw b w' h
  obtain ⟨a, w1, h1, h2⟩ := bind_ok_inv h
  exact hf a w1 (hm w hw a w1 h1) b w' h2

theorem Hoare.pure {α : Type} {P : World → Prop} {Q : α → World → Prop} {a : α}
    (h : ∀ w, P w → Q a w) : Hoare P (pure a) Q := by
  intro w hw b w' e
  cases e; exact h w hw

theorem Hoare.never {α : Type} {P : World → Prop} {m : M α} {Q : α → World → Prop}
    (h : ∀ w a w', m w ≠ (.ok a, w')) : Hoare P m Q := fun w _ a w' e => absurd e (h w a w')

theorem Hoare.catchIf {α : Type} {P : World → Prop} {pred : ErrKind → Bool} {m : M α}
    {k : PyErr → M α} {Q : α → World → Prop} (I : World → Prop) (hm : Hoare P m Q)
    (he : ∀ w, P w → I (m w).2) (hk : ∀ e, Hoare I (k e) Q) : Hoare P (M.catchIf pred m k) Q := by
  intro w hw a w' h
  unfold M.catchIf at h
  cases hx : m w with
  | mk x w1 =>
    have hI := he w hw
    rw [hx] at h hI
    cases x with
    | ok b => cases h; exact hm w hw _ _ hx
    | error e =>
      simp only at h
      split at h
      · exact hk e w1 hI a w' h
      · cases h

/-- Sequencing with what is known about the intermediate result. -/
theorem pres_bind_mid {α β : Type} {P J : World → Prop} {R : World → World → Prop}
    (S : Preord J R) {m : M α} {f : α → M β}
    {Q : α → World → Prop} (hm : Pres P R m) (hq : Hoare P m Q) (hf : ∀ a, Pres (Q a) R (f a)) :
    Pres P R (m >>= f) := by
  intro w hw
  have h1 := hm w hw
  cases hx : m w with
  | mk x w1 =>
    rw [hx] at h1
    cases x with
    | ok a => rw [bind_ok hx]; exact S.trans h1 (hf a w1 (hq w hw a w1 hx))
    | error e => rw [bind_err hx]; exact h1

theorem hoare_propError {α : Type} {P : World → Prop} {E : Env} {rec : Rec} {nm : PyStr}
    {inst : Option Nat} {Q : α → World → Prop} : Hoare P (propError E rec nm inst) Q :=
  Hoare.never fun w a w' h => propError_never_ok E rec nm inst w a (by rw [h])

end Verif
