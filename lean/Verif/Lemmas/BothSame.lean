import Verif.Lemmas.TwinData

/-!
# Two calls that go the same way, to the same exception
-/

namespace Verif

/-- Both return related results or both raise the same; nothing changes. -/
def BothS {α β : Type} (ws : World) (R : α → β → Prop) (m : M α) (m' : M β) : Prop :=
  (∃ a b, m ws = (.ok a, ws) ∧ m' ws = (.ok b, ws) ∧ R a b) ∨
  (∃ e, m ws = (.error e, ws) ∧ m' ws = (.error e, ws))

section
variable {α β γ δ : Type} {ws : World}

theorem boths_pure {R : α → β → Prop} {a : α} {b : β} (h : R a b) :
    BothS ws R (pure a) (pure b) := .inl ⟨a, b, rfl, rfl, h⟩

theorem boths_raiseK {R : α → β → Prop} (k : ErrKind) :
    BothS ws R (raiseK k : M α) (raiseK k : M β) := .inr ⟨_, rfl, rfl⟩

theorem boths_bind {R : α → β → Prop} {S : γ → δ → Prop} {m : M α} {m' : M β} {f : α → M γ} {f' : β → M δ}
    (h : BothS ws R m m') (hf : ∀ a b, R a b → BothS ws S (f a) (f' b)) :
    BothS ws S (m >>= f) (m' >>= f') := by
  rcases h with ⟨a, b, h1, h2, hr⟩ | ⟨e, h1, h2⟩
  · unfold BothS
    rw [bind_ok h1, bind_ok h2]
    exact hf a b hr
  · exact .inr ⟨e, bind_err h1, bind_err h2⟩

theorem boths_mapML {R : β → γ → Prop} {f : α → M β} {f' : α → M γ} : ∀ {xs : List α},
    (∀ x ∈ xs, BothS ws R (f x) (f' x)) → BothS ws (List.Forall₂ R) (mapML f xs) (mapML f' xs)
  | [], _ => boths_pure .nil
  | x :: xs, h => boths_bind (h x (by simp)) fun _ _ hab =>
      boths_bind (boths_mapML fun y hy => h y (by simp [hy])) fun _ _ hs => boths_pure (.cons hab hs)

end

end Verif
