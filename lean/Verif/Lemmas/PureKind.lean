import Verif.Lemmas.PureVal
import Verif.Lemmas.Locality

/-!
# Validation does not depend on the state

The result of `pval` depends on the classes of the instances in the value only; the name
and instance it is called for occur in the error, not in whether there is one or in its
class.
-/

namespace Verif
open Spec

/-- The same value, or errors of one class. -/
def AlikeE {α : Type} (a b : Except PyErr α) : Prop := match a, b with
  | .ok x, .ok y => x = y
  | .error d, .error e => d.kind = e.kind
  | _, _ => False

theorem AlikeE.refl {α : Type} (a : Except PyErr α) : AlikeE a a := by cases a <;> simp [AlikeE]

theorem AlikeE.ok {α : Type} {a b : Except PyErr α} (h : AlikeE a b) {x : α} (ha : a = .ok x) : b = .ok x := by
  subst ha
  cases b with
  | ok y => simp only [AlikeE] at h; rw [h]
  | error e => exact h.elim

theorem alikeE_bind {α β : Type} {a b : Except PyErr α} {f g : α → Except PyErr β} (h : AlikeE a b)
    (hf : ∀ x, AlikeE (f x) (g x)) : AlikeE (bindE a f) (bindE b g) := by
  cases a <;> cases b <;> simp only [AlikeE] at h
  · exact h
  · subst h; exact hf _

theorem alikeE_map {α β : Type} {f g : α → Except PyErr β} : ∀ {xs : List α}, (∀ x ∈ xs, AlikeE (f x) (g x)) →
    AlikeE (mapE f xs) (mapE g xs)
  | [], _ => AlikeE.refl _
  | x :: xs, h => by
    unfold mapE
    exact alikeE_bind (h x (by simp)) fun y =>
      alikeE_bind (alikeE_map fun z hz => h z (by simp [hz])) fun ys => AlikeE.refl _

theorem alikeE_fold {α β : Type} {f g : β → α → Except PyErr β} : ∀ {xs : List α} (b : β),
    (∀ b, ∀ x ∈ xs, AlikeE (f b x) (g b x)) → AlikeE (foldE f b xs) (foldE g b xs)
  | [], _, _ => AlikeE.refl _
  | x :: xs, b, h => by
    unfold foldE
    exact alikeE_bind (h b x (by simp)) fun y => alikeE_fold y fun d z hz => h d z (by simp [hz])

theorem alikeE_wrap {x y : Ctx} {a b : Except PyErr Val} (h : AlikeE a b) : AlikeE (wrapE x a) (wrapE y b) := by
  cases a <;> cases b <;> simp only [AlikeE] at h
  · rename_i d e
    simp only [wrapE, h]
    split
    · rfl
    · exact h
  · exact h

theorem alikeE_lift {x y : Ctx} (r : Except SErr Val) : AlikeE (liftE x r) (liftE y r) := by
  cases r with
  | ok v => rfl
  | error e => cases e <;> rfl

theorem alikeE_scalar {x y : Ctx} (r : Option (Except SErr Val)) : AlikeE (ofScalar x r) (ofScalar y r) := by
  cases r with
  | none => rfl
  | some r => exact alikeE_lift r

mutual
theorem pval_alike {E : Env} {c c' : Nat → Option ClsId} {x y : Ctx} : ∀ (p : PropSpec) (v : Val),
    Only (fun r => c r = c' r) v → AlikeE (pval E c x p v) (pval E c' y p v)
  | .mk _ _ _ _ ty, v, h => by simp only [pval]; exact pvalTy_alike ty v h
theorem pvalTy_alike {E : Env} {c c' : Nat → Option ClsId} {x y : Ctx} : ∀ (ty : PropTy) (v : Val),
    Only (fun r => c r = c' r) v → AlikeE (pvalTy E c x ty v) (pvalTy E c' y ty v)
  | .seq k item _ _ co, v, h => by
    simp only [pvalTy]
    split
    · rfl
    · refine alikeE_bind (alikeE_map fun z hz => alikeE_wrap (pval_alike item z ?_)) fun _ => AlikeE.refl _
      unfold itemsOf at hz
      split at hz
      · exact only_items h z hz
      · simp only [List.mem_singleton] at hz
        subst hz
        exact h
  | .dict kp vp co, v, h => by
    simp only [pvalTy]
    cases hp : pairsOf co v with
    | none => rfl
    | some kvs =>
      have hk : dictCoerce? v = some kvs := by
        unfold pairsOf at hp
        cases co with
        | true => simpa using hp
        | false =>
          simp only [Bool.false_eq_true, if_false] at hp
          split at hp
          · cases hp; rfl
          · cases hp
      refine alikeE_bind (alikeE_fold [] fun d kv hkv => ?_) fun _ => AlikeE.refl _
      have := only_dictCoerce h hk kv hkv
      unfold pairE
      exact alikeE_bind (alikeE_wrap (pval_alike kp kv.1 this.1)) fun _ =>
        alikeE_bind (alikeE_wrap (pval_alike vp kv.2 this.2)) fun _ => AlikeE.refl _
  | .inst d, v, h => by
    cases v <;> simp only [pvalTy] <;> first | rfl | skip
    rename_i r
    have : c r = c' r := only_obj.1 h
    rw [this]
    cases c' r with
    | none => rfl
    | some d' =>
      simp only
      split <;> rfl
  | .union ps _, v, h => by simp only [pvalTy]; exact pvalAll_alike ps v h
  | .color, v, _ => by simp only [pvalTy]; exact alikeE_scalar _
  | .any, v, _ => by simp only [pvalTy]; exact alikeE_scalar _
  | .boolean c, v, _ => by simp only [pvalTy]; exact alikeE_scalar _
  | .integer c a b, v, _ => by simp only [pvalTy]; exact alikeE_scalar _
  | .float c a b, v, _ => by simp only [pvalTy]; exact alikeE_scalar _
  | .complex c, v, _ => by simp only [pvalTy]; exact alikeE_scalar _
  | .string s m r, v, _ => by simp only [pvalTy]; exact alikeE_scalar _
  | .choice k c, v, _ => by simp only [pvalTy]; exact alikeE_scalar _
  | .datetime, v, _ => by simp only [pvalTy]; exact alikeE_scalar _
  | .uuid, v, _ => by simp only [pvalTy]; exact alikeE_scalar _
theorem pvalAll_alike {E : Env} {c c' : Nat → Option ClsId} {x y : Ctx} : ∀ (ps : List PropSpec) (v : Val),
    Only (fun r => c r = c' r) v → AlikeE (pvalAll E c x ps v) (pvalAll E c' y ps v)
  | [], v, _ => by simp only [pvalAll]; rfl
  | p :: ps, v, h => by
    have h1 := pval_alike (E := E) (x := x) (y := y) p v h
    have h2 := pvalAll_alike (E := E) (x := x) (y := y) ps v h
    simp only [pvalAll]
    revert h1
    cases pval E c x p v <;> cases pval E c' y p v <;> intro h1 <;> simp only [AlikeE] at h1
    · rename_i d e
      simp only [h1]
      split
      · exact h2
      · exact h1
    · exact h1
end

/-- A value that was accepted is accepted again, and converted to the same, in every state
in which the instances in it have the same classes. -/
theorem accepted_again {E : Env} {n m : Nat} {nm nm' : PyStr} {inst inst' : Option Nat} {p : PropSpec} {v x : Val}
    {w w1 w' : World} (h : run E n (.validate nm p inst v) w = (.ok x, w1)) (hs : Still p v)
    (hm : Mute ⟨nm, inst⟩ w) (hm' : Mute ⟨nm', inst'⟩ w') (hd : depth p ≤ m)
    (hc : Only (fun r => clsAt w r = clsAt w' r) v) :
    run E m (.validate nm' p inst' v) w' = (.ok x, w') := by
  rcases run_pval_or (E := E) (n := n) hs hm with h1 | ⟨_, e, h1, _⟩
  · rw [h] at h1
    have h2 : pval E (clsAt w) ⟨nm, inst⟩ p v = .ok x := (Prod.mk.inj h1).1.symm
    rw [run_pval hd hs hm', (pval_alike p v hc).ok h2]
  · rw [h] at h1; cases h1

end Verif
