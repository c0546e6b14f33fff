import Verif.Lemmas.QuietVal
import Verif.Spec.LinkProg
import Verif.Lemmas.Typed
import Verif.Lemmas.ScalarErr

/-!
# Validation of values without instances and colours is the same everywhere
-/

namespace Verif
open Spec LinkProg.Spec

theorem still_of {p : PropSpec} : ∀ (d : Nat), depth p ≤ d → ¬ Stirs p → ∀ v, Still p v := by
  intro d
  induction d generalizing p with
  | zero => intro h; rw [depth_eq] at h; omega
  | succ d ih =>
    intro h hs v
    rw [depth_eq] at h
    obtain ⟨rq, s, e, df, ty⟩ := p
    simp only [PropSpec.ty] at h
    unfold Still
    cases ty with
    | seq k item lo hi c =>
      unfold StillTy
      unfold depthTy at h
      have hi := ih (p := item) (by omega) fun hv => hs (.item rfl hv)
      exact ⟨fun x _ => hi x, fun _ => hi v⟩
    | dict kp vp c =>
      unfold StillTy
      unfold depthTy at h
      exact fun kvs _ kv _ => ⟨ih (by omega) (fun hv => hs (.key rfl hv)) _, ih (by omega) (fun hv => hs (.value rfl hv)) _⟩
    | inst c => exact absurd (.inst rfl) hs
    | color => exact absurd (.color rfl) hs
    | union ps st =>
      unfold StillTy
      unfold depthTy at h
      exact stillAll_iff.2 fun q hq => ih (by have := depthAll_le hq; omega) (fun hv => hs (.alternative rfl hq hv)) v
    | _ => trivial

/-- The result without the contents of the error. -/
def kindE {α : Type} : Except PyErr α → Except ErrKind α
  | .ok a => .ok a
  | .error e => .error e.kind

/-- The same value or the same kind of error, not RecursionError. -/
def Alike {α : Type} (r r' : Except PyErr α) : Prop := kindE r = kindE r' ∧ kindE r ≠ .error .recursion

theorem alike_ok {α : Type} (a : α) : Alike (.ok a) (.ok a) := ⟨rfl, nofun⟩

theorem alike_err {α : Type} {e e' : PyErr} (h : e.kind = e'.kind) (hk : e.kind ≠ .recursion) :
    Alike (.error e : Except PyErr α) (.error e') :=
  ⟨by simp only [kindE, h], fun h' => hk (by simpa [kindE] using h')⟩

theorem alike_verr {α : Type} (x x' : Ctx) : Alike (.error (verr x) : Except PyErr α) (.error (verr x')) :=
  alike_err rfl (by simp [verr])

theorem alike_cases {α : Type} {r r' : Except PyErr α} (h : Alike r r') :
    (∃ a, r = .ok a ∧ r' = .ok a) ∨ ∃ e e', r = .error e ∧ r' = .error e' ∧ e.kind = e'.kind ∧ e.kind ≠ .recursion := by
  obtain ⟨h1, h2⟩ := h
  cases r with
  | ok a =>
    cases r' with
    | ok b => simp only [kindE, Except.ok.injEq] at h1; exact .inl ⟨a, rfl, by rw [h1]⟩
    | error e => simp [kindE] at h1
  | error e =>
    cases r' with
    | ok b => simp [kindE] at h1
    | error e' =>
      simp only [kindE, Except.error.injEq] at h1
      exact .inr ⟨e, e', rfl, rfl, h1, fun h => h2 (by simp [kindE, h])⟩

theorem alike_bindE {α β : Type} {r r' : Except PyErr α} {f f' : α → Except PyErr β} (h : Alike r r')
    (hf : ∀ a, Alike (f a) (f' a)) : Alike (bindE r f) (bindE r' f') := by
  rcases alike_cases h with ⟨a, rfl, rfl⟩ | ⟨e, e', rfl, rfl, h1, h2⟩
  · exact hf a
  · exact alike_err h1 h2

theorem alike_mapE {α β : Type} {f f' : α → Except PyErr β} (hf : ∀ a, Alike (f a) (f' a)) :
    ∀ xs, Alike (mapE f xs) (mapE f' xs)
  | [] => alike_ok _
  | x :: xs => alike_bindE (hf x) fun _ => alike_bindE (alike_mapE hf xs) fun _ => alike_ok _

theorem alike_foldE {α β : Type} {f f' : β → α → Except PyErr β} (hf : ∀ b a, Alike (f b a) (f' b a)) :
    ∀ xs b, Alike (foldE f b xs) (foldE f' b xs)
  | [], _ => alike_ok _
  | x :: xs, b => alike_bindE (hf b x) fun b' => alike_foldE hf xs b'

theorem alike_wrapE {x x' : Ctx} {r r' : Except PyErr Val} (h : Alike r r') : Alike (wrapE x r) (wrapE x' r') := by
  rcases alike_cases h with ⟨a, rfl, rfl⟩ | ⟨e, e', rfl, rfl, h1, h2⟩
  · exact alike_ok a
  · unfold wrapE
    dsimp only
    rw [h1]
    split
    · exact alike_verr _ _
    · exact alike_err h1 h2

theorem alike_mkSeqE (k : SeqKind) (xs : List Val) : Alike (mkSeqE k xs) (mkSeqE k xs) := by
  unfold mkSeqE
  split
  · exact alike_ok _
  · exact alike_ok _
  · split
    · exact alike_ok _
    · exact alike_err rfl (by simp)

theorem alike_scalar {E : Env} {x x' : Ctx} {ty : PropTy} {v : Val} :
    Alike (ofScalar x (scalarValidate E 0 ty v)) (ofScalar x' (scalarValidate E 0 ty v)) := by
  cases h : scalarValidate E 0 ty v with
  | none => exact alike_err rfl (by simp)
  | some r =>
    cases r with
    | ok a => exact alike_ok a
    | error e =>
      cases e with
      | raw k => exact alike_err rfl (by rw [scalar_raw h]; simp)
      | invalid n => exact alike_verr _ _

/-- Validation of a declaration without instances and colours depends neither on
the instances there are nor on whom it is for. -/
theorem pval_anywhere {E : Env} {c c' : Nat → Option ClsId} {x x' : Ctx} : ∀ (d : Nat) {p : PropSpec},
    depth p ≤ d → ¬ Stirs p → ∀ v, Alike (pval E c x p v) (pval E c' x' p v)
  | 0, p, h, _, _ => by rw [depth_eq] at h; omega
  | d + 1, p, h, hs, v => by
    have ih := fun {q : PropSpec} => pval_anywhere (E := E) (c := c) (c' := c') (x := x) (x' := x') d (p := q)
    rw [depth_eq] at h
    obtain ⟨rq, s, e, df, ty⟩ := p
    simp only [PropSpec.ty] at h
    unfold pval
    cases ty with
    | seq k item lo hi co =>
      unfold depthTy at h
      simp only [pvalTy]
      split
      · exact alike_verr _ _
      · exact alike_bindE (alike_mapE (fun y => alike_wrapE (ih (by omega) (fun hv => hs (.item rfl hv)) y)) _)
          fun ys => alike_mkSeqE k ys
    | dict kp vp co =>
      unfold depthTy at h
      simp only [pvalTy]
      split
      · exact alike_verr _ _
      · refine alike_bindE (alike_foldE (fun b kv => ?_) _ _) fun _ => alike_ok _
        refine alike_bindE (alike_wrapE (ih (by omega) (fun hv => hs (.key rfl hv)) _)) fun key =>
          alike_bindE (alike_wrapE (ih (by omega) (fun hv => hs (.value rfl hv)) _)) fun y => ?_
        split
        · exact alike_ok _
        · exact alike_err rfl (by simp)
    | inst c => exact absurd (.inst rfl) hs
    | color => exact absurd (.color rfl) hs
    | union ps st =>
      unfold depthTy at h
      simp only [pvalTy]
      have key : ∀ qs : List PropSpec, (∀ q ∈ qs, q ∈ ps) → Alike (pvalAll E c x qs v) (pvalAll E c' x' qs v) := by
        intro qs
        induction qs with
        | nil => intro _; unfold pvalAll; exact alike_verr _ _
        | cons q qs ihq =>
          intro hq
          have hm := hq q (by simp)
          unfold pvalAll
          rcases alike_cases (ih (q := q) (by have := depthAll_le hm; omega)
            (fun hv => hs (.alternative rfl hm hv)) v) with ⟨a, h1, h2⟩ | ⟨e, e', h1, h2, h3, h4⟩
          · rw [h1, h2]; exact alike_ok a
          · rw [h1, h2]
            dsimp only
            rw [h3]
            split
            · exact ihq fun z hz => hq z (by simp [hz])
            · exact alike_err h3 h4
      exact key ps fun _ h => h
    | _ => simp only [pvalTy]; exact alike_scalar

/-- Validation makes `undefined` of nothing else. -/
theorem pval_defined {E : Env} {c : Nat → Option ClsId} {x : Ctx} : ∀ (d : Nat) {p : PropSpec},
    depth p ≤ d → ¬ Stirs p → ∀ v, pval E c x p v = .ok .undef → v = .undef
  | 0, p, h, _, _, _ => by rw [depth_eq] at h; omega
  | d + 1, p, h, hs, v, hv => by
    rw [depth_eq] at h
    obtain ⟨rq, s, e, df, ty⟩ := p
    simp only [PropSpec.ty] at h
    unfold pval at hv
    have scalar : ∀ ty, ScalarTy ty → ty ≠ .color → ofScalar x (scalarValidate E 0 ty v) = .ok .undef → v = .undef := by
      intro ty hty hc hv
      cases hr : scalarValidate E 0 ty v with
      | none => rw [hr] at hv; cases hv
      | some r =>
        rw [hr] at hv
        cases r with
        | error e => cases e <;> cases hv
        | ok a =>
          cases hv
          have ha := scalar_admits ({} : World) hr rfl
          cases ty <;> first
            | exact hty.elim
            | exact (hc rfl).elim
            | (cases hr; rfl)
            | cases ha
    cases ty with
    | seq k item lo hi co =>
      simp only [pvalTy] at hv
      split at hv
      · cases hv
      · obtain ⟨ys, _, h2⟩ := bindE_ok_inv hv
        unfold mkSeqE at h2
        split at h2
        · cases h2
        · cases h2
        · split at h2 <;> cases h2
    | dict kp vp co =>
      simp only [pvalTy] at hv
      split at hv
      · cases hv
      · obtain ⟨ys, _, h2⟩ := bindE_ok_inv hv
        cases h2
    | inst c => exact absurd (.inst rfl) hs
    | color => exact absurd (.color rfl) hs
    | union ps st =>
      unfold depthTy at h
      simp only [pvalTy] at hv
      have key : ∀ qs : List PropSpec, (∀ q ∈ qs, q ∈ ps) → pvalAll E c x qs v = .ok .undef → v = .undef := by
        intro qs
        induction qs with
        | nil => intro _ h1; unfold pvalAll at h1; cases h1
        | cons q qs ihq =>
          intro hq h1
          have hm := hq q (by simp)
          unfold pvalAll at h1
          split at h1
          · rename_i y hy
            cases h1
            exact pval_defined d (by have := depthAll_le hm; omega) (fun hv => hs (.alternative rfl hm hv)) v hy
          · split at h1
            · exact ihq (fun z hz => hq z (by simp [hz])) h1
            · cases h1
      exact key ps (fun _ h => h) hv
    | _ =>
      simp only [pvalTy] at hv
      refine scalar _ ?_ ?_ hv
      · trivial
      · exact nofun

end Verif
