import Verif.Lemmas.Restored
import Verif.Spec.Frame
import Verif.Lemmas.Frame
import Verif.Spec.Initial

/-!
# An instance that user code does not modify
-/

namespace Verif
open Spec

/-- Observer calls on `r`. -/
def observed (r : Nat) (t : List Event) : List Event :=
  t.filter (fun e => e.inst == r && e.mode != .validate)

/-- `r` keeps its data and no observer of it is called. -/
structure Spared (r : Nat) (w w' : World) : Prop where
  base : Restored w w'
  data : ∀ o, w.objs[r]? = some o → ∃ o', w'.objs[r]? = some o' ∧ SameData o o'
  events : observed r w'.trace = observed r w.trace

theorem Spared.setObj {r x : Nat} {w : World} {f : Obj → Obj} (h : x = r → ∀ o, SameData o (f o)) :
    ∀ o, w.objs[r]? = some o → ∃ o', (w.setObj x f).objs[r]? = some o' ∧ SameData o o' := by
  intro o ho
  by_cases hx : x = r
  · subst hx; exact ⟨f o, by simp [World.setObj, ho], h rfl o⟩
  · exact ⟨o, by simp [World.setObj, List.getElem?_modify, ho, hx], SameData.refl o⟩

theorem Spared.bracket {r x : Nat} {w w' : World} {f g : Obj → Obj}
    (h : ∀ o, (w.setObj x f).objs[r]? = some o → ∃ o', w'.objs[r]? = some o' ∧ SameData o o')
    (hf : ∀ o, SameData o (f o)) (hg : ∀ o, SameData o (g o)) :
    ∀ o, w.objs[r]? = some o → ∃ o', (w'.setObj x g).objs[r]? = some o' ∧ SameData o o' := by
  intro o ho
  obtain ⟨o1, h1, k1⟩ := Spared.setObj (x := x) (f := f) (fun _ => hf) o ho
  obtain ⟨o2, h2, k2⟩ := h o1 h1
  obtain ⟨o3, h3, k3⟩ := Spared.setObj (x := x) (f := g) (fun _ => hg) o2 h2
  exact ⟨o3, h3, (k1.trans k2).trans k3⟩

theorem Spared.same {r : Nat} (w : World) :
    ∀ o, w.objs[r]? = some o → ∃ o', w.objs[r]? = some o' ∧ SameData o o' :=
  fun o h => ⟨o, h, SameData.refl o⟩

theorem uses_of_spares {r : Nat} : ∀ {p : Prog}, Spares r p →
    p.Uses (fun x => x ≠ r) True (fun _ => True) True
  | .ret _, _ => trivial
  | .raise _, _ => trivial
  | .call c k, h => by
      cases c <;> first
        | exact ⟨h.1, fun x => uses_of_spares (h.2 x)⟩
        | exact ⟨⟨h.1, trivial⟩, fun x => uses_of_spares (h.2 x)⟩
        | exact ⟨trivial, fun x => uses_of_spares (h x)⟩
        | exact ⟨⟨trivial, trivial⟩, fun x => uses_of_spares (h x)⟩
  | .disabled _ _ _, h => ⟨uses_of_spares h.1, fun x => uses_of_spares (h.2 x)⟩

theorem spared_stable {E : Env} {r : Nat} (hE : ∀ f args, Spares r (E.fn f args)) :
    Stable E (fun x => x ≠ r) True (fun _ => True) True (fun x => x ≠ r) (fun w => r < w.objs.length)
      (Spared r) where
  refl w _ := ⟨Restored.refl w, Spared.same w, rfl⟩
  trans h k := ⟨h.base.trans k.base, fun o ho => by
    obtain ⟨o1, h1, k1⟩ := h.data o ho
    obtain ⟨o2, h2, k2⟩ := k.data o1 h1
    exact ⟨o2, h2, k1.trans k2⟩, k.events.trans h.events⟩
  keep h k := Nat.lt_of_lt_of_le k h.base.len
  fns f args := uses_of_spares (hE f args)
  fresh w h := fun e => by omega
  writable _ h := h
  trace w0 w e _ hR hi hq h := by
    refine ⟨(restored_stable E).trace w w e trivial (Restored.refl w)
        (Nat.lt_of_lt_of_le hi hR.base.len) ?_ (.inl trivial),
      Spared.same w, ?_⟩
    · rw [hR.base.quar]; exact hq
    · have : (e.inst == r && e.mode != .validate) = false := by
        rcases h with h | ⟨h1, h2⟩
        · simp [h]
        · simp [h2]
      simp [observed, this]
  collects _ _ _ _ := trivial
  hooks w r ts _ h := ⟨(restored_stable E).hooks w r ts trivial h, Spared.same w, rfl⟩
  tick w _ := ⟨(restored_stable E).tick w trivial, Spared.same w, rfl⟩
  user w v _ := ⟨(restored_stable E).user w v trivial, Spared.same w, rfl⟩
  bypass w _ := ⟨(restored_stable E).bypass w trivial, Spared.same w, rfl⟩
  stored w x f _ hr := ⟨(restored_stable E).stored w x f trivial trivial,
    Spared.setObj (fun h => absurd h hr), rfl⟩
  errs w x o es ts _ hC ho he := ⟨(restored_stable E).errs w x o es ts trivial hC ho he,
    Spared.setObj (fun _ _ => ⟨rfl, rfl, rfl⟩), rfl⟩
  observe w x ls _ hr _ := ⟨(restored_stable E).observe w x ls trivial trivial trivial,
    Spared.setObj (fun h => absurd h hr), rfl⟩
  alloc w c hw := ⟨(restored_stable E).alloc w c trivial, fun o ho =>
    ⟨o, by rw [List.getElem?_append_left (by omega)]; exact ho, SameData.refl o⟩, rfl⟩
  quar _ _ h := h
  disabled w w' q _ h := ⟨(restored_stable E).disabled w w' q trivial h.base, h.data, h.events⟩
  cls h := (restored_stable E).cls h.base
  idle h := (restored_stable E).idle h.base
  validatingI w r h _ := by simpa [World.setObj] using h
  validating w w' r _ hi h := ⟨(restored_stable E).validating w w' r trivial hi h.base,
    Spared.bracket h.data (fun _ => ⟨rfl, rfl, rfl⟩) (fun _ => ⟨rfl, rfl, rfl⟩), h.events⟩
  serializingI w r h := by simpa [World.setObj] using h
  serializing w w' r o _ ho hg h := ⟨(restored_stable E).serializing w w' r o trivial ho hg h.base,
    Spared.bracket h.data (fun _ => ⟨rfl, rfl, rfl⟩) (fun _ => ⟨rfl, rfl, rfl⟩), h.events⟩
  comparingI w r h := by simpa [World.setObj] using h
  comparing w w' r o _ ho hg h := ⟨(restored_stable E).comparing w w' r o trivial ho hg h.base,
    Spared.bracket h.data (fun _ => ⟨rfl, rfl, rfl⟩) (fun _ => ⟨rfl, rfl, rfl⟩), h.events⟩

end Verif
