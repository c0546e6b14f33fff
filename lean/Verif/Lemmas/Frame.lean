import Verif.Lemmas.Restored
import Verif.Spec.Frame

/-!
# Old instances keep their data
-/

namespace Verif
open Spec

/-- Events on objects below `N`; with `vb` validator calls are not counted. -/
def watched (N : Nat) (vb : Bool) (t : List Event) : List Event :=
  t.filter (fun e => decide (e.inst < N) && (!vb || e.mode != .validate))

/-- Objects below `N` keep their data and no watched event happens. -/
structure Frame (N : Nat) (vb : Bool) (w w' : World) : Prop where
  base : Restored w w'
  old : ∀ (r : Nat) (o : Obj), r < N → w.objs[r]? = some o →
    ∃ o', w'.objs[r]? = some o' ∧ SameData o o'
  events : watched N vb w'.trace = watched N vb w.trace

theorem Spec.SameData.refl (o : Obj) : SameData o o := ⟨rfl, rfl, rfl⟩
theorem Spec.SameData.trans {a b c : Obj} (h : SameData a b) (k : SameData b c) : SameData a c :=
  ⟨k.1.trans h.1, k.2.1.trans h.2.1, k.2.2.trans h.2.2⟩

theorem old_setObj {N : Nat} {w : World} {r : Nat} {f : Obj → Obj}
    (h : r < N → ∀ o, SameData o (f o)) :
    ∀ (i : Nat) (o : Obj), i < N → w.objs[i]? = some o →
      ∃ o', (w.setObj r f).objs[i]? = some o' ∧ SameData o o' := by
  intro i o hi ho
  by_cases hr : r = i
  · subst hr; exact ⟨f o, by simp [World.setObj, List.getElem?_modify, ho], h hi o⟩
  · exact ⟨o, by simp [World.setObj, List.getElem?_modify, ho, hr], SameData.refl o⟩

theorem old_bracket {N : Nat} {w w' : World} {r : Nat} {f g : Obj → Obj}
    (h : ∀ (i : Nat) (o : Obj), i < N → (w.setObj r f).objs[i]? = some o →
      ∃ o', w'.objs[i]? = some o' ∧ SameData o o')
    (hf : ∀ o, SameData o (f o)) (hg : ∀ o, SameData o (g o)) :
    ∀ (i : Nat) (o : Obj), i < N → w.objs[i]? = some o →
      ∃ o', (w'.setObj r g).objs[i]? = some o' ∧ SameData o o' := by
  intro i o hi ho
  obtain ⟨o1, h1, k1⟩ := old_setObj (N := N) (r := r) (f := f) (fun _ => hf) i o hi ho
  obtain ⟨o2, h2, k2⟩ := h i o1 hi h1
  obtain ⟨o3, h3, k3⟩ := old_setObj (N := N) (r := r) (f := g) (fun _ => hg) i o2 hi h2
  exact ⟨o3, h3, (k1.trans k2).trans k3⟩

theorem old_refl {N : Nat} (w : World) : ∀ (i : Nat) (o : Obj), i < N → w.objs[i]? = some o →
      ∃ o', w.objs[i]? = some o' ∧ SameData o o' := fun _ o _ h => ⟨o, h, SameData.refl o⟩

theorem frame_stable (E : Env) (N : Nat) (vb : Bool)
    (hfn : ∀ f args, (E.fn f args).Uses (N ≤ ·) (vb = true) (fun _ => True) True) :
    Stable E (N ≤ ·) (vb = true) (fun _ => True) True (N ≤ ·) (fun w => N ≤ w.objs.length) (Frame N vb) where
  refl w _ := ⟨Restored.refl w, old_refl w, rfl⟩
  trans h k := ⟨h.base.trans k.base, fun r o hr ho => by
    obtain ⟨o1, h1, k1⟩ := h.old r o hr ho
    obtain ⟨o2, h2, k2⟩ := k.old r o1 hr h1
    exact ⟨o2, h2, k1.trans k2⟩, k.events.trans h.events⟩
  keep h k := Nat.le_trans k h.base.len
  fns := hfn
  fresh _ h := h
  writable _ h := h
  trace w0 w e _ hR hi hq h := by
    refine ⟨(restored_stable E).trace w w e trivial (Restored.refl w)
        (Nat.lt_of_lt_of_le hi hR.base.len) ?_ (.inl trivial),
      old_refl w, ?_⟩
    · rw [hR.base.quar]; exact hq
    · have : (decide (e.inst < N) && (!vb || e.mode != .validate)) = false := by
        rcases h with h | ⟨h1, h2⟩
        · simp [Nat.not_lt.2 h]
        · simp [h1, h2]
      simp [watched, this]
  collects _ _ _ _ := trivial
  hooks w r ts _ h := ⟨(restored_stable E).hooks w r ts trivial h, old_refl w, rfl⟩
  tick w _ := ⟨(restored_stable E).tick w trivial, old_refl w, rfl⟩
  user w v _ := ⟨(restored_stable E).user w v trivial, old_refl w, rfl⟩
  bypass w _ := ⟨(restored_stable E).bypass w trivial, old_refl w, rfl⟩
  stored w r f _ hr := ⟨(restored_stable E).stored w r f trivial trivial,
    old_setObj (fun h => absurd h (Nat.not_lt.2 hr)), rfl⟩
  errs w r o es ts _ hC ho he := ⟨(restored_stable E).errs w r o es ts trivial hC ho he,
    old_setObj (fun _ _ => ⟨rfl, rfl, rfl⟩), rfl⟩
  observe w r ls _ hr _ := ⟨(restored_stable E).observe w r ls trivial trivial trivial,
    old_setObj (fun h => absurd h (Nat.not_lt.2 hr)), rfl⟩
  alloc w c hw := ⟨(restored_stable E).alloc w c trivial, fun r o hr ho =>
    ⟨o, by rw [List.getElem?_append_left (by omega)]; exact ho, SameData.refl o⟩, rfl⟩
  quar _ _ h := h
  disabled w w' q _ h := ⟨(restored_stable E).disabled w w' q trivial h.base, h.old, h.events⟩
  cls h := (restored_stable E).cls h.base
  idle h := (restored_stable E).idle h.base
  validatingI w r h _ := by simpa [World.setObj] using h
  validating w w' r _ hi h := ⟨(restored_stable E).validating w w' r trivial hi h.base,
    old_bracket h.old (fun _ => ⟨rfl, rfl, rfl⟩) (fun _ => ⟨rfl, rfl, rfl⟩), h.events⟩
  serializingI w r h := by simpa [World.setObj] using h
  serializing w w' r o _ ho hg h := ⟨(restored_stable E).serializing w w' r o trivial ho hg h.base,
    old_bracket h.old (fun _ => ⟨rfl, rfl, rfl⟩) (fun _ => ⟨rfl, rfl, rfl⟩), h.events⟩
  comparingI w r h := by simpa [World.setObj] using h
  comparing w w' r o _ ho hg h := ⟨(restored_stable E).comparing w w' r o trivial ho hg h.base,
    old_bracket h.old (fun _ => ⟨rfl, rfl, rfl⟩) (fun _ => ⟨rfl, rfl, rfl⟩), h.events⟩

theorem uses_of_readOnly (W : Nat → Prop) : ∀ {p : Prog}, ReadOnly p → p.Uses W (true = true) (fun _ => True) True
  | .ret _, _ => trivial
  | .raise _, _ => trivial
  | .call c k, h => ⟨by
      have h1 := h.1
      cases c <;> first | exact rfl | exact trivial | exact ⟨rfl, trivial⟩ | exact (Bool.noConfusion h1),
      fun x => uses_of_readOnly W (h.2 x)⟩
  | .disabled _ _ _, h => ⟨uses_of_readOnly W h.1, fun x => uses_of_readOnly W (h.2 x)⟩

theorem uses_of_quiet (W : Nat → Prop) : ∀ {p : Prog}, Quiet p → p.Uses W (false = true) (fun _ => True) True
  | .ret _, _ => trivial
  | .raise _, _ => trivial
  | .call c k, h => ⟨by
      have h1 := h.1
      have h2 := h.2.1
      cases c <;> first
        | exact trivial
        | exact (Bool.noConfusion h1)
        | exact (Bool.noConfusion h2),
      fun x => uses_of_quiet W (h.2.2 x)⟩
  | .disabled _ _ _, h => ⟨uses_of_quiet W h.1, fun x => uses_of_quiet W (h.2 x)⟩

/-- Calls that modify nothing keep all data when user code is read-only. -/
theorem run_frame_readOnly {E : Env} (hE : ∀ f args, ReadOnly (E.fn f args)) (n : Nat) (c : Call)
    (hc : Modifies c = false) (w : World) : Frame w.objs.length true w (run E n c w).2 :=
  ((frame_stable E w.objs.length true fun f a => uses_of_readOnly _ (hE f a)).run_ok n).pres c
    (by cases c <;> first | exact rfl | exact trivial | exact ⟨rfl, trivial⟩ | exact (Bool.noConfusion hc)) w
    (Nat.le_refl _)

theorem run_frame_quiet {E : Env} (hE : ∀ f args, Quiet (E.fn f args)) (n : Nat) (c : Call)
    (hc : Modifies c = false) (hv : Validates c = false) (w : World) :
    Frame w.objs.length false w (run E n c w).2 :=
  ((frame_stable E w.objs.length false fun f a => uses_of_quiet _ (hE f a)).run_ok n).pres c
    (by cases c <;> first
      | exact trivial
      | exact (Bool.noConfusion hc)
      | exact (Bool.noConfusion hv)) w
    (Nat.le_refl _)

end Verif
