import Verif.Lemmas.Restored
import Verif.Spec.Valid
import Verif.Spec.Construct

/-!
# While an instance is being validated or initialised

Whatever else happens, what it has collected is left alone and its error hook is
not called.
-/

namespace Verif
open Spec

/-- The calls of the error hook of `r`. -/
def hooksOf (r : Nat) (w : World) : List (Nat × List ErrTuple) := w.hooks.filter (fun h => h.1 == r)

/-- If `r` is being validated or initialised then what it collected is kept and
its hook is not called. -/
structure Undisturbed (r : Nat) (w w' : World) : Prop where
  restored : Restored w w'
  hooks : hooksOf r w' = hooksOf r w
  errs : ∀ o, w.objs[r]? = some o → ∃ o', w'.objs[r]? = some o' ∧ o'.errs = o.errs

theorem Undisturbed.of_objs {r : Nat} {w w' : World} (h : Restored w w') (ho : w'.objs = w.objs)
    (hh : hooksOf r w' = hooksOf r w) : Undisturbed r w w' :=
  ⟨h, hh, fun o h => ⟨o, by rw [ho]; exact h, rfl⟩⟩

theorem Undisturbed.setObj {r x : Nat} {w : World} {f : Obj → Obj} (h : Restored w (w.setObj x f))
    (hf : x ≠ r ∨ ∀ o, (f o).errs = o.errs) : Undisturbed r w (w.setObj x f) := by
  refine ⟨h, rfl, fun o ho => ?_⟩
  unfold World.setObj
  simp only [List.getElem?_modify, ho]
  by_cases hx : x = r
  · subst hx
    exact ⟨f o, by simp, hf.resolve_left (fun h => h rfl) o⟩
  · exact ⟨o, by simp [hx], rfl⟩

/-- A bracket around an object other than `r`, or one that leaves `errs`. -/
theorem Undisturbed.bracket {r x : Nat} {w w' : World} {f g : Obj → Obj}
    (h : Undisturbed r (w.setObj x f) w') (hr : Restored w (w'.setObj x g))
    (hf : x ≠ r ∨ ((∀ o, (f o).errs = o.errs) ∧ ∀ o, (g o).errs = o.errs)) :
    Undisturbed r w (w'.setObj x g) := by
  refine ⟨hr, h.hooks, fun o ho => ?_⟩
  by_cases hx : x = r
  · subst hx
    obtain ⟨hf, hg⟩ := hf.resolve_left (fun h => h rfl)
    obtain ⟨o', h1, h2⟩ := h.errs (f o) (by simp [World.setObj, List.getElem?_modify, ho])
    exact ⟨g o', by simp [World.setObj, List.getElem?_modify, h1], by rw [hg, h2, hf]⟩
  · obtain ⟨o', h1, h2⟩ := h.errs o (by simp [World.setObj, List.getElem?_modify, ho, hx])
    exact ⟨o', by simp [World.setObj, List.getElem?_modify, h1, hx], h2⟩

theorem uses_of_indirect (r : Nat) : ∀ {p : Prog}, Indirect p →
    p.Uses (fun _ => True) True (fun x => x ≠ r) True
  | .ret _, _ => trivial
  | .raise _, _ => trivial
  | .call c k, h => by
      cases c <;> first
        | exact ⟨trivial, fun x => uses_of_indirect r (h x)⟩
        | exact ⟨⟨trivial, trivial⟩, fun x => uses_of_indirect r (h x)⟩
        | exact h.elim
  | .disabled _ _ _, h => ⟨uses_of_indirect r h.1, fun x => uses_of_indirect r (h.2 x)⟩

theorem undisturbed_stable {E : Env} (hE : ∀ f args, Indirect (E.fn f args)) (r : Nat) :
    Stable E (fun _ => True) True (fun x => x ≠ r) True (fun _ => True) (fun w => Busy w r)
      (Undisturbed r) where
  refl w _ := .of_objs (Restored.refl w) rfl rfl
  trans h k := ⟨h.restored.trans k.restored, k.hooks.trans h.hooks, fun o ho => by
    obtain ⟨o1, h1, e1⟩ := h.errs o ho
    obtain ⟨o2, h2, e2⟩ := k.errs o1 h1
    exact ⟨o2, h2, e2.trans e1⟩⟩
  keep h hb := by
    obtain ⟨o, ho, hg⟩ := hb
    obtain ⟨o', h1, k⟩ := h.restored.old r o ho
    exact ⟨o', h1, k.gv.2 hg⟩
  fns f args := uses_of_indirect r (hE f args)
  fresh _ _ := trivial
  writable _ _ := trivial
  trace w0 w e _ h1 h2 h3 h4 := .of_objs ((restored_stable E).trace w0 w e trivial h1.restored h2 h3
    (h4.elim .inl fun h => .inr ⟨trivial, h.2⟩)) rfl rfl
  collects w x hb hn := by
    rintro rfl
    obtain ⟨o, ho, hg⟩ := hb
    obtain ⟨o', ho', hg'⟩ := hn
    rw [ho] at ho'; cases ho'
    exact hg' hg
  hooks w x ts hb h := by
    refine .of_objs ((restored_stable E).hooks w x ts trivial (.inl trivial)) rfl ?_
    have hx : x ≠ r := by
      rcases h with h | ⟨o, ho, hg⟩
      · exact h
      · rintro rfl
        obtain ⟨o', ho', hg'⟩ := hb
        rw [ho] at ho'; cases ho'
        rw [hg] at hg'; cases hg'
    unfold hooksOf
    rw [List.filter_append]
    simp [hx]
  tick w _ := .of_objs ((restored_stable E).tick w trivial) rfl rfl
  user w v _ := .of_objs ((restored_stable E).user w v trivial) rfl rfl
  bypass w _ := .of_objs ((restored_stable E).bypass w trivial) rfl rfl
  stored w x f _ _ := .setObj ((restored_stable E).stored w x f trivial trivial) (.inr fun _ => rfl)
  errs w x o es ts _ hx ho he := .setObj
    ((restored_stable E).errs w x o es ts trivial trivial ho he) (.inl hx)
  observe w x ls _ hx _ := .setObj ((restored_stable E).observe w x ls trivial hx trivial) (.inr fun _ => rfl)
  alloc w c _ := by
    refine ⟨(restored_stable E).alloc w c trivial, rfl, fun o ho => ⟨o, ?_, rfl⟩⟩
    have := (List.getElem?_eq_some_iff.1 ho).1
    simp [List.getElem?_append_left this, ho]
  quar w q h := h
  disabled w w' q _ h := ⟨(restored_stable E).disabled w w' q trivial h.restored, h.hooks, h.errs⟩
  cls h := (restored_stable E).cls h.restored
  idle h := (restored_stable E).idle h.restored
  validatingI w x h hn := by
    obtain ⟨o, ho, hg⟩ := h
    refine ⟨if x = r then { o with gv := some true, errs := some [] } else o, ?_, ?_⟩
    · simp only [World.setObj, List.getElem?_modify, ho]
      by_cases hx : x = r <;> simp [hx]
    · split
      · rfl
      · exact hg
  validating w w' x hb hn h := by
    refine .bracket h ((restored_stable E).validating w w' x trivial hn h.restored) (.inl ?_)
    rintro rfl
    obtain ⟨o, ho, hg⟩ := hb
    obtain ⟨o', ho', hg'⟩ := hn
    rw [ho] at ho'; cases ho'
    exact hg' hg
  serializingI w x h := by
    obtain ⟨o, ho, hg⟩ := h
    refine ⟨if x = r then { o with gs := true } else o, ?_, ?_⟩
    · simp only [World.setObj, List.getElem?_modify, ho]
      by_cases hx : x = r <;> simp [hx]
    · split <;> exact hg
  serializing w w' x o _ ho hg h := .bracket h
    ((restored_stable E).serializing w w' x o trivial ho hg h.restored)
    (.inr ⟨fun _ => rfl, fun _ => rfl⟩)
  comparingI w x h := by
    obtain ⟨o, ho, hg⟩ := h
    refine ⟨if x = r then { o with te := true } else o, ?_, ?_⟩
    · simp only [World.setObj, List.getElem?_modify, ho]
      by_cases hx : x = r <;> simp [hx]
    · split <;> exact hg
  comparing w w' x o _ ho hg h := .bracket h
    ((restored_stable E).comparing w w' x o trivial ho hg h.restored)
    (.inr ⟨fun _ => rfl, fun _ => rfl⟩)

/-- While `r` is being validated or initialised, calls other than
`_validate_props` of `r` neither change what it collected nor call its hook. -/
theorem run_undisturbed {E : Env} (hE : ∀ f args, Indirect (E.fn f args)) (n : Nat) (c : Call)
    (r : Nat) (hc : c ≠ .validateProps r) {w : World} (hb : Busy w r) :
    Undisturbed r w (run E n c w).2 := by
  refine ((undisturbed_stable hE r).run_ok n).pres c ?_ w hb
  cases c <;> first | exact trivial | exact ⟨trivial, trivial⟩ |
    exact ⟨trivial, fun h => hc (by rw [h])⟩

end Verif
