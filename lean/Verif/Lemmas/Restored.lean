import Verif.Lemmas.Pres
import Verif.Spec.Guards

/-!
# The relation behind the guard theorems
-/

set_option linter.unusedSimpArgs false

namespace Verif
open Spec

/-- How an existing object may differ after a call. -/
structure ObjKept (o o' : Obj) : Prop where
  cls : o'.cls = o.cls
  gv : o'.gv = some true ↔ o.gv = some true
  gvSet : o.gv ≠ none → o'.gv ≠ none
  gs : o'.gs = o.gs
  te : o'.te = o.te
  errs : o.gv ≠ some true → o.errs = none → o'.errs = none
  listeners : o.listeners <+: o'.listeners

structure Restored (w w' : World) : Prop where
  quar : w'.quar = w.quar
  len : w.objs.length ≤ w'.objs.length
  old : ∀ (r : Nat) (o : Obj), w.objs[r]? = some o → ∃ o', w'.objs[r]? = some o' ∧ ObjKept o o'
  new : ∀ (r : Nat) (o' : Obj), w.objs.length ≤ r → w'.objs[r]? = some o' → Idle o'

theorem ObjKept.refl (o : Obj) : ObjKept o o :=
  ⟨rfl, Iff.rfl, fun h => h, rfl, rfl, fun _ h => h, List.prefix_refl _⟩

theorem ObjKept.trans {a b c : Obj} (h : ObjKept a b) (k : ObjKept b c) : ObjKept a c :=
  ⟨k.cls.trans h.cls, k.gv.trans h.gv, fun x => k.gvSet (h.gvSet x), k.gs.trans h.gs, k.te.trans h.te,
    fun h1 h2 => k.errs (fun h3 => h1 (h.gv.1 h3)) (h.errs h1 h2),
    h.listeners.trans k.listeners⟩

theorem ObjKept.idle {a b : Obj} (h : ObjKept a b) (hi : Idle a) : Idle b := by
  obtain ⟨h1, h2, h3, h4⟩ := hi
  refine ⟨fun x => h1 (h.gv.1 x), fun x => h2 ?_, fun x => h3 ?_, h.errs h1 h4⟩
  · unfold BeingSerialized at *; rw [← h.gs]; exact x
  · unfold BeingCompared at *; rw [← h.te]; exact x

theorem Restored.refl (w : World) : Restored w w :=
  ⟨rfl, Nat.le_refl _, fun _ o h => ⟨o, h, ObjKept.refl o⟩, fun r o h1 h2 => by
    have := (List.getElem?_eq_some_iff.1 h2).1; omega⟩

theorem Restored.trans {a b c : World} (h : Restored a b) (k : Restored b c) : Restored a c := by
  refine ⟨k.quar.trans h.quar, Nat.le_trans h.len k.len, fun r o ho => ?_, fun r o h1 h2 => ?_⟩
  · obtain ⟨o1, h1, k1⟩ := h.old r o ho
    obtain ⟨o2, h2, k2⟩ := k.old r o1 h1
    exact ⟨o2, h2, k1.trans k2⟩
  · by_cases hr : b.objs.length ≤ r
    · exact k.new r o hr h2
    · have hr' : r < b.objs.length := by omega
      have h3 : b.objs[r]? = some b.objs[r] := List.getElem?_eq_getElem hr'
      obtain ⟨o2, h4, k2⟩ := k.old r _ h3
      rw [h2] at h4; cases h4
      exact k2.idle (h.new r _ h1 h3)

/-- Changing one object in an allowed way. -/
theorem Restored.setObj (w : World) (r : Nat) (f : Obj → Obj)
    (hf : ∀ o, w.objs[r]? = some o → ObjKept o (f o)) : Restored w (w.setObj r f) := by
  refine ⟨rfl, by simp [World.setObj], fun i o ho => ?_, fun i o h1 h2 => ?_⟩
  · simp only [World.setObj, List.getElem?_modify, ho]
    by_cases h : r = i
    · subst h; exact ⟨f o, by simp, hf o ho⟩
    · exact ⟨o, by simp [h], ObjKept.refl o⟩
  · have := (List.getElem?_eq_some_iff.1 h2).1
    simp [World.setObj] at this; omega

/-- A bracket: set a marker on `r`, run, clear it. -/
theorem Restored.bracket {w w' : World} {r : Nat} {o : Obj} (f g : Obj → Obj)
    (ho : w.objs[r]? = some o) (h : Restored (w.setObj r f) w')
    (hfg : ∀ o', ObjKept (f o) o' → ObjKept o (g o')) : Restored w (w'.setObj r g) := by
  have hlen : (w.setObj r f).objs.length = w.objs.length := by simp [World.setObj]
  refine ⟨h.quar, ?_, fun i oi hi => ?_, fun i oi h1 h2 => ?_⟩
  · have := h.len; simp only [hlen] at this; simpa [World.setObj] using this
  · by_cases hri : r = i
    · subst hri
      have e1 : (w.setObj r f).objs[r]? = some (f o) := by
        simp [World.setObj, List.getElem?_modify, ho]
      obtain ⟨o', h1, k⟩ := h.old r _ e1
      rw [ho] at hi; cases hi
      exact ⟨g o', by simp [World.setObj, List.getElem?_modify, h1], hfg o' k⟩
    · have e1 : (w.setObj r f).objs[i]? = some oi := by
        simp [World.setObj, List.getElem?_modify, hi, hri]
      obtain ⟨o', h1, k⟩ := h.old i _ e1
      exact ⟨o', by simp [World.setObj, List.getElem?_modify, h1, hri], k⟩
  · have hr : r < w.objs.length := (List.getElem?_eq_some_iff.1 ho).1
    have hne : r ≠ i := by omega
    have h3 : w'.objs[i]? = some oi := by
      simpa [World.setObj, List.getElem?_modify, hne] using h2
    exact h.new i oi (by omega) h3

theorem restored_stable (E : Env) :
    Stable E (fun _ => True) True (fun _ => True) True (fun _ => True) (fun _ => True) Restored where
  refl w _ := Restored.refl w
  trans := Restored.trans
  keep _ _ := trivial
  fns _ _ := Prog.uses_all _
  fresh _ _ := trivial
  writable _ _ := trivial
  trace _ w _ _ _ _ _ _ := ⟨rfl, Nat.le_refl _, (Restored.refl w).old, (Restored.refl w).new⟩
  collects _ _ _ _ := trivial
  hooks w _ _ _ _ := ⟨rfl, Nat.le_refl _, (Restored.refl w).old, (Restored.refl w).new⟩
  tick w _ := ⟨rfl, Nat.le_refl _, (Restored.refl w).old, (Restored.refl w).new⟩
  user w _ _ := ⟨rfl, Nat.le_refl _, (Restored.refl w).old, (Restored.refl w).new⟩
  bypass w _ := ⟨rfl, Nat.le_refl _, (Restored.refl w).old, (Restored.refl w).new⟩
  stored w r b _ _ := Restored.setObj w r _ fun o _ =>
    ⟨rfl, Iff.rfl, fun h => h, rfl, rfl, fun _ h => h, List.prefix_refl _⟩
  errs w r o es ts _ hC ho he := Restored.setObj w r _ fun o' ho' => by
    rw [ho] at ho'; cases ho'
    exact ⟨rfl, Iff.rfl, fun h => h, rfl, rfl, fun _ h => absurd (he.symm.trans h) (by simp), List.prefix_refl _⟩
  observe w r ls _ _ _ := Restored.setObj w r _ fun o _ =>
    ⟨rfl, Iff.rfl, fun h => h, rfl, rfl, fun _ h => h, List.prefix_append _ _⟩
  alloc w c _ := by
    refine ⟨rfl, by simp, fun r o ho => ⟨o, ?_, ObjKept.refl o⟩, fun r o h1 h2 => ?_⟩
    · have := (List.getElem?_eq_some_iff.1 ho).1
      simp [List.getElem?_append_left this, ho]
    · rcases Nat.lt_or_eq_of_le h1 with h | h
      · have := (List.getElem?_eq_some_iff.1 h2).1
        simp at this; omega
      · subst h
        simp at h2
        subst h2
        exact ⟨by simp [BeingValidated], by simp [BeingSerialized], by simp [BeingCompared], rfl⟩
  quar _ _ _ := trivial
  disabled w w' q _ h := ⟨rfl, h.len, h.old, h.new⟩
  cls h := fun ⟨o, ho, hc⟩ => by
    obtain ⟨o', h1, k⟩ := h.old _ o ho
    exact ⟨o', h1, k.cls.trans hc⟩
  idle h := fun ⟨o, ho, hi⟩ => by
    obtain ⟨o', h1, k⟩ := h.old _ o ho
    exact ⟨o', h1, fun h2 => hi (k.gv.1 h2)⟩
  validatingI _ _ _ _ := trivial
  validating w w' r _ hi h := by
    obtain ⟨o, ho, hi⟩ := hi
    exact Restored.bracket _ _ ho h fun o' k =>
      ⟨k.cls, by simp [hi], by simp, k.gs, k.te, fun _ _ => rfl, k.listeners⟩
  serializingI _ _ _ := trivial
  serializing w w' r o _ ho hi h := Restored.bracket _ _ ho h fun o' k =>
    ⟨k.cls, k.gv, k.gvSet, hi.symm, k.te, k.errs, k.listeners⟩
  comparingI _ _ _ := trivial
  comparing w w' r o _ ho hi h := Restored.bracket _ _ ho h fun o' k =>
    ⟨k.cls, k.gv, k.gvSet, k.gs, hi.symm, k.errs, k.listeners⟩

/-- Every call keeps markers, classes and the quarantine. -/
theorem run_restored (E : Env) (n : Nat) (c : Call) (w : World) :
    Restored w (run E n c w).2 :=
  ((restored_stable E).run_ok n).pres c c.allowed_all w trivial

theorem runProg_restored (E : Env) (n : Nat) (p : Prog) (w : World) :
    Restored w (runProg E n p w).2 := (restored_stable E).runProg_pres n p p.uses_all w trivial

end Verif
