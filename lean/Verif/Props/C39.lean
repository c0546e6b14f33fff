import Verif.Spec.Immutable
import Verif.Lemmas.Writes
import Verif.Lemmas.Restored
import Verif.Lemmas.Notify
import Verif.Models.Demo

/-!
# C39: immutable properties never change
-/

namespace Verif
open Spec

/-- Kept by every step: values of properties that are not mutable on objects
below `N`. -/
structure Fixed (E : Env) (N : Nat) (w w' : World) : Prop where
  restored : Restored w w'
  bypass : w'.bypass = false → w.bypass = false
  kept : w'.bypass = false → ∀ (r : Nat) (o o' : Obj), r < N → w.objs[r]? = some o →
    w'.objs[r]? = some o' → ∀ nm e, lookupS nm (E.classes o.cls).props = some e →
    e.isMutable = false → lookupS nm o'.backend = lookupS nm o.backend

theorem Fixed.trans {E : Env} {N : Nat} {a b c : World} (h : Fixed E N a b) (k : Fixed E N b c) :
    Fixed E N a c where
  restored := h.restored.trans k.restored
  bypass hb := h.bypass (k.bypass hb)
  kept hb r o o' hr ho ho' nm e hl hm := by
    obtain ⟨o1, h1, h2⟩ := h.restored.old r o ho
    rw [k.kept hb r o1 o' hr h1 ho' nm e (h2.cls ▸ hl) hm,
      h.kept (k.bypass hb) r o o1 hr ho h1 nm e hl hm]

/-- Steps that keep all stored values of objects below `N`. -/
theorem Fixed.of_backend {E : Env} {N : Nat} {w w' : World} (h : Restored w w')
    (hb : w'.bypass = false → w.bypass = false)
    (hk : ∀ (r : Nat) (o o' : Obj), r < N → w.objs[r]? = some o → w'.objs[r]? = some o' →
      o'.backend = o.backend) : Fixed E N w w' :=
  ⟨h, hb, fun _ r o o' hr ho ho' nm _ _ _ => by rw [hk r o o' hr ho ho']⟩

theorem setObj_get {w : World} {r i : Nat} {f : Obj → Obj} {o o' : Obj} (ho : w.objs[i]? = some o)
    (ho' : (w.setObj r f).objs[i]? = some o') : o' = if r = i then f o else o := by
  simp only [World.setObj, List.getElem?_modify, ho] at ho'
  exact (Option.some.inj ho').symm

theorem Fixed.setObj {E : Env} {N : Nat} {w : World} {r : Nat} {f : Obj → Obj}
    (h : Restored w (w.setObj r f)) (hf : ∀ o, (f o).backend = o.backend) :
    Fixed E N w (w.setObj r f) :=
  .of_backend h (fun h => h) fun i o o' _ ho ho' => by
    rw [setObj_get ho ho']; split
    · exact hf o
    · rfl

/-- A bracket of two changes that keep stored values. -/
theorem Fixed.bracket {E : Env} {N : Nat} {w w' : World} {r : Nat} {f g : Obj → Obj}
    (k : Fixed E N (w.setObj r f) w') (h : Restored w (w'.setObj r g)) (hf : ∀ o, (f o).backend = o.backend ∧ (f o).cls = o.cls)
    (hg : ∀ o, (g o).backend = o.backend) :
    Fixed E N w (w'.setObj r g) where
  restored := h
  bypass hb := k.bypass hb
  kept hb i o o' hi ho ho' nm e hl hm := by
    have h1 : (w.setObj r f).objs[i]? = some (if r = i then f o else o) := by
      simp only [World.setObj, List.getElem?_modify, ho]; rfl
    obtain ⟨o1, h2, _⟩ := k.restored.old i _ h1
    have e1 := k.kept hb i _ o1 hi h1 h2 nm e (by split <;> simp [hf, hl]) hm
    have e2 := setObj_get h2 ho'
    have e3 : o'.backend = o1.backend := by rw [e2]; split <;> simp [hg]
    rw [e3, e1]
    split <;> simp [hf]

theorem fixed_writes (E : Env) (N : Nat) : Writes E (fun _ => True) True (fun _ => True) True (fun r => N ≤ r)
    (fun w => N ≤ w.objs.length) (Fixed E N) where
  refl w _ := .of_backend (Restored.refl w) (fun h => h) fun r o o' _ h h' => by
    rw [h] at h'; cases h'; rfl
  trans := Fixed.trans
  keep h hw := Nat.le_trans hw h.restored.len
  fns _ _ := Prog.uses_all _
  fresh _ h := h
  writable _ _ := trivial
  trace w0 w e _ h1 h2 h3 h4 := .of_backend
    ((restored_stable E).trace w0 w e trivial h1.restored h2 h3 h4)
    (fun h => h) fun r o o' _ h h' => by rw [h] at h'; cases h'; rfl
  collects _ _ _ _ := trivial
  hooks w r ts _ h := .of_backend ((restored_stable E).hooks w r ts trivial h) (fun h => h)
    fun r o o' _ h h' => by rw [h] at h'; cases h'; rfl
  tick w _ := .of_backend ((restored_stable E).tick w trivial) (fun h => h)
    fun r o o' _ h h' => by rw [h] at h'; cases h'; rfl
  user w v _ := .of_backend ((restored_stable E).user w v trivial) (fun h => h)
    fun r o o' _ h h' => by rw [h] at h'; cases h'; rfl
  errs w r o es ts _ hC h1 h2 := .setObj ((restored_stable E).errs w r o es ts trivial hC h1 h2)
    fun _ => rfl
  observe w r ls _ h _ := .setObj ((restored_stable E).observe w r ls trivial h trivial) fun _ => rfl
  alloc w c _ := .of_backend ((restored_stable E).alloc w c trivial) (fun h => h)
    fun r o o' _ h h' => by
      have := (List.getElem?_eq_some_iff.1 h).1
      rw [List.getElem?_append_left this, h] at h'; cases h'; rfl
  quar w q h := h
  disabled w w' q _ h := ⟨(restored_stable E).disabled w w' q trivial h.restored, h.bypass, h.kept⟩
  cls h := (restored_stable E).cls h.restored
  idle h := (restored_stable E).idle h.restored
  validatingI w r h _ := by simpa [World.setObj] using h
  validating w w' r _ hi h := .bracket h
    ((restored_stable E).validating w w' r trivial hi h.restored) (fun _ => ⟨rfl, rfl⟩)
    fun _ => rfl
  serializingI w r h := by simpa [World.setObj] using h
  serializing w w' r o _ ho hi h := .bracket h
    ((restored_stable E).serializing w w' r o trivial ho hi h.restored) (fun _ => ⟨rfl, rfl⟩)
    fun _ => rfl
  comparingI w r h := by simpa [World.setObj] using h
  comparing w w' r o _ ho hi h := .bracket h
    ((restored_stable E).comparing w w' r o trivial ho hi h.restored) (fun _ => ⟨rfl, rfl⟩)
    fun _ => rfl
  write r c name p v _ hl w hw := by
    refine ⟨(restored_stable E).stored w r
      (fun b => if v.isUndef then eraseS name b else setS name v b) trivial trivial,
      fun h => h, fun _ i o o' _ ho ho' nm e hl' hm => ?_⟩
    obtain ⟨o1, h1, h2⟩ := hw.2
    have e2 := setObj_get ho ho'
    by_cases hi : r = i
    · subst hi
      rw [ho] at h1; cases h1
      have hne : nm ≠ name := by
        rintro rfl
        rw [h2, hl] at hl'; cases hl'
        cases hm
      rw [e2, if_pos rfl]
      dsimp only
      split
      · exact lookupS_eraseS_ne hne _
      · exact lookupS_setS_ne hne _ _
    · rw [e2, if_neg hi]
  put r c name e v hF _ _ w hw := .of_backend
    ((restored_stable E).stored w r (setS name v) trivial trivial) (fun h => h)
    fun i o o' hi ho ho' => by
      have e2 := setObj_get ho ho'
      rw [e2, if_neg (by omega)]
  backend r v _ := by
    have hb : ∀ f : Obj → List (PyStr × Val), Pres (fun w => w.bypass = true) (Fixed E N)
        (modObj r (fun o => { o with backend := f o })) := by
      intro f w hw
      have hn : ¬ (w.setObj r (fun o => { o with backend := f o })).bypass = false := by
        show ¬ w.bypass = false
        simp [hw]
      exact ⟨Restored.setObj w r _ fun o _ =>
        ⟨rfl, Iff.rfl, fun h => h, rfl, rfl, fun _ h => h, List.prefix_refl _⟩, fun h => absurd h hn,
        fun h => absurd h hn⟩
    unfold setBackend
    intro w hw
    have h1 : Fixed E N w { w with bypass := true } :=
      ⟨(restored_stable E).bypass w trivial, fun h => Bool.noConfusion h,
        fun h => Bool.noConfusion h⟩
    rw [bind_ok (modify_apply _ _)]
    refine h1.trans ?_
    split
    · exact hb (fun _ => _) _ rfl
    · exact hb (fun _ => _) _ rfl

/-- C39: whatever program runs, with any callbacks and recursion limit, a
property of an existing instance that is not mutable keeps its value, or stays
unset.  Unless `_backend` is assigned. -/
theorem C39_immutable_kept (E : Env) (n : Nat) (p : Prog) (w : World) (r : Nat) (nm : PyStr)
    (hm : NotMutable E w r nm) (hb : (runProg E n p w).2.bypass = false) :
    storedAt (runProg E n p w).2 r nm = storedAt w r nm := by
  have h := (fixed_writes E w.objs.length).runProg_pres n p p.uses_all w (Nat.le_refl _)
  obtain ⟨o, e, ho, hl, hne⟩ := hm
  obtain ⟨o', ho', _⟩ := h.restored.old r o ho
  have hr := (List.getElem?_eq_some_iff.1 ho).1
  have := h.kept hb r o o' hr ho ho' nm e hl (by
    cases e with
    | mutable p => exact absurd rfl (hne p)
    | _ => rfl)
  unfold storedAt
  rw [ho, ho']
  exact this

/-- C39: reading an immutable property gives the same value at any later time. -/
theorem C39_reads_agree (E : Env) (n m : Nat) (p : Prog) (w : World) (r : Nat) (nm : PyStr)
    (o : Obj) (q : PropSpec) (ho : w.objs[r]? = some o)
    (hl : lookupS nm (E.classes o.cls).props = some (.gettable q))
    (hb : (runProg E n p w).2.bypass = false) :
    (run E (m + 1) (.getattr r nm) (runProg E n p w).2).1 = (run E (m + 1) (.getattr r nm) w).1 := by
  have h1 := C39_immutable_kept E n p w r nm ⟨o, _, ho, hl, fun _ => by simp⟩ hb
  obtain ⟨o', ho', hk⟩ := (runProg_restored E n p w).old r o ho
  have get : ∀ (w : World) (o : Obj), w.objs[r]? = some o →
      lookupS nm (E.classes o.cls).props = some (.gettable q) →
      (run E (m + 1) (.getattr r nm) w).1 = .ok ((storedAt w r nm).getD .none) := by
    intro w o ho hl
    have e : entryOf E r nm w = (.ok (some (.gettable q)), w) := by
      unfold entryOf
      rw [bind_ok (getObj_some ho), hl]; rfl
    show (getattrBody E (run E m) r nm w).1 = _
    unfold getattrBody
    rw [bind_ok e]
    show (getStored r nm w).1 = _
    unfold getStored storedAt
    rw [bind_ok (getObj_some ho), ho]
    rfl
  rw [get _ o' ho' (hk.cls ▸ hl), get w o ho hl, h1]

/-- A class with a Uuid and a string whose observer tries to change the Uuid. -/
def fixedEnv : Env := { demoEnv with
  classes := fun _ => {
    name := s% "C"
    props := [(s% "u", .gettable (.mk true none none .undef .uuid)),
      (s% "p", .mutable (.mk true none none .undef (.string [] .keep none)))]
    observers := [⟨.names [s% "p"], .set, 0⟩] }
  fn := fun _ _ => .call (.setattr 0 (s% "u") (.uuid 9)) fun _ =>
    .call (.delattr 0 (s% "u")) fun _ => .call (.reset 0 (some (s% "u"))) fun _ => .ret .none }

def fixedWorld : World := { objs := [{
  cls := 0
  backend := [(s% "u", .uuid 4)]
  listeners := [⟨s% "p", .set, 0⟩] }] }

example : NotMutable fixedEnv fixedWorld 0 (s% "u") :=
  ⟨_, .gettable (.mk true none none .undef .uuid), rfl, rfl, fun _ => by simp⟩

/-- The observer runs and its three attempts leave the Uuid alone. -/
example : (run fixedEnv 6 (.setattr 0 (s% "p") (.str (s% "x"))) fixedWorld).2.trace.length = 1 ∧
    (run fixedEnv 6 (.setattr 0 (s% "p") (.str (s% "x"))) fixedWorld).2.bypass = false ∧
    storedAt (run fixedEnv 6 (.setattr 0 (s% "p") (.str (s% "x"))) fixedWorld).2 0 (s% "u") =
      some (.uuid 4) := by
  refine ⟨?_, ?_, ?_⟩ <;> with_unfolding_all rfl

end Verif
