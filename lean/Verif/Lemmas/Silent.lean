import Verif.Lemmas.Restored

/-!
# With all listeners disabled no listener is called
-/

namespace Verif

/-- Markers are restored and no listener call is recorded. -/
def Silent (w w' : World) : Prop := Restored w w' ∧ w'.trace = w.trace

theorem union_all (q : Quar) : Quar.all.union q = Quar.all := rfl

theorem silent_stable (E : Env) :
    Stable E (fun _ => True) True (fun _ => True) True (fun _ => True) (fun w => w.quar = Quar.all) Silent where
  refl w _ := ⟨Restored.refl w, rfl⟩
  trans h k := ⟨h.1.trans k.1, k.2.trans h.2⟩
  keep h k := h.1.quar.trans k
  fns _ _ := Prog.uses_all _
  fresh _ _ := trivial
  writable _ _ := trivial
  trace w0 w e h0 h1 _ h2 _ := by
    rw [h0] at h2
    cases e with
    | mk i m n p v f => cases m <;> exact Bool.noConfusion h2
  collects _ _ _ _ := trivial
  hooks w r ts _ h := ⟨(restored_stable E).hooks w r ts trivial h, rfl⟩
  tick w _ := ⟨(restored_stable E).tick w trivial, rfl⟩
  user w v _ := ⟨(restored_stable E).user w v trivial, rfl⟩
  bypass w _ := ⟨(restored_stable E).bypass w trivial, rfl⟩
  stored w r f _ _ := ⟨(restored_stable E).stored w r f trivial trivial, rfl⟩
  errs w r o es ts _ hC ho he := ⟨(restored_stable E).errs w r o es ts trivial hC ho he, rfl⟩
  observe w r ls _ hr _ := ⟨(restored_stable E).observe w r ls trivial hr trivial, rfl⟩
  alloc w c _ := ⟨(restored_stable E).alloc w c trivial, rfl⟩
  quar w q h := by show w.quar.union q = Quar.all; rw [h]; rfl
  disabled w w' q _ h := ⟨(restored_stable E).disabled w w' q trivial h.1, h.2⟩
  cls h := (restored_stable E).cls h.1
  idle h := (restored_stable E).idle h.1
  validatingI w r h _ := h
  validating w w' r _ hi h := ⟨(restored_stable E).validating w w' r trivial hi h.1, h.2⟩
  serializingI w r h := h
  serializing w w' r o _ ho hg h := ⟨(restored_stable E).serializing w w' r o trivial ho hg h.1, h.2⟩
  comparingI w r h := h
  comparing w w' r o _ ho hg h := ⟨(restored_stable E).comparing w w' r o trivial ho hg h.1, h.2⟩

theorem union_all' (q : Quar) : q.union Quar.all = Quar.all := by
  cases q with
  | mk a b c => cases a <;> cases b <;> cases c <;> rfl

/-- A call inside `with listeners_disabled()` records no listener call. -/
theorem withDisabled_silent (E : Env) (n : Nat) (c : Call) (w : World) :
    (withDisabled Quar.all (run E n c) w).2.trace = w.trace :=
  (((silent_stable E).run_ok n).pres c c.allowed_all { w with quar := w.quar.union Quar.all }
    (union_all' _)).2

end Verif
