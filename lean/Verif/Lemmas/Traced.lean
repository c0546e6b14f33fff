import Verif.Lemmas.Restored

/-!
# Listener calls concern instances that exist
-/

namespace Verif

/-- The calls recorded in between, each for an instance that exists by now. -/
def TraceGrows (w w' : World) : Prop :=
  ∃ es, w'.trace = w.trace ++ es ∧ ∀ e ∈ es, e.inst < w'.objs.length

theorem TraceGrows.same {w w' : World} (h : w'.trace = w.trace) : TraceGrows w w' :=
  ⟨[], by simp [h], by simp⟩

/-- Markers are restored and the recorded calls concern existing instances. -/
def Traced (w w' : World) : Prop := Restored w w' ∧ TraceGrows w w'

theorem Traced.trans {a b c : World} (h : Traced a b) (k : Traced b c) : Traced a c := by
  refine ⟨h.1.trans k.1, ?_⟩
  obtain ⟨es, h1, h2⟩ := h.2
  obtain ⟨fs, h3, h4⟩ := k.2
  refine ⟨es ++ fs, by rw [h3, h1, List.append_assoc], fun e he => ?_⟩
  rcases List.mem_append.1 he with he | he
  · exact Nat.lt_of_lt_of_le (h2 e he) k.1.len
  · exact h4 e he

theorem traced_bracket {w w1 w2 w' : World} (h1 : Restored w w') (e1 : w1.trace = w.trace)
    (h : TraceGrows w1 w2) (e2 : w'.trace = w2.trace) (e3 : w2.objs.length ≤ w'.objs.length) :
    Traced w w' := by
  obtain ⟨es, h3, h4⟩ := h
  exact ⟨h1, es, by rw [e2, h3, e1], fun e he => Nat.lt_of_lt_of_le (h4 e he) e3⟩

theorem traced_stable (E : Env) :
    Stable E (fun _ => True) True (fun _ => True) True (fun _ => True) (fun _ => True) Traced where
  refl w _ := ⟨Restored.refl w, .same rfl⟩
  trans := Traced.trans
  keep _ _ := trivial
  fns _ _ := Prog.uses_all _
  fresh _ _ := trivial
  writable _ _ := trivial
  trace w0 w e h0 h1 hi h2 h3 := ⟨(restored_stable E).trace w0 w e h0 h1.1 hi h2 h3, [e], rfl, by
    intro x hx
    rw [List.mem_singleton.1 hx]
    exact Nat.lt_of_lt_of_le hi h1.1.len⟩
  collects _ _ _ _ := trivial
  hooks w r ts _ h := ⟨(restored_stable E).hooks w r ts trivial h, .same rfl⟩
  tick w _ := ⟨(restored_stable E).tick w trivial, .same rfl⟩
  user w v _ := ⟨(restored_stable E).user w v trivial, .same rfl⟩
  bypass w _ := ⟨(restored_stable E).bypass w trivial, .same rfl⟩
  stored w r f _ _ := ⟨(restored_stable E).stored w r f trivial trivial, .same rfl⟩
  errs w r o es ts _ hC ho he := ⟨(restored_stable E).errs w r o es ts trivial hC ho he, .same rfl⟩
  observe w r ls _ hr _ := ⟨(restored_stable E).observe w r ls trivial hr trivial, .same rfl⟩
  alloc w c _ := ⟨(restored_stable E).alloc w c trivial, .same rfl⟩
  quar _ _ h := h
  disabled w w' q _ h :=
    traced_bracket ((restored_stable E).disabled w w' q trivial h.1) rfl h.2 rfl (Nat.le_refl _)
  cls h := (restored_stable E).cls h.1
  idle h := (restored_stable E).idle h.1
  validatingI w r h _ := h
  validating w w' r _ hi h :=
    traced_bracket ((restored_stable E).validating w w' r trivial hi h.1) rfl h.2 rfl
      (by simp [clearValidating, World.setObj])
  serializingI w r h := h
  serializing w w' r o _ ho hg h :=
    traced_bracket ((restored_stable E).serializing w w' r o trivial ho hg h.1) rfl h.2 rfl
      (by simp [World.setObj])
  comparingI w r h := h
  comparing w w' r o _ ho hg h :=
    traced_bracket ((restored_stable E).comparing w w' r o trivial ho hg h.1) rfl h.2 rfl
      (by simp [World.setObj])

/-- Every call, in any program, is recorded for an instance that exists. -/
theorem traced_run (E : Env) (n : Nat) (c : Call) (w : World) : Traced w (run E n c w).2 :=
  ((traced_stable E).run_ok n).pres c c.allowed_all w trivial

end Verif
