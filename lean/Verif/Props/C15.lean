import Verif.Lemmas.Spared
import Verif.Lemmas.Silent
import Verif.Lemmas.Notify
import Verif.Lemmas.Construct
import Verif.Props.C16
import Verif.Models.Demo

/-!
# C15: construction sets the defaults, silently and in precedence order
-/

namespace Verif
open Spec

theorem lookupS_of_mem_nodup {α : Type} : ∀ {l : List (PyStr × α)} {k : PyStr} {e : α},
    (l.map Prod.fst).Nodup → (k, e) ∈ l → lookupS k l = some e
  | [], _, _, _, h => by cases h
  | (k', e') :: l, k, e, hnd, h => by
      have hnd' := List.nodup_cons.1 hnd
      unfold lookupS
      rcases List.mem_cons.1 h with h | h
      · cases h; simp
      · rw [if_neg, lookupS_of_mem_nodup hnd'.2 h]
        rintro rfl
        exact hnd'.1 (List.mem_map.2 ⟨_, h, rfl⟩)

section
variable {E : Env}

theorem declared_classDefault (c : ClsId) (k : PyStr) (e : Entry) :
    Declared (E.classes c) k e (classDefault E c k e) := by
  unfold classDefault
  cases h : lookupS k (E.classes c).defaults with
  | some d => exact .ofClass e d h
  | none =>
    cases e with
    | mutable p => exact .ofProperty p h
    | gettable p => exact .ofImmutable p h
    | dynamic p g s d => exact .ofDynamic p g s d h
    | renamed new => exact .ofRenamed new h

theorem evaluates_of_run {n : Nat} {d : Dflt} {w w' : World} {v : Val}
    (h : evalDflt E (run E n) d w = (.ok v, w')) : Evaluates E n d w v w' := by
  cases d with
  | undef => cases h; exact .undef w
  | val v => cases h; exact .val v w
  | fn f => exact .fn f w v w' h
  | cls c => exact .cls c w v w' h
  | uuid4 => cases h; exact .uuid4 w

theorem notify_all {rec : Rec} {r : Nat} {w : World} {o : Obj} (ho : w.objs[r]? = some o)
    (hq : w.quar = Quar.all) (mode : Mode) (name : PyStr) (prev v : Val) :
    notify E rec r mode name prev v w = (.ok v, w) := by
  unfold notify
  rw [bind_ok (getObj_some ho), bind_ok (get_apply w)]
  have : w.quar.has mode = true := by rw [hq]; cases mode <;> rfl
  rw [if_pos this]
  rfl

theorem gettableDefault_eq {rec : Rec} {c : ClsId} {r : Nat} {k : PyStr} {e : Entry}
    (hm : ¬ e.isMutable = true) (h1 : classDefault E c k e ≠ .undef)
    (h2 : classDefault E c k e ≠ .val .undef) :
    gettableDefault E rec c r (k, e) = (do
      let v ← evalDflt E rec (classDefault E c k e)
      let v' ← entryValidate rec k e (some r) v
      putStored r k v') := by
  unfold gettableDefault
  rw [if_neg hm]
  split
  · rename_i hx; exact absurd hx h1
  · rename_i hx; exact absurd hx h2
  · rfl

/-- `_set` of a property without value, all listeners disabled. -/
theorem setBody_silent {rec : Rec} {r : Nat} {w : World} {o : Obj} (ho : w.objs[r]? = some o)
    (hq : w.quar = Quar.all) {k : PyStr} (hk : lookupS k o.backend = none) (p : PropSpec) (v : Val) :
    setBody E rec r k p v w = (.ok (), w.setObj r (fun o => { o with
      backend := if v.isUndef then eraseS k o.backend else setS k v o.backend })) := by
  unfold setBody
  rw [bind_ok (getObj_some ho), hk, bind_ok (notify_all ho hq _ _ _ _)]
  refine (bind_ok (m := writeStored r k v) (a := ()) (w' := w.setObj r (fun o => { o with
      backend := if v.isUndef then eraseS k o.backend else setS k v o.backend })) rfl).trans ?_
  have ho' : (w.setObj r (fun o => { o with
      backend := if v.isUndef then eraseS k o.backend else setS k v o.backend })).objs[r]? =
      some { o with backend := if v.isUndef then eraseS k o.backend else setS k v o.backend } := by
    simp [World.setObj, ho]
  have hq' : (w.setObj r (fun o => { o with
      backend := if v.isUndef then eraseS k o.backend else setS k v o.backend })).quar =
      Quar.all := hq
  generalize (w.setObj r (fun o => { o with
      backend := if v.isUndef then eraseS k o.backend else setS k v o.backend })) = u at ho' hq' ⊢
  have hn := fun mode prev v => notify_all (E := E) (rec := rec) ho' hq' mode k prev v
  cases hv : v.isUndef with
  | true =>
    refine (bind_ok (a := false) (w' := u) rfl).trans ?_
    refine (bind_ok (a := v) (w' := u) rfl).trans ?_
    exact (bind_ok (hn _ _ _)).trans rfl
  | false =>
    refine (bind_ok (a := true) (w' := u) rfl).trans ?_
    refine (bind_ok (hn _ _ _)).trans ?_
    exact (bind_ok (hn _ _ _)).trans rfl

variable {r : Nat} (hE : ∀ f args, Spares r (E.fn f args))
include hE

theorem spared_run (n : Nat) (c : Call) (hc : c.Allowed (fun x => x ≠ r) True (fun _ => True) True)
    {w : World} (hr : r < w.objs.length) : Spared r w (run E n c w).2 :=
  ((spared_stable hE).run_ok n).pres c hc w hr

theorem spared_eval (n : Nat) (d : Dflt) {w : World} (hr : r < w.objs.length) :
    Spared r w (evalDflt E (run E n) d w).2 :=
  pres_evalDflt (spared_stable hE).toBase ((spared_stable hE).run_ok n) d w hr

/-- Setting the default of one immutable property. -/
theorem gettable_one {n : Nat} {c : ClsId} {k : PyStr} {e : Entry} {w w' : World} {o : Obj}
    (ho : w.objs[r]? = some o)
    (h : gettableDefault E (run E n) c r (k, e) w = (.ok (), w')) :
    ∃ o', w'.objs[r]? = some o' ∧ o'.cls = o.cls ∧ observed r w'.trace = observed r w.trace ∧
      (∀ k', k' ≠ k ∨ e.isMutable = true → lookupS k' o'.backend = lookupS k' o.backend) ∧
      (∀ p, e = .gettable p → lookupS k o.backend = none →
        HoldsFixed E (E.classes c) r k p (lookupS k o'.backend)) := by
  have hr : r < w.objs.length := (List.getElem?_eq_some_iff.1 ho).1
  by_cases hm : e.isMutable = true
  · unfold gettableDefault at h
    rw [if_pos hm] at h
    cases h
    refine ⟨o, ho, rfl, rfl, fun _ _ => rfl, ?_⟩
    rintro p rfl
    cases hm
  · have hd := declared_classDefault (E := E) c k e
    by_cases hu : classDefault E c k e = .undef ∨ classDefault E c k e = .val .undef
    · have h' : (.ok (), w) = ((.ok (), w') : Except PyErr Unit × World) := by
        unfold gettableDefault at h
        rw [if_neg hm] at h
        dsimp only at h
        rcases hu with hu | hu
        · rw [hu] at h; exact h
        · rw [hu] at h; exact h
      cases h'
      refine ⟨o, ho, rfl, rfl, fun _ _ => rfl, ?_⟩
      rintro p rfl hn
      exact ⟨_, hd, .inl ⟨hu, hn⟩⟩
    · have hu1 : classDefault E c k e ≠ .undef := fun h => hu (.inl h)
      have hu2 : classDefault E c k e ≠ .val .undef := fun h => hu (.inr h)
      have h' : (do
          let v ← evalDflt E (run E n) (classDefault E c k e)
          let v' ← entryValidate (run E n) k e (some r) v
          putStored r k v' : M Unit) w = (.ok (), w') := by
        rw [gettableDefault_eq hm hu1 hu2] at h
        exact h
      obtain ⟨v, w1, h1, h2⟩ := bind_ok_inv h'
      obtain ⟨v', w2, h3, h4⟩ := bind_ok_inv h2
      have s1 := spared_eval hE n (classDefault E c k e) hr
      rw [h1] at s1
      have s2 := pres_entryValidate (spared_stable hE).toBase ((spared_stable hE).run_ok n) k e (some r) v
        w1 (Nat.lt_of_lt_of_le hr s1.base.len)
      rw [h3] at s2
      obtain ⟨o1, ho1, c1, b1, _⟩ := s1.data o ho
      obtain ⟨o2, ho2, c2, b2, _⟩ := s2.data o1 ho1
      cases h4
      refine ⟨{ o2 with backend := setS k v' o2.backend }, by simp [World.setObj, ho2],
        c2.trans c1, s2.events.trans s1.events, fun k' hk' => ?_, ?_⟩
      · rcases hk' with hk' | hk'
        · show lookupS k' (setS k v' o2.backend) = _
          rw [lookupS_setS_ne (Ne.symm hk' ·.symm), b2, b1]
        · exact absurd hk' hm
      · rintro p rfl hn
        refine ⟨_, hd, .inr ⟨⟨hu1, hu2⟩, n, n, w, v, w1, v', w2, hr, evaluates_of_run h1, h3, ?_⟩⟩
        exact lookupS_setS k v' _

theorem gettable_loop {n : Nat} {c : ClsId} : ∀ {ps : List (PyStr × Entry)} {w w' : World} {o : Obj},
    w.objs[r]? = some o → (ps.map Prod.fst).Nodup →
    forML (gettableDefault E (run E n) c r) ps w = (.ok (), w') →
    ∃ o', w'.objs[r]? = some o' ∧ o'.cls = o.cls ∧ observed r w'.trace = observed r w.trace ∧
      (∀ k', (∀ e, (k', e) ∈ ps → e.isMutable = true) →
        lookupS k' o'.backend = lookupS k' o.backend) ∧
      (∀ k p, (k, .gettable p) ∈ ps → lookupS k o.backend = none →
        HoldsFixed E (E.classes c) r k p (lookupS k o'.backend))
  | [], w, w', o, ho, _, h => by
      cases h
      exact ⟨o, ho, rfl, rfl, fun _ _ => rfl, fun _ _ h => by cases h⟩
  | (k0, e0) :: ps, w, w', o, ho, hnd, h => by
      obtain ⟨_, w1, h1, h2⟩ := bind_ok_inv h
      obtain ⟨o1, ho1, hc1, he1, hk1, hf1⟩ := gettable_one hE ho h1
      have hnd' := List.nodup_cons.1 hnd
      obtain ⟨o2, ho2, hc2, he2, hk2, hf2⟩ := gettable_loop ho1 hnd'.2 h2
      refine ⟨o2, ho2, hc2.trans hc1, he2.trans he1, fun k' hk' => ?_, fun k p hm hn => ?_⟩
      · rw [hk2 k' fun e he => hk' e (List.mem_cons_of_mem _ he)]
        refine hk1 k' ?_
        by_cases hkk : k' = k0
        · subst hkk; exact .inr (hk' e0 (by simp))
        · exact .inl hkk
      · rcases List.mem_cons.1 hm with hm | hm
        · cases hm
          rw [hk2 k0 fun e he => absurd (List.mem_map_of_mem (f := Prod.fst) he) hnd'.1]
          exact hf1 p rfl hn
        · refine hf2 k p hm ?_
          rw [hk1 k (.inl ?_), hn]
          intro hkk
          exact hnd'.1 (List.mem_map.2 ⟨_, hm, hkk⟩)

/-- Resetting one mutable property without value. -/
theorem reset_one {n : Nat} {k : PyStr} {p : PropSpec} {w w' : World} {o : Obj} {x : Val}
    (ho : w.objs[r]? = some o) (hq : w.quar = Quar.all)
    (hp : lookupS k (E.classes o.cls).props = some (.mutable p)) (hk : lookupS k o.backend = none)
    (h : run E n (.reset r (some k)) w = (.ok x, w')) :
    ∃ o', w'.objs[r]? = some o' ∧ o'.cls = o.cls ∧ w'.quar = Quar.all ∧
      (∀ k', k' ≠ k → lookupS k' o'.backend = lookupS k' o.backend) ∧
      HoldsDefault E (E.classes o.cls) r k p (lookupS k o'.backend) := by
  have hr : r < w.objs.length := (List.getElem?_eq_some_iff.1 ho).1
  cases n with
  | zero => cases h
  | succ n =>
    change resetBody E (run E n) r (some k) w = _ at h
    unfold resetBody at h
    rw [bind_ok (getObj_some ho)] at h
    dsimp only at h
    rw [hp] at h
    dsimp only at h
    obtain ⟨v, w1, h1, h2⟩ := bind_ok_inv h
    have s1 := spared_eval hE n (classDefault E o.cls k (.mutable p)) hr
    rw [h1] at s1
    obtain ⟨o1, ho1, c1, b1, _⟩ := s1.data o ho
    have hd := declared_classDefault (E := E) o.cls k (.mutable p)
    cases n with
    | zero => cases h2
    | succ n =>
      change setattrBody E (run E n) r k v w1 = _ at h2
      unfold setattrBody at h2
      have e1 : entryOf E r k w1 = (.ok (some (.mutable p)), w1) := by
        unfold entryOf
        rw [bind_ok (getObj_some ho1), c1, hp]
        rfl
      have h2' := (bind_ok e1).symm.trans h2
      change assignBody E (run E n) r k p v w1 = _ at h2'
      unfold assignBody at h2'
      obtain ⟨v', w2, h3, h4⟩ := bind_ok_inv h2'
      have hr1 : r < w1.objs.length := Nat.lt_of_lt_of_le hr s1.base.len
      have s2 : Spared r w1 w2 := by
        by_cases hv : v.isUndef = true
        · rw [if_pos hv] at h3
          cases h3
          exact (spared_stable hE).refl w1 hr1
        · rw [if_neg hv] at h3
          have := spared_run hE n (.validate k p (some r) v) trivial hr1
          rw [h3] at this
          exact this
      obtain ⟨o2, ho2, c2, b2, _⟩ := s2.data o1 ho1
      have hk2 : lookupS k o2.backend = none := by rw [b2, b1, hk]
      have hq2 : w2.quar = Quar.all := s2.base.quar.trans (s1.base.quar.trans hq)
      rw [bind_ok (setBody_silent ho2 hq2 hk2 p v')] at h4
      cases h4
      refine ⟨{ o2 with backend := if v'.isUndef then eraseS k o2.backend else setS k v' o2.backend },
        by simp [World.setObj, ho2], c2.trans c1, hq2, fun k' hk' => ?_, ?_⟩
      · dsimp only
        split
        · rw [lookupS_eraseS_ne (Ne.symm hk' ·.symm), b2, b1]
        · rw [lookupS_setS_ne (Ne.symm hk' ·.symm), b2, b1]
      · refine ⟨n + 1, n, _, w, v, w1, hr, hd, evaluates_of_run h1, ?_⟩
        by_cases hv : v.isUndef = true
        · rw [if_pos hv] at h3
          cases h3
          refine .inl ⟨(by cases v <;> first | rfl | cases hv), ?_⟩
          dsimp only
          rw [if_pos hv, lookupS_eraseS]
        · rw [if_neg hv] at h3
          refine .inr ⟨(by rintro rfl; exact hv rfl), v', w2, h3, ?_⟩
          dsimp only
          split
          · rw [lookupS_eraseS]
          · rw [lookupS_setS]

theorem reset_loop {n : Nat} {C : ClassDef} : ∀ {ps : List (PyStr × Entry)} {w w' : World} {o : Obj},
    w.objs[r]? = some o → E.classes o.cls = C → w.quar = Quar.all → (ps.map Prod.fst).Nodup →
    (∀ k p, (k, .mutable p) ∈ ps → lookupS k C.props = some (.mutable p) ∧ lookupS k o.backend = none) →
    forML (fun kv : PyStr × Entry => do
        if kv.2.isMutable then do
          let _ ← run E n (.reset r (some kv.1))
          pure ()
        else pure ()) ps w = (.ok (), w') →
    ∃ o', w'.objs[r]? = some o' ∧ o'.cls = o.cls ∧ w'.quar = Quar.all ∧
      (∀ k', (∀ e, (k', e) ∈ ps → e.isMutable = false) →
        lookupS k' o'.backend = lookupS k' o.backend) ∧
      (∀ k p, (k, .mutable p) ∈ ps → HoldsDefault E C r k p (lookupS k o'.backend))
  | [], w, w', o, ho, _, hq, _, _, h => by
      cases h
      exact ⟨o, ho, rfl, hq, fun _ _ => rfl, fun _ _ h => by cases h⟩
  | (k0, e0) :: ps, w, w', o, ho, hC, hq, hnd, hps, h => by
      obtain ⟨_, w1, h1, h2⟩ := bind_ok_inv h
      dsimp only at h1
      have hnd' := List.nodup_cons.1 hnd
      have hstep : ∃ o1, w1.objs[r]? = some o1 ∧ o1.cls = o.cls ∧ w1.quar = Quar.all ∧
          (∀ k', k' ≠ k0 ∨ e0.isMutable = false → lookupS k' o1.backend = lookupS k' o.backend) ∧
          (∀ p, e0 = .mutable p → HoldsDefault E C r k0 p (lookupS k0 o1.backend)) := by
        cases e0 with
        | mutable p =>
          obtain ⟨hl, hk⟩ := hps k0 p (by simp)
          obtain ⟨x, w1', h3, h4⟩ := bind_ok_inv (show (run E n (.reset r (some k0)) >>=
            fun _ => pure ()) w = (.ok (), w1) from h1)
          cases h4
          obtain ⟨o1, a1, a2, a3, a4, a5⟩ := reset_one hE ho hq (hC ▸ hl) hk h3
          refine ⟨o1, a1, a2, a3, fun k' hk' => ?_, ?_⟩
          · rcases hk' with hk' | hk'
            · exact a4 k' hk'
            · cases hk'
          · rintro p' ⟨⟩
            rw [← hC]; exact a5
        | gettable p => cases h1; exact ⟨o, ho, rfl, hq, fun _ _ => rfl, fun _ h => by cases h⟩
        | dynamic p g s d => cases h1; exact ⟨o, ho, rfl, hq, fun _ _ => rfl, fun _ h => by cases h⟩
        | renamed p => cases h1; exact ⟨o, ho, rfl, hq, fun _ _ => rfl, fun _ h => by cases h⟩
      obtain ⟨o1, ho1, hc1, hq1, hk1, hf1⟩ := hstep
      obtain ⟨o2, ho2, hc2, hq2, hk2, hf2⟩ := reset_loop (C := C) ho1 (by rw [hc1]; exact hC) hq1 hnd'.2
        (fun k p hm => by
          obtain ⟨hl, hk⟩ := hps k p (List.mem_cons_of_mem _ hm)
          refine ⟨hl, ?_⟩
          rw [hk1 k (.inl ?_), hk]
          intro hkk
          exact hnd'.1 (List.mem_map.2 ⟨_, hm, hkk⟩)) h2
      refine ⟨o2, ho2, hc2.trans hc1, hq2, fun k' hk' => ?_, fun k p hm => ?_⟩
      · rw [hk2 k' fun e he => hk' e (List.mem_cons_of_mem _ he)]
        refine hk1 k' ?_
        by_cases hkk : k' = k0
        · subst hkk; exact .inr (hk' e0 (by simp))
        · exact .inl hkk
      · rcases List.mem_cons.1 hm with hm | hm
        · cases hm
          rw [hk2 k0 fun e he => absurd (List.mem_map_of_mem (f := Prod.fst) he) hnd'.1]
          exact hf1 p rfl
        · exact hf2 k p hm

end

section
variable {E : Env}

/-- C15: a new instance holds the coerced declared defaults, mutable and
immutable ones, and none of its observers was called. -/
theorem C15_defaults {n : Nat} {c : ClsId} {w w' : World} {v : Val}
    (hE : ∀ f args, Spares w.objs.length (E.fn f args))
    (hnd : ((E.classes c).props.map Prod.fst).Nodup)
    (h : run E n (.construct c []) w = (.ok v, w')) :
    v = .obj w.objs.length ∧ ∃ o, w'.objs[w.objs.length]? = some o ∧ o.cls = c ∧
      (∀ k p, (k, .mutable p) ∈ (E.classes c).props →
        HoldsDefault E (E.classes c) w.objs.length k p (lookupS k o.backend)) ∧
      (∀ k p, (k, .gettable p) ∈ (E.classes c).props →
        HoldsFixed E (E.classes c) w.objs.length k p (lookupS k o.backend)) ∧
      w'.trace.filter (fun e => e.inst == w.objs.length && e.mode != .validate) =
        w.trace.filter (fun e => e.inst == w.objs.length && e.mode != .validate) := by
  cases n with
  | zero => cases h
  | succ n =>
    have h0' : constructBody E (run E n) c [] w = (.ok v, w') := h
    obtain ⟨hv, w2, w3, x, h1, h2, h3⟩ := construct_phases h0'
    have ho : (allocated E c w).objs[w.objs.length]? =
        some { cls := c, listeners := initListeners (E.classes c) } := by
      simp [allocated]
    obtain ⟨o2, ho2, hc2, he2, hk2, hf2⟩ := gettable_loop hE ho hnd h1
    obtain ⟨x', w4, h4, h5⟩ : ∃ x' w4, run E n (.reset w.objs.length none)
        { w2 with quar := w2.quar.union Quar.all } = (.ok x', w4) ∧ w3 = { w4 with quar := w2.quar } := by
      unfold withDisabled at h2
      rcases hx : run E n (.reset w.objs.length none) { w2 with quar := w2.quar.union Quar.all }
        with ⟨y, w4⟩
      rw [hx] at h2
      cases h2
      exact ⟨x, w4, rfl, rfl⟩
    have htr : w3.trace = w2.trace := by
      have := withDisabled_silent E n (.reset w.objs.length none) w2
      rw [h2] at this
      exact this
    have huniq : ∀ k e e', (k, e) ∈ (E.classes c).props → (k, e') ∈ (E.classes c).props → e = e' := by
      intro k e e' h1 h2
      have l1 := lookupS_of_mem_nodup hnd h1
      rw [lookupS_of_mem_nodup hnd h2] at l1
      exact (Option.some.inj l1).symm
    have hreset : ∃ o', w4.objs[w.objs.length]? = some o' ∧ o'.cls = c ∧
        (∀ k p, (k, .gettable p) ∈ (E.classes c).props → lookupS k o'.backend = lookupS k o2.backend) ∧
        (∀ k p, (k, .mutable p) ∈ (E.classes c).props →
          HoldsDefault E (E.classes c) w.objs.length k p (lookupS k o'.backend)) := by
      cases n with
      | zero => cases h4
      | succ n =>
        change resetBody E (run E n) w.objs.length none _ = _ at h4
        unfold resetBody at h4
        have ho2' : ({ w2 with quar := w2.quar.union Quar.all } : World).objs[w.objs.length]? =
          some o2 := ho2
        rw [bind_ok (getObj_some ho2'), hc2] at h4
        obtain ⟨_, w5, h6, h7⟩ := bind_ok_inv h4
        cases h7
        obtain ⟨o', a1, a2, _, a4, a5⟩ := reset_loop hE (C := E.classes c) ho2' (by rw [hc2])
          (union_all' _) hnd (fun k p hm => ⟨lookupS_of_mem_nodup hnd hm, by
            rw [hk2 k fun e he => by rw [huniq k _ _ he hm]; rfl]
            rfl⟩) h6
        refine ⟨o', a1, a2.trans hc2, fun k p hm => a4 k fun e he => ?_, a5⟩
        rw [huniq k _ _ he hm]; rfl
    obtain ⟨o4, ho4, hc4, hg4, hm4⟩ := hreset
    have ho3 : w3.objs[w.objs.length]? = some o4 := by rw [h5]; exact ho4
    obtain ⟨nv, w6, w7, h8, h9, h10⟩ := init_phases h3
    cases h8
    have hi : (initialising w.objs.length w3).objs[w.objs.length]? =
        some { o4 with gv := some true, errs := some [] } := by
      simp [initialising, World.setObj, ho3]
    have h7 : w7 = initialising w.objs.length w3 := by
      unfold raiseCollected at h9
      rw [bind_ok (getObj_some hi)] at h9
      cases h9; rfl
    subst h7
    refine ⟨hv, { o4 with gv := some false, errs := none }, ?_, hc4, hm4, ?_, ?_⟩
    · rw [h10]
      simp [clearValidating, World.setObj, hi]
    · intro k p hm
      dsimp only
      rw [hg4 k p hm]
      exact hf2 k p hm rfl
    · rw [h10]
      show observed _ w3.trace = _
      rw [htr]
      exact he2

/-- C15: if no immutable property has a default, no listener of any instance is
called at all, whatever user code the default factories run. -/
theorem C15_silent {n : Nat} {c : ClsId} {w w' : World} {v : Val}
    (hi : ∀ k e d, (k, e) ∈ (E.classes c).props → (∀ p, e ≠ .mutable p) →
      Declared (E.classes c) k e d → d = .undef)
    (h : run E n (.construct c []) w = (.ok v, w')) : w'.trace = w.trace := by
  cases n with
  | zero => cases h
  | succ n =>
    have h0' : constructBody E (run E n) c [] w = (.ok v, w') := h
    obtain ⟨hv, w2, w3, x, h1, h2, h3⟩ := construct_phases h0'
    have e1 : ∀ (ps : List (PyStr × Entry)), (∀ kv ∈ ps, kv ∈ (E.classes c).props) →
        ∀ u, forML (gettableDefault E (run E n) c w.objs.length) ps u = (.ok (), u) := by
      intro ps
      induction ps with
      | nil => intros; rfl
      | cons kv ps ih =>
        intro hps u
        refine (bind_ok (a := ()) (w' := u) ?_).trans (ih (fun x hx => hps x (by simp [hx])) u)
        unfold gettableDefault
        split
        · rfl
        · rename_i hm
          have := hi kv.1 kv.2 _ (hps kv (by simp)) (by rintro p hp; rw [hp] at hm; exact hm rfl)
            (declared_classDefault (E := E) c kv.1 kv.2)
          rw [this]
          rfl
    rw [e1 _ (fun _ h => h)] at h1
    cases h1
    have htr := withDisabled_silent E n (.reset w.objs.length none) (allocated E c w)
    rw [h2] at htr
    obtain ⟨nv, w6, w7, h8, h9, h10⟩ := init_phases h3
    cases h8
    have h7 : w7.trace = w3.trace := by
      unfold raiseCollected at h9
      obtain ⟨o, w8, a1, a2⟩ := bind_ok_inv h9
      have : w8 = initialising w.objs.length w3 := by
        unfold getObj at a1
        split at a1 <;> cases a1
        rfl
      subst this
      dsimp only at a2
      split at a2
      · obtain ⟨_, w9, a3, a4⟩ := bind_ok_inv a2
        cases a4
      · cases a2; rfl
    rw [h10]
    exact h7.trans htr

end

/-! ## Keywords -/

section
variable {E : Env}

/-- `r` keeps its class and its value for property `k`. -/
structure HoldsOn (r : Nat) (k : PyStr) (w w' : World) : Prop where
  base : Restored w w'
  kept : ∀ o, w.objs[r]? = some o →
    ∃ o', w'.objs[r]? = some o' ∧ lookupS k o'.backend = lookupS k o.backend

theorem holdsOn_preord (r : Nat) (k : PyStr) : Preord (fun w => r < w.objs.length) (HoldsOn r k) where
  refl w _ := ⟨Restored.refl w, fun o h => ⟨o, h, rfl⟩⟩
  trans h1 h2 := ⟨h1.base.trans h2.base, fun o ho => by
    obtain ⟨o1, a1, b1⟩ := h1.kept o ho
    obtain ⟨o2, a2, b2⟩ := h2.kept o1 a1
    exact ⟨o2, a2, b2.trans b1⟩⟩
  keep h hr := Nat.lt_of_lt_of_le hr h.base.len

theorem Spared.holdsOn {r : Nat} {k : PyStr} {w w' : World} (h : Spared r w w') : HoldsOn r k w w' :=
  ⟨h.base, fun o ho => by
    obtain ⟨o', a, b⟩ := h.data o ho
    exact ⟨o', a, by rw [b.2.1]⟩⟩

theorem pres_holdsOn {α : Type} {r : Nat} {k : PyStr} {m : M α}
    (h : Pres (fun w => r < w.objs.length) (Spared r) m) :
    Pres (fun w => r < w.objs.length) (HoldsOn r k) m := fun w hw => (h w hw).holdsOn

variable {r : Nat} (hE : ∀ f args, Spares r (E.fn f args)) {k : PyStr}
include hE

theorem holdsOn_setattr {n : Nat} {k' : PyStr} {p : PropSpec} {v : Val} {w : World} {o : Obj}
    (ho : w.objs[r]? = some o) (hp : lookupS k' (E.classes o.cls).props = some (.mutable p))
    (hk : k ≠ k') : HoldsOn r k w (run E n (.setattr r k' v) w).2 := by
  have P := holdsOn_preord r k
  have S := (spared_stable hE).toBase
  have hr : r < w.objs.length := (List.getElem?_eq_some_iff.1 ho).1
  cases n with
  | zero => exact P.refl w hr
  | succ n =>
    have H := (spared_stable hE).run_ok n
    show HoldsOn r k w (setattrBody E (run E n) r k' v w).2
    unfold setattrBody
    have h1 : entryOf E r k' w = (.ok (some (.mutable p)), w) := by
      unfold entryOf
      rw [bind_ok (getObj_some ho), hp]
      rfl
    rw [bind_ok h1]
    have hnot : ∀ mode prev x, Pres (fun w => r < w.objs.length) (HoldsOn r k)
        (notify E (run E n) r mode k' prev x) := by
      intro mode prev x
      unfold notify
      refine pres_bind P (pres_getObj P _) fun o => pres_bind P (pres_get P) fun u => ?_
      refine pres_foldML P (fun b l => ?_) _ _
      unfold notifyOne
      refine pres_bind P (fun w hw => ⟨?_, fun o ho => ⟨o, ho, rfl⟩⟩) fun _ =>
        pres_holdsOn (pres_callFn S H _ _)
      exact ⟨rfl, Nat.le_refl _, (Restored.refl w).old, (Restored.refl w).new⟩
    have hwr : ∀ x, Pres (fun w => r < w.objs.length) (HoldsOn r k) (writeStored r k' x) := by
      intro x w hw
      refine ⟨(restored_stable E).stored w r
        (fun b => if x.isUndef then eraseS k' b else setS k' x b) trivial trivial, fun o ho => ?_⟩
      refine ⟨{ o with backend := if x.isUndef then eraseS k' o.backend else setS k' x o.backend },
        by simp [writeStored, World.setObj, ho], ?_⟩
      dsimp only
      split
      · exact lookupS_eraseS_ne hk _
      · exact lookupS_setS_ne hk _ _
    refine (?_ : Pres (fun w => r < w.objs.length) (HoldsOn r k) (assignBody E (run E n) r k' p v)) w hr
    unfold assignBody
    refine pres_bind P ?_ fun v' => pres_bind P ?_ fun _ => pres_pure P _
    · split
      · exact pres_pure P _
      · exact pres_holdsOn (H.pres _ trivial)
    · unfold setBody
      refine pres_bind P (pres_getObj P _) fun o => pres_bind P (hnot _ _ _) fun v1 =>
        pres_bind P (hwr _) fun _ => pres_bind P ?_ fun changed => pres_bind P ?_ fun v2 =>
        pres_bind P (hnot _ _ _) fun _ => pres_pure P _
      · split
        · exact pres_pure P _
        · split
          · exact pres_pure P _
          · exact pres_bind P (pres_holdsOn (H.pres _ trivial)) fun _ => pres_pure P _
      · split
        · exact hnot _ _ _
        · exact pres_pure P _

theorem holdsOn_initStep {n : Nat} {c : ClsId} {nv : Option PyErr} {k' : PyStr} {v : Val} {p : PropSpec}
    (hk : k' ≠ k) (hp : lookupS k' (E.classes c).props = some (.mutable p)) :
    Pres (fun w => r < w.objs.length ∧ HasCls r c w) (HoldsOn r k)
      (initStep (run E n) r (E.classes c) nv (k', v)) := by
  have P := (holdsOn_preord r k).with (P := HasCls r c) fun h => (restored_stable E).cls h.base
  have S := (spared_stable hE).toBase
  have H := (spared_stable hE).run_ok n
  rw [initStep_eq]
  refine pres_bind P ?_ fun _ => pres_bind P (pres_attempt ?_) fun res => ?_
  · unfold keyCheck
    rw [hp]
    exact pres_pure P _
  · rintro w ⟨hr, o, ho, hc⟩
    exact holdsOn_setattr hE ho (by rw [hc]; exact hp) (Ne.symm hk)
  · unfold keep
    split
    · exact pres_pure P _
    · split
      · exact pres_bind P ((pres_holdsOn (pres_addErrs S H r _ trivial)).weaken fun _ h => h.1)
          fun _ => pres_pure P _
      · split
        · exact pres_pure P _
        · exact pres_raise P _

theorem holdsOn_init {n : Nat} {c : ClsId} : ∀ {kw : List (PyStr × Val)} (nv : Option PyErr),
    (∀ kv ∈ kw, kv.1 ≠ k ∧ ∃ p, lookupS kv.1 (E.classes c).props = some (.mutable p)) →
    Pres (fun w => r < w.objs.length ∧ HasCls r c w) (HoldsOn r k)
      (foldML (initStep (run E n) r (E.classes c)) nv kw)
  | [], nv, _ => pres_pure ((holdsOn_preord r k).with (P := HasCls r c)
      fun h => (restored_stable E).cls h.base) _
  | (k', v) :: kw, nv, h => by
      obtain ⟨h1, p, h2⟩ := h (k', v) (by simp)
      exact pres_bind ((holdsOn_preord r k).with (P := HasCls r c)
        fun h => (restored_stable E).cls h.base) (holdsOn_initStep hE h1 h2) fun nv' =>
        holdsOn_init nv' fun kv hkv => h kv (by simp [hkv])

end

section
variable {E : Env}

/-- C15: a property that is not given as a keyword holds its default after
construction with keywords, if these name mutable properties and user code
(observers included) does not modify the new instance. -/
theorem C15_keywords {n : Nat} {c : ClsId} {w w' : World} {v : Val} {kw : List (PyStr × Val)}
    (hE : ∀ f args, Spares w.objs.length (E.fn f args))
    (hnd : ((E.classes c).props.map Prod.fst).Nodup)
    (hkw : ∀ kv ∈ kw, ∃ p, lookupS kv.1 (E.classes c).props = some (.mutable p))
    (h : run E n (.construct c kw) w = (.ok v, w')) :
    v = .obj w.objs.length ∧ ∃ o, w'.objs[w.objs.length]? = some o ∧ o.cls = c ∧
      (∀ k p, (∀ kv ∈ kw, kv.1 ≠ k) → (k, .mutable p) ∈ (E.classes c).props →
        HoldsDefault E (E.classes c) w.objs.length k p (lookupS k o.backend)) ∧
      (∀ k p, (k, .gettable p) ∈ (E.classes c).props →
        HoldsFixed E (E.classes c) w.objs.length k p (lookupS k o.backend)) := by
  cases n with
  | zero => cases h
  | succ n =>
    have h0' : constructBody E (run E n) c kw w = (.ok v, w') := h
    obtain ⟨hv, w2, w3, x, h1, h2, h3⟩ := construct_phases h0'
    obtain ⟨nv, w4, w5, h4, h5, h6⟩ := init_phases h3
    -- the instance exists when the keywords are processed
    have hcls3 : HasCls w.objs.length c w3 := by
      have a1 : HasCls w.objs.length c (allocated E c w) :=
        ⟨{ cls := c, listeners := initListeners (E.classes c) }, by simp [allocated], rfl⟩
      have a2 := (restored_stable E).toBase
      have a3 := (restored_stable E).run_ok n
      have a4 : Restored (allocated E c w) w2 := by
        have := pres_forML (f := gettableDefault E (run E n) c w.objs.length) a2.toPreord
          (fun kv => by
            have hs : ∀ name v, Pres (fun _ => True) Restored (putStored w.objs.length name v) :=
              fun name v => (restored_stable E).pres_stored _ (setS name v) trivial
            unfold gettableDefault
            split
            · exact pres_pure a2.toPreord _
            · split
              · exact pres_pure a2.toPreord _
              · exact pres_pure a2.toPreord _
              · exact pres_bind a2.toPreord (pres_evalDflt a2 a3 _) fun _ => pres_bind a2.toPreord
                  (pres_entryValidate a2 a3 _ _ _ _) fun _ => hs _ _) (E.classes c).props
          (allocated E c w) trivial
        rw [h1] at this; exact this
      have a5 := pres_withDisabled a2 Quar.all (a3.pres (.reset w.objs.length none) trivial) w2 trivial
      rw [h2] at a5
      exact (restored_stable E).cls a5 ((restored_stable E).cls a4 a1)
    obtain ⟨o3, ho3, hc3⟩ := hcls3
    have hi : (initialising w.objs.length w3).objs[w.objs.length]? =
        some { o3 with gv := some true, errs := some [] } := by
      simp [initialising, World.setObj, ho3]
    have h0 : run E (n + 1) (.construct c []) w =
        (.ok (.obj w.objs.length), clearValidating w.objs.length (initialising w.objs.length w3)) := by
      show constructBody E (run E n) c [] w = _
      unfold constructBody
      refine (bind_ok (a := ()) (w' := w) rfl).trans ?_
      refine (bind_ok (m := alloc { cls := c, listeners := initListeners (E.classes c) })
        (a := w.objs.length) (w' := allocated E c w) rfl).trans ?_
      refine (bind_ok h1).trans ?_
      refine (bind_ok h2).trans ?_
      refine (bind_ok (a := ()) (w' := clearValidating w.objs.length
        (initialising w.objs.length w3)) ?_).trans rfl
      unfold initBody
      refine (bind_ok (a := ()) (w' := w3) rfl).trans ?_
      rw [bind_ok (modObj_apply _ _ _), fin_apply]
      have : raiseCollected E (run E n) w.objs.length none (initialising w.objs.length w3) =
          (.ok (), initialising w.objs.length w3) := by
        unfold raiseCollected
        rw [bind_ok (getObj_some hi)]
        rfl
      have e2 : (foldML (initStep (run E n) w.objs.length (E.classes c)) none [] >>=
          raiseCollected E (run E n) w.objs.length) (initialising w.objs.length w3) =
          (.ok (), initialising w.objs.length w3) := this
      exact congrArg (fun x : Except PyErr Unit × World => (x.1, clearValidating _ x.2)) e2
    obtain ⟨_, o, ho, hc, hm, hf, _⟩ := C15_defaults hE hnd h0
    have hb : o.backend = o3.backend := by
      have : (clearValidating w.objs.length (initialising w.objs.length w3)).objs[w.objs.length]? =
          some { o3 with gv := some false, errs := none } := by
        simp [clearValidating, World.setObj, hi]
      rw [this] at ho
      cases ho
      rfl
    have hrest : ∀ k, (∀ kv ∈ kw, kv.1 ≠ k) → HoldsOn w.objs.length k (initialising w.objs.length w3) w5 := by
      intro k hk
      have hr : w.objs.length < (initialising w.objs.length w3).objs.length :=
        (List.getElem?_eq_some_iff.1 hi).1
      have a1 := holdsOn_init hE (k := k) (n := n) (c := c) none
        (fun kv hkv => ⟨hk kv hkv, hkw kv hkv⟩) (initialising w.objs.length w3) ⟨hr, _, hi, hc3⟩
      rw [h4] at a1
      have a2 := pres_holdsOn (k := k) (pres_raiseCollected (spared_stable hE).toBase
        ((spared_stable hE).run_ok n) w.objs.length nv trivial) w4 (Nat.lt_of_lt_of_le hr a1.base.len)
      rw [h5] at a2
      exact (holdsOn_preord _ _).trans a1 a2
    obtain ⟨o5, ho5, hc5⟩ : ∃ o5, w5.objs[w.objs.length]? = some o5 ∧ o5.cls = c := by
      have a1 := (pres_foldML (restored_stable E).toPreord (fun nv kv => pres_initStep
        (restored_stable E).toBase ((restored_stable E).run_ok n) w.objs.length (E.classes c) nv kv
        trivial trivial) kw none (initialising w.objs.length w3) trivial)
      rw [h4] at a1
      have a2 := pres_raiseCollected (restored_stable E).toBase ((restored_stable E).run_ok n)
        w.objs.length nv trivial w4 trivial
      rw [h5] at a2
      exact (restored_stable E).cls (a1.trans a2) ⟨_, hi, hc3⟩
    refine ⟨hv, { o5 with gv := some false, errs := none }, ?_, hc5, fun k p hk hmem => ?_,
      fun k p hmem => ?_⟩
    · rw [h6]; simp [clearValidating, World.setObj, ho5]
    · obtain ⟨o', a1, a2⟩ := (hrest k hk).kept _ hi
      rw [ho5] at a1; cases a1
      dsimp only at a2 ⊢
      rw [a2, ← hb]
      exact hm k p hmem
    · have hk : ∀ kv ∈ kw, kv.1 ≠ k := by
        intro kv hkv hkk
        obtain ⟨p', hp'⟩ := hkw kv hkv
        rw [hkk, lookupS_of_mem_nodup hnd hmem] at hp'
        cases hp'
      obtain ⟨o', a1, a2⟩ := (hrest k hk).kept _ hi
      rw [ho5] at a1; cases a1
      dsimp only at a2 ⊢
      rw [a2, ← hb]
      exact hf k p hmem

end

/-! ## Example -/

/-- Property defaults 1 and 2, the class dictionary gives 7 for `b`. -/
def c15Env : Env := { demoEnv with
  classes := fun _ => { (default : ClassDef) with
    props := [(s% "a", .mutable (.mk true none none (.val (.int 1)) (.integer false none none))),
              (s% "b", .mutable (.mk true none none (.val (.int 2)) (.float false none none))),
              (s% "c", .gettable (.mk true none none (.fn 0) (.integer false none none)))]
    defaults := [(s% "b", .val (.int 7))]
    observers := [⟨.everything, .set, 1⟩] }
  fn := fun f _ => .ret (.int (f + 5)) }

/-- The stored values of a new instance; the integer 7 became a float. -/
theorem C15_example :
    (run c15Env 6 (.construct 0 []) {}).2.objs.map Obj.backend =
      [[(s% "c", .int 5), (s% "a", .int 1), (s% "b", .float (.fin 7))]] ∧
    (run c15Env 6 (.construct 0 []) {}).2.trace.length = 0 := by
  constructor <;> with_unfolding_all rfl

/-- The hypotheses hold there. -/
example : (∀ f args, Spares 0 (c15Env.fn f args)) ∧
    ((c15Env.classes 0).props.map Prod.fst).Nodup :=
  ⟨fun _ _ => trivial, by decide⟩

end Verif
