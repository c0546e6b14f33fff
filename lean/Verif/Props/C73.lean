import Verif.Props.C15
import Verif.Lemmas.Idempotent
import Verif.Spec.Reset

/-!
# C73: resetting returns a property to its default
-/

namespace Verif
open Spec

section
variable {E : Env}

/-- C73: a name that is no settable property is refused, and nothing happens. -/
theorem C73_refused (E : Env) (n r : Nat) (k : PyStr) {w : World} {o : Obj} (ho : w.objs[r]? = some o)
    (hk : ∀ p, lookupS k (E.classes o.cls).props ≠ some (.mutable p)) :
    run E (n + 1) (.reset r (some k)) w = (.error ⟨.attr, []⟩, w) := by
  change resetBody E (run E n) r (some k) w = _
  unfold resetBody
  rw [bind_ok (getObj_some ho)]
  dsimp only
  cases hp : lookupS k (E.classes o.cls).props with
  | none => rfl
  | some e =>
    cases e with
    | mutable p => exact absurd hp (hk p)
    | gettable p => rfl
    | dynamic p g s d => rfl
    | renamed new => rfl

/-- C73: resetting a property is evaluating its default, the one of the class if it
has one, and assigning it, with all that belongs to an assignment. -/
theorem C73_assigns {n r : Nat} {k : PyStr} {p : PropSpec} {w w' : World} {o : Obj} {x : Val}
    (ho : w.objs[r]? = some o) (hp : lookupS k (E.classes o.cls).props = some (.mutable p))
    (h : run E (n + 1) (.reset r (some k)) w = (.ok x, w')) :
    ∃ d v w1, Declared (E.classes o.cls) k (.mutable p) d ∧ Evaluates E n d w v w1 ∧
      run E n (.setattr r k v) w1 = (.ok x, w') := by
  change resetBody E (run E n) r (some k) w = _ at h
  unfold resetBody at h
  rw [bind_ok (getObj_some ho)] at h
  dsimp only at h
  rw [hp] at h
  dsimp only at h
  obtain ⟨v, w1, h1, h2⟩ := bind_ok_inv h
  exact ⟨_, v, w1, declared_classDefault o.cls k (.mutable p), evaluates_of_run h1, h2⟩

/-- C73: and a reset fails only if evaluating the default or the assignment does. -/
theorem C73_fails {n r : Nat} {k : PyStr} {p : PropSpec} {w w' : World} {o : Obj} {e : PyErr}
    (ho : w.objs[r]? = some o) (hp : lookupS k (E.classes o.cls).props = some (.mutable p))
    (h : run E (n + 1) (.reset r (some k)) w = (.error e, w')) :
    (∃ c, Declared (E.classes o.cls) k (.mutable p) (.cls c) ∧
      run E n (.construct c []) w = (.error e, w')) ∨
    (∃ f, Declared (E.classes o.cls) k (.mutable p) (.fn f) ∧
      runProg E n (E.fn f []) w = (.error e, w')) ∨
    ∃ d v w1, Declared (E.classes o.cls) k (.mutable p) d ∧ Evaluates E n d w v w1 ∧
      run E n (.setattr r k v) w1 = (.error e, w') := by
  change resetBody E (run E n) r (some k) w = _ at h
  unfold resetBody at h
  rw [bind_ok (getObj_some ho)] at h
  dsimp only at h
  rw [hp] at h
  dsimp only at h
  have hd := declared_classDefault (E := E) o.cls k (.mutable p)
  rcases bind_err_inv h with h | ⟨v, w1, h1, h2⟩
  · generalize classDefault E o.cls k (.mutable p) = d at h hd
    cases d with
    | undef => cases h
    | val v => cases h
    | uuid4 => cases h
    | fn f => exact .inr (.inl ⟨f, hd, h⟩)
    | cls c => exact .inl ⟨c, hd, h⟩
  · exact .inr (.inr ⟨_, v, w1, hd, evaluates_of_run h1, h2⟩)

theorem notify_unheard {rec : Rec} {r : Nat} {w : World} {o : Obj} (ho : w.objs[r]? = some o)
    {mode : Mode} {name : PyStr} (hq : enabled w o mode name = []) (prev v : Val) :
    notify E rec r mode name prev v w = (.ok v, w) := by
  unfold notify
  rw [bind_ok (getObj_some ho), bind_ok (get_apply w)]
  unfold enabled at hq
  rw [hq]
  rfl

theorem Spec.Unheard.same {w w' : World} {o o' : Obj} {k : PyStr} (h : Unheard w o k) (hq : w'.quar = w.quar)
    (hl : o'.listeners = o.listeners) : Unheard w' o' k := by
  intro mode
  have := h mode
  unfold enabled at this ⊢
  rw [hq, hl]
  exact this

variable {r : Nat} (hE : ∀ f args, Spares r (E.fn f args))
include hE

/-- `_set` with no listener enabled. -/
theorem setBody_unheard {n : Nat} {w w' : World} {o : Obj} (ho : w.objs[r]? = some o) {k : PyStr}
    (hq : Unheard w o k) {p : PropSpec} {v : Val} (h : setBody E (run E n) r k p v w = (.ok (), w')) :
    ∃ o', w'.objs[r]? = some o' ∧ o'.cls = o.cls ∧ o'.listeners = o.listeners ∧ w'.quar = w.quar ∧
      observed r w'.trace = observed r w.trace ∧
      o'.backend = if v.isUndef then eraseS k o.backend else setS k v o.backend := by
  have hr : r < w.objs.length := (List.getElem?_eq_some_iff.1 ho).1
  unfold setBody at h
  rw [bind_ok (getObj_some ho), bind_ok (notify_unheard ho (hq _) _ _)] at h
  have hw : writeStored r k v w = (.ok (), w.setObj r (fun o => { o with
      backend := if v.isUndef then eraseS k o.backend else setS k v o.backend })) := rfl
  rw [bind_ok hw] at h
  have ho' : (w.setObj r (fun o => { o with
      backend := if v.isUndef then eraseS k o.backend else setS k v o.backend })).objs[r]? =
      some { o with backend := if v.isUndef then eraseS k o.backend else setS k v o.backend } := by
    simp [World.setObj, ho]
  have hr' : r < (w.setObj r (fun o => { o with
      backend := if v.isUndef then eraseS k o.backend else setS k v o.backend })).objs.length :=
    (List.getElem?_eq_some_iff.1 ho').1
  have hq' : (w.setObj r (fun o => { o with
      backend := if v.isUndef then eraseS k o.backend else setS k v o.backend })).quar = w.quar := rfl
  have ht' : (w.setObj r (fun o => { o with
      backend := if v.isUndef then eraseS k o.backend else setS k v o.backend })).trace = w.trace := rfl
  generalize (w.setObj r (fun o => { o with
      backend := if v.isUndef then eraseS k o.backend else setS k v o.backend })) = u at h ho' hq' ht' hr'
  obtain ⟨changed, u1, h1, h⟩ := bind_ok_inv h
  have s1 : Spared r u u1 := by
    split at h1
    · cases h1; exact (spared_stable hE).refl u hr'
    · split at h1
      · cases h1; exact (spared_stable hE).refl u hr'
      · obtain ⟨e, u2, h2, h3⟩ := bind_ok_inv h1
        cases h3
        have := spared_run hE n (.propEqual p ((lookupS k o.backend).getD .undef) v) trivial hr'
        rw [h2] at this
        exact this
  obtain ⟨o1, ho1, c1, b1, l1⟩ := s1.data _ ho'
  have hq1 : Unheard u1 o1 k := hq.same (s1.base.quar.trans hq') l1
  have hn := fun mode prev v => notify_unheard (E := E) (rec := run E n) ho1 (hq1 mode) prev v
  have h2 : (if changed = true then notify E (run E n) r .change k ((lookupS k o.backend).getD .undef) v
      else pure v : M Val) u1 = (.ok v, u1) := by
    split
    · exact hn _ _ _
    · rfl
  rw [bind_ok h2, bind_ok (hn _ _ _)] at h
  cases h
  exact ⟨o1, ho1, c1, l1, s1.base.quar.trans hq', s1.events.trans (by rw [ht']), b1⟩

theorem reset_unheard {n : Nat} {k : PyStr} {p : PropSpec} {w w' : World} {o : Obj} {x : Val}
    (ho : w.objs[r]? = some o) (hq : Unheard w o k)
    (hp : lookupS k (E.classes o.cls).props = some (.mutable p))
    (h : run E n (.reset r (some k)) w = (.ok x, w')) :
    ∃ o', w'.objs[r]? = some o' ∧ o'.cls = o.cls ∧ o'.listeners = o.listeners ∧ w'.quar = w.quar ∧
      observed r w'.trace = observed r w.trace ∧
      (∀ k', k' ≠ k → lookupS k' o'.backend = lookupS k' o.backend) ∧
      HoldsDefault E (E.classes o.cls) r k p (lookupS k o'.backend) := by
  have hr : r < w.objs.length := (List.getElem?_eq_some_iff.1 ho).1
  cases n with
  | zero => cases h
  | succ n =>
    obtain ⟨d, v, w1, hd, h1, h2⟩ := C73_assigns ho hp h
    have s1 : Spared r w w1 := by
      have := spared_eval hE n d hr
      cases h1 with
      | undef => exact this
      | val => exact this
      | uuid4 => exact this
      | fn f _ _ _ hf =>
        have e : evalDflt E (run E n) (.fn f) w = (.ok v, w1) := hf
        rw [e] at this
        exact this
      | cls c _ _ _ hf =>
        have e : evalDflt E (run E n) (.cls c) w = (.ok v, w1) := hf
        rw [e] at this
        exact this
    obtain ⟨o1, ho1, c1, b1, l1⟩ := s1.data o ho
    cases n with
    | zero => cases h2
    | succ n =>
      change setattrBody E (run E n) r k v w1 = _ at h2
      unfold setattrBody at h2
      have e1 : entryOf E r k w1 = (.ok (some (.mutable p)), w1) := by
        unfold entryOf
        rw [bind_ok (getObj_some ho1), c1, hp]
        rfl
      have h2' := (bind_ok e1).symm.trans h2
      change assignBody E (run E n) r k p v w1 = _ at h2'
      unfold assignBody at h2'
      obtain ⟨v', w2, h3, h4⟩ := bind_ok_inv h2'
      have hr1 : r < w1.objs.length := Nat.lt_of_lt_of_le hr s1.base.len
      have s2 : Spared r w1 w2 := by
        by_cases hv : v.isUndef = true
        · rw [if_pos hv] at h3
          cases h3
          exact (spared_stable hE).refl w1 hr1
        · rw [if_neg hv] at h3
          have := spared_run hE n (.validate k p (some r) v) trivial hr1
          rw [h3] at this
          exact this
      obtain ⟨o2, ho2, c2, b2, l2⟩ := s2.data o1 ho1
      obtain ⟨u, w3, h4, h5⟩ := bind_ok_inv h4
      cases h5
      obtain ⟨o3, ho3, c3, l3, q3, t3, b3⟩ := setBody_unheard hE ho2
        (hq.same (s2.base.quar.trans s1.base.quar) (l2.trans l1)) h4
      refine ⟨o3, ho3, c3.trans (c2.trans c1), l3.trans (l2.trans l1),
        q3.trans (s2.base.quar.trans s1.base.quar), t3.trans (s2.events.trans s1.events),
        fun k' hk' => ?_, ?_⟩
      · rw [b3]
        split
        · rw [lookupS_eraseS_ne (Ne.symm hk' ·.symm), b2, b1]
        · rw [lookupS_setS_ne (Ne.symm hk' ·.symm), b2, b1]
      · refine ⟨n + 1, n, _, w, v, w1, hr, hd, h1, ?_⟩
        by_cases hv : v.isUndef = true
        · rw [if_pos hv] at h3
          cases h3
          refine .inl ⟨(by cases v <;> first | rfl | cases hv), ?_⟩
          rw [b3, if_pos hv, lookupS_eraseS]
        · rw [if_neg hv] at h3
          refine .inr ⟨(by rintro rfl; exact hv rfl), v', w2, h3, ?_⟩
          rw [b3]
          split
          · rw [lookupS_eraseS]
          · rw [lookupS_setS]

theorem reset_loop_unheard {n : Nat} {C : ClassDef} : ∀ {ps : List (PyStr × Entry)} {w w' : World} {o : Obj},
    w.objs[r]? = some o → E.classes o.cls = C → (ps.map Prod.fst).Nodup →
    (∀ k p, (k, .mutable p) ∈ ps → lookupS k C.props = some (.mutable p) ∧ Unheard w o k) →
    forML (fun kv : PyStr × Entry => do
        if kv.2.isMutable then do
          let _ ← run E n (.reset r (some kv.1))
          pure ()
        else pure ()) ps w = (.ok (), w') →
    ∃ o', w'.objs[r]? = some o' ∧ o'.cls = o.cls ∧ o'.listeners = o.listeners ∧ w'.quar = w.quar ∧
      observed r w'.trace = observed r w.trace ∧
      (∀ k', (∀ e, (k', e) ∈ ps → e.isMutable = false) →
        lookupS k' o'.backend = lookupS k' o.backend) ∧
      (∀ k p, (k, .mutable p) ∈ ps → HoldsDefault E C r k p (lookupS k o'.backend))
  | [], w, w', o, ho, _, _, _, h => by
      cases h
      exact ⟨o, ho, rfl, rfl, rfl, rfl, fun _ _ => rfl, fun _ _ h => by cases h⟩
  | (k0, e0) :: ps, w, w', o, ho, hC, hnd, hps, h => by
      obtain ⟨_, w1, h1, h2⟩ := bind_ok_inv h
      dsimp only at h1
      have hnd' := List.nodup_cons.1 hnd
      have hstep : ∃ o1, w1.objs[r]? = some o1 ∧ o1.cls = o.cls ∧ o1.listeners = o.listeners ∧
          w1.quar = w.quar ∧ observed r w1.trace = observed r w.trace ∧
          (∀ k', k' ≠ k0 ∨ e0.isMutable = false → lookupS k' o1.backend = lookupS k' o.backend) ∧
          (∀ p, e0 = .mutable p → HoldsDefault E C r k0 p (lookupS k0 o1.backend)) := by
        cases e0 with
        | mutable p =>
          obtain ⟨hl, hk⟩ := hps k0 p (by simp)
          obtain ⟨x, w1', h3, h4⟩ := bind_ok_inv (show (run E n (.reset r (some k0)) >>=
            fun _ => pure ()) w = (.ok (), w1) from h1)
          cases h4
          obtain ⟨o1, a1, a2, a3, a4, a5, a6, a7⟩ := reset_unheard hE ho hk (hC ▸ hl) h3
          refine ⟨o1, a1, a2, a3, a4, a5, fun k' hk' => ?_, ?_⟩
          · rcases hk' with hk' | hk'
            · exact a6 k' hk'
            · cases hk'
          · rintro p' ⟨⟩
            rw [← hC]; exact a7
        | gettable p => cases h1; exact ⟨o, ho, rfl, rfl, rfl, rfl, fun _ _ => rfl, fun _ h => by cases h⟩
        | dynamic p g s d => cases h1; exact ⟨o, ho, rfl, rfl, rfl, rfl, fun _ _ => rfl, fun _ h => by cases h⟩
        | renamed p => cases h1; exact ⟨o, ho, rfl, rfl, rfl, rfl, fun _ _ => rfl, fun _ h => by cases h⟩
      obtain ⟨o1, ho1, hc1, hl1, hq1, ht1, hk1, hf1⟩ := hstep
      obtain ⟨o2, ho2, hc2, hl2, hq2, ht2, hk2, hf2⟩ := reset_loop_unheard (C := C) ho1
        (by rw [hc1]; exact hC) hnd'.2
        (fun k p hm => by
          obtain ⟨hl, hk⟩ := hps k p (List.mem_cons_of_mem _ hm)
          exact ⟨hl, hk.same hq1 hl1⟩) h2
      refine ⟨o2, ho2, hc2.trans hc1, hl2.trans hl1, hq2.trans hq1, ht2.trans ht1,
        fun k' hk' => ?_, fun k p hm => ?_⟩
      · rw [hk2 k' fun e he => hk' e (List.mem_cons_of_mem _ he)]
        refine hk1 k' ?_
        by_cases hkk : k' = k0
        · subst hkk; exact .inr (hk' e0 (by simp))
        · exact .inl hkk
      · rcases List.mem_cons.1 hm with hm | hm
        · cases hm
          rw [hk2 k0 fun e he => absurd (List.mem_map_of_mem (f := Prod.fst) he) hnd'.1]
          exact hf1 p rfl
        · exact hf2 k p hm

/-- C73: resetting one property, no listener of it enabled: it holds its default
afterwards, all other properties of the instance hold what they held. -/
theorem C73_one {n : Nat} {k : PyStr} {p : PropSpec} {w w' : World} {o : Obj} {x : Val}
    (ho : w.objs[r]? = some o) (hq : Unheard w o k)
    (hp : lookupS k (E.classes o.cls).props = some (.mutable p))
    (h : run E n (.reset r (some k)) w = (.ok x, w')) :
    ∃ o', w'.objs[r]? = some o' ∧ o'.cls = o.cls ∧
      (∀ k', k' ≠ k → lookupS k' o'.backend = lookupS k' o.backend) ∧
      HoldsDefault E (E.classes o.cls) r k p (lookupS k o'.backend) := by
  obtain ⟨o', h1, h2, _, _, _, h3, h4⟩ := reset_unheard hE ho hq hp h
  exact ⟨o', h1, h2, h3, h4⟩

/-- C73: resetting all: every settable property holds its default afterwards, whatever
was stored before, and every other property holds what it held. -/
theorem C73_all {n : Nat} {w w' : World} {o : Obj} {x : Val} (ho : w.objs[r]? = some o)
    (hnd : ((E.classes o.cls).props.map Prod.fst).Nodup)
    (hq : ∀ k p, (k, .mutable p) ∈ (E.classes o.cls).props → Unheard w o k)
    (h : run E n (.reset r none) w = (.ok x, w')) :
    ∃ o', w'.objs[r]? = some o' ∧ o'.cls = o.cls ∧
      (∀ k, (∀ p, (k, .mutable p) ∉ (E.classes o.cls).props) →
        lookupS k o'.backend = lookupS k o.backend) ∧
      (∀ k p, (k, .mutable p) ∈ (E.classes o.cls).props →
        HoldsDefault E (E.classes o.cls) r k p (lookupS k o'.backend)) := by
  cases n with
  | zero => cases h
  | succ n =>
    change resetBody E (run E n) r none w = _ at h
    unfold resetBody at h
    rw [bind_ok (getObj_some ho)] at h
    dsimp only at h
    obtain ⟨u, w1, h1, h2⟩ := bind_ok_inv h
    cases h2
    obtain ⟨o', a1, a2, _, _, _, a3, a4⟩ := reset_loop_unheard hE (C := E.classes o.cls) ho rfl hnd
      (fun k p hm => ⟨lookupS_of_mem_nodup hnd hm, hq k p hm⟩) h1
    refine ⟨o', a1, a2, fun k hk => a3 k fun e he => ?_, a4⟩
    cases e with
    | mutable p => exact absurd he (hk p)
    | gettable p => rfl
    | dynamic p g s d => rfl
    | renamed new => rfl

end

section
variable {E : Env}

theorem validate_scalar {n : Nat} {k : PyStr} {p : PropSpec} {i : Option Nat} {v v' : Val} {w w' : World}
    (hs : ScalarTy p.ty) (hc : p.ty ≠ .color) (h : run E n (.validate k p i v) w = (.ok v', w')) :
    scalarValidate E 0 p.ty v = some (.ok v') := by
  cases n with
  | zero => cases h
  | succ n =>
    change validateBody E (run E n) k p i v w = _ at h
    obtain ⟨rq, se, de, df, ty⟩ := p
    rw [validateBody_scalar (ty := ty) hs hc] at h
    unfold liftOpt at h
    cases hy : scalarValidate E 0 ty v with
    | none => rw [hy] at h; cases h
    | some y =>
      rw [hy] at h
      show scalarValidate E 0 ty v = _
      rw [hy, liftScalar_ok_inv h]

theorem declared_one {C : ClassDef} {k : PyStr} {e : Entry} {d d' : Dflt} (h : Declared C k e d)
    (h' : Declared C k e d') : d = d' := by
  cases h <;> cases h' <;> simp_all

theorem default_fixed {C : ClassDef} {k : PyStr} {p : PropSpec} (hf : Fixed C k p) {r r' : Nat}
    {s s' : Option Val} (h : HoldsDefault E C r k p s) (h' : HoldsDefault E C r' k p s') : s = s' := by
  obtain ⟨n, m, d, w1, v, w2, _, hd, he, h⟩ := h
  obtain ⟨n', m', d', w1', v', w2', _, hd', he', h'⟩ := h'
  obtain rfl := declared_one hd hd'
  have hv : v = v' := by
    rcases hf.2.2 d hd with rfl | ⟨u, rfl⟩
    · cases he; cases he'; rfl
    · cases he; cases he'; rfl
  subst hv
  rcases h with ⟨e, rfl⟩ | ⟨e, y, w3, hy, rfl⟩
  · rcases h' with ⟨_, rfl⟩ | ⟨e', _⟩
    · rfl
    · exact absurd e e'
  · rcases h' with ⟨e', _⟩ | ⟨_, y', w3', hy', rfl⟩
    · exact absurd e' e
    · have a := validate_scalar hf.1 hf.2.1 hy
      have b := validate_scalar hf.1 hf.2.1 hy'
      rw [a] at b
      cases b
      rfl

/-- C73: after a reset of all, a property whose default is a fixed value holds the very
value a new instance of the class holds. -/
theorem C73_like_new {r n m : Nat} {w w' u u' : World} {o : Obj} {x y : Val}
    (hE : ∀ f args, Spares r (E.fn f args)) (hE' : ∀ f args, Spares u.objs.length (E.fn f args))
    (ho : w.objs[r]? = some o) (hnd : ((E.classes o.cls).props.map Prod.fst).Nodup)
    (hq : ∀ k p, (k, .mutable p) ∈ (E.classes o.cls).props → Unheard w o k)
    (h : run E n (.reset r none) w = (.ok x, w'))
    (hu : run E m (.construct o.cls []) u = (.ok y, u')) :
    ∃ i a b, y = .obj i ∧ w'.objs[r]? = some a ∧ u'.objs[i]? = some b ∧ a.cls = b.cls ∧
      ∀ k p, (k, .mutable p) ∈ (E.classes o.cls).props → Fixed (E.classes o.cls) k p →
        lookupS k a.backend = lookupS k b.backend := by
  obtain ⟨a, ha, hc, _, hd⟩ := C73_all hE ho hnd hq h
  obtain ⟨hy, b, hb, hc', hd', _⟩ := C15_defaults hE' hnd hu
  exact ⟨_, a, b, hy, ha, hb, hc.trans hc'.symm, fun k p hm hf => default_fixed hf (hd k p hm) (hd' k p hm)⟩

end

/-! ## Example -/

/-- As in C15, without observers. -/
def c73Env : Env := { c15Env with
  classes := fun c => { c15Env.classes c with observers := [] } }

/-- An instance with other values. -/
def c73World : World := { objs := [{ cls := 0, backend := [(s% "a", .int 90), (s% "c", .int 3)] }] }

/-- Both properties hold their defaults again; the immutable one is left alone. -/
theorem C73_example : (run c73Env 6 (.reset 0 none) c73World).2.objs.map Obj.backend =
    [[(s% "a", .int 1), (s% "c", .int 3), (s% "b", .float (.fin 7))]] := by
  with_unfolding_all rfl

/-- The hypotheses hold there. -/
example : (∀ f args, Spares 0 (c73Env.fn f args)) ∧
    ((c73Env.classes 0).props.map Prod.fst).Nodup ∧
    (∀ k p, (k, .mutable p) ∈ (c73Env.classes 0).props → Unheard c73World
      { cls := 0, backend := [(s% "a", .int 90), (s% "c", .int 3)] } k) ∧
    Fixed (c73Env.classes 0) (s% "a") (.mk true none none (.val (.int 1)) (.integer false none none)) := by
  refine ⟨fun _ _ => trivial, by decide, fun k p _ mode => ?_, trivial, by simp [PropSpec.ty], ?_⟩
  · cases mode <;> rfl
  · intro d hd
    have := declared_one hd (declared_classDefault (E := c73Env) 0 (s% "a")
      (.mutable (.mk true none none (.val (.int 1)) (.integer false none none))))
    exact .inr ⟨.int 1, by rw [this]; rfl⟩

/-- A name that is no property, and an immutable property, are refused. -/
theorem C73_refused_example : (run c73Env 6 (.reset 0 (some (s% "c"))) c73World).1 = .error ⟨.attr, []⟩ ∧
    (run c73Env 6 (.reset 0 (some (s% "zz"))) c73World).1 = .error ⟨.attr, []⟩ := by
  constructor <;> with_unfolding_all rfl

end Verif
