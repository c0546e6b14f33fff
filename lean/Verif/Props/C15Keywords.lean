import Verif.Props.C11

/-!
# C15: what the properties given as keywords hold
-/

namespace Verif
open Verif.Spec

section
variable {E : Env}

/-- Reading a property that is stored. -/
theorem getattr_backend {m r : Nat} {w : World} {o : Obj} {k : PyStr} {p : PropSpec}
    (ho : w.objs[r]? = some o) (hp : lookupS k (E.classes o.cls).props = some (.mutable p)) :
    run E (m + 1) (.getattr r k) w = (.ok ((lookupS k o.backend).getD .none), w) := by
  show getattrBody E _ r k w = _
  unfold getattrBody
  rw [bind_ok (entryOf_some ho), hp]
  show getStored r k w = _
  unfold getStored
  rw [bind_ok (getObj_some ho)]
  rfl

/-- If construction with keywords succeeds, construction without them does. -/
theorem construct_without {n : Nat} {c : ClsId} {w w' : World} {v : Val} {kw : List (PyStr × Val)}
    (h : run E (n + 1) (.construct c kw) w = (.ok v, w')) :
    ∃ w3 o3, w3.objs[w.objs.length]? = some o3 ∧ o3.cls = c ∧
      run E (n + 1) (.construct c []) w = (.ok (.obj w.objs.length), w3) := by
  have h0' : constructBody E (run E n) c kw w = (.ok v, w') := h
  obtain ⟨hv, w2, w3, x, h1, h2, h3⟩ := construct_phases h0'
  have hcls3 : HasCls w.objs.length c w3 := by
    have a1 : HasCls w.objs.length c (allocated E c w) :=
      ⟨{ cls := c, listeners := initListeners (E.classes c) }, by simp [allocated], rfl⟩
    have a2 := (restored_stable E).toBase
    have a3 := (restored_stable E).run_ok n
    have a4 : Restored (allocated E c w) w2 := by
      have := pres_forML (f := gettableDefault E (run E n) c w.objs.length) a2.toPreord
        (fun kv => by
          have hs : ∀ name v, Pres (fun _ => True) Restored (putStored w.objs.length name v) :=
            fun name v => (restored_stable E).pres_stored _ (setS name v) trivial
          unfold gettableDefault
          split
          · exact pres_pure a2.toPreord _
          · split
            · exact pres_pure a2.toPreord _
            · exact pres_pure a2.toPreord _
            · exact pres_bind a2.toPreord (pres_evalDflt a2 a3 _) fun _ => pres_bind a2.toPreord
                (pres_entryValidate a2 a3 _ _ _ _) fun _ => hs _ _) (E.classes c).props
        (allocated E c w) trivial
      rw [h1] at this; exact this
    have a5 := pres_withDisabled a2 Quar.all (a3.pres (.reset w.objs.length none) trivial) w2 trivial
    rw [h2] at a5
    exact (restored_stable E).cls a5 ((restored_stable E).cls a4 a1)
  obtain ⟨o3, ho3, hc3⟩ := hcls3
  have hi : (initialising w.objs.length w3).objs[w.objs.length]? =
      some { o3 with gv := some true, errs := some [] } := by
    simp [initialising, World.setObj, ho3]
  refine ⟨clearValidating w.objs.length (initialising w.objs.length w3),
    { o3 with gv := some false, errs := none }, by simp [clearValidating, World.setObj, hi], hc3, ?_⟩
  show constructBody E (run E n) c [] w = _
  unfold constructBody
  refine (bind_ok (a := ()) (w' := w) rfl).trans ?_
  refine (bind_ok (m := alloc { cls := c, listeners := initListeners (E.classes c) })
    (a := w.objs.length) (w' := allocated E c w) rfl).trans ?_
  refine (bind_ok h1).trans ?_
  refine (bind_ok h2).trans ?_
  refine (bind_ok (a := ()) (w' := clearValidating w.objs.length
    (initialising w.objs.length w3)) ?_).trans rfl
  unfold initBody
  refine (bind_ok (a := ()) (w' := w3) rfl).trans ?_
  rw [bind_ok (modObj_apply _ _ _), fin_apply]
  have : raiseCollected E (run E n) w.objs.length none (initialising w.objs.length w3) =
      (.ok (), initialising w.objs.length w3) := by
    unfold raiseCollected
    rw [bind_ok (getObj_some hi)]
    rfl
  have e2 : (foldML (initStep (run E n) w.objs.length (E.classes c)) none [] >>=
      raiseCollected E (run E n) w.objs.length) (initialising w.objs.length w3) =
      (.ok (), initialising w.objs.length w3) := this
  exact congrArg (fun x : Except PyErr Unit × World => (x.1, clearValidating _ x.2)) e2

/-- Assigning other properties leaves the class and the value. -/
theorem tries_holdsOn {r n : Nat} {c : ClsId} {k : PyStr} (hE : ∀ f args, Spares r (E.fn f args))
    {kw : List (PyStr × Val)} {w w2 : World} {xs : List (Except PyErr Val)} {stop : Option PyErr}
    (ht : Tries E n r (E.classes c) kw w xs stop w2) :
    (∀ kv ∈ kw, kv.1 ≠ k ∧ ∃ p, lookupS kv.1 (E.classes c).props = some (.mutable p)) →
    ∀ o, w.objs[r]? = some o → o.cls = c →
    ∃ o', w2.objs[r]? = some o' ∧ o'.cls = c ∧ lookupS k o'.backend = lookupS k o.backend := by
  induction ht with
  | done w => exact fun _ o ho hc => ⟨o, ho, hc, rfl⟩
  | refused k' v rest w _ => exact fun _ o ho hc => ⟨o, ho, hc, rfl⟩
  | tried k' v rest w w1 w2 x xs stop _ hs _ _ ih =>
    intro hkw o ho hc
    obtain ⟨hne, p, hp⟩ := hkw (k', v) (by simp)
    have a := holdsOn_setattr hE (n := n) (k := k) (v := v) ho (by rw [hc]; exact hp) (Ne.symm hne)
    rw [hs] at a
    obtain ⟨o1, b1, b2⟩ := a.kept o ho
    obtain ⟨o1', b1', b3⟩ := (restored_stable E).cls a.base ⟨o, ho, hc⟩
    rw [b1] at b1'; cases b1'
    obtain ⟨o2, c1, c2, c3⟩ := ih (fun kv h => hkw kv (by simp [h]))
      { o1 with errs := o1.errs.map (· ++ tuplesOf x) } (by simp [noted, World.setObj, b1]) b3
    exact ⟨o2, c1, c2, c3.trans b2⟩
  | broken k' v rest w w1 e _ hs _ =>
    intro hkw o ho hc
    obtain ⟨hne, p, hp⟩ := hkw (k', v) (by simp)
    have a := holdsOn_setattr hE (n := n) (k := k) (v := v) ho (by rw [hc]; exact hp) (Ne.symm hne)
    rw [hs] at a
    obtain ⟨o1, b1, b2⟩ := a.kept o ho
    obtain ⟨o1', b1', b3⟩ := (restored_stable E).cls a.base ⟨o, ho, hc⟩
    rw [b1] at b1'; cases b1'
    exact ⟨o1, b1, b3, b2⟩

/-- The assignment of one of the keywords. -/
theorem tries_split {r n : Nat} {c : ClassDef} {k : PyStr} {v : Val} {post : List (PyStr × Val)} :
    ∀ {pre : List (PyStr × Val)} {w w2 : World} {xs : List (Except PyErr Val)},
    Tries E n r c (pre ++ (k, v) :: post) w xs none w2 →
    ∃ u x u' xs1 xs2, Tries E n r c pre w xs1 none u ∧ run E n (.setattr r k v) u = (x, u') ∧
      xs = xs1 ++ x :: xs2 ∧ Tries E n r c post (noted r (tuplesOf x) u') xs2 none w2
  | [], w, w2, xs, h => by
      cases h with
      | tried _ _ _ _ w1 _ x xs' _ _ hs _ ht => exact ⟨w, x, w1, [], xs', .done w, hs, rfl, ht⟩
  | kv :: pre, w, w2, xs, h => by
      cases h with
      | tried k' v' _ _ w1 _ x xs' _ ha hs hg ht =>
        obtain ⟨u, y, u', xs1, xs2, h1, h2, h3, h4⟩ := tries_split ht
        exact ⟨u, y, u', x :: xs1, xs2, .tried _ _ _ _ _ _ _ _ _ ha hs hg h1, h2, by simp [h3], h4⟩

/-- Assigning properties leaves the class. -/
theorem tries_cls {r n : Nat} {c : ClassDef} {i : ClsId} {kw : List (PyStr × Val)} {w w2 : World}
    {xs : List (Except PyErr Val)} {stop : Option PyErr} (ht : Tries E n r c kw w xs stop w2) :
    HasCls r i w → HasCls r i w2 := by
  induction ht with
  | done w => exact id
  | refused k' v rest w _ => exact id
  | tried k' v rest w w1 w2 x xs stop _ hs _ _ ih =>
    intro h
    have a := ((restored_stable E).run_ok n).pres (.setattr r k' v) trivial w trivial
    rw [hs] at a
    obtain ⟨o1, b1, b2⟩ := (restored_stable E).cls a h
    exact ih ⟨{ o1 with errs := o1.errs.map (· ++ tuplesOf x) }, by simp [noted, World.setObj, b1], b2⟩
  | broken k' v rest w w1 e _ hs _ =>
    intro h
    have a := ((restored_stable E).run_ok n).pres (.setattr r k' v) trivial w trivial
    rw [hs] at a
    exact (restored_stable E).cls a h

theorem firstOther_none {x : Except PyErr Val} : ∀ {xs : List (Except PyErr Val)},
    firstOther xs = none → x ∈ xs → ∀ e, x = .error e → e.kind = .validation
  | .ok _ :: xs, h, hx, e, he => by
      subst he
      rcases List.mem_cons.1 hx with h1 | h1
      · cases h1
      · exact firstOther_none (xs := xs) h h1 e rfl
  | .error e' :: xs, h, hx, e, he => by
      subst he
      unfold firstOther at h
      split at h
      · rename_i hk
        rcases List.mem_cons.1 hx with h1 | h1
        · cases h1; exact hk
        · exact firstOther_none (xs := xs) h h1 e rfl
      · cases h

/-- The assignment of the last keyword of a name. -/
theorem keyword_values {n : Nat} {c : ClsId} {w w' : World} {x v : Val} {k : PyStr}
    {p : PropSpec} {pre post : List (PyStr × Val)}
    (hE : ∀ f args, Spares w.objs.length (E.fn f args)) (hI : ∀ f args, Indirect (E.fn f args))
    (hh : (E.classes c).hook = none)
    (hkw : ∀ kv ∈ pre ++ (k, v) :: post, kv.1 ≠ s% "cls" ∧ kv.1 ≠ s% "self" ∧
      ∃ p, lookupS kv.1 (E.classes c).props = some (.mutable p))
    (hp : lookupS k (E.classes c).props = some (.mutable p)) (hlast : ∀ kv ∈ post, kv.1 ≠ k)
    (h : run E n (.construct c (pre ++ (k, v) :: post)) w = (.ok x, w')) :
    x = .obj w.objs.length ∧ ∃ w3 j u o xs1, n = j + 2 ∧
      run E n (.construct c []) w = (.ok (.obj w.objs.length), w3) ∧
      Tries E (j + 1) w.objs.length (E.classes c) pre (begun w.objs.length w3) xs1 none u ∧
      u.objs[w.objs.length]? = some o ∧ o.cls = c ∧
      ((∃ v0 v1 ev, (v = .undef ∧ v0 = .undef ∨ v ≠ .undef ∧
            ∃ u1, run E j (.validate k p (some w.objs.length) v) u = (.ok v0, u1)) ∧
          Notified w.objs.length .validate k (storedOr u w.objs.length k)
            (SelfReturned E j o w.objs.length k (storedOr u w.objs.length k) .validate
              (storedOr u w.objs.length k))
            (enabled u o .validate k) v0 ev v1 ∧
          ∀ m, run E (m + 1) (.getattr w.objs.length k) w' = (.ok (asRead v1), w')) ∨
        ∃ e, (run E (j + 1) (.setattr w.objs.length k v) u).1 = .error e ∧
          e.kind = .validation ∧ e.tuples = []) := by
  cases n with
  | zero => cases h
  | succ n =>
    obtain ⟨w3, o3, ho3, hc3, h0⟩ := construct_without h
    obtain ⟨r, xs, stop, w2, hr, ht, hs, hn⟩ := C16_construct hI hh h0 (pre ++ (k, v) :: post)
      (fun kv hkv => (hkw kv hkv).1) (fun kv hkv => (hkw kv hkv).2.1)
    cases hr
    cases stop with
    | some e => rw [hs e rfl] at h; cases h
    | none =>
      obtain ⟨_, g1, g2, g3⟩ := hn rfl
      have hf : xs.flatMap tuplesOf = [] := by
        by_contra hne
        rw [g1 hne] at h; cases h
      have hfo : firstOther xs = none := by
        cases hx : firstOther xs with
        | none => rfl
        | some e => rw [g2 hf e hx] at h; cases h
      rw [g3 hf hfo] at h
      obtain ⟨u, y, u', xs1, xs2, t1, t2, t3, t4⟩ := tries_split ht
      obtain ⟨o, ho, hc⟩ := tries_cls t1 (i := c)
        (⟨{ o3 with gv := some true, errs := some [] },
          by simp [begun, World.setObj, ho3], hc3⟩ : HasCls w.objs.length c (begun w.objs.length w3))
      have hmem : y ∈ xs := by simp [t3]
      cases n with
      | zero =>
        have : y = .error ⟨.recursion, []⟩ := by
          have := congrArg Prod.fst t2; exact this.symm
        have := firstOther_none hfo hmem _ this
        cases this
      | succ j =>
        refine ⟨by cases h; rfl, w3, j, u, o, xs1, rfl, h0, t1, ho, hc, ?_⟩
        cases y with
        | error e =>
          have hv := firstOther_none hfo hmem e rfl
          refine .inr ⟨e, by rw [t2], hv, ?_⟩
          have := List.flatMap_eq_nil_iff.1 hf _ hmem
          simpa [tuplesOf, hv] using this
        | ok y =>
          have hp' : lookupS k (E.classes o.cls).props = some (.mutable p) := by rw [hc]; exact hp
          obtain ⟨v0, v1, ev, b1, b2, b3, _⟩ := C10_busy hE ho hp' t2
          refine .inl ⟨v0, v1, ev, b1, b2, fun m => ?_⟩
          have a := ((restored_stable E).run_ok (j + 1)).pres (.setattr w.objs.length k v) trivial u trivial
          rw [t2] at a
          obtain ⟨o1, d1, d2⟩ := (restored_stable E).cls a ⟨o, ho, hc⟩
          obtain ⟨o2, e1, e2, e3⟩ := tries_holdsOn hE t4 (k := k)
            (fun kv hkv => ⟨hlast kv hkv, (hkw kv (by simp [hkv])).2.2⟩)
            { o1 with errs := o1.errs.map (· ++ tuplesOf (.ok y : Except PyErr Val)) }
            (by simp [noted, World.setObj, d1]) d2
          have f1 := b3 0
          rw [getattr_backend d1 (by rw [d2]; exact hp)] at f1
          cases h
          have e4 : (clearValidating w.objs.length w2).objs[w.objs.length]? =
              some { o2 with gv := some false, errs := none } := by
            simp [clearValidating, World.setObj, e1]
          rw [getattr_backend e4 (by show lookupS k (E.classes o2.cls).props = _; rw [e2]; exact hp)]
          dsimp only
          rw [e3]
          have f2 : (lookupS k o1.backend).getD .none = asRead v1 := by
            have := congrArg Prod.fst f1
            exact Except.ok.inj this
          dsimp only at f2 ⊢
          rw [f2]

/-- C15: a property given as a keyword holds, after construction, what the
validators left of the coerced value of the (last) keyword of that name, unless
the assignment ended with a ValidationError without error tuples (only user code
raises these, and the constructor drops them). -/
theorem C15_keyword_values {n : Nat} {c : ClsId} {w w' : World} {x v : Val} {k : PyStr}
    {p : PropSpec} {pre post : List (PyStr × Val)}
    (hE : ∀ f args, Spares w.objs.length (E.fn f args)) (hI : ∀ f args, Indirect (E.fn f args))
    (hh : (E.classes c).hook = none)
    (hkw : ∀ kv ∈ pre ++ (k, v) :: post, kv.1 ≠ s% "cls" ∧ kv.1 ≠ s% "self" ∧
      ∃ p, lookupS kv.1 (E.classes c).props = some (.mutable p))
    (hp : lookupS k (E.classes c).props = some (.mutable p)) (hlast : ∀ kv ∈ post, kv.1 ≠ k)
    (h : run E n (.construct c (pre ++ (k, v) :: post)) w = (.ok x, w')) :
    x = .obj w.objs.length ∧ ∃ j u o, u.objs[w.objs.length]? = some o ∧ o.cls = c ∧
      ((∃ v0 v1 ev, (v = .undef ∧ v0 = .undef ∨ v ≠ .undef ∧
            ∃ u1, run E j (.validate k p (some w.objs.length) v) u = (.ok v0, u1)) ∧
          Notified w.objs.length .validate k (storedOr u w.objs.length k)
            (SelfReturned E j o w.objs.length k (storedOr u w.objs.length k) .validate
              (storedOr u w.objs.length k))
            (enabled u o .validate k) v0 ev v1 ∧
          ∀ m, run E (m + 1) (.getattr w.objs.length k) w' = (.ok (asRead v1), w')) ∨
        ∃ e, (run E (j + 1) (.setattr w.objs.length k v) u).1 = .error e ∧
          e.kind = .validation ∧ e.tuples = []) := by
  obtain ⟨hx, _, j, u, o, _, _, _, _, h1, h2, h3⟩ := keyword_values hE hI hh hkw hp hlast h
  exact ⟨hx, j, u, o, h1, h2, h3⟩

end

/-- The integer given for the Float property became a float. -/
theorem C15_keyword_example :
    (run c15Env 6 (.construct 0 [(s% "b", .int 3)]) {}).2.objs.map Obj.backend =
      [[(s% "c", .int 5), (s% "a", .int 1), (s% "b", .float (.fin 3))]] := by
  with_unfolding_all rfl

/-- The hypotheses hold there. -/
example : (∀ f args, Spares 0 (c15Env.fn f args)) ∧ (∀ f args, Indirect (c15Env.fn f args)) ∧
    (c15Env.classes 0).hook = none ∧
    ∃ p, lookupS (s% "b") (c15Env.classes 0).props = some (.mutable p) :=
  ⟨fun _ _ => trivial, fun _ _ => trivial, rfl, _, rfl⟩

end Verif
