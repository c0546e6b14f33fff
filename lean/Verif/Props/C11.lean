import Verif.Spec.Busy
import Verif.Lemmas.Spared
import Verif.Props.C09
import Verif.Props.C15

/-!
# C09 to C12 with listeners that act on other instances

User code may do anything (assign, construct, validate, register listeners, disable
listeners, ...) as long as it does not modify the instance that is assigned to.
-/

namespace Verif
open Spec

/-- `r` keeps its data. -/
structure Unmoved (r : Nat) (w w' : World) : Prop where
  base : Restored w w'
  data : ∀ o, w.objs[r]? = some o → ∃ o', w'.objs[r]? = some o' ∧ SameData o o'

theorem Spared.still {r : Nat} {w w' : World} (h : Spared r w w') : Unmoved r w w' := ⟨h.base, h.data⟩

theorem Unmoved.refl (r : Nat) (w : World) : Unmoved r w w := ⟨Restored.refl w, fun o h => ⟨o, h, SameData.refl o⟩⟩

theorem Unmoved.trans {r : Nat} {a b c : World} (h : Unmoved r a b) (k : Unmoved r b c) : Unmoved r a c :=
  ⟨h.base.trans k.base, fun o ho => by
    obtain ⟨o1, h1, k1⟩ := h.data o ho
    obtain ⟨o2, h2, k2⟩ := k.data o1 h1
    exact ⟨o2, h2, k1.trans k2⟩⟩

theorem unmoved_trace (r : Nat) (w : World) (e : Event) : Unmoved r w { w with trace := w.trace ++ [e] } :=
  ⟨⟨rfl, Nat.le_refl _, (Restored.refl w).old, (Restored.refl w).new⟩, fun o h => ⟨o, h, SameData.refl o⟩⟩

theorem selfWith_self {w : World} {r : Nat} {o : Obj} (ho : w.objs[r]? = some o) (name : PyStr) :
    SelfWith o r name (storedOr w r name) w :=
  ⟨o, ho, rfl, rfl, by simp [storedOr, storedAt, ho], fun _ _ => rfl⟩

theorem Spec.SelfWith.still {o : Obj} {r : Nat} {name : PyStr} {s : Val} {u u' : World} (h : SelfWith o r name s u)
    (k : Unmoved r u u') : SelfWith o r name s u' := by
  obtain ⟨o1, h1, h2, h3, h4, h5⟩ := h
  obtain ⟨o2, g1, g2⟩ := k.data o1 h1
  exact ⟨o2, g1, g2.1.trans h2, g2.2.2.trans h3, by rw [g2.2.1]; exact h4, fun nm hn => by rw [g2.2.1]; exact h5 nm hn⟩

theorem Spec.SelfWith.lt {o : Obj} {r : Nat} {name : PyStr} {s : Val} {u : World} (h : SelfWith o r name s u) :
    r < u.objs.length := by
  obtain ⟨o1, h1, _⟩ := h
  exact (List.getElem?_eq_some_iff.1 h1).1

theorem Spec.SelfWith.write {o : Obj} {r : Nat} {name : PyStr} {s : Val} {u : World} (h : SelfWith o r name s u)
    (v : Val) : SelfWith o r name v (u.setObj r (fun o => { o with
      backend := if v.isUndef then eraseS name o.backend else setS name v o.backend })) := by
  obtain ⟨o1, h1, h2, h3, _, h5⟩ := h
  refine ⟨{ o1 with backend := if v.isUndef then eraseS name o1.backend else setS name v o1.backend },
    by simp [World.setObj, h1], h2, h3, ?_, fun nm hn => ?_⟩
  · dsimp only
    by_cases hv : v.isUndef = true
    · rw [if_pos hv, lookupS_eraseS, isUndef_iff.1 hv]; rfl
    · rw [if_neg hv, lookupS_setS]; rfl
  · dsimp only
    rw [← h5 nm hn]
    split
    · exact lookupS_eraseS_ne hn _
    · exact lookupS_setS_ne hn v _

section
variable {E : Env} {r : Nat} (hE : ∀ f args, Spares r (E.fn f args)) {n : Nat}
include hE

/-- Running the listeners of `r` one after the other. -/
theorem foldSelf (mode : Mode) (name : PyStr) (prev : Val) (P : World → Prop)
    (hP : ∀ u u', P u → Unmoved r u u' → P u') (hlt : ∀ u, P u → r < u.objs.length) :
    ∀ ls v u, P u →
      ∃ evs, observersOf r (foldML (notifyOne E (run E n) r mode name prev) v ls u).2.trace =
          observersOf r u.trace ++ (if mode = .validate then [] else evs) ∧
        Unmoved r u (foldML (notifyOne E (run E n) r mode name prev) v ls u).2 ∧
        (∀ v' u', foldML (notifyOne E (run E n) r mode name prev) v ls u = (.ok v', u') →
          Notified r mode name prev
            (fun l a b => ∃ x x', P x ∧ callback E (run E n) r mode name prev l a x = (.ok b, x'))
            ls v evs v') ∧
        (∀ e u', foldML (notifyOne E (run E n) r mode name prev) v ls u = (.error e, u') →
          NotifyRaised r mode name prev
            (fun l a b => ∃ x x', P x ∧ callback E (run E n) r mode name prev l a x = (.ok b, x'))
            (fun l a b => ∃ x x', P x ∧ callback E (run E n) r mode name prev l a x = (.error b, x'))
            ls v evs e) := by
  intro ls
  induction ls with
  | nil =>
    intro v u _
    exact ⟨[], by simp [foldML], Unmoved.refl r u, fun v' u' h => by cases h; exact .nil _,
      fun e u' h => by cases h⟩
  | cons l ls ih =>
    intro v u hPu
    have hk := unmoved_trace r u (ev r mode name prev v l)
    have hP1 := hP _ _ hPu hk
    have hc := pres_callFn (spared_stable hE).toBase ((spared_stable hE).run_ok n) l.fn
      [.obj r, .str name, prev, v, .str mode.toStr]
      { u with trace := u.trace ++ [ev r mode name prev v l] } (hlt _ hP1)
    have hw : observersOf r (u.trace ++ [ev r mode name prev v l]) =
        observersOf r u.trace ++ (if mode = .validate then [] else [ev r mode name prev v l]) := by
      cases mode <;> simp [observersOf, ev]
    have hstep : foldML (notifyOne E (run E n) r mode name prev) v (l :: ls) u =
        (callback E (run E n) r mode name prev l v >>= fun b =>
          foldML (notifyOne E (run E n) r mode name prev) b ls)
          { u with trace := u.trace ++ [ev r mode name prev v l] } := rfl
    rw [hstep]
    cases hcb : callback E (run E n) r mode name prev l v
        { u with trace := u.trace ++ [ev r mode name prev v l] } with
    | mk x u1 =>
      have hc' : Spared r { u with trace := u.trace ++ [ev r mode name prev v l] } u1 := by
        have : callFn E (run E n) l.fn [.obj r, .str name, prev, v, .str mode.toStr]
          { u with trace := u.trace ++ [ev r mode name prev v l] } = (x, u1) := hcb
        rw [this] at hc; exact hc
      have hev : observersOf r u1.trace = observersOf r (u.trace ++ [ev r mode name prev v l]) := hc'.events
      cases x with
      | error e =>
        rw [bind_err hcb]
        refine ⟨[ev r mode name prev v l], ?_, hk.trans hc'.still, fun v' u' h => (by cases h),
          fun e' u' h => ?_⟩
        · rw [hev]; exact hw
        · cases h; exact .here ⟨_, _, hP1, hcb⟩
      | ok b =>
        rw [bind_ok hcb]
        have hP2 := hP { u with trace := u.trace ++ [ev r mode name prev v l] } _ hP1 hc'.still
        obtain ⟨evs, h1, h2, h3, h4⟩ := ih b u1 hP2
        refine ⟨ev r mode name prev v l :: evs, ?_, (hk.trans hc'.still).trans h2,
          fun v' u' h => ?_, fun e u' h => ?_⟩
        · rw [h1, hev, hw]
          by_cases hm : mode = .validate <;> simp [hm]
        · exact .cons ⟨_, _, hP1, hcb⟩ (h3 v' u' h)
        · exact .later ⟨_, _, hP1, hcb⟩ (h4 e u' h)

theorem notify_self {w u : World} {o : Obj} (mode : Mode) (name : PyStr) (prev v s : Val)
    (hs : SelfWith o r name s u) (hq : u.quar = w.quar) :
    ∃ evs, observersOf r (notify E (run E n) r mode name prev v u).2.trace =
        observersOf r u.trace ++ (if mode = .validate then [] else evs) ∧
      Unmoved r u (notify E (run E n) r mode name prev v u).2 ∧
      (∀ v' u', notify E (run E n) r mode name prev v u = (.ok v', u') →
        Notified r mode name prev (SelfReturned E n o r name s mode prev) (enabled w o mode name) v evs v') ∧
      (∀ e u', notify E (run E n) r mode name prev v u = (.error e, u') →
        NotifyRaised r mode name prev (SelfReturned E n o r name s mode prev)
          (SelfRaised E n o r name s mode prev) (enabled w o mode name) v evs e) := by
  have hs' := hs
  obtain ⟨ou, hu, _, hls, _⟩ := hs
  have he : enabled u ou mode name = enabled w o mode name := by
    unfold enabled; rw [hq, hls]
  rw [notify_apply hu, he]
  exact foldSelf hE mode name prev (SelfWith o r name s) (fun u u' h1 h2 => h1.still h2)
    (fun u h => h.lt) _ v u hs'

omit hE in
theorem changeTest_self {p : PropSpec} {prev v1 : Val} {o : Obj} {u u' : World}
    {name : PyStr} (hs : SelfWith o r name v1 u) {b : Bool}
    (h : changeTest (run E n) p prev v1 u = (.ok b, u')) :
    (b = true → SelfChanges E n o r name p prev v1) ∧ (b = false → SelfKeeps E n o r name p prev v1) := by
  unfold changeTest at h
  cases hp : prev.isUndef with
  | true => cases hv : v1.isUndef with
    | true =>
      simp only [hp, hv, Bool.and_self, if_true, pure_apply, Prod.mk.injEq, Except.ok.injEq] at h
      rw [← h.1]
      exact ⟨fun h => (by cases h), fun _ => .inl ⟨isUndef_iff.1 hp, isUndef_iff.1 hv⟩⟩
    | false =>
      simp only [hp, hv, Bool.and_false, Bool.or_false, Bool.false_eq_true, if_false, if_true, pure_apply, Prod.mk.injEq,
        Except.ok.injEq] at h
      have : b = true := by simpa using h.1.symm
      subst this
      exact ⟨fun _ => .inl ⟨isUndef_iff.1 hp, isUndef_false.1 hv⟩, fun h => (by cases h)⟩
  | false => cases hv : v1.isUndef with
    | true =>
      simp only [hp, hv, Bool.false_and, Bool.or_true, Bool.false_eq_true, if_false, if_true, pure_apply, Prod.mk.injEq,
        Except.ok.injEq] at h
      have : b = true := by simpa using h.1.symm
      subst this
      exact ⟨fun _ => .inr (.inl ⟨isUndef_false.1 hp, isUndef_iff.1 hv⟩), fun h => (by cases h)⟩
    | false =>
      simp only [hp, hv, Bool.and_self, Bool.or_self, Bool.false_eq_true, if_false] at h
      obtain ⟨e, u1, h1, h2⟩ := bind_ok_inv h
      simp only [pure_apply, Prod.mk.injEq, Except.ok.injEq] at h2
      have hp' := isUndef_false.1 hp
      have hv' := isUndef_false.1 hv
      refine ⟨fun hb => .inr (.inr ⟨hp', hv', u, u1, e, hs, h1, ?_⟩),
        fun hb => .inr ⟨hp', hv', u, u1, e, hs, h1, ?_⟩⟩
      · rw [hb] at h2; simpa using h2.1
      · rw [hb] at h2; simpa using h2.1

theorem changeTest_spared (p : PropSpec) (prev v1 : Val) (u : World) (hu : r < u.objs.length) :
    Spared r u (changeTest (run E n) p prev v1 u).2 := by
  have : Pres (fun w => r < w.objs.length) (Spared r) (changeTest (run E n) p prev v1) := by
    unfold changeTest
    pres (spared_stable hE).toBase, ((spared_stable hE).run_ok n)
  exact this u hu

/-- What is stored after writing, exactly. -/
theorem setBody_self {w w1 w' : World} {o : Obj} (ho : w.objs[r]? = some o) (name : PyStr) (p : PropSpec)
    (v0 : Val) (k : Unmoved r w w1) (h : setBody E (run E n) r name p v0 w1 = (.ok (), w')) :
    ∃ v1 ev1 ev2 ev3, SelfProtocol E n w r o name p v0 v1 ev1 ev2 ev3 ∧
      observersOf r w'.trace = observersOf r w1.trace ++ (ev2 ++ ev3) ∧
      SelfWith o r name v1 w' ∧ Holds w' r name v1 := by
  have hs1 := (selfWith_self ho name).still k
  obtain ⟨o1, ho1, hsd⟩ := k.data o ho
  rw [setBody_eq, bind_ok (getObj_some ho1)] at h
  have hprev : (lookupS name o1.backend).getD .undef = storedOr w r name := by
    simp [storedOr, storedAt, ho, hsd.2.1]
  rw [hprev] at h
  generalize hpv : storedOr w r name = prev at h hs1
  obtain ⟨v1, w2, h1, h⟩ := bind_ok_inv h
  obtain ⟨ev1, e1, k1, n1, _⟩ := notify_self hE (n := n) (w := w) .validate name prev v0 prev hs1 k.base.quar
  rw [h1] at e1 k1
  have hN1 := n1 v1 w2 h1
  have hs2 := hs1.still k1
  have hw : writeStored r name v1 w2 = (.ok (), w2.setObj r (fun o => { o with
      backend := if v1.isUndef then eraseS name o.backend else setS name v1 o.backend })) := rfl
  rw [bind_ok hw] at h
  have hs3 := hs2.write v1
  have hh3 := holds_write name hs2.lt v1
  have hq3 : (w2.setObj r (fun o => { o with
      backend := if v1.isUndef then eraseS name o.backend else setS name v1 o.backend })).quar = w.quar :=
    k1.base.quar.trans k.base.quar
  have ht3 : (w2.setObj r (fun o => { o with
      backend := if v1.isUndef then eraseS name o.backend else setS name v1 o.backend })).trace = w2.trace := rfl
  generalize w2.setObj r (fun o => { o with
      backend := if v1.isUndef then eraseS name o.backend else setS name v1 o.backend }) = w3
    at h hs3 hh3 hq3 ht3
  have hold : ∀ {a b : World}, Holds a r name v1 → Unmoved r a b → r < a.objs.length → Holds b r name v1 := by
    intro a b ha hab hl
    obtain ⟨o', g1, g2⟩ := hab.data _ (List.getElem?_eq_getElem hl)
    unfold Holds storedAt at ha ⊢
    rw [List.getElem?_eq_getElem hl] at ha
    rw [g1]
    simpa [g2.2.1] using ha
  obtain ⟨b, w4, h4, h⟩ := bind_ok_inv h
  have f4 := changeTest_spared hE (n := n) p prev v1 w3 hs3.lt
  rw [h4] at f4
  obtain ⟨c1, c2⟩ := changeTest_self hs3 h4
  have hs4 := hs3.still f4.still
  have hq4 := f4.base.quar.trans hq3
  obtain ⟨v2, w5, h5, h⟩ := bind_ok_inv h
  have hmid : ∃ ev2, ((SelfChanges E n o r name p prev v1 ∧
        Notified r .change name prev (SelfReturned E n o r name v1 .change prev)
          (enabled w o .change name) v1 ev2 v2) ∨
      (SelfKeeps E n o r name p prev v1 ∧ ev2 = [] ∧ v2 = v1)) ∧
      observersOf r w5.trace = observersOf r w4.trace ++ ev2 ∧ Unmoved r w4 w5 := by
    cases b with
    | true =>
      obtain ⟨ev2, e2, k2, n2, _⟩ := notify_self hE (n := n) (w := w) .change name prev v1 v1 hs4 hq4
      have h5' : notify E (run E n) r .change name prev v1 w4 = (.ok v2, w5) := h5
      rw [h5'] at e2 k2
      exact ⟨ev2, .inl ⟨c1 rfl, n2 v2 w5 h5'⟩, e2, k2⟩
    | false =>
      have h5' : ((.ok v1, w4) : Except PyErr Val × World) = (.ok v2, w5) := h5
      cases h5'
      exact ⟨[], .inr ⟨c2 rfl, rfl, rfl⟩, by simp, Unmoved.refl _ _⟩
  obtain ⟨ev2, hmid, e5, k5⟩ := hmid
  have hs5 := hs4.still k5
  have hq5 := k5.base.quar.trans hq4
  obtain ⟨v3, w6, h6, h⟩ := bind_ok_inv h
  obtain ⟨ev3, e3, k3, n3, _⟩ := notify_self hE (n := n) (w := w) .set name prev v2 v1 hs5 hq5
  rw [h6] at e3 k3
  have hs6 := hs5.still k3
  cases h
  have e4 : observersOf r w4.trace = observersOf r w3.trace := f4.events
  refine ⟨v1, ev1, ev2, ev3, ⟨?_, v2, v3, ?_, ?_⟩, ?_, hs6,
    hold (hold (hold hh3 f4.still hs3.lt) k5 hs4.lt) k3 hs5.lt⟩
  · rw [hpv]; exact hN1
  · rw [hpv]; exact hmid
  · rw [hpv]; exact n3 v3 w' h6
  · rw [e3, e5, e4, ht3, e1]; simp

/-- A failing `_set`: a validator raised and `r` is as before, or the value was stored. -/
theorem setBody_self_err {w w1 w' : World} {o : Obj} (ho : w.objs[r]? = some o) (name : PyStr) (p : PropSpec)
    (v0 : Val) (k : Unmoved r w w1) {e : PyErr} (h : setBody E (run E n) r name p v0 w1 = (.error e, w')) :
    (Spared r w1 w' ∧ ∃ ev1, NotifyRaised r .validate name (storedOr w r name)
      (SelfReturned E n o r name (storedOr w r name) .validate (storedOr w r name))
      (SelfRaised E n o r name (storedOr w r name) .validate (storedOr w r name))
      (enabled w o .validate name) v0 ev1 e) ∨
    (∃ v1 ev1, Notified r .validate name (storedOr w r name)
      (SelfReturned E n o r name (storedOr w r name) .validate (storedOr w r name))
      (enabled w o .validate name) v0 ev1 v1 ∧ SelfWith o r name v1 w') := by
  have hs1 := (selfWith_self ho name).still k
  obtain ⟨o1, ho1, hsd⟩ := k.data o ho
  rw [setBody_eq, bind_ok (getObj_some ho1)] at h
  have hprev : (lookupS name o1.backend).getD .undef = storedOr w r name := by
    simp [storedOr, storedAt, ho, hsd.2.1]
  rw [hprev] at h
  generalize hpv : storedOr w r name = prev at h hs1
  obtain ⟨ev1, e1, k1, n1, n1'⟩ := notify_self hE (n := n) (w := w) .validate name prev v0 prev hs1 k.base.quar
  rcases bind_err_inv h with h | ⟨v1, w2, h1, h⟩
  · rw [h] at e1 k1
    have e1' : observersOf r w'.trace = observersOf r w1.trace := by simpa using e1
    exact .inl ⟨⟨k1.base, k1.data, e1'⟩, ev1, n1' e w' h⟩
  refine .inr ⟨v1, ev1, n1 v1 w2 h1, ?_⟩
  rw [h1] at k1
  have hs2 := hs1.still k1
  have hw : writeStored r name v1 w2 = (.ok (), w2.setObj r (fun o => { o with
      backend := if v1.isUndef then eraseS name o.backend else setS name v1 o.backend })) := rfl
  rw [bind_ok hw] at h
  have hs3 := hs2.write v1
  have hq3 : (w2.setObj r (fun o => { o with
      backend := if v1.isUndef then eraseS name o.backend else setS name v1 o.backend })).quar = w.quar :=
    k1.base.quar.trans k.base.quar
  generalize w2.setObj r (fun o => { o with
      backend := if v1.isUndef then eraseS name o.backend else setS name v1 o.backend }) = w3
    at h hs3 hq3
  have f4 := changeTest_spared hE (n := n) p prev v1 w3 hs3.lt
  rcases bind_err_inv h with h | ⟨b, w4, h4, h⟩
  · rw [h] at f4
    exact hs3.still f4.still
  rw [h4] at f4
  have hs4 := hs3.still f4.still
  have hq4 := f4.base.quar.trans hq3
  have k2 : Unmoved r w4
      ((if b then notify E (run E n) r .change name prev v1 else pure v1 : M Val) w4).2 := by
    cases b with
    | true =>
      obtain ⟨_, _, k2, _⟩ := notify_self hE (n := n) (w := w) .change name prev v1 v1 hs4 hq4
      exact k2
    | false => exact Unmoved.refl _ _
  rcases bind_err_inv h with h | ⟨v2, w5, h5, h⟩
  · rw [h] at k2
    exact hs4.still k2
  rw [h5] at k2
  have hs5 := hs4.still k2
  have hq5 := k2.base.quar.trans hq4
  obtain ⟨_, _, k3, _⟩ := notify_self hE (n := n) (w := w) .set name prev v2 v1 hs5 hq5
  rcases bind_err_inv h with h | ⟨v3, w6, h6, h⟩
  · rw [h] at k3
    exact hs5.still k3
  · cases h

variable {w : World} {o : Obj} {name : PyStr} {p : PropSpec}

/-- C11: a successful assignment when listeners may act on other instances: the value is
validated (except `undefined`), the listeners of the instance are called as the protocol says,
the value that the validators left is stored, and nothing else about the instance changes. -/
theorem C11_busy (ho : w.objs[r]? = some o)
    (hp : lookupS name (E.classes o.cls).props = some (.mutable p)) {v x : Val} {w' : World}
    (h : run E (n + 1) (.setattr r name v) w = (.ok x, w')) :
    ∃ v0, (v = .undef ∧ v0 = .undef ∨
        v ≠ .undef ∧ ∃ w1, run E n (.validate name p (some r) v) w = (.ok v0, w1)) ∧
      ∃ v1 ev1 ev2 ev3, SelfProtocol E n w r o name p v0 v1 ev1 ev2 ev3 ∧
        observersOf r w'.trace = observersOf r w.trace ++ (ev2 ++ ev3) ∧
        SelfWith o r name v1 w' ∧ Holds w' r name v1 := by
  have hr := (List.getElem?_eq_some_iff.1 ho).1
  have h' : assignBody E (run E n) r name p v w = (.ok x, w') := by
    rw [← setattr_mutable ho hp]; exact h
  by_cases hv : v = .undef
  · subst hv
    rw [assign_undef] at h'
    obtain ⟨_, w2, h2, h3⟩ := bind_ok_inv h'
    cases h3
    exact ⟨.undef, .inl ⟨rfl, rfl⟩, setBody_self hE ho name p .undef (Unmoved.refl _ _) h2⟩
  · rw [assign_defined hv] at h'
    obtain ⟨v0, w1, h1, h'⟩ := bind_ok_inv h'
    obtain ⟨_, w2, h2, h3⟩ := bind_ok_inv h'
    cases h3
    have hf := ((spared_stable hE).run_ok n).pres (.validate name p (some r) v) trivial w hr
    rw [h1] at hf
    obtain ⟨v1, ev1, ev2, ev3, q1, q2, q3⟩ := setBody_self hE ho name p v0 hf.still h2
    have he : observersOf r w1.trace = observersOf r w.trace := hf.events
    rw [he] at q2
    exact ⟨v0, .inr ⟨hv, w1, h1⟩, v1, ev1, ev2, ev3, q1, q2, q3⟩

/-- C11 for deletion: as an assignment of `undefined`. -/
theorem C11_busy_deletion (ho : w.objs[r]? = some o)
    (hp : lookupS name (E.classes o.cls).props = some (.mutable p)) {x : Val} {w' : World}
    (h : run E (n + 1) (.delattr r name) w = (.ok x, w')) :
    ∃ v1 ev1 ev2 ev3, SelfProtocol E n w r o name p .undef v1 ev1 ev2 ev3 ∧
        observersOf r w'.trace = observersOf r w.trace ++ (ev2 ++ ev3) ∧
        SelfWith o r name v1 w' ∧ Holds w' r name v1 := by
  have h' : (setBody E (run E n) r name p .undef >>= fun _ => pure Val.none) w = (.ok x, w') := by
    rw [← delattr_mutable ho hp]; exact h
  obtain ⟨_, w2, h2, h3⟩ := bind_ok_inv h'
  cases h3
  exact setBody_self hE ho name p .undef (Unmoved.refl _ _) h2

/-- C10: what is read afterwards is the value the validators left of the coerced value. -/
theorem C10_busy (ho : w.objs[r]? = some o)
    (hp : lookupS name (E.classes o.cls).props = some (.mutable p)) {v x : Val} {w' : World}
    (h : run E (n + 1) (.setattr r name v) w = (.ok x, w')) :
    ∃ v0 v1 ev1,
      (v = .undef ∧ v0 = .undef ∨
        v ≠ .undef ∧ ∃ w1, run E n (.validate name p (some r) v) w = (.ok v0, w1)) ∧
      Notified r .validate name (storedOr w r name)
        (SelfReturned E n o r name (storedOr w r name) .validate (storedOr w r name))
        (enabled w o .validate name) v0 ev1 v1 ∧
      (∀ m, run E (m + 1) (.getattr r name) w' = (.ok (asRead v1), w')) ∧
      (∀ nm, nm ≠ name → storedAt w' r nm = storedAt w r nm) := by
  obtain ⟨v0, h0, v1, ev1, ev2, ev3, h1, _, h3, h4⟩ := C11_busy hE ho hp h
  obtain ⟨o', ho', hc, _, _, hne⟩ := h3
  refine ⟨v0, v1, ev1, h0, h1.validators, fun m => ?_, fun nm hn => ?_⟩
  · have e : run E (m + 1) (.getattr r name) w' =
        (.ok ((lookupS name o'.backend).getD .none), w') := by
      show getattrBody E _ r name w' = _
      unfold getattrBody
      rw [bind_ok (entryOf_some ho'), hc, hp]
      show getStored r name w' = _
      unfold getStored
      rw [bind_ok (getObj_some ho')]; rfl
    rw [e]
    simp only [Holds, storedAt, ho', Option.bind_some] at h4
    rcases h4 with ⟨hv, h4⟩ | ⟨hv, h4⟩
    · rw [h4, hv]; rfl
    · rw [h4]
      cases v1 <;> first | rfl | exact absurd rfl hv
  · simp [storedAt, ho, ho', hne nm hn]

/-- C09: an assignment that fails.  The property rejected the value or a validator raised: then
the instance is as before and none of its observers was called.  Or all validators had returned
and the value was stored. -/
theorem C09_busy (ho : w.objs[r]? = some o)
    (hp : lookupS name (E.classes o.cls).props = some (.mutable p)) {v : Val} {e : PyErr}
    {w' : World} (h : run E (n + 1) (.setattr r name v) w = (.error e, w')) :
    ((v ≠ .undef ∧ run E n (.validate name p (some r) v) w = (.error e, w')) ∧
      (∃ o', w'.objs[r]? = some o' ∧ SameData o o') ∧ observersOf r w'.trace = observersOf r w.trace) ∨
    (∃ v0 w1, (v = .undef ∧ v0 = .undef ∧ w1 = w ∨
        v ≠ .undef ∧ run E n (.validate name p (some r) v) w = (.ok v0, w1)) ∧
      ((∃ ev1, NotifyRaised r .validate name (storedOr w r name)
          (SelfReturned E n o r name (storedOr w r name) .validate (storedOr w r name))
          (SelfRaised E n o r name (storedOr w r name) .validate (storedOr w r name))
          (enabled w o .validate name) v0 ev1 e) ∧
        (∃ o', w'.objs[r]? = some o' ∧ SameData o o') ∧ observersOf r w'.trace = observersOf r w.trace ∨
      ∃ v1 ev1, Notified r .validate name (storedOr w r name)
          (SelfReturned E n o r name (storedOr w r name) .validate (storedOr w r name))
          (enabled w o .validate name) v0 ev1 v1 ∧ SelfWith o r name v1 w')) := by
  have hr := (List.getElem?_eq_some_iff.1 ho).1
  have S := spared_stable hE
  have h' : assignBody E (run E n) r name p v w = (.error e, w') := by
    rw [← setattr_mutable ho hp]; exact h
  have key : ∀ v0 w1, Spared r w w1 →
      (setBody E (run E n) r name p v0 >>= fun _ => pure Val.none) w1 = (.error e, w') →
      ((∃ ev1, NotifyRaised r .validate name (storedOr w r name)
          (SelfReturned E n o r name (storedOr w r name) .validate (storedOr w r name))
          (SelfRaised E n o r name (storedOr w r name) .validate (storedOr w r name))
          (enabled w o .validate name) v0 ev1 e) ∧
        (∃ o', w'.objs[r]? = some o' ∧ SameData o o') ∧ observersOf r w'.trace = observersOf r w.trace ∨
      ∃ v1 ev1, Notified r .validate name (storedOr w r name)
          (SelfReturned E n o r name (storedOr w r name) .validate (storedOr w r name))
          (enabled w o .validate name) v0 ev1 v1 ∧ SelfWith o r name v1 w') := by
    intro v0 w1 hf hb
    rcases bind_err_inv hb with hb | ⟨_, _, _, hb⟩
    · rcases setBody_self_err hE ho name p v0 hf.still hb with ⟨hf', h1⟩ | h1
      · have hf2 := S.trans hf hf'
        exact .inl ⟨h1, hf2.data o ho, hf2.events⟩
      · exact .inr h1
    · cases hb
  by_cases hv : v = .undef
  · subst hv
    rw [assign_undef] at h'
    exact .inr ⟨.undef, w, .inl ⟨rfl, rfl, rfl⟩, key _ _ (S.refl w hr) h'⟩
  · rw [assign_defined hv] at h'
    have hf := (S.run_ok n).pres (.validate name p (some r) v) trivial w hr
    rcases bind_err_inv h' with h' | ⟨v0, w1, h1, h'⟩
    · rw [h'] at hf
      exact .inl ⟨⟨hv, h'⟩, hf.data o ho, hf.events⟩
    · rw [h1] at hf
      exact .inr ⟨v0, w1, .inr ⟨hv, h1⟩, key _ _ hf h'⟩

/-- C12: the change observers are called, each once and in order, when the value changes, and
none when it does not. -/
theorem C12_busy (ho : w.objs[r]? = some o)
    (hp : lookupS name (E.classes o.cls).props = some (.mutable p)) {v x : Val} {w' : World}
    (h : run E (n + 1) (.setattr r name v) w = (.ok x, w')) :
    ∃ v1, Holds w' r name v1 ∧
      ((SelfChanges E n o r name p (storedOr w r name) v1 ∧
        (((observersOf r w'.trace).drop (observersOf r w.trace).length).filter
          (fun e => e.mode == .change)).map (·.fn) = (enabled w o .change name).map (·.fn)) ∨
       (SelfKeeps E n o r name p (storedOr w r name) v1 ∧
        ∀ e ∈ (observersOf r w'.trace).drop (observersOf r w.trace).length, e.mode ≠ .change)) := by
  obtain ⟨v0, h0, v1, ev1, ev2, ev3, h1, h2, h3, h4⟩ := C11_busy hE ho hp h
  obtain ⟨v2, v3, h5, h6⟩ := h1.observers
  have evs_of : ∀ {ret : Listener → Val → Val → Prop} {mode ls a evs b},
      Notified r mode name (storedOr w r name) ret ls a evs b →
      evs.map (·.fn) = ls.map (·.fn) ∧ ∀ e ∈ evs, e.mode = mode := by
    intro ret mode ls a evs b hn
    induction hn with
    | nil => exact ⟨rfl, fun _ h => nomatch h⟩
    | cons _ _ ih =>
      refine ⟨by simp [ih.1], fun e he => ?_⟩
      rcases List.mem_cons.1 he with rfl | he
      · rfl
      · exact ih.2 e he
  have e3 := (evs_of h6).2
  refine ⟨v1, h4, ?_⟩
  rw [h2, List.drop_left]
  rcases h5 with ⟨hc, hn⟩ | ⟨hk, he, _⟩
  · refine .inl ⟨hc, ?_⟩
    have e2 := evs_of hn
    have f2 : ev2.filter (fun e => e.mode == .change) = ev2 := by
      rw [List.filter_eq_self]; intro e he; rw [e2.2 e he]; rfl
    have f3 : ev3.filter (fun e => e.mode == .change) = [] := by
      rw [List.filter_eq_nil_iff]; intro e he; rw [e3 e he]; decide
    rw [List.filter_append, f2, f3, List.append_nil, e2.1]
  · refine .inr ⟨hk, ?_⟩
    subst he
    intro e he
    rw [e3 e (by simpa using he)]; decide

end

/-! Non-vacuity: the change observer of instance 0 (function 1) assigns to instance 1, whose own
observer runs too; the validator (function 4) does so as well and then replaces the value. -/

def busyFn (f : FnId) (args : List Val) : Prog :=
  if f = 1 then .call (.setattr 1 (s% "p") (args.getD 3 .none)) fun _ => .ret .none
  else if f = 4 then .call (.setattr 1 (s% "p") (.str (s% "seen"))) fun _ => .ret (.str (s% "new"))
  else if f = 3 then .raise { kind := .value }
  else .ret (args.getD 3 .none)

def busyEnv : Env := { assignEnv with fn := busyFn }

def busyWorld (fns : List FnId) : World := { objs := (assignWorld fns).objs ++ [{
  cls := 0, backend := [], listeners := [⟨s% "p", .set, 2⟩] }] }

theorem busy_example : (∀ f args, Spares 0 (busyEnv.fn f args)) ∧
    (run busyEnv 5 (.setattr 0 (s% "p") (.str (s% "x"))) (busyWorld [4])).1 = .ok .none ∧
    observersOf 0 (run busyEnv 5 (.setattr 0 (s% "p") (.str (s% "x"))) (busyWorld [4])).2.trace =
      [⟨0, .change, s% "p", .str (s% "old"), .str (s% "new"), 1⟩,
       ⟨0, .set, s% "p", .str (s% "old"), .none, 2⟩] ∧
    observersOf 1 (run busyEnv 5 (.setattr 0 (s% "p") (.str (s% "x"))) (busyWorld [4])).2.trace =
      [⟨1, .set, s% "p", .undef, .str (s% "seen"), 2⟩,
       ⟨1, .set, s% "p", .str (s% "seen"), .str (s% "new"), 2⟩] ∧
    storedAt (run busyEnv 5 (.setattr 0 (s% "p") (.str (s% "x"))) (busyWorld [4])).2 1 (s% "p") =
      some (.str (s% "new")) := by
  refine ⟨?_, ?_⟩
  · intro f args
    show Spares 0 (busyFn f args)
    unfold busyFn
    split
    · exact ⟨by decide, fun _ => trivial⟩
    · split
      · exact ⟨by decide, fun _ => trivial⟩
      · split <;> exact trivial
  · refine ⟨?_, ?_, ?_, ?_⟩ <;> with_unfolding_all rfl

/-- A validator raises after another one has acted on instance 1; a deletion. -/
example :
    (run busyEnv 5 (.setattr 0 (s% "p") (.str (s% "x"))) (busyWorld [4, 3])).1 = .error { kind := .value } ∧
    storedAt (run busyEnv 5 (.setattr 0 (s% "p") (.str (s% "x"))) (busyWorld [4, 3])).2 1 (s% "p") =
      some (.str (s% "seen")) ∧
    storedAt (run busyEnv 5 (.setattr 0 (s% "p") (.str (s% "x"))) (busyWorld [4, 3])).2 0 (s% "p") =
      some (.str (s% "old")) ∧
    (run busyEnv 5 (.delattr 0 (s% "p")) (busyWorld [2])).1 = .ok .none := by
  refine ⟨?_, ?_, ?_, ?_⟩ <;> with_unfolding_all rfl

end Verif
