import Verif.Lemmas.Frame
import Verif.Lemmas.Monad
import Verif.Spec.Assign

/-!
# Running listeners and assignments
-/

namespace Verif
open Spec

theorem lookupS_setS {α : Type} (k : PyStr) (v : α) :
    ∀ l : List (PyStr × α), lookupS k (setS k v l) = some v
  | [] => by simp [setS, lookupS]
  | (k', v') :: l => by
      unfold setS
      split
      · simp [lookupS, *]
      · simp [lookupS, *, lookupS_setS k v l]

theorem lookupS_setS_ne {α : Type} {k k' : PyStr} (h : k' ≠ k) (v : α) :
    ∀ l : List (PyStr × α), lookupS k' (setS k v l) = lookupS k' l
  | [] => by simp [setS, lookupS, Ne.symm h]
  | (a, v') :: l => by
      unfold setS
      split
      · subst_vars; simp [lookupS, Ne.symm h]
      · simp only [lookupS, lookupS_setS_ne h v l]

theorem lookupS_eraseS {α : Type} (k : PyStr) :
    ∀ l : List (PyStr × α), lookupS k (eraseS k l) = none
  | [] => rfl
  | (k', v') :: l => by
      unfold eraseS
      split
      · exact lookupS_eraseS k l
      · simp [lookupS, *, lookupS_eraseS k l]

theorem lookupS_eraseS_ne {α : Type} {k k' : PyStr} (h : k' ≠ k) :
    ∀ l : List (PyStr × α), lookupS k' (eraseS k l) = lookupS k' l
  | [] => rfl
  | (a, v') :: l => by
      unfold eraseS
      split
      · subst_vars; simp [lookupS, Ne.symm h, lookupS_eraseS_ne h l]
      · simp only [lookupS, lookupS_eraseS_ne h l]

/-- Objects below `N` keep their data. -/
structure Kept (N : Nat) (w w' : World) : Prop where
  base : Restored w w'
  old : ∀ (r : Nat) (o : Obj), r < N → w.objs[r]? = some o →
    ∃ o', w'.objs[r]? = some o' ∧ SameData o o'

theorem Frame.kept {N : Nat} {vb : Bool} {w w' : World} (h : Frame N vb w w') : Kept N w w' :=
  ⟨h.base, h.old⟩

theorem Kept.refl (N : Nat) (w : World) : Kept N w w := ⟨Restored.refl w, old_refl w⟩

theorem Kept.trans {N : Nat} {a b c : World} (h : Kept N a b) (k : Kept N b c) : Kept N a c :=
  ⟨h.base.trans k.base, fun r o hr ho => by
    obtain ⟨o1, h1, k1⟩ := h.old r o hr ho
    obtain ⟨o2, h2, k2⟩ := k.old r o1 hr h1
    exact ⟨o2, h2, k1.trans k2⟩⟩

theorem Kept.stored {N : Nat} {w w' : World} (h : Kept N w w') (hN : N ≤ w.objs.length) {r : Nat}
    (hr : r < N) (nm : PyStr) : storedAt w' r nm = storedAt w r nm := by
  have ho : w.objs[r]? = some w.objs[r] := List.getElem?_eq_getElem (by omega)
  obtain ⟨o', h1, k⟩ := h.old r _ hr ho
  simp [storedAt, ho, h1, k.2.1]

theorem asWith_self (w : World) (r : Nat) (name : PyStr) :
    AsWith w r name (storedOr w r name) w :=
  ⟨rfl, fun _ _ _ _ => rfl, fun _ o h => ⟨o, h, rfl, rfl⟩⟩

theorem Spec.AsWith.kept {w u u' : World} {r : Nat} {name : PyStr} {s : Val}
    (h : AsWith w r name s u) (hl : w.objs.length ≤ u.objs.length) (hr : r < w.objs.length)
    (k : Kept w.objs.length u u') : AsWith w r name s u' := by
  refine ⟨?_, fun i nm hi hn => ?_, fun i o ho => ?_⟩
  · unfold storedOr; rw [k.stored hl hr]; exact h.1
  · rw [k.stored hl hi]; exact h.2.1 i nm hi hn
  · have hi := (List.getElem?_eq_some_iff.1 ho).1
    obtain ⟨o1, h1, h2, h3⟩ := h.2.2 i o ho
    obtain ⟨o2, h4, h5⟩ := k.old i o1 hi h1
    exact ⟨o2, h4, h5.1.trans h2, h5.2.2.trans h3⟩

/-- Storing a value. -/
theorem Spec.AsWith.write {w u : World} {r : Nat} {name : PyStr} {s : Val} (h : AsWith w r name s u)
    (hr : r < u.objs.length) (v : Val) :
    AsWith w r name v (u.setObj r (fun o => { o with
      backend := if v.isUndef then eraseS name o.backend else setS name v o.backend })) := by
  have ho : u.objs[r]? = some u.objs[r] := List.getElem?_eq_getElem hr
  refine ⟨?_, fun i nm hi hn => ?_, fun i o hi => ?_⟩
  · unfold storedOr storedAt
    simp only [World.setObj, List.getElem?_modify, ho, if_true, Option.map_some, Option.bind_some,
      Functor.map]
    by_cases hv : v.isUndef = true
    · rw [if_pos hv, lookupS_eraseS]
      cases v <;> first | rfl | cases hv
    · rw [if_neg hv, lookupS_setS]; rfl
  · rw [← h.2.1 i nm hi hn]
    unfold storedAt
    by_cases hir : r = i
    · subst hir
      have hnm : nm ≠ name := by rcases hn with h | h; exact absurd rfl h; exact h
      simp only [World.setObj, List.getElem?_modify, ho, if_true, Option.map_some,
        Option.bind_some, Functor.map]
      split
      · exact lookupS_eraseS_ne hnm _
      · exact lookupS_setS_ne hnm v _
    · simp [World.setObj, List.getElem?_modify, hir]
  · obtain ⟨o1, h1, h2, h3⟩ := h.2.2 i o hi
    by_cases hir : r = i
    · subst hir
      refine ⟨{ o1 with
          backend := (if v.isUndef then eraseS name o1.backend else setS name v o1.backend) },
        ?_, h2, h3⟩
      simp [World.setObj, h1]
    · exact ⟨o1, by simp [World.setObj, List.getElem?_modify, h1, hir], h2, h3⟩

theorem isUndef_iff {v : Val} : v.isUndef = true ↔ v = .undef := by cases v <;> simp [Val.isUndef]

theorem isUndef_false {v : Val} : v.isUndef = false ↔ v ≠ .undef := by cases v <;> simp [Val.isUndef]

theorem Spec.Holds.kept {N : Nat} {u u' : World} {r : Nat} {name : PyStr} {v : Val}
    (h : Holds u r name v) (k : Kept N u u') (hl : N ≤ u.objs.length) (hr : r < N) :
    Holds u' r name v := by
  unfold Holds; rw [k.stored hl hr]; exact h

theorem holds_write {u : World} {r : Nat} (name : PyStr) (hr : r < u.objs.length) (v : Val) :
    Holds (u.setObj r (fun o => { o with
      backend := if v.isUndef then eraseS name o.backend else setS name v o.backend })) r name v := by
  have ho : u.objs[r]? = some u.objs[r] := List.getElem?_eq_getElem hr
  unfold Holds storedAt
  simp only [World.setObj, List.getElem?_modify, ho, if_true, Option.map_some, Option.bind_some,
      Functor.map]
  cases hv : v.isUndef with
  | true =>
    simp only [if_true, lookupS_eraseS]
    exact .inl ⟨isUndef_iff.1 hv, trivial⟩
  | false =>
    simp only [Bool.false_eq_true, if_false, lookupS_setS]
    exact .inr ⟨isUndef_false.1 hv, trivial⟩

section
variable {E : Env} {N : Nat} {vb : Bool} {Q : Call → Val → World → Prop} {rec : Rec}
  (S : Stable E (N ≤ ·) (vb = true) (fun _ => True) True (N ≤ ·) (fun w => N ≤ w.objs.length) (Frame N vb))
  (H : RecOk (N ≤ ·) (vb = true) (fun _ => True) True (fun w => N ≤ w.objs.length) (Frame N vb) Q rec)

/-- The event of one listener call. -/
def ev (r : Nat) (mode : Mode) (name : PyStr) (prev v : Val) (l : Listener) : Event :=
  { inst := r, mode := mode, name := name, prev := prev, value := v, fn := l.fn }

/-- The callback `l` called with value `a` in a state satisfying `P`. -/
def callback (E : Env) (rec : Rec) (r : Nat) (mode : Mode) (name : PyStr) (prev : Val)
    (l : Listener) (a : Val) : M Val :=
  callFn E rec l.fn [.obj r, .str name, prev, a, .str mode.toStr]

theorem kept_trace (N : Nat) (w : World) (e : Event) :
    Kept N w { w with trace := w.trace ++ [e] } :=
  ⟨⟨rfl, Nat.le_refl _, (Restored.refl w).old, (Restored.refl w).new⟩, old_refl w⟩

include S H in
/-- Running the listeners one after the other. -/
theorem foldNotify (r : Nat) (mode : Mode) (name : PyStr) (prev : Val) (P : World → Prop)
    (hP : ∀ u u', N ≤ u.objs.length → P u → Kept N u u' → P u')
    (hm : r < N) :
    ∀ ls v u, N ≤ u.objs.length → P u →
      ∃ evs, ((vb = true → mode ≠ .validate) →
        watched N vb (foldML (notifyOne E rec r mode name prev) v ls u).2.trace =
          watched N vb u.trace ++ evs) ∧
        Kept N u (foldML (notifyOne E rec r mode name prev) v ls u).2 ∧
        (∀ v' u', foldML (notifyOne E rec r mode name prev) v ls u = (.ok v', u') →
          Notified r mode name prev
            (fun l a b => ∃ x x', P x ∧ callback E rec r mode name prev l a x = (.ok b, x'))
            ls v evs v') ∧
        (∀ e u', foldML (notifyOne E rec r mode name prev) v ls u = (.error e, u') →
          NotifyRaised r mode name prev
            (fun l a b => ∃ x x', P x ∧ callback E rec r mode name prev l a x = (.ok b, x'))
            (fun l a b => ∃ x x', P x ∧ callback E rec r mode name prev l a x = (.error b, x'))
            ls v evs e) := by
  intro ls
  induction ls with
  | nil =>
    intro v u _ _
    exact ⟨[], fun _ => by simp [foldML], Kept.refl N u, fun v' u' h => by cases h; exact .nil _,
      fun e u' h => by cases h⟩
  | cons l ls ih =>
    intro v u hu hPu
    have hk := kept_trace N u (ev r mode name prev v l)
    have hP1 := hP _ _ hu hPu hk
    have hc := pres_callFn S.toBase H l.fn [.obj r, .str name, prev, v, .str mode.toStr]
      { u with trace := u.trace ++ [ev r mode name prev v l] } hu
    have hw (hv : vb = true → mode ≠ .validate) : watched N vb (u.trace ++ [ev r mode name prev v l]) =
        watched N vb u.trace ++ [ev r mode name prev v l] := by
      have : (decide (r < N) && (!vb || mode != .validate)) = true := by
        cases vb with
        | false => simp [hm]
        | true => simp [hm, hv rfl]
      simp [watched, ev, this]
    have hstep : foldML (notifyOne E rec r mode name prev) v (l :: ls) u =
        (callback E rec r mode name prev l v >>= fun b =>
          foldML (notifyOne E rec r mode name prev) b ls)
          { u with trace := u.trace ++ [ev r mode name prev v l] } := rfl
    rw [hstep]
    cases hcb : callback E rec r mode name prev l v
        { u with trace := u.trace ++ [ev r mode name prev v l] } with
    | mk x u1 =>
      have hc' : Frame N vb { u with trace := u.trace ++ [ev r mode name prev v l] } u1 := by
        have : callFn E rec l.fn [.obj r, .str name, prev, v, .str mode.toStr]
          { u with trace := u.trace ++ [ev r mode name prev v l] } = (x, u1) := hcb
        rw [this] at hc; exact hc
      cases x with
      | error e =>
        rw [bind_err hcb]
        refine ⟨[ev r mode name prev v l], ?_, hk.trans hc'.kept, fun v' u' h => (by cases h),
          fun e' u' h => ?_⟩
        · intro hv; rw [hc'.events]; exact hw hv
        · cases h; exact .here ⟨_, _, hP1, hcb⟩
      | ok b =>
        rw [bind_ok hcb]
        have hu1 : N ≤ u1.objs.length := Nat.le_trans hu hc'.base.len
        have hP2 := hP { u with trace := u.trace ++ [ev r mode name prev v l] } _ hu hP1 hc'.kept
        obtain ⟨evs, h1, h2, h3, h4⟩ := ih b u1 hu1 hP2
        refine ⟨ev r mode name prev v l :: evs, ?_, (hk.trans hc'.kept).trans h2,
          fun v' u' h => ?_, fun e u' h => ?_⟩
        · intro hv; rw [h1 hv, hc'.events, hw hv]; simp
        · exact .cons ⟨_, _, hP1, hcb⟩ (h3 v' u' h)
        · exact .later ⟨_, _, hP1, hcb⟩ (h4 e u' h)

theorem notify_apply {r : Nat} {mode : Mode} {name : PyStr} {prev v : Val} {w : World} {o : Obj}
    (ho : w.objs[r]? = some o) : notify E rec r mode name prev v w =
      foldML (notifyOne E rec r mode name prev) v (enabled w o mode name) w := by
  unfold notify
  rw [bind_ok (getObj_some ho), bind_ok (get_apply w)]
  rfl

include S H in
theorem notify_spec {w u : World} (hN : N = w.objs.length) {r : Nat} {o : Obj}
    (ho : w.objs[r]? = some o) (mode : Mode) (name : PyStr) (prev v s : Val)
    (hs : AsWith w r name s u) (hq : u.quar = w.quar) (hl : w.objs.length ≤ u.objs.length) :
    ∃ evs, ((vb = true → mode ≠ .validate) →
        watched N vb (notify E rec r mode name prev v u).2.trace = watched N vb u.trace ++ evs) ∧
      Kept N u (notify E rec r mode name prev v u).2 ∧
      (∀ v' u', notify E rec r mode name prev v u = (.ok v', u') →
        Notified r mode name prev (fun l a b => ∃ x x', AsWith w r name s x ∧
          callback E rec r mode name prev l a x = (.ok b, x')) (enabled w o mode name) v evs v') ∧
      (∀ e u', notify E rec r mode name prev v u = (.error e, u') →
        NotifyRaised r mode name prev
          (fun l a b => ∃ x x', AsWith w r name s x ∧
            callback E rec r mode name prev l a x = (.ok b, x'))
          (fun l a b => ∃ x x', AsWith w r name s x ∧
            callback E rec r mode name prev l a x = (.error b, x'))
          (enabled w o mode name) v evs e) := by
  subst hN
  have hr := (List.getElem?_eq_some_iff.1 ho).1
  obtain ⟨ou, hu, _, hls⟩ := hs.2.2 r o ho
  have he : enabled u ou mode name = enabled w o mode name := by
    unfold enabled; rw [hq, hls]
  rw [notify_apply hu, he]
  exact foldNotify S H r mode name prev _ (fun u u' h1 h2 h3 => h2.kept h1 hr h3) hr _ v u hl hs

theorem watched_append (N : Nat) (vb : Bool) (a b : List Event) :
    watched N vb (a ++ b) = watched N vb a ++ watched N vb b := by simp [watched]

end

/-- Whether the new value counts as a change (the comparison in `_set`). -/
def changeTest (rec : Rec) (p : PropSpec) (prev v1 : Val) : M Bool :=
  if prev.isUndef && v1.isUndef then pure false
  else if prev.isUndef || v1.isUndef then pure true
  else do
    let e ← rec (.propEqual p prev v1)
    pure (!e.truthy)

theorem setBody_eq (E : Env) (rec : Rec) (r : Nat) (name : PyStr) (p : PropSpec) (v0 : Val) :
    setBody E rec r name p v0 = (do
      let o ← getObj r
      let v1 ← notify E rec r .validate name ((lookupS name o.backend).getD .undef) v0
      writeStored r name v1
      let changed ← changeTest rec p ((lookupS name o.backend).getD .undef) v1
      let v2 ← (if changed then notify E rec r .change name ((lookupS name o.backend).getD .undef) v1
        else pure v1)
      let _ ← notify E rec r .set name ((lookupS name o.backend).getD .undef) v2
      pure ()) := rfl

theorem changeTest_ok {E : Env} {n : Nat} {p : PropSpec} {prev v1 : Val} {w u u' : World} {r : Nat}
    {name : PyStr} (hs : AsWith w r name v1 u) {b : Bool}
    (h : changeTest (run E n) p prev v1 u = (.ok b, u')) :
    (b = true → Changes E n w r name p prev v1) ∧ (b = false → Keeps E n w r name p prev v1) := by
  unfold changeTest at h
  cases hp : prev.isUndef with
  | true => cases hv : v1.isUndef with
    | true =>
      simp only [hp, hv, Bool.and_self, if_true, pure_apply, Prod.mk.injEq, Except.ok.injEq] at h
      rw [← h.1]
      exact ⟨fun h => (by cases h), fun _ => .inl ⟨isUndef_iff.1 hp, isUndef_iff.1 hv⟩⟩
    | false =>
      simp only [hp, hv, Bool.and_false, Bool.or_false, Bool.false_eq_true, if_false, if_true, pure_apply, Prod.mk.injEq,
        Except.ok.injEq] at h
      have : b = true := by simpa using h.1.symm
      subst this
      exact ⟨fun _ => .inl ⟨isUndef_iff.1 hp, isUndef_false.1 hv⟩, fun h => (by cases h)⟩
  | false => cases hv : v1.isUndef with
    | true =>
      simp only [hp, hv, Bool.false_and, Bool.or_true, Bool.false_eq_true, if_false, if_true, pure_apply, Prod.mk.injEq,
        Except.ok.injEq] at h
      have : b = true := by simpa using h.1.symm
      subst this
      exact ⟨fun _ => .inr (.inl ⟨isUndef_false.1 hp, isUndef_iff.1 hv⟩), fun h => (by cases h)⟩
    | false =>
      simp only [hp, hv, Bool.and_self, Bool.or_self, Bool.false_eq_true, if_false] at h
      obtain ⟨e, u1, h1, h2⟩ := bind_ok_inv h
      simp only [pure_apply, Prod.mk.injEq, Except.ok.injEq] at h2
      have hp' := isUndef_false.1 hp
      have hv' := isUndef_false.1 hv
      refine ⟨fun hb => .inr (.inr ⟨hp', hv', u, u1, e, hs, h1, ?_⟩),
        fun hb => .inr ⟨hp', hv', u, u1, e, hs, h1, ?_⟩⟩
      · rw [hb] at h2; simpa using h2.1
      · rw [hb] at h2; simpa using h2.1

section
variable {E : Env} {N : Nat} {vb : Bool} {Q : Call → Val → World → Prop}
  (S : Stable E (N ≤ ·) (vb = true) (fun _ => True) True (N ≤ ·) (fun w => N ≤ w.objs.length) (Frame N vb)) {n : Nat}
  (H : RecOk (N ≤ ·) (vb = true) (fun _ => True) True (fun w => N ≤ w.objs.length) (Frame N vb) Q (run E n))

include S H in
theorem changeTest_frame (p : PropSpec) (prev v1 : Val) (u : World) (hu : N ≤ u.objs.length) :
    Frame N vb u (changeTest (run E n) p prev v1 u).2 := by
  have : Pres (fun w => N ≤ w.objs.length) (Frame N vb) (changeTest (run E n) p prev v1) := by
    unfold changeTest
    pres S.toBase, H
  exact this u hu

include S H in
/-- A completed `_set`, started in a state `w1` with the data of `w`. -/
theorem setBody_ok {w w1 w' : World} (hN : N = w.objs.length) {r : Nat} {o : Obj}
    (ho : w.objs[r]? = some o) (name : PyStr) (p : PropSpec) (v0 : Val) (k : Kept N w w1)
    (h : setBody E (run E n) r name p v0 w1 = (.ok (), w')) :
    ∃ v1 ev1 ev2 ev3, Protocol E n w r o name p v0 v1 ev1 ev2 ev3 ∧
      watched N vb w'.trace =
        watched N vb w1.trace ++ ((if vb then [] else ev1) ++ ev2 ++ ev3) ∧
      AsWith w r name v1 w' ∧ Holds w' r name v1 := by
  subst hN
  have hr := (List.getElem?_eq_some_iff.1 ho).1
  have hl1 : w.objs.length ≤ w1.objs.length := k.base.len
  have hs1 := (asWith_self w r name).kept (Nat.le_refl _) hr k
  obtain ⟨o1, ho1, hsd⟩ := k.old r o hr ho
  rw [setBody_eq, bind_ok (getObj_some ho1)] at h
  have hprev : (lookupS name o1.backend).getD .undef = storedOr w r name := by
    simp [storedOr, storedAt, ho, hsd.2.1]
  rw [hprev] at h
  generalize hpv : storedOr w r name = prev at h hs1
  obtain ⟨v1, w2, h1, h⟩ := bind_ok_inv h
  obtain ⟨ev1, e1, k1, n1, _⟩ := notify_spec S H rfl ho .validate name prev v0 prev hs1 k.base.quar hl1
  rw [h1] at e1 k1
  have hN1 := n1 v1 w2 h1
  have e1' : watched w.objs.length vb w2.trace =
      watched w.objs.length vb w1.trace ++ (if vb then [] else ev1) := by
    cases vb with
    | false => exact e1 (fun h => by cases h)
    | true =>
      have hf := pres_notify S.toBase H r .validate name prev v0 (.inr ⟨rfl, rfl⟩) w1 hl1
      rw [h1] at hf
      simpa using hf.events
  have hs2 : AsWith w r name prev w2 := hs1.kept hl1 hr k1
  have hl2 : w.objs.length ≤ w2.objs.length := Nat.le_trans hl1 k1.base.len
  have hw : writeStored r name v1 w2 = (.ok (), w2.setObj r (fun o => { o with
      backend := if v1.isUndef then eraseS name o.backend else setS name v1 o.backend })) := rfl
  rw [bind_ok hw] at h
  have hs3 := hs2.write (Nat.lt_of_lt_of_le hr hl2) v1
  have hh3 := holds_write name (Nat.lt_of_lt_of_le hr hl2) v1
  generalize hw3 : w2.setObj r (fun o => { o with
      backend := if v1.isUndef then eraseS name o.backend else setS name v1 o.backend }) = w3
    at h hs3 hh3
  have hl3 : w.objs.length ≤ w3.objs.length := by rw [← hw3]; simpa [World.setObj] using hl2
  have hq3 : w3.quar = w.quar := by
    rw [← hw3]; exact k1.base.quar.trans k.base.quar
  have ht3 : w3.trace = w2.trace := by rw [← hw3]; rfl
  obtain ⟨b, w4, h4, h⟩ := bind_ok_inv h
  have f4 := changeTest_frame S H p prev v1 w3 hl3
  rw [h4] at f4
  obtain ⟨c1, c2⟩ := changeTest_ok hs3 h4
  have hs4 : AsWith w r name v1 w4 := hs3.kept hl3 hr f4.kept
  have hl4 : w.objs.length ≤ w4.objs.length := Nat.le_trans hl3 f4.base.len
  have hq4 := f4.base.quar.trans hq3
  obtain ⟨v2, w5, h5, h⟩ := bind_ok_inv h
  have hmid : ∃ ev2, ((Changes E n w r name p prev v1 ∧
        Notified r .change name prev (Returned E n w r name v1 .change prev)
          (enabled w o .change name) v1 ev2 v2) ∨
      (Keeps E n w r name p prev v1 ∧ ev2 = [] ∧ v2 = v1)) ∧
      watched w.objs.length vb w5.trace = watched w.objs.length vb w4.trace ++ ev2 ∧
      Kept w.objs.length w4 w5 := by
    cases b with
    | true =>
      obtain ⟨ev2, e2, k2, n2, _⟩ := notify_spec S H rfl ho .change name prev v1 v1 hs4 hq4 hl4
      have h5' : notify E (run E n) r .change name prev v1 w4 = (.ok v2, w5) := h5
      rw [h5'] at e2 k2
      exact ⟨ev2, .inl ⟨c1 rfl, n2 v2 w5 h5'⟩, e2 (fun _ h => by cases h), k2⟩
    | false =>
      have h5' : ((.ok v1, w4) : Except PyErr Val × World) = (.ok v2, w5) := h5
      cases h5'
      exact ⟨[], .inr ⟨c2 rfl, rfl, rfl⟩, by simp, Kept.refl _ _⟩
  obtain ⟨ev2, hmid, e5, k5⟩ := hmid
  have hs5 : AsWith w r name v1 w5 := hs4.kept hl4 hr k5
  have hl5 : w.objs.length ≤ w5.objs.length := Nat.le_trans hl4 k5.base.len
  have hq5 := k5.base.quar.trans hq4
  obtain ⟨v3, w6, h6, h⟩ := bind_ok_inv h
  obtain ⟨ev3, e3, k3, n3, _⟩ := notify_spec S H rfl ho .set name prev v2 v1 hs5 hq5 hl5
  rw [h6] at e3 k3
  have hs6 : AsWith w r name v1 w6 := hs5.kept hl5 hr k3
  cases h
  refine ⟨v1, ev1, ev2, ev3, ⟨?_, v2, v3, ?_, ?_⟩, ?_, hs6,
    (((hh3.kept f4.kept hl3 hr).kept k5 hl4 hr).kept k3 hl5 hr)⟩
  · rw [hpv]; exact hN1
  · rw [hpv]; exact hmid
  · rw [hpv]; exact n3 v3 w' h6
  · rw [e3 (fun _ h => by cases h), e5, f4.events, ht3, e1']; simp

include S H in
/-- A failing `_set`: a validator raised and the data is as before, or the
value was stored. -/
theorem setBody_err {w w1 w' : World} (hN : N = w.objs.length) (hvb : vb = true) {r : Nat} {o : Obj}
    (ho : w.objs[r]? = some o) (name : PyStr) (p : PropSpec) (v0 : Val) (k : Kept N w w1)
    {e : PyErr} (h : setBody E (run E n) r name p v0 w1 = (.error e, w')) :
    (Frame N vb w1 w' ∧ ∃ ev1, NotifyRaised r .validate name (storedOr w r name)
      (Returned E n w r name (storedOr w r name) .validate (storedOr w r name))
      (Raised E n w r name (storedOr w r name) .validate (storedOr w r name))
      (enabled w o .validate name) v0 ev1 e) ∨
    (∃ v1 ev1, Notified r .validate name (storedOr w r name)
      (Returned E n w r name (storedOr w r name) .validate (storedOr w r name))
      (enabled w o .validate name) v0 ev1 v1 ∧ AsWith w r name v1 w') := by
  subst hN
  have hr := (List.getElem?_eq_some_iff.1 ho).1
  have hl1 : w.objs.length ≤ w1.objs.length := k.base.len
  have hs1 := (asWith_self w r name).kept (Nat.le_refl _) hr k
  obtain ⟨o1, ho1, hsd⟩ := k.old r o hr ho
  rw [setBody_eq, bind_ok (getObj_some ho1)] at h
  have hprev : (lookupS name o1.backend).getD .undef = storedOr w r name := by
    simp [storedOr, storedAt, ho, hsd.2.1]
  rw [hprev] at h
  generalize hpv : storedOr w r name = prev at h hs1
  obtain ⟨ev1, e1, k1, n1, n1'⟩ := notify_spec S H rfl ho .validate name prev v0 prev hs1 k.base.quar hl1
  have hf := pres_notify S.toBase H r .validate name prev v0 (.inr ⟨hvb, rfl⟩) w1 hl1
  rcases bind_err_inv h with h | ⟨v1, w2, h1, h⟩
  · rw [h] at hf
    exact .inl ⟨hf, ev1, n1' e w' h⟩
  refine .inr ⟨v1, ev1, n1 v1 w2 h1, ?_⟩
  rw [h1] at k1
  have hs2 : AsWith w r name prev w2 := hs1.kept hl1 hr k1
  have hl2 : w.objs.length ≤ w2.objs.length := Nat.le_trans hl1 k1.base.len
  have hw : writeStored r name v1 w2 = (.ok (), w2.setObj r (fun o => { o with
      backend := if v1.isUndef then eraseS name o.backend else setS name v1 o.backend })) := rfl
  rw [bind_ok hw] at h
  have hs3 := hs2.write (Nat.lt_of_lt_of_le hr hl2) v1
  generalize hw3 : w2.setObj r (fun o => { o with
      backend := if v1.isUndef then eraseS name o.backend else setS name v1 o.backend }) = w3
    at h hs3
  have hl3 : w.objs.length ≤ w3.objs.length := by rw [← hw3]; simpa [World.setObj] using hl2
  have hq3 : w3.quar = w.quar := by
    rw [← hw3]; exact k1.base.quar.trans k.base.quar
  have f4 := changeTest_frame S H p prev v1 w3 hl3
  rcases bind_err_inv h with h | ⟨b, w4, h4, h⟩
  · rw [h] at f4
    exact hs3.kept hl3 hr f4.kept
  rw [h4] at f4
  have hs4 : AsWith w r name v1 w4 := hs3.kept hl3 hr f4.kept
  have hl4 : w.objs.length ≤ w4.objs.length := Nat.le_trans hl3 f4.base.len
  have hq4 := f4.base.quar.trans hq3
  have k2 : Kept w.objs.length w4
      ((if b then notify E (run E n) r .change name prev v1 else pure v1 : M Val) w4).2 := by
    cases b with
    | true =>
      obtain ⟨_, _, k2, _⟩ := notify_spec S H rfl ho .change name prev v1 v1 hs4 hq4 hl4
      exact k2
    | false => exact Kept.refl _ _
  rcases bind_err_inv h with h | ⟨v2, w5, h5, h⟩
  · rw [h] at k2
    exact hs4.kept hl4 hr k2
  rw [h5] at k2
  have hs5 : AsWith w r name v1 w5 := hs4.kept hl4 hr k2
  have hl5 : w.objs.length ≤ w5.objs.length := Nat.le_trans hl4 k2.base.len
  have hq5 := k2.base.quar.trans hq4
  obtain ⟨_, _, k3, _⟩ := notify_spec S H rfl ho .set name prev v2 v1 hs5 hq5 hl5
  rcases bind_err_inv h with h | ⟨v3, w6, h6, h⟩
  · rw [h] at k3
    exact hs5.kept hl5 hr k3
  · cases h
end

end Verif
