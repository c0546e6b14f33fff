import Verif.Spec.Variables
import Verif.Lemmas.Alike
import Verif.Lemmas.Answers
import Verif.Props.C77
import Verif.Props.C103

/-!
# C104: properties without listeners are variables of their own
-/

namespace Verif
open Spec Spec.Exc LinkProg.Spec

variable {E : Env}

theorem setBody_outcome {j r : Nat} {k : PyStr} {p : PropSpec} {v : Val} {w : World} {o : Obj}
    (ho : w.objs[r]? = some o) (hl : ∀ l ∈ o.listeners, l.name ≠ k) (hi : ¬ Visits p) :
    ∃ y, setBody E (run E j) r k p v w =
        (y, w.setObj r (fun o => { o with backend := putOut k (some v) o.backend })) ∧
      (y = .ok () ∧ ((((lookupS k o.backend).getD .undef).isUndef || v.isUndef) = true ∨
          ∃ t, (run E j (.propEqual p ((lookupS k o.backend).getD .undef) v) {}).1 = .ok t) ∨
        ∃ e prev, y = .error e ∧ lookupS k o.backend = some prev ∧ (prev.isUndef || v.isUndef) = false ∧
        (run E j (.propEqual p prev v) {}).1 = .error e) := by
  have hgo : getObj r w = (.ok o, w) := by simp [getObj, ho]
  unfold setBody
  rw [bind_ok hgo]
  rw [bind_ok (notify_no_listener ho hl)]
  have hw1 : writeStored r k v w = (.ok (), w.setObj r (fun o => { o with
      backend := putOut k (some v) o.backend })) := rfl
  rw [bind_ok hw1]
  generalize hww : w.setObj r (fun o => { o with backend := putOut k (some v) o.backend }) = w1
  have ho1 : w1.objs[r]? = some { o with backend := putOut k (some v) o.backend } := by
    rw [← hww]; simp [World.setObj, ho]
  have nn : ∀ (mode : Mode) (prev v : Val), notify E (run E j) r mode k prev v w1 = (.ok v, w1) :=
    fun mode prev v => notify_no_listener ho1 hl
  have fin : ∀ (prev : Val) (b : Bool), ((do
      let v2 ← (if b then notify E (run E j) r .change k prev v else pure v)
      let _ ← notify E (run E j) r .set k prev v2
      pure ()) : M Unit) w1 = (.ok (), w1) := by
    intro prev b
    have h1 : (if b = true then notify E (run E j) r .change k prev v else pure v) w1
        = (.ok v, w1) := by
      split
      · exact nn _ _ _
      · rfl
    rw [bind_ok h1, bind_ok (nn _ _ _)]; rfl
  cases hprev : lookupS k o.backend with
  | none =>
    refine ⟨.ok (), ?_, .inl ⟨rfl, .inl rfl⟩⟩
    simp only [Option.getD_none]
    cases hv : v.isUndef with
    | true =>
      have e1 : (Val.undef.isUndef && true) = true := rfl
      simp only [e1, if_true]
      exact (bind_ok (a := false) rfl).trans (fin _ false)
    | false =>
      have e1 : (Val.undef.isUndef && false) = false := rfl
      have e2 : (Val.undef.isUndef || false) = true := rfl
      simp only [e1, e2, Bool.false_eq_true, if_false, if_true]
      exact (bind_ok (a := true) rfl).trans (fin _ true)
  | some prev =>
    simp only [Option.getD_some]
    by_cases hor : (prev.isUndef || v.isUndef) = true
    · refine ⟨.ok (), ?_, .inl ⟨rfl, .inl hor⟩⟩
      simp only [hor, if_true]
      by_cases hand : (prev.isUndef && v.isUndef) = true
      · simp only [hand, if_true]
        exact (bind_ok (a := false) rfl).trans (fin _ false)
      · simp only [hand]
        exact (bind_ok (a := true) rfl).trans (fin _ true)
    · have hand : (prev.isUndef && v.isUndef) = false := by
        cases hA : prev.isUndef <;> cases hB : v.isUndef <;> simp_all
      simp only [hand, hor, Bool.false_eq_true, if_false]
      obtain ⟨y, hy⟩ := run_fixed (E := E) j p hi prev v
      cases y with
      | error e =>
        exact ⟨.error e, bind_err (bind_err (hy w1)), .inr ⟨e, prev, rfl, rfl, by simpa using hor, by rw [hy {}]⟩⟩
      | ok t =>
        have hch : ((do
            let e ← run E j (.propEqual p prev v)
            pure (!e.truthy)) : M Bool) w1 = (.ok (!t.truthy), w1) := bind_ok (hy w1)
        exact ⟨.ok (), (bind_ok hch).trans (fin _ (!t.truthy)), .inl ⟨rfl, .inr ⟨t, by rw [hy {}]⟩⟩⟩

/-- Validation outside of a construction, of a value of a type without instances and colours. -/
theorem validate_accepted {n r : Nat} {k : PyStr} {p : PropSpec} {v : Val} {w : World} {o : Obj}
    (ho : w.objs[r]? = some o) (hh : (E.classes o.cls).hook = none) (hs : ¬ Stirs p) (hn : depth p ≤ n) :
    (∃ x hs', accepted E p v = some x ∧ (v ≠ .undef → x ≠ .undef) ∧
      run E n (.validate k p (some r) v) w = (.ok x, { w with hooks := hs' })) ∨
    (∃ e hs', accepted E p v = none ∧ e.kind ≠ .recursion ∧
      run E n (.validate k p (some r) v) w = (.error e, { w with hooks := hs' })) := by
  obtain ⟨h1, a1⟩ := run_quiet (E := E) (nm := []) (inst := none) (w := {}) (Nat.le_refl _)
    (still_of _ (Nat.le_refl _) hs v) nofun
  obtain ⟨h2, a2⟩ := run_quiet (E := E) (nm := k) (inst := some r) (w := w) hn
    (still_of _ (Nat.le_refl _) hs v) (fun r' hr => by cases hr; exact ⟨o, ho, hh⟩)
  rcases alike_cases (pval_anywhere (E := E) (c := clsAt {}) (c' := clsAt w) (x := ⟨[], none⟩)
    (x' := ⟨k, some r⟩) _ (Nat.le_refl _) hs v) with ⟨x, e1, e2⟩ | ⟨e, e', e1, e2, e3, e4⟩
  · refine .inl ⟨x, h2, by simp only [accepted, a1, e1], fun hv hx => ?_, by rw [a2, e2]⟩
    subst hx
    exact hv (pval_defined _ (Nat.le_refl _) hs v e1)
  · exact .inr ⟨e', h2, by simp only [accepted, a1, e1], e3 ▸ e4, by rw [a2, e2]⟩

/-- What an operation stores, if anything. -/
def opOut (E : Env) (p : PropSpec) : Option Val → Option Val
  | some v => accepted E p v
  | none => some .undef

/-- One operation: what it stores, and that nothing else changes but the record of hook calls. -/
theorem op_stores {n r : Nat} {k : PyStr} {p : PropSpec} {w : World} (h : Variable E n w r k p)
    (x : Option Val) (hx : x ≠ some .undef) :
    ∃ hs, (match x with
        | some v => (run E n (.setattr r k v) w).2
        | none => (run E n (.delattr r k) w).2) =
      { w.setObj r (fun o => { o with backend := putOut k (opOut E p x) o.backend }) with
        hooks := hs } := by
  obtain ⟨o, ho, hp, hl, hh, hs, hn⟩ := h
  obtain ⟨j, rfl⟩ : ∃ j, n = j + 1 := ⟨n - 1, by omega⟩
  have hi : ¬ Visits p := fun h => hs (LinkProg.visits_stirs h)
  cases x with
  | none =>
    obtain ⟨y, hy, _⟩ := setBody_outcome (E := E) (j := j) (v := .undef) ho hl hi
    refine ⟨w.hooks, ?_⟩
    dsimp only
    have e0 : run E (j + 1) (.delattr r k) w =
        (setBody E (run E j) r k p .undef >>= fun _ => pure .none) w := by
      show delattrBody E (run E j) _ _ w = _
      unfold delattrBody
      rw [bind_ok (entryOf_apply ho _), hp]
    rw [e0]
    cases y with
    | ok u => rw [bind_ok hy]; rfl
    | error e => rw [bind_err hy]; rfl
  | some v =>
    have hv : v ≠ .undef := fun h => hx (by rw [h])
    have hu : v.isUndef = false := by cases v <;> first | rfl | exact absurd rfl hv
    dsimp only
    have e0 : run E (j + 1) (.setattr r k v) w = assignBody E (run E j) r k p v w :=
      setattr_assign (rec := run E j) ho v hp
    rw [e0]
    unfold assignBody
    simp only [hu, Bool.false_eq_true, if_false]
    rcases validate_accepted (E := E) (k := k) (v := v) ho hh hs (show depth p ≤ j by omega) with
      ⟨x, hs', h1, h2, h3⟩ | ⟨e, hs', h1, _, h3⟩
    · rw [bind_ok h3]; simp only [opOut, h1]
      obtain ⟨y, hy, _⟩ := setBody_outcome (E := E) (j := j) (v := x) (w := { w with hooks := hs' }) ho hl hi
      refine ⟨hs', ?_⟩
      cases y with
      | ok u => rw [bind_ok hy]; rfl
      | error e => rw [bind_err hy]; rfl
    · rw [bind_err h3]; simp only [opOut, h1]
      refine ⟨hs', ?_⟩
      have : w.setObj r (fun o => { o with backend := putOut k none o.backend }) = w := setObj_id ho rfl
      rw [this]

theorem accepted_defined {p : PropSpec} (hs : ¬ Stirs p) {v : Val} (hv : v ≠ .undef) :
    accepted E p v ≠ some .undef := by
  intro h
  obtain ⟨h1, a1⟩ := run_quiet (E := E) (nm := []) (inst := none) (w := {}) (Nat.le_refl _)
    (still_of _ (Nat.le_refl _) hs v) nofun
  simp only [accepted, a1] at h
  cases hx : pval E (clsAt {}) ⟨[], none⟩ p v with
  | error e => rw [hx] at h; simp at h
  | ok x =>
    rw [hx] at h
    simp only [Option.some.injEq] at h
    subst h
    exact hv (pval_defined _ (Nat.le_refl _) hs v hx)

theorem storedAt_setObj {w : World} {r i : Nat} (f : List (PyStr × Val) → List (PyStr × Val))
    (hs : List (Nat × List ErrTuple)) (nm : PyStr) :
    storedAt { w.setObj r (fun o => { o with backend := f o.backend }) with hooks := hs } i nm =
      (w.objs[i]?).bind (fun o => lookupS nm (if r = i then f o.backend else o.backend)) := by
  simp only [storedAt, World.setObj, List.getElem?_modify]
  cases w.objs[i]? with
  | none => rfl
  | some o => by_cases h : r = i <;> simp [h]

theorem variable_setObj {n : Nat} {w : World} {r i : Nat} {nm : PyStr} {p : PropSpec}
    (f : List (PyStr × Val) → List (PyStr × Val)) (hs : List (Nat × List ErrTuple)) 
    (h : Variable E n w i nm p) :
    Variable E n { w.setObj r (fun o => { o with backend := f o.backend }) with hooks := hs } i nm p := by
  obtain ⟨o, ho, h⟩ := h
  by_cases hr : r = i
  · exact ⟨{ o with backend := f o.backend }, by simp [World.setObj, List.getElem?_modify, ho, hr], h⟩
  · exact ⟨o, by simp [World.setObj, List.getElem?_modify, ho, hr], h⟩

theorem lookupS_putOut_ne {k k' : PyStr} (h : k' ≠ k) (x : Option Val) (b : List (PyStr × Val)) :
    lookupS k' (putOut k x b) = lookupS k' b := by
  cases x with
  | none => rfl
  | some v =>
    simp only [putOut]
    split
    · exact lookupS_eraseS_ne h _
    · exact lookupS_setS_ne h _ _

theorem lookupS_opOut {p : PropSpec} (hs : ¬ Stirs p) {k : PyStr} {x : Option Val} (hx : x ≠ some .undef)
    (b : List (PyStr × Val)) (os : List (Option Val)) :
    lastOf E p (lookupS k (putOut k (opOut E p x) b)) os = lastOf E p (lookupS k b) (x :: os) := by
  cases x with
  | none => simp only [opOut, putOut, Val.isUndef, if_true, lookupS_eraseS, lastOf]
  | some v =>
    have hv : v ≠ .undef := fun h => hx (by rw [h])
    simp only [opOut, lastOf]
    cases ha : accepted E p v with
    | none => rfl
    | some y =>
      have hy : y ≠ .undef := fun h => accepted_defined hs hv (h ▸ ha)
      have hu : y.isUndef = false := by cases y <;> first | rfl | exact absurd rfl hy
      simp only [putOut, hu, Bool.false_eq_true, if_false, lookupS_setS]

/-- Histories that assign and delete properties without listeners. -/
def Varied (E : Env) (n : Nat) (w : World) (os : List VarOp) : Prop :=
  ∀ o ∈ os, (∃ p, Variable E n w o.inst o.name p) ∧ o.value ≠ some .undef

/-- C104: after any history of assignments and deletions of properties without
listeners, of any instances, whether or not they raise, every property holds
what the operations on this very property say: the last accepted value since
the last deletion. Every other property holds what it held. -/
theorem C104_history (E : Env) (n : Nat) : ∀ (os : List VarOp) (w : World), Varied E n w os →
    (∀ r name p, Variable E n w r name p →
      storedAt (afterOps E n os w) r name = lastOf E p (storedAt w r name) (opsOn r name os)) ∧
    (∀ r name, opsOn r name os = [] → storedAt (afterOps E n os w) r name = storedAt w r name)
  | [], w, _ => ⟨fun _ _ _ _ => rfl, fun _ _ _ => rfl⟩
  | ⟨r0, k0, x⟩ :: os, w, h => by
      obtain ⟨⟨p0, hp0⟩, hx⟩ := h _ (List.mem_cons_self ..)
      obtain ⟨hs, hw⟩ := op_stores hp0 x hx
      have hv : Varied E n _ os := fun o ho => ⟨by
        obtain ⟨q, hq⟩ := (h o (List.mem_cons_of_mem _ ho)).1
        exact ⟨q, variable_setObj (r := r0) (putOut k0 (opOut E p0 x)) hs hq⟩,
        (h o (List.mem_cons_of_mem _ ho)).2⟩
      obtain ⟨i1, i2⟩ := C104_history E n os _ hv
      have ha : afterOps E n (⟨r0, k0, x⟩ :: os) w = afterOps E n os _ := congrArg (afterOps E n os) hw
      rw [ha]
      constructor
      · intro r name p hp
        rw [i1 r name p (variable_setObj _ _ hp), storedAt_setObj]
        obtain ⟨o, ho, hpp, _⟩ := id hp
        simp only [storedAt, ho, Option.bind_some]
        by_cases hr : r0 = r
        · by_cases hk : k0 = name
          · subst hr hk
            obtain ⟨o', ho', hpp', _, _, hst, _⟩ := hp0
            rw [ho] at ho'; cases ho'
            rw [hpp] at hpp'; cases hpp'
            simp only [if_true, opsOn, List.filter_cons, beq_self_eq_true, Bool.and_self, List.map_cons]
            exact lookupS_opOut hst hx _ _
          · simp [hr, opsOn, List.filter_cons, hk, lookupS_putOut_ne (Ne.symm hk)]
        · simp [hr, opsOn, List.filter_cons]
      · intro r name hn
        by_cases hb : (r0 == r && k0 == name) = true
        · simp [opsOn, List.filter_cons, hb] at hn
        · have hn' : opsOn r name os = [] := by
            simpa only [opsOn, List.filter_cons, hb, Bool.false_eq_true, if_false] using hn
          rw [i2 r name hn', storedAt_setObj]
          simp only [storedAt]
          cases w.objs[r]? with
          | none => rfl
          | some o =>
            simp only [Option.bind_some]
            by_cases hr : r0 = r
            · have hk : k0 ≠ name := fun hk => hb (by simp [hr, hk])
              simp only [hr, if_true, lookupS_putOut_ne (Ne.symm hk)]
            · simp only [hr, if_false]

/-- Hence two histories that do the same to each property, in the same order,
leave the same values, however the operations on different properties are
interleaved. -/
theorem C104_commute (E : Env) (n : Nat) (os os' : List VarOp) (w : World) (h : Varied E n w os)
    (h' : Varied E n w os') (hs : ∀ r name, opsOn r name os = opsOn r name os') (r : Nat) (name : PyStr) :
    storedAt (afterOps E n os w) r name = storedAt (afterOps E n os' w) r name := by
  by_cases he : opsOn r name os = []
  · rw [(C104_history E n os w h).2 r name he, (C104_history E n os' w h').2 r name (hs r name ▸ he)]
  · have : ∃ o ∈ os, o.inst = r ∧ o.name = name := by
      cases hf : os.filter (fun o => o.inst == r && o.name == name) with
      | nil => simp [opsOn, hf] at he
      | cons o _ =>
        have hm : o ∈ os.filter (fun o => o.inst == r && o.name == name) := by rw [hf]; exact List.mem_cons_self ..
        obtain ⟨h1, h2⟩ := List.mem_filter.1 hm
        simp only [Bool.and_eq_true, beq_iff_eq] at h2
        exact ⟨o, h1, h2⟩
    obtain ⟨o, ho, rfl, rfl⟩ := this
    obtain ⟨⟨p, hp⟩, _⟩ := h o ho
    rw [(C104_history E n os w h).1 _ _ p hp, (C104_history E n os' w h').1 _ _ p hp, hs]

/-- Reading such a property after the history gives that value, None if there is none. -/
theorem C104_reads (E : Env) (n m : Nat) (os : List VarOp) (w : World) (h : Varied E n w os) (r : Nat)
    (name : PyStr) (p : PropSpec) (hp : Variable E n w r name p) :
    (run E (m + 1) (.getattr r name) (afterOps E n os w)).1 =
      .ok ((lastOf E p (storedAt w r name) (opsOn r name os)).getD .none) := by
  have hv : ∀ (os : List VarOp) (w : World), Varied E n w os → Variable E n w r name p →
      Variable E n (afterOps E n os w) r name p := by
    intro os
    induction os with
    | nil => exact fun _ _ h => h
    | cons o os ih =>
      intro w h hp
      obtain ⟨⟨p0, hp0⟩, hx⟩ := h _ (List.mem_cons_self ..)
      obtain ⟨hs, hw⟩ := op_stores hp0 o.value hx
      have ha : afterOps E n (o :: os) w = afterOps E n os _ := congrArg (afterOps E n os) hw
      rw [ha]
      exact ih _ (fun o' ho => ⟨by
        obtain ⟨q, hq⟩ := (h o' (List.mem_cons_of_mem _ ho)).1
        exact ⟨q, variable_setObj _ hs hq⟩, (h o' (List.mem_cons_of_mem _ ho)).2⟩)
        (variable_setObj _ hs hp)
  rw [← (C104_history E n os w h).1 r name p hp]
  obtain ⟨o, ho, hpp, _⟩ := hv os w h hp
  show (getattrBody E (run E m) r name _).1 = _
  rw [getattr_mutable ho hpp]
  simp [storedAt, ho]

/-- An assignment raises if the value is not accepted, and returns if it is: if
the property holds a value of its type, and has no Union of Floats, Complexes
or Dictionaries with others, comparing them does not raise. -/
theorem C104_outcome (E : Env) (n r : Nat) (name : PyStr) (p : PropSpec) (w : World) (v : Val)
    (hp : Variable E n w r name p) (hv : v ≠ .undef) :
    (accepted E p v = none → ∃ e, e.kind ≠ .recursion ∧ (run E n (.setattr r name v) w).1 = .error e) ∧
    (∀ x, accepted E p v = some x → ¬ Mixes p →
      (∀ prev, storedAt w r name = some prev → Admits E w p.ty prev) →
      ∃ y, (run E n (.setattr r name v) w).1 = .ok y) := by
  obtain ⟨o, ho, hpp, hl, hh, hs, hn⟩ := hp
  obtain ⟨j, rfl⟩ : ∃ j, n = j + 1 := ⟨n - 1, by omega⟩
  have hi : ¬ Visits p := fun h => hs (LinkProg.visits_stirs h)
  have hu : v.isUndef = false := by cases v <;> first | rfl | exact absurd rfl hv
  have e0 : run E (j + 1) (.setattr r name v) w = assignBody E (run E j) r name p v w :=
    setattr_assign (rec := run E j) ho v hpp
  rw [e0]
  unfold assignBody
  simp only [hu, Bool.false_eq_true, if_false]
  rcases validate_accepted (E := E) (k := name) (v := v) ho hh hs (show depth p ≤ j by omega) with
    ⟨x, hs', h1, h2, h3⟩ | ⟨e, hs', h1, hne, h3⟩
  · refine ⟨fun h => (by rw [h1] at h; cases h), fun x' hx' hm had => ?_⟩
    rw [h1] at hx'; cases hx'
    obtain ⟨y, hy, hc⟩ := setBody_outcome (E := E) (j := j) (v := x) (w := { w with hooks := hs' }) ho hl hi
    rcases hc with ⟨rfl, _⟩ | ⟨e, prev, rfl, hpr, _, he⟩
    · rw [bind_ok h3, bind_ok hy]; exact ⟨_, rfl⟩
    · obtain ⟨z, hk, hz⟩ := run_sure (E := E) (depth p) p (Nat.le_refl _) hi prev x
      have hz' := hz ⟨j, by omega⟩ {}
      refine absurd ?_ (hk e ((congrArg Prod.fst hz').symm.trans he))
      have := run_mates j p hi hm prev x (had prev (by simp [storedAt, ho, hpr]))
        (C01_validated_value_admitted _ _ _ _ _ _ _ _ _ h3) {} e he
      exact this
  · exact ⟨fun _ => ⟨e, hne, by rw [bind_err h3]⟩, fun x hx => (by rw [h1] at hx; cases hx)⟩

/-! ## Two properties of two instances -/

/-- Two instances of a class with an Integer `a` and a Float `b`. -/
def varWorld : World := { objs := [{ cls := 0 }, { cls := 0, backend := [(s% "a", .int 5)] }] }

def varOps : List VarOp := [⟨0, s% "a", some (.int 3)⟩, ⟨1, s% "b", some (.int 4)⟩,
  ⟨0, s% "a", some (.str (s% "x"))⟩, ⟨1, s% "a", none⟩, ⟨1, s% "b", some .none⟩]

theorem varWorld_variable (r : Nat) (hr : r < 2) :
    Variable ordEnv 6 varWorld r (s% "a") ordA ∧ Variable ordEnv 6 varWorld r (s% "b") ordB := by
  have hA : ¬ Stirs ordA := by
    intro h
    rcases h with h | h | ⟨h, _⟩ | ⟨h, _⟩ | ⟨h, _⟩ | ⟨h, _, _⟩ <;> cases h
  have hB : ¬ Stirs ordB := by
    intro h
    rcases h with h | h | ⟨h, _⟩ | ⟨h, _⟩ | ⟨h, _⟩ | ⟨h, _, _⟩ <;> cases h
  match r, hr with
  | 0, _ => exact ⟨⟨_, rfl, rfl, nofun, rfl, hA, by decide⟩, ⟨_, rfl, rfl, nofun, rfl, hB, by decide⟩⟩
  | 1, _ => exact ⟨⟨_, rfl, rfl, nofun, rfl, hA, by decide⟩, ⟨_, rfl, rfl, nofun, rfl, hB, by decide⟩⟩

/-- The hypotheses hold for this history; `a` of the first instance keeps 3
although text was assigned to it, `a` of the second is deleted and `b` keeps
the 4.0 although None was assigned. -/
theorem C104_example : Varied ordEnv 6 varWorld varOps ∧
    accepted ordEnv ordA (.int 3) = some (.int 3) ∧ accepted ordEnv ordA (.str (s% "x")) = none ∧
    accepted ordEnv ordB (.int 4) = some (.float (.fin 4)) ∧ accepted ordEnv ordB .none = none ∧
    ¬ Mixes ordA ∧
    (afterOps ordEnv 6 varOps varWorld).objs.map Obj.backend =
      [[(s% "a", .int 3)], [(s% "b", .float (.fin 4))]] := by
  refine ⟨?_, ?_, ?_, ?_, ?_, ?_, ?_⟩
  · intro o ho
    simp only [varOps, List.mem_cons, List.not_mem_nil, or_false] at ho
    rcases ho with rfl | rfl | rfl | rfl | rfl
    · exact ⟨⟨_, (varWorld_variable 0 (by decide)).1⟩, nofun⟩
    · exact ⟨⟨_, (varWorld_variable 1 (by decide)).2⟩, nofun⟩
    · exact ⟨⟨_, (varWorld_variable 0 (by decide)).1⟩, nofun⟩
    · exact ⟨⟨_, (varWorld_variable 1 (by decide)).1⟩, nofun⟩
    · exact ⟨⟨_, (varWorld_variable 1 (by decide)).2⟩, nofun⟩
  · with_unfolding_all rfl
  · with_unfolding_all rfl
  · with_unfolding_all rfl
  · with_unfolding_all rfl
  · intro h
    rcases h with ⟨h, _, _⟩ | ⟨h, _⟩ | ⟨h, _⟩ <;> cases h
  · with_unfolding_all rfl

end Verif
