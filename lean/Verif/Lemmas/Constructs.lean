import Verif.Lemmas.Rebuild
import Verif.Lemmas.PureKind

/-!
# Construction without keywords

A class can be called without keywords if every default can be evaluated and is accepted
while the instance is new.
-/

namespace Verif
open Spec

/-- The default of property `nm` can be evaluated and is accepted at depth `n` for a new instance. -/
def Ready (E : Env) (n : Nat) (c : ClsId) (nm : PyStr) (e : Entry) : Prop :=
  classDefault E c nm e = .undef ∨ ∃ p, OwnSpec e p ∧ ∀ (k : Nat) (w : World) (o : Obj) (t : Nat),
    o.gv ≠ some false → ∃ v t1, evalDflt E (run E k) (classDefault E c nm e) (atTop w o t) = (.ok v, atTop w o t1) ∧
      ∀ m, n ≤ m → ∃ y t2, run E m (.validate nm p (some w.objs.length) v) (atTop w o t1) = (.ok y, atTop w o t2)

theorem ready_gettable {E : Env} {n : Nat} {c : ClsId} {nm : PyStr} {e : Entry} (h : Ready E n c nm e)
    {m : Nat} (hm : n ≤ m) (w : World) (o : Obj) (t : Nat) (hg : o.gv ≠ some false) :
    ∃ b t', (∀ k, k ≠ nm → lookupS k b = lookupS k o.backend) ∧ (e.isMutable = true → b = o.backend) ∧
      gettableDefault E (run E m) c w.objs.length (nm, e) (atTop w o t) = (.ok (), atTop w { o with backend := b } t') := by
  by_cases hd : classDefault E c nm e = .undef
  · refine ⟨o.backend, t, fun _ _ => rfl, fun _ => rfl, ?_⟩
    unfold gettableDefault
    simp only [hd]
    split <;> rfl
  · obtain ⟨p, ho, hf⟩ := h.resolve_left hd
    rcases ho with rfl | rfl
    · exact ⟨o.backend, t, fun _ _ => rfl, fun _ => rfl, rfl⟩
    · by_cases hx0 : classDefault E c nm (.gettable p) = .val .undef
      · refine ⟨o.backend, t, fun _ _ => rfl, fun _ => rfl, ?_⟩
        unfold gettableDefault
        simp only [hx0]
        split <;> rfl
      · obtain ⟨v, t1, h1, h2⟩ := hf m w o t hg
        obtain ⟨y, t2, h3⟩ := h2 m hm
        refine ⟨setS nm y o.backend, t2, fun k hk => lookupS_setS_ne hk _ _, fun hh => ?_, ?_⟩
        · cases hh
        have : (match classDefault E c nm (.gettable p) with
            | .undef => pure ()
            | .val .undef => pure ()
            | d => (do
                let v ← evalDflt E (run E m) d
                let v' ← entryValidate (run E m) nm (.gettable p) (some w.objs.length) v
                putStored w.objs.length nm v' : M Unit)) =
            (do let v ← evalDflt E (run E m) (classDefault E c nm (.gettable p))
                let v' ← entryValidate (run E m) nm (.gettable p) (some w.objs.length) v
                putStored w.objs.length nm v' : M Unit) := by
          split
          · rename_i h; exact absurd h hd
          · rename_i h; exact absurd h hx0
          · rfl
        have hdef : gettableDefault E (run E m) c w.objs.length (nm, .gettable p) =
            (do let v ← evalDflt E (run E m) (classDefault E c nm (.gettable p))
                let v' ← entryValidate (run E m) nm (.gettable p) (some w.objs.length) v
                putStored w.objs.length nm v' : M Unit) := by
          unfold gettableDefault
          rw [if_neg (by simp [Entry.isMutable])]
          exact this
        rw [hdef, bind_ok h1]
        unfold entryValidate
        simp only
        rw [bind_ok h3]
        unfold putStored
        rw [modObj_top]

theorem ready_gettables {E : Env} {n : Nat} {c : ClsId} {m : Nat} (hm : n ≤ m) (w : World) :
    ∀ (l : List (PyStr × Entry)), (∀ kv ∈ l, Ready E n c kv.1 kv.2) → ∀ (o : Obj) (t : Nat), o.gv ≠ some false →
    ∃ b t', (∀ k, (∀ e, (k, e) ∈ l → e.isMutable = true) → lookupS k b = lookupS k o.backend) ∧
      forML (gettableDefault E (run E m) c w.objs.length) l (atTop w o t) =
        (.ok (), atTop w { o with backend := b } t')
  | [], _, o, t, _ => ⟨o.backend, t, fun _ _ => rfl, rfl⟩
  | (nm, e) :: l, h, o, t, hg => by
    obtain ⟨b, t1, h1, h1', h2⟩ := ready_gettable (h (nm, e) (by simp)) hm w o t hg
    obtain ⟨b', t2, h3, h4⟩ := ready_gettables hm w l (fun x hx => h x (by simp [hx])) { o with backend := b } t1 hg
    refine ⟨b', t2, fun k hk => ?_, ?_⟩
    · rw [h3 k fun e' he' => hk e' (by simp [he'])]
      by_cases hn : k = nm
      · subst hn
        rw [show ({ o with backend := b } : Obj).backend = b from rfl, h1' (hk e (by simp))]
      · exact h1 k hn
    · unfold forML
      rw [bind_ok h2, h4]

theorem setattr_new {E : Env} {n : Nat} {nm : PyStr} {p : PropSpec} {x : Val} {w : World} {o : Obj}
    {t t' : Nat} (hq : w.quar = Quar.all) (he : lookupS nm (E.classes o.cls).props = some (.mutable p))
    (hv : ∃ y, run E n (.validate nm p (some w.objs.length) x) (atTop w o t) = (.ok y, atTop w o t'))
    (hp : lookupS nm o.backend = none) :
    ∃ b t', (∀ k, k ≠ nm → lookupS k b = lookupS k o.backend) ∧
      run E (n + 1) (.setattr w.objs.length nm x) (atTop w o t) =
        (.ok .none, atTop w { o with backend := b } t') := by
  have run_eq : run E (n + 1) (.setattr w.objs.length nm x) (atTop w o t) =
      assignBody E (run E n) w.objs.length nm p x (atTop w o t) := by
    show setattrBody E (run E n) w.objs.length nm x (atTop w o t) = _
    rw [setattr_mutable (atTop_get w o t) he]
  have undef : ∀ t, (do
      setBody E (run E n) w.objs.length nm p .undef
      pure .none : M Val) (atTop w o t) = (.ok .none, atTop w { o with backend := eraseS nm o.backend } t) := by
    intro t
    rw [bind_ok (setBody_quiet_undef hq hp)]
    rfl
  by_cases hx : x = .undef
  · subst hx
    refine ⟨eraseS nm o.backend, t, fun k hk => lookupS_eraseS_ne hk _, ?_⟩
    rw [run_eq]
    unfold assignBody
    simp only [Val.isUndef, if_true]
    rw [bind_ok (pure_apply _ _)]
    exact undef t
  · obtain ⟨y, hv⟩ := hv
    by_cases hy : y = .undef
    · subst hy
      refine ⟨eraseS nm o.backend, t', fun k hk => lookupS_eraseS_ne hk _, ?_⟩
      rw [run_eq]
      unfold assignBody
      have hxu : x.isUndef = false := by cases x <;> first | rfl | exact absurd rfl hx
      simp only [hxu, Bool.false_eq_true, if_false]
      rw [bind_ok hv]
      exact undef t'
    · exact ⟨setS nm y o.backend, t', fun k hk => lookupS_setS_ne hk _ _,
        setattr_top hq he hx hy hv fun pv hpv => by rw [hp] at hpv; cases hpv⟩

theorem ready_reset {E : Env} {n : Nat} {nm : PyStr} {p : PropSpec} {w : World} {o : Obj} (hq : w.quar = Quar.all)
    (he : lookupS nm (E.classes o.cls).props = some (.mutable p)) (ha : Ready E n o.cls nm (.mutable p))
    {m : Nat} (hm : n ≤ m) (t : Nat) (hg : o.gv ≠ some false) (hb : lookupS nm o.backend = none) :
    ∃ b t', (∀ k, k ≠ nm → lookupS k b = lookupS k o.backend) ∧
      run E (m + 2) (.reset w.objs.length (some nm)) (atTop w o t) =
        (.ok .none, atTop w { o with backend := b } t') := by
  have hrun : ∀ v t1, evalDflt E (run E (m + 1)) (classDefault E o.cls nm (.mutable p)) (atTop w o t) =
      (.ok v, atTop w o t1) →
      run E (m + 2) (.reset w.objs.length (some nm)) (atTop w o t) =
        run E (m + 1) (.setattr w.objs.length nm v) (atTop w o t1) := by
    intro v t1 h
    show resetBody E (run E (m + 1)) w.objs.length (some nm) (atTop w o t) = _
    unfold resetBody
    rw [bind_ok (getObj_top w o t)]
    simp only [he]
    rw [bind_ok h]
  by_cases hd : classDefault E o.cls nm (.mutable p) = .undef
  · refine ⟨eraseS nm o.backend, t, fun k hk => lookupS_eraseS_ne hk _, ?_⟩
    rw [hrun .undef t (by rw [hd]; rfl)]
    show setattrBody E (run E m) w.objs.length nm .undef (atTop w o t) = _
    rw [setattr_mutable (atTop_get w o t) he]
    unfold assignBody
    simp only [Val.isUndef, if_true]
    rw [bind_ok (pure_apply _ _), bind_ok (setBody_quiet_undef hq hb)]
    rfl
  · obtain ⟨q, ho, hf⟩ := ha.resolve_left hd
    obtain rfl : p = q := by
      rcases ho with h | h <;> cases h
      rfl
    obtain ⟨x, t1, h1, h2⟩ := hf (m + 1) w o t hg
    obtain ⟨y, t2, h3⟩ := h2 m hm
    rw [hrun x t1 h1]
    exact setattr_new hq he ⟨y, h3⟩ hb

theorem ready_resets {E : Env} {n m : Nat} {w : World} (hq : w.quar = Quar.all) (hm : n ≤ m) :
    ∀ (l : List (PyStr × Entry)) (o : Obj), (∀ kv ∈ l, lookupS kv.1 (E.classes o.cls).props = some kv.2 ∧
      Ready E n o.cls kv.1 kv.2) → (l.map (·.1)).Nodup → ∀ (t : Nat), o.gv ≠ some false →
      (∀ kv ∈ l, kv.2.isMutable = true → lookupS kv.1 o.backend = none) →
    ∃ b t', forML (resetEach (run E (m + 2)) w.objs.length) l (atTop w o t) =
      (.ok (), atTop w { o with backend := b } t')
  | [], o, _, _, t, _, _ => ⟨o.backend, t, rfl⟩
  | (nm, e) :: l, o, h, hnd, t, hg, hb => by
    rw [List.map_cons, List.nodup_cons] at hnd
    have h1 : ∃ b t', (∀ k, k ≠ nm → lookupS k b = lookupS k o.backend) ∧
        resetEach (run E (m + 2)) w.objs.length (nm, e) (atTop w o t) =
        (.ok (), atTop w { o with backend := b } t') := by
      unfold resetEach
      cases e with
      | mutable p =>
        obtain ⟨b, t1, h1, h2⟩ := ready_reset hq (h (nm, .mutable p) (by simp)).1
          (h (nm, .mutable p) (by simp)).2 hm t hg (hb (nm, .mutable p) (by simp) rfl)
        refine ⟨b, t1, h1, ?_⟩
        rw [if_pos (show (nm, Entry.mutable p).2.isMutable = true from rfl)]
        exact bind_ok h2
      | _ => exact ⟨o.backend, t, fun _ _ => rfl, rfl⟩
    obtain ⟨b, t1, h1, h2⟩ := h1
    obtain ⟨b', t2, h4⟩ := ready_resets hq hm l { o with backend := b }
      (fun x hx => h x (by simp [hx])) hnd.2 t1 hg (fun kv hkv hmu => by
        have hne : kv.1 ≠ nm := fun h => hnd.1 (by
          rw [show (nm, e).1 = kv.1 from h.symm]
          exact List.mem_map_of_mem (f := Prod.fst) hkv)
        rw [show ({ o with backend := b } : Obj).backend = b from rfl, h1 kv.1 hne]
        exact hb kv (by simp [hkv]) hmu)
    refine ⟨b', t2, ?_⟩
    unfold forML
    rw [bind_ok h2, h4]

theorem Quar.union_all' (q : Quar) : q.union Quar.all = Quar.all := by
  cases q; simp [Quar.union, Quar.all]

/-- Calling the class without keywords. -/
theorem construct_ready {E : Env} {n : Nat} {c : ClsId} (w : World)
    (hnames : ((E.classes c).props.map (·.1)).Nodup)
    (ha : ∀ nm e, (nm, e) ∈ (E.classes c).props → Ready E n c nm e) {m : Nat} (hm : n ≤ m) :
    ∃ o t, o.cls = c ∧ o.gv = some false ∧
      run E (m + 4) (.construct c []) w = (.ok (.obj w.objs.length), atTop w o t) := by
  have hprops : ∀ kv ∈ (E.classes c).props, lookupS kv.1 (E.classes c).props = some kv.2 ∧
      Ready E n c kv.1 kv.2 := fun kv hkv =>
    ⟨lookupS_of_mem hnames hkv, ha kv.1 kv.2 hkv⟩
  let o0 : Obj := { cls := c, listeners := initListeners (E.classes c) }
  have hg0 : o0.gv ≠ some false := by simp [o0]
  obtain ⟨b1, t1, hb1, h1⟩ := ready_gettables (m := m + 3) (by omega) w _ (fun kv hkv => (hprops kv hkv).2) o0 w.tick hg0
  let o1 : Obj := { o0 with backend := b1 }
  let wq : World := { w with quar := Quar.all }
  obtain ⟨b2, t2, h2⟩ := ready_resets (w := wq) rfl hm _ o1 hprops hnames t1 hg0 fun kv hkv hmu => by
    have := hb1 kv.1 fun e he => by
      have h1 := (hprops kv hkv).1
      have h2 := lookupS_of_mem hnames he
      rw [h1] at h2
      cases h2
      exact hmu
    exact this
  let o2 : Obj := { o1 with backend := b2, gv := some true, errs := some [] }
  refine ⟨{ o2 with gv := some false, errs := none }, t2, rfl, rfl, ?_⟩
  show constructBody E (run E (m + 3)) c [] w = _
  unfold constructBody
  have halloc : alloc o0 w = (.ok w.objs.length, atTop w o0 w.tick) := rfl
  have hr0 : raiseWhen false ErrKind.type w = (.ok (), w) := rfl
  rw [List.any_nil, bind_ok hr0, bind_ok halloc, bind_ok h1]
  have hres : run E (m + 3) (.reset w.objs.length none) (atTop wq o1 t1) =
      (.ok .none, atTop wq { o1 with backend := b2 } t2) := by
    show resetBody E (run E (m + 2)) w.objs.length none (atTop wq o1 t1) = _
    unfold resetBody
    rw [bind_ok (getObj_top wq o1 t1)]
    simp only
    exact bind_ok h2
  have hdis : withDisabled Quar.all (run E (m + 3) (.reset w.objs.length none)) (atTop w o1 t1) =
      (.ok .none, atTop w { o1 with backend := b2 } t2) := by
    unfold withDisabled
    have hqq : ({ atTop w o1 t1 with quar := (atTop w o1 t1).quar.union Quar.all } : World) = atTop wq o1 t1 := by
      rw [Quar.union_all']
      rfl
    rw [hqq]
    simp only [hres]
    rfl
  rw [bind_ok hdis]
  have hinit : initBody E (run E (m + 3)) w.objs.length (E.classes c) []
      (atTop w { o1 with backend := b2 } t2) =
      (.ok (), atTop w { o2 with gv := some false, errs := none } t2) := by
    unfold initBody
    have hr0 : raiseWhen false ErrKind.type (atTop w { o1 with backend := b2 } t2) =
      (.ok (), atTop w { o1 with backend := b2 } t2) := rfl
    rw [List.any_nil, bind_ok hr0, bind_ok (modObj_top ..)]
    have hbody : (do
        let nv ← foldML (initStep (run E (m + 3)) w.objs.length (E.classes c)) none []
        raiseCollected E (run E (m + 3)) w.objs.length nv : M Unit) (atTop w o2 t2) =
        (.ok (), atTop w o2 t2) := by
      unfold foldML
      rw [bind_ok (pure_apply _ _)]
      unfold raiseCollected
      rw [bind_ok (getObj_top w o2 t2)]
      rfl
    refine (fin_eq hbody).trans ?_
    unfold clearValidating
    rw [atTop_set]
  rw [bind_ok hinit]
  rfl

end Verif
