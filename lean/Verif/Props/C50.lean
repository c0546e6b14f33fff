import Verif.Props.C16
import Verif.Lemmas.Idempotent

/-!
# C50: when the error hook of an instance is called
-/

namespace Verif
open Spec

/-- The error hook of `r` has not been called. -/
structure Quiet (r : Nat) (w w' : World) : Prop where
  restored : Restored w w'
  hooks : hooksOf r w' = hooksOf r w

theorem quiet_preord (r : Nat) : Preord (fun w => Busy w r) (Quiet r) where
  refl w _ := ⟨Restored.refl w, rfl⟩
  trans h k := ⟨h.restored.trans k.restored, k.hooks.trans h.hooks⟩
  keep h hb := by
    obtain ⟨o, ho, hg⟩ := hb
    obtain ⟨o', h1, k⟩ := h.restored.old r o ho
    exact ⟨o', h1, k.gv.2 hg⟩

section
variable {E : Env}

/-- C50: while an instance is being validated or initialised, whatever happens
does not call its error hook. -/
theorem C50_busy (hE : ∀ f args, Indirect (E.fn f args)) (n : Nat) (c : Call)
    (r : Nat) (hc : c ≠ .validateProps r) {w : World} (hb : Busy w r) :
    (run E n c w).2.hooks.filter (fun h => h.1 == r) = w.hooks.filter (fun h => h.1 == r) :=
  (run_undisturbed hE n c r hc hb).hooks

theorem pres_quiet {α : Type} {m : M α} {r : Nat}
    (h : Pres (fun w => Busy w r) (Undisturbed r) m) : Pres (fun w => Busy w r) (Quiet r) m :=
  fun w hw => ⟨(h w hw).restored, (h w hw).hooks⟩

theorem quiet_addErrs (E : Env) (r : Nat) (ts : List ErrTuple) :
    Pres (fun w => Busy w r) (Quiet r) (addErrs r ts) := by
  intro w hw
  refine ⟨pres_addErrs (restored_stable E).toBase ((restored_stable E).run_ok 0) r ts trivial w trivial, ?_⟩
  unfold addErrs
  obtain ⟨o, ho, _⟩ := hw
  rw [bind_ok (getObj_some ho)]
  cases o.errs <;> rfl

theorem quiet_validatePropStep (hE : ∀ f args, Indirect (E.fn f args)) (n r : Nat)
    (kv : PyStr × Entry) : Pres (fun w => Busy w r) (Quiet r) (validatePropStep E (run E n) r kv) := by
  have S := (undisturbed_stable hE r).toBase
  have H := (undisturbed_stable hE r).run_ok n
  have hV : True := trivial
  have hn := fun name prev v => pres_notify S H r .validate name prev v (.inr ⟨trivial, rfl⟩)
  unfold validatePropStep
  refine pres_catchIf (quiet_preord r) (pres_quiet ?_) fun e => ?_
  · repeat' (first | with_reducible exact hn _ _ _ | pres1 S, H)
  · refine pres_bind (quiet_preord r) (pres_getObj (quiet_preord r) _) fun o => ?_
    split
    · exact quiet_addErrs E r _
    · exact pres_raise (quiet_preord r) _

theorem quiet_run (hE : ∀ f args, Indirect (E.fn f args)) (n r : Nat) (c : Call) :
    Pres (fun w => Busy w r) (Quiet r) (run E n c) := by
  by_cases hc : c = .validateProps r
  · subst hc
    cases n with
    | zero => exact fun w hw => (quiet_preord r).refl w hw
    | succ n =>
      show Pres _ _ (validatePropsBody E (run E n) r)
      unfold validatePropsBody
      exact pres_bind (quiet_preord r) (pres_getObj (quiet_preord r) _) fun o =>
        pres_bind (quiet_preord r) (pres_forML (quiet_preord r) (quiet_validatePropStep hE n r) _)
          fun _ => pres_pure (quiet_preord r) _
  · intro w hw
    have := run_undisturbed hE n c r hc hw
    exact ⟨this.restored, this.hooks⟩

/-- What is not a ValidationError. -/
def Other (nv : Option PyErr) : Prop := ∀ e, nv = some e → e.kind ≠ .validation

/-- One item of the loops of `validate()` and `__init__`. -/
structure Item {α : Type} (r : Nat) (f : Option PyErr → α → M (Option PyErr)) : Prop where
  quiet : ∀ nv x, Pres (fun w => Busy w r) (Quiet r) (f nv x)
  ok : ∀ nv x w nv' w', Other nv → f nv x w = (.ok nv', w') → Other nv'
  err : ∀ nv x w e w', Other nv → f nv x w = (.error e, w') → e.kind ≠ .validation

theorem Item.fold {α : Type} {r : Nat} {f : Option PyErr → α → M (Option PyErr)} (hf : Item r f) :
    ∀ (xs : List α) (nv : Option PyErr) (w : World), Other nv →
      (∀ nv' w', foldML f nv xs w = (.ok nv', w') → Other nv') ∧
      (∀ e w', foldML f nv xs w = (.error e, w') → e.kind ≠ .validation)
  | [], nv, w, h => ⟨fun _ _ k => by cases k; exact h, fun _ _ k => by cases k⟩
  | x :: xs, nv, w, h => by
      constructor
      · intro nv' w' k
        obtain ⟨nv1, w1, h1, h2⟩ := bind_ok_inv k
        exact (Item.fold hf xs nv1 w1 (hf.ok _ _ _ _ _ h h1)).1 nv' w' h2
      · intro e w' k
        rcases bind_err_inv k with k | ⟨nv1, w1, h1, h2⟩
        · exact hf.err _ _ _ _ _ h k
        · exact (Item.fold hf xs nv1 w1 (hf.ok _ _ _ _ _ h h1)).2 e w' h2

theorem raiseK_kind {α : Type} {k : ErrKind} {w w' : World} {e : PyErr}
    (h : (raiseK k : M α) w = (.error e, w')) : e.kind = k := by cases h; rfl

theorem addErrs_kind {r : Nat} {ts : List ErrTuple} {w w' : World} {e : PyErr}
    (h : addErrs r ts w = (.error e, w')) : e.kind ≠ .validation := by
  unfold addErrs at h
  cases ho : w.objs[r]? with
  | none =>
    rw [bind_err (getObj_none ho)] at h
    cases h; simp
  | some o =>
    rw [bind_ok (getObj_some ho)] at h
    cases he : o.errs with
    | none => rw [he] at h; cases h; simp
    | some es => rw [he] at h; cases h

/-- `keep` and its twin in `validate()`. -/
theorem keep_item (E : Env) {α : Type} {r : Nat} {nv : Option PyErr} (res : Except PyErr α)
    (m : M (Option PyErr)) (hm1 : ∀ a, res = .ok a → m = pure nv)
    (hm2 : ∀ e, res = .error e → m =
          if e.kind = .validation then do
            addErrs r e.tuples
            pure nv
          else if e.kind.isGeneric then pure (nv.or (some e))
          else M.raise e) :
    Pres (fun w => Busy w r) (Quiet r) m ∧
    (∀ w nv' w', Other nv → m w = (.ok nv', w') → Other nv') ∧
    (∀ w e w', Other nv → m w = (.error e, w') → e.kind ≠ .validation) := by
  cases res with
  | ok a =>
    rw [hm1 a rfl]
    exact ⟨pres_pure (quiet_preord r) _, fun w nv' w' h k => by cases k; exact h,
      fun w e w' h k => by cases k⟩
  | error e =>
    rw [hm2 e rfl]
    by_cases hv : e.kind = .validation
    · simp only [hv, if_true]
      refine ⟨pres_bind (quiet_preord r) (quiet_addErrs E r _) fun _ =>
        pres_pure (quiet_preord r) _, fun w nv' w' h k => ?_, fun w e' w' h k => ?_⟩
      · obtain ⟨_, w1, h1, h2⟩ := bind_ok_inv k
        cases h2; exact h
      · rcases bind_err_inv k with k | ⟨_, w1, h1, h2⟩
        · exact addErrs_kind k
        · cases h2
    · simp only [hv, if_false]
      by_cases hg : e.kind.isGeneric = true
      · simp only [hg, if_true]
        refine ⟨pres_pure (quiet_preord r) _, fun w nv' w' h k => ?_, fun w e' w' h k => by cases k⟩
        cases k
        intro e' he'
        cases nv with
        | none => cases he'; exact hv
        | some x => exact h e' he'
      · simp only [hg]
        refine ⟨pres_raise (quiet_preord r) _, fun w nv' w' h k => (by cases k),
          fun w e' w' h k => ?_⟩
        cases k; exact hv

theorem item_validator (hE : ∀ f args, Indirect (E.fn f args)) (n r : Nat) :
    Item r (validatorStep E (run E n) r) := by
  have hp := quiet_preord r
  have S := (undisturbed_stable hE r).toBase
  have H := (undisturbed_stable hE r).run_ok n
  have hatt : ∀ val : Option FnId, Pres (fun w => Busy w r) (Quiet r) (M.attempt (do
      let valid ← (match val with
        | none => run E n (.validateProps r)
        | some f => callFn E (run E n) f [.obj r])
      match valid with
      | .bool false => raiseVal E (run E n) none none (some r)
      | _ => pure () : M Unit)) := by
    intro val
    refine pres_attempt (pres_bind hp ?_ fun valid => ?_)
    · cases val with
      | none => exact quiet_run hE n r _
      | some f => exact pres_quiet (pres_callFn S H f _)
    · split
      · exact pres_quiet (pres_raiseVal S H _ _ _)
      · exact pres_pure hp _
  refine ⟨fun nv x => ?_, fun nv x w nv' w' ho h => ?_, fun nv x w e w' ho h => ?_⟩
  · unfold validatorStep
    exact pres_bind hp (hatt x) fun res => (keep_item E res _ (fun a h => by subst h; rfl) (fun e h => by subst h; rfl)).1
  · unfold validatorStep at h
    obtain ⟨res, w1, h1, h2⟩ := bind_ok_inv h
    exact (keep_item E (r := r) (nv := nv) res _ (fun a h => by subst h; rfl) (fun e h => by subst h; rfl)).2.1 w1 nv' w' ho h2
  · unfold validatorStep at h
    rcases bind_err_inv h with h1 | ⟨res, w1, h1, h2⟩
    · cases h1
    · exact (keep_item E (r := r) (nv := nv) res _ (fun a h => by subst h; rfl) (fun e h => by subst h; rfl)).2.2 w1 e w' ho h2

theorem item_init (hE : ∀ f args, Indirect (E.fn f args)) (n r : Nat) (c : ClassDef) :
    Item r (initStep (run E n) r c) := by
  have hp := quiet_preord r
  have hkc : ∀ k w, keyCheck c k w = (.ok (), w) ∨ keyCheck c k w = (.error ⟨.attr, []⟩, w) :=
    fun k w => (Classical.em (Accepted c k)).elim (fun h => .inl (keyCheck_accepted h w))
      (fun h => .inr (keyCheck_refused h w))
  refine ⟨fun nv x => ?_, fun nv x w nv' w' ho h => ?_, fun nv x w e w' ho h => ?_⟩
  · obtain ⟨k, v⟩ := x
    rw [initStep_eq]
    refine pres_bind hp ?_ fun _ => pres_bind hp (pres_attempt (quiet_run hE n r _))
      fun res => (keep_item E res _ (fun a h => by subst h; rfl) (fun e h => by subst h; rfl)).1
    intro w hw
    rcases hkc k w with h | h <;> (rw [h]; exact hp.refl w hw)
  · obtain ⟨k, v⟩ := x
    rw [initStep_eq] at h
    obtain ⟨_, w0, h0, h⟩ := bind_ok_inv h
    obtain ⟨res, w1, h1, h2⟩ := bind_ok_inv h
    exact (keep_item E (r := r) (nv := nv) res _ (fun a h => by subst h; rfl) (fun e h => by subst h; rfl)).2.1 w1 nv' w' ho h2
  · obtain ⟨k, v⟩ := x
    rw [initStep_eq] at h
    rcases bind_err_inv h with h0 | ⟨_, w0, h0, h⟩
    · rcases hkc k w with h | h
      · rw [h] at h0; cases h0
      · rw [h] at h0; cases h0; simp
    · rcases bind_err_inv h with h1 | ⟨res, w1, h1, h2⟩
      · cases h1
      · exact (keep_item E (r := r) (nv := nv) res _ (fun a h => by subst h; rfl) (fun e h => by subst h; rfl)).2.2 w1 e w' ho h2

/-- The hook calls of `r` made by an operation with result `res`: one with the
error tuples if it raised a ValidationError, none otherwise. -/
def OneCall {α : Type} (r : Nat) (res : Except PyErr α) (w w' : World) : Prop :=
  (∀ e, res = .error e → e.kind = .validation →
    w'.hooks.filter (fun h => h.1 == r) = w.hooks.filter (fun h => h.1 == r) ++ [(r, e.tuples)]) ∧
  ((∀ e, res = .error e → e.kind ≠ .validation) →
    w'.hooks.filter (fun h => h.1 == r) = w.hooks.filter (fun h => h.1 == r))

theorem hook_once {α β : Type} (rec : Rec) {r : Nat} {f : Option PyErr → α → M (Option PyErr)}
    (hf : Item r f) (xs : List α) (a : β) {w : World} {o : Obj} (ho : w.objs[r]? = some o)
    (hb : o.gv = some true) (hh : (E.classes o.cls).hook = none) :
    OneCall r ((M.fin (foldML f none xs >>= fun nv => raiseCollected E rec r nv >>= fun _ =>
      (pure a : M β)) (clearValidating r)) w).1 w ((M.fin (foldML f none xs >>= fun nv =>
      raiseCollected E rec r nv >>= fun _ => (pure a : M β)) (clearValidating r)) w).2 := by
  rw [fin_apply]
  have hq := pres_foldML (quiet_preord r) hf.quiet xs none w ⟨o, ho, hb⟩
  have hfold := Item.fold hf xs none w (fun e h => by cases h)
  rcases hx : foldML f none xs w with ⟨x, w1⟩
  rw [hx] at hq
  have hclear : ∀ u : World, (clearValidating r u).hooks = u.hooks := fun _ => rfl
  cases x with
  | error e =>
    rw [bind_err hx]
    dsimp only
    refine ⟨fun e' he' hv => ?_, fun _ => ?_⟩
    · cases he'
      exact absurd hv (hfold.2 _ _ hx)
    · rw [hclear]; exact hq.hooks
  | ok nv =>
    have hnv := hfold.1 _ _ hx
    rw [bind_ok hx]
    obtain ⟨o1, ho1, hk1⟩ := hq.restored.old r o ho
    have hcol : (raiseCollected E rec r nv >>= fun _ => (pure a : M β)) w1 =
        (if o1.errs.getD [] ≠ [] then (.error ⟨.validation, o1.errs.getD []⟩,
            { w1 with hooks := w1.hooks ++ [(r, o1.errs.getD [])] })
          else (match nv with | some e => .error e | none => .ok a, w1)) := by
      unfold raiseCollected
      have hhk : runHook E rec r (o1.errs.getD []) w1 =
          (.ok (), { w1 with hooks := w1.hooks ++ [(r, o1.errs.getD [])] }) := by
        unfold runHook
        rw [bind_ok (getObj_some ho1), bind_ok (modify_apply _ _), hk1.cls, hh]
        rfl
      by_cases hne : o1.errs.getD [] ≠ []
      · rw [if_pos hne]
        refine bind_err ?_
        rw [bind_ok (getObj_some ho1)]
        dsimp only
        rw [if_pos hne, bind_ok hhk]
        rfl
      · rw [if_neg hne]
        cases nv with
        | none =>
          refine (bind_ok (a := ()) (w' := w1) ?_).trans rfl
          rw [bind_ok (getObj_some ho1)]
          dsimp only
          rw [if_neg hne]
          rfl
        | some e =>
          refine bind_err ?_
          rw [bind_ok (getObj_some ho1)]
          dsimp only
          rw [if_neg hne]
          rfl
    rw [hcol]
    by_cases hne : o1.errs.getD [] ≠ []
    · rw [if_pos hne]
      refine ⟨fun e he hv => ?_, fun h => absurd rfl (h _ rfl)⟩
      cases he
      have hq := hq.hooks
      unfold hooksOf at hq
      rw [hclear]
      dsimp only
      rw [List.filter_append, hq]
      simp
    · rw [if_neg hne]
      refine ⟨fun e he hv => ?_, fun _ => ?_⟩
      · cases nv with
        | none => cases he
        | some e' => cases he; exact absurd hv (hnv _ rfl)
      · rw [hclear]; exact hq.hooks

/-- C50: `validate()` of an instance calls its error hook once, with all the
error tuples, if it raises a ValidationError, and not at all otherwise. -/
theorem C50_validate (hE : ∀ f args, Indirect (E.fn f args)) (n : Nat) {r : Nat} {w : World} {o : Obj}
    (ho : w.objs[r]? = some o) (hh : (E.classes o.cls).hook = none) :
    OneCall r (run E n (.hpValidate r) w).1 w (run E n (.hpValidate r) w).2 := by
  cases n with
  | zero =>
    refine ⟨fun e he hv => ?_, fun _ => rfl⟩
    cases he; cases hv
  | succ n =>
    show OneCall r (hpValidateBody E (run E n) r w).1 w (hpValidateBody E (run E n) r w).2
    unfold hpValidateBody
    rw [bind_ok (getObj_some ho)]
    by_cases hg : (o.gv == some true) = true
    · rw [if_pos hg]
      exact ⟨fun e he _ => (by cases he), fun _ => rfl⟩
    · rw [if_neg hg, bind_ok (modObj_apply _ _ _)]
      exact hook_once (E := E) (run E n) (item_validator hE n r) _ (Val.bool true)
        (o := { o with gv := some true, errs := some [] }) (by simp [World.setObj, ho]) rfl hh

/-- C50: so does the constructor. -/
theorem C50_construct (hE : ∀ f args, Indirect (E.fn f args)) {n : Nat} {c : ClsId}
    (hh : (E.classes c).hook = none) {w w0 : World} {v0 : Val}
    (h0 : run E (n + 1) (.construct c []) w = (.ok v0, w0)) (kw : List (PyStr × Val))
    (hcls : ∀ kv ∈ kw, kv.1 ≠ s% "cls") (hself : ∀ kv ∈ kw, kv.1 ≠ s% "self") :
    OneCall w.objs.length (run E (n + 1) (.construct c kw) w).1 w0
      (run E (n + 1) (.construct c kw) w).2 := by
  obtain ⟨hv, ⟨o, ho, hc, hg⟩, hrun⟩ := construct_keywords h0 kw hcls hself
  have h := hook_once (E := E) (run E n) (item_init hE n w.objs.length (E.classes c)) kw
    (Val.obj w.objs.length) (w := begun w.objs.length w0)
    (o := { o with gv := some true, errs := some [] })
    (by simp [begun, World.setObj, ho]) rfl (by dsimp only; rw [hc]; exact hh)
  have e : ((M.fin (foldML (initStep (run E n) w.objs.length (E.classes c)) none kw >>=
        raiseCollected E (run E n) w.objs.length) (clearValidating w.objs.length)) >>=
        fun _ => pure (Val.obj w.objs.length) : M Val) (begun w.objs.length w0) =
      (M.fin (foldML (initStep (run E n) w.objs.length (E.classes c)) none kw >>= fun nv =>
        raiseCollected E (run E n) w.objs.length nv >>= fun _ => (pure (Val.obj w.objs.length) : M Val))
        (clearValidating w.objs.length)) (begun w.objs.length w0) := by
    generalize begun w.objs.length w0 = u
    rw [bind_apply, fin_apply, fin_apply]
    rcases hx : foldML (initStep (run E n) w.objs.length (E.classes c)) none kw u with ⟨x, w1⟩
    cases x with
    | error e => rw [bind_err hx, bind_err hx]
    | ok nv =>
      rw [bind_ok hx, bind_ok hx, bind_apply]
      rcases hy : raiseCollected E (run E n) w.objs.length nv w1 with ⟨y, w2⟩
      cases y <;> rfl
  rw [hrun, e]
  exact h

/-- C50: a value that its property rejects, assigned outside `validate()` and
construction: the error hook has been called with the error raised, after
possible calls made by the validation of nested values. -/
theorem C50_assign {n r : Nat} {k : PyStr} {p : PropSpec} {v : Val} {w w1 : World} {o : Obj}
    {e : PyErr} (ho : w.objs[r]? = some o) (hb : o.gv = some false)
    (hh : (E.classes o.cls).hook = none)
    (hp : lookupS k (E.classes o.cls).props = some (.mutable p)) (hu : v ≠ .undef)
    (hx : run E n (.validate k p (some r) v) w = (.error e, w1)) (he : e.kind = .validation) :
    run E (n + 1) (.setattr r k v) w = (.error e, w1) ∧
      e.tuples = [⟨some (s% "invalid"), some k, some r⟩] ∧
      ∃ hs, w1.hooks = w.hooks ++ hs ++ [(r, e.tuples)] := by
  have hrun : run E (n + 1) (.setattr r k v) w = (.error e, w1) := by
    show setattrBody E (run E n) r k v w = _
    unfold setattrBody
    have h1 : entryOf E r k w = (.ok (some (.mutable p)), w) := by
      unfold entryOf
      rw [bind_ok (getObj_some ho), hp]
      rfl
    refine (bind_ok h1).trans ?_
    show assignBody E (run E n) r k p v w = _
    unfold assignBody
    have h2 : v.isUndef = false := by cases v <;> first | rfl | exact absurd rfl hu
    rw [h2]
    exact bind_err hx
  obtain ⟨h1, h2⟩ := run_blames (b := false) n p v w e w1 ⟨o, ho, hb, fun _ => hh⟩ hx he
  refine ⟨hrun, h1, ?_⟩
  rw [h1]
  exact h2 rfl

/-! ## Assignments that succeed -/

/-- `x` is checked as an item when `v` is assigned to a container. -/
inductive ItemOf (x : Val) : Val → Prop
  | tup (xs : List Val) : x ∈ xs → ItemOf x (.tup xs)
  | list (xs : List Val) : x ∈ xs → ItemOf x (.list xs)
  | set (xs : List Val) : x ∈ xs → ItemOf x (.set xs)
  | one : (∀ xs, x ≠ .tup xs) → (∀ xs, x ≠ .list xs) → (∀ xs, x ≠ .set xs) → ItemOf x x

mutual
/-- The value is checked without trying alternatives and without building
instances. -/
def Direct : PropSpec → Val → Prop
  | .mk _ _ _ _ ty, v => DirectTy ty v
def DirectTy : PropTy → Val → Prop
  | .union .., _ => False
  | .seq _ it _ _ _, v => ∀ x, ItemOf x v → Direct it x
  | .dict kp vp co, v => co = false ∧ ∀ kvs, v = .dict kvs → ∀ kv ∈ kvs, Direct kp kv.1 ∧ Direct vp kv.2
  | .inst _, v => ∀ kvs, v ≠ .dict kvs
  | _, _ => True
end

theorem itemOf_iff {x v : Val} : ItemOf x v ↔ x ∈ (if v.isContainer then v.items else [v]) := by
  constructor
  · intro h
    cases h with
    | tup xs h => exact h
    | list xs h => exact h
    | set xs h => exact h
    | one h1 h2 h3 =>
      cases x <;> first | exact absurd rfl (h1 _) | exact absurd rfl (h2 _) | exact absurd rfl (h3 _) | exact List.mem_singleton.2 rfl
  · intro h
    cases v <;> first
      | exact .tup _ h
      | exact .list _ h
      | exact .set _ h
      | (cases List.mem_singleton.1 h; exact .one (by simp) (by simp) (by simp))

theorem liftScalar_kept {nm : PyStr} {inst : Option Nat} {rec : Rec} {x : Except SErr Val} {w w' : World} {y : Val}
    (h : liftScalar E rec nm inst x w = (.ok y, w')) : w' = w := by
  match x, h with
  | .ok v, h => cases h; rfl
  | .error (.raw k), h => cases h
  | .error (.invalid 0), h => exact (propError_raises h).elim
  | .error (.invalid 1), h => exact (propError_raises h).elim
  | .error (.invalid 2), h =>
    rcases catchIf_ok_inv h with h | ⟨_, _, _, h⟩ <;> exact (propError_raises h).elim
  | .error (.invalid (n + 3)), h => exact (propError_raises h).elim

/-- C50: a value that its property accepts directly calls no error hook. -/
theorem C50_accepted : ∀ (n : Nat) {p : PropSpec} {k : PyStr} {inst : Option Nat} {v x : Val} {w w1 : World},
    Direct p v → run E n (.validate k p inst v) w = (.ok x, w1) → w1.hooks = w.hooks
  | 0, p, k, inst, v, x, w, w1, _, h => by cases h
  | n + 1, .mk rq se de df ty, k, inst, v, x, w, w1, hd, h => by
    have ih := @C50_accepted n
    have h : validateBody E (run E n) k (.mk rq se de df ty) inst v w = (.ok x, w1) := h
    have hd : DirectTy ty v := hd
    have seqs : ∀ {it : PropSpec} (xs : List Val) {ys : List Val} {w w' : World}, (∀ x ∈ xs, Direct it x) →
        mapML (fun x => M.catchIf ErrKind.isValueError (run E n (.validate k it inst x))
          (fun _ => propError E (run E n) k inst)) xs w = (.ok ys, w') → w'.hooks = w.hooks := by
      intro it xs
      induction xs with
      | nil => intro ys w w' _ h; cases h; rfl
      | cons a xs ihx =>
        intro ys w w' hx h
        unfold mapML at h
        obtain ⟨y, w1, h1, h⟩ := bind_ok_inv h
        obtain ⟨zs, w2, h2, h⟩ := bind_ok_inv h
        cases h
        rw [ihx (fun x h => hx x (by simp [h])) h2, ih (hx a (by simp)) (item_ok_inv h1)]
    unfold validateBody at h
    cases ty with
    | union => exact hd.elim
    | seq kind it lo hi co =>
      simp only [PropSpec.ty] at h
      unfold seqValidate at h
      split at h
      · obtain ⟨_, w2, h1, _⟩ := bind_ok_inv h
        exact (propError_raises h1).elim
      obtain ⟨ys, w3, h2, h⟩ := bind_ok_inv h
      have hw3 : w1 = w3 := by
        cases kind <;> unfold mkSeq at h
        · cases h; rfl
        · cases h; rfl
        · by_cases hh : hashableL ys = true
          · rw [if_pos hh] at h; cases h; rfl
          · rw [if_neg hh] at h; cases h
      rw [hw3, seqs _ (fun x hx => hd x (itemOf_iff.2 hx)) h2]
    | dict kp vp co =>
      obtain ⟨hco, hdd⟩ := hd
      subst hco
      simp only [PropSpec.ty] at h
      unfold dictValidate at h
      obtain ⟨items, w2, h1, h⟩ := bind_ok_inv h
      obtain ⟨out, w3, h2, h⟩ := bind_ok_inv h
      cases h
      have hitems : w2 = w ∧ v = .dict items := by
        cases v with
        | dict kvs => cases h1; exact ⟨rfl, rfl⟩
        | _ => exact (propError_raises h1).elim
      obtain ⟨rfl, rfl⟩ := hitems
      have hdd := hdd items rfl
      have folds : ∀ (kvs d out : List (Val × Val)) {w w' : World}, (∀ kv ∈ kvs, Direct kp kv.1 ∧ Direct vp kv.2) →
          foldML (dictItem E (run E n) k inst kp vp) d kvs w = (.ok out, w') → w'.hooks = w.hooks := by
        intro kvs
        induction kvs with
        | nil => intro d out w w' _ h; cases h; rfl
        | cons kv kvs ihx =>
          intro d out w w' hx h
          unfold foldML at h
          obtain ⟨d', w4, h1, h⟩ := bind_ok_inv h
          unfold dictItem at h1
          obtain ⟨a, w5, h3, h1⟩ := bind_ok_inv h1
          obtain ⟨b, w6, h4, h1⟩ := bind_ok_inv h1
          have hw : w4 = w6 := by
            split at h1 <;> cases h1
            rfl
          rw [ihx d' out (fun x h => hx x (by simp [h])) h, hw, ih (hx kv (by simp)).2 (item_ok_inv h4),
            ih (hx kv (by simp)).1 (item_ok_inv h3)]
      exact folds items [] out hdd h2
    | inst c =>
      simp only [PropSpec.ty] at h
      unfold instValidate at h
      cases v with
      | obj r =>
        cases ho : w.objs[r]? with
        | none =>
          obtain ⟨o, w2, h1, _⟩ := bind_ok_inv h
          rw [getObj_none ho] at h1
          cases h1
        | some o =>
          simp only [] at h
          rw [bind_ok (getObj_some ho)] at h
          by_cases hh : isSub E o.cls c = true
          · rw [if_pos hh] at h; cases h; rfl
          · rw [if_neg hh] at h; exact (propError_raises h).elim
      | dict kvs => exact absurd rfl (hd kvs)
      | _ => exact (propError_raises h).elim
    | color =>
      simp only [PropSpec.ty] at h
      unfold colorBody at h
      cases v with
      | str s =>
        obtain ⟨i, w2, h1, h⟩ := bind_ok_inv h
        rw [liftScalar_kept h]
        split at h1 <;> cases h1 <;> rfl
      | _ => rw [liftScalar_kept h]
    | _ =>
      simp only [PropSpec.ty] at h
      first
        | (rw [liftScalar_kept h]; done)
        | (cases h; rfl)

/-- C50: an alternative of a Union that refuses the value calls the error hook of
the instance, once (`invalid 1`), although a later alternative accepts it. -/
theorem C50_union {n r : Nat} {k : PyStr} {rq st : Bool} {se de : Option FnId} {df : Dflt} {q : PropSpec}
    {post : List PropSpec} {v x : Val} {o : Obj} (hb : o.gv = some false) (hh : (E.classes o.cls).hook = none) :
    ∀ (pre : List PropSpec) {w : World}, w.objs[r]? = some o →
    (∀ p ∈ pre, ScalarTy p.ty ∧ p.ty ≠ .color ∧ scalarValidate E 0 p.ty v = some (.error (.invalid 1))) →
    (∀ hs, run E (n + 1) (.validate k q (some r) v) { w with hooks := hs } = (.ok x, { w with hooks := hs })) →
    run E (n + 2) (.validate k (.mk rq se de df (.union (pre ++ q :: post) st)) (some r) v) w =
      (.ok x, { w with hooks := w.hooks ++ pre.map fun _ => (r, [⟨some (s% "invalid"), some k, some r⟩]) }) := by
  intro pre w ho hp hq
  show tryProps E (run E (n + 1)) k (some r) _ (pre ++ q :: post) w = _
  induction pre generalizing w with
  | nil =>
    have := hq w.hooks
    show M.catchIf _ (run E (n + 1) (.validate k q (some r) v)) _ w = _
    rw [catchIf_ok this]
    simp
  | cons p pre ih =>
    obtain ⟨hs, hc, hv⟩ := hp p (by simp)
    have h1 : run E (n + 1) (.validate k p (some r) v) w =
        (.error ⟨.validation, [⟨some (s% "invalid"), some k, some r⟩]⟩,
          { w with hooks := w.hooks ++ [(r, [⟨some (s% "invalid"), some k, some r⟩])] }) := by
      obtain ⟨a1, a2, a3, a4, ty⟩ := p
      simp only [PropSpec.ty] at hs hc hv
      have h2 : propError (α := Val) E (run E n) k (some r) w =
          (.error ⟨.validation, [⟨some (s% "invalid"), some k, some r⟩]⟩,
            { w with hooks := w.hooks ++ [(r, [⟨some (s% "invalid"), some k, some r⟩])] }) := by
        unfold propError raiseVal
        simp only []
        rw [bind_ok (getObj_some ho)]
        rw [hb]
        simp only [beq_self_eq_true, if_true]
        have h3 : runHook E (run E n) r [⟨some (s% "invalid"), some k, some r⟩] w =
            (.ok (), { w with hooks := w.hooks ++ [(r, [⟨some (s% "invalid"), some k, some r⟩])] }) := by
          unfold runHook
          rw [bind_ok (getObj_some ho)]
          simp only [hh]
          rfl
        rw [bind_ok h3]
        rfl
      show validateBody E (run E n) k (.mk a1 a2 a3 a4 ty) (some r) v w = _
      unfold validateBody
      cases ty <;> first
        | exact hs.elim
        | exact absurd rfl hc
        | (simp only [PropSpec.ty, hv]; exact h2)
    show M.catchIf _ (run E (n + 1) (.validate k p (some r) v)) _ w = _
    rw [catchIf_err h1 rfl]
    refine (ih (w := { w with hooks := w.hooks ++ [(r, [⟨some (s% "invalid"), some k, some r⟩])] }) ho
      (fun p' hp' => hp p' (by simp [hp'])) hq).trans ?_
    simp

end

/-! ## Examples -/

/-- An instance of the example class, not being validated. -/
def c50World : World := { objs := [{ cls := 0, gv := some false }] }

/-- An invalid assignment: one call of the error hook. -/
theorem C50_example_assign :
    (run c16Env 3 (.setattr 0 (s% "a") (.str (s% "x"))) c50World).2.hooks =
      [(0, [⟨some (s% "invalid"), some (s% "a"), some 0⟩])] := by
  with_unfolding_all rfl

/-- A number that is not integral makes an Integer property call the hook twice:
the error raised by the check is caught by the handler around it, which raises
another one (basic.py:812-822). -/
theorem C50_example_twice :
    (run c16Env 3 (.setattr 0 (s% "a") (.float (.fin (1/2)))) c50World).2.hooks =
      [(0, [⟨some (s% "invalid"), some (s% "a"), some 0⟩]),
       (0, [⟨some (s% "invalid"), some (s% "a"), some 0⟩])] := by
  with_unfolding_all rfl

/-- Both properties are missing: one call for both. -/
theorem C50_example_validate :
    (run c16Env 6 (.hpValidate 0) c50World).2.hooks =
      [(0, [⟨some (s% "missing"), some (s% "a"), some 0⟩,
            ⟨some (s% "missing"), some (s% "b"), some 0⟩])] := by
  with_unfolding_all rfl

/-- `Union([Integer, String])`. -/
def c50Env : Env := { demoEnv with
  classes := fun _ => { (default : ClassDef) with
    props := [(s% "a", .mutable (.mk true none none .undef (.union
      [.mk false none none .undef (.integer false none none), .mk false none none .undef (.string [] .keep none)] false)))] } }

/-- A text is accepted and stored, and the error hook has been called all the same. -/
theorem C50_example_union :
    (run c50Env 6 (.setattr 0 (s% "a") (.str (s% "x"))) c50World).1 = .ok .none ∧
    (run c50Env 6 (.setattr 0 (s% "a") (.str (s% "x"))) c50World).2.hooks =
      [(0, [⟨some (s% "invalid"), some (s% "a"), some 0⟩])] ∧
    (run c50Env 6 (.getattr 0 (s% "a")) (run c50Env 6 (.setattr 0 (s% "a") (.str (s% "x"))) c50World).2).1 =
      .ok (.str (s% "x")) := by
  refine ⟨?_, ?_, ?_⟩ <;> with_unfolding_all rfl

/-- The hypotheses of `C50_union` hold there. -/
theorem C50_union_example (w : World) (nm : PyStr) (inst : Option Nat) :
    scalarValidate c50Env 0 (.integer false none none) (.str (s% "x")) = some (.error (.invalid 1)) ∧
    run c50Env 1 (.validate nm (.mk false none none .undef (.string [] .keep none)) inst (.str (s% "x"))) w =
      (.ok (.str (s% "x")), w) := ⟨rfl, rfl⟩

/-- The hypotheses of `C50_accepted` hold for a list of instances. -/
theorem C50_accepted_example : Direct (.mk false none none .undef (.seq .list (.mk false none none .undef (.inst 0)) none none false))
    (.list [.obj 0, .obj 0]) := by
  intro x hx
  rcases hx with ⟨_, h⟩ | ⟨_, h⟩ | ⟨_, h⟩ | ⟨h1, h2, h3⟩
  · simp at h
    subst h
    exact fun kvs => by simp
  · exact absurd rfl (h2 _)

end Verif
