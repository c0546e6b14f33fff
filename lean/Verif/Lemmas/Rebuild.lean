import Verif.Spec.RoundTrip
import Verif.Lemmas.Idempotent
import Verif.Lemmas.Notify
import Verif.Lemmas.Classes
import Verif.Props.C09
import Verif.Lemmas.Builds

/-!
# Building an instance from canonical values
-/

namespace Verif
open Spec

/-! ## States with a new instance on top -/

/-- State `w` with one more instance. -/
def atTop (w : World) (o : Obj) (t : Nat) : World := { w with objs := w.objs ++ [o], tick := t }

theorem atTop_get (w : World) (o : Obj) (t : Nat) : (atTop w o t).objs[w.objs.length]? = some o := by
  show (w.objs ++ [o])[w.objs.length]? = some o
  simp

theorem modify_snoc {α : Type} (f : α → α) (a : α) : ∀ l : List α,
    (l ++ [a]).modify l.length f = l ++ [f a]
  | [] => rfl
  | b :: l => by
    show (b :: (l ++ [a])).modify (l.length + 1) f = _
    rw [List.modify_succ_cons, modify_snoc f a l]
    rfl

theorem atTop_set (w : World) (o : Obj) (t : Nat) (f : Obj → Obj) :
    (atTop w o t).setObj w.objs.length f = atTop w (f o) t := by
  unfold World.setObj atTop
  simp only [modify_snoc]

theorem getObj_top (w : World) (o : Obj) (t : Nat) :
    getObj w.objs.length (atTop w o t) = (.ok o, atTop w o t) := getObj_some (atTop_get w o t)

theorem modObj_top (w : World) (o : Obj) (t : Nat) (f : Obj → Obj) :
    modObj w.objs.length f (atTop w o t) = (.ok (), atTop w (f o) t) := by
  rw [modObj_apply, atTop_set]

theorem atTop_tick (w : World) (o : Obj) (t t' : Nat) :
    { atTop w o t with tick := t' } = atTop w o t' := rfl

/-! ## Validating scalars -/

theorem validate_scalar_runs {E : Env} {p : PropSpec} {x : Val} {P : Val → Prop} (hty : ScalarTy p.ty)
    (h : ∀ k, ∃ y, P y ∧ scalarValidate E k p.ty x = some (.ok y)) (n : Nat) (nm : PyStr)
    (inst : Option Nat) (w : World) :
    ∃ y t, P y ∧ run E (n + 1) (.validate nm p inst x) w = (.ok y, { w with tick := t }) := by
  obtain ⟨rq, se, de, df, ty⟩ := p
  simp only [PropSpec.ty] at hty h
  show ∃ y t, P y ∧ validateBody E (run E n) nm (.mk rq se de df ty) inst x w = _
  by_cases hc : ty = .color
  · subst hc
    unfold validateBody
    simp only [PropSpec.ty]
    have hk : ∀ k, ∃ y, P y ∧ colorValidate E k x = .ok y := fun k => by
      obtain ⟨y, h1, h2⟩ := h k
      exact ⟨y, h1, Option.some.inj h2⟩
    cases x with
    | str s =>
      simp only [colorBody]
      by_cases hr : colorIsRandom E s = true
      · obtain ⟨y, h1, h2⟩ := hk (E.random w.tick)
        refine ⟨y, w.tick + 1, h1, ?_⟩
        rw [if_pos hr]
        have : draw E w = (.ok (E.random w.tick), { w with tick := w.tick + 1 }) := rfl
        rw [bind_ok this, h2]
        rfl
      · obtain ⟨y, h1, h2⟩ := hk 0
        refine ⟨y, w.tick, h1, ?_⟩
        rw [if_neg hr, bind_ok (pure_apply _ _), h2]
        rfl
    | _ =>
      obtain ⟨y, h1, h2⟩ := hk 0
      refine ⟨y, w.tick, h1, ?_⟩
      simp only [colorBody]
      rw [h2]
      rfl
  · obtain ⟨y, h1, h2⟩ := h 0
    refine ⟨y, w.tick, h1, ?_⟩
    rw [validateBody_scalar hty hc, h2]
    rfl

theorem _root_.Verif.Spec.CanonScalar.asIs {E : Env} {ty : PropTy} {v : Val} (h : CanonScalar E ty v) :
    TakenAsIs E ty v := ⟨h.defined, h.plain, h.accepted⟩

/-- A canonical scalar is validated to itself. -/
theorem validate_canon_scalar {E : Env} {p : PropSpec} {v : Val} (hty : ScalarTy p.ty)
    (h : TakenAsIs E p.ty v) (n : Nat) (nm : PyStr) (inst : Option Nat) (w : World) :
    run E (n + 1) (.validate nm p inst v) w = (.ok v, w) := by
  obtain ⟨rq, se, de, df, ty⟩ := p
  simp only [PropSpec.ty] at hty h
  show validateBody E (run E n) nm (.mk rq se de df ty) inst v w = _
  by_cases hc : ty = .color
  · subst hc
    unfold validateBody
    simp only [PropSpec.ty]
    have hk : ∀ k, colorValidate E k v = .ok v := fun k => Option.some.inj (h.accepted k)
    cases v with
    | str s =>
      -- the result is not a text
      exfalso
      have := hk 0
      unfold colorValidate at this
      simp only at this
      split at this
      · rename_i xs hx
        have := (colorOfItems_iff xs _).1 this
        obtain ⟨a, b, c, h, _⟩ := this
        simp_all
      · cases this
    | _ =>
      simp only [colorBody]
      rw [hk 0]
      rfl
  · rw [validateBody_scalar hty hc, h.accepted 0]
    rfl

/-! ## Silent assignment -/

theorem foldML_nil' {α β : Type} (f : β → α → M β) (b : β) (w : World) :
    foldML f b [] w = (.ok b, w) := rfl

theorem notify_quiet (E : Env) (rec : Rec) {r : Nat} (mode : Mode) (nm : PyStr) (prev v : Val)
    {w : World} {o : Obj} (ho : w.objs[r]? = some o) (hq : w.quar = Quar.all) :
    notify E rec r mode nm prev v w = (.ok v, w) := by
  unfold notify
  rw [bind_ok (getObj_some ho), bind_ok (get_apply w), hq]
  cases mode <;> rfl

/-- Assigning a defined value while listeners are disabled. -/
theorem setBody_quiet {E : Env} {rec : Rec} {nm : PyStr} {p : PropSpec} {v : Val} {w : World} {o : Obj}
    {t : Nat} (hq : w.quar = Quar.all) (hv : v ≠ .undef)
    (hp : ∀ pv, lookupS nm o.backend = some pv → pv ≠ .undef ∧ ∀ w', ∃ b, rec (.propEqual p pv v) w' = (.ok b, w')) :
    setBody E rec w.objs.length nm p v (atTop w o t) =
      (.ok (), atTop w { o with backend := setS nm v o.backend } t) := by
  have hvu : v.isUndef = false := by cases v <;> first | rfl | exact absurd rfl hv
  have hq' : ∀ o, (atTop w o t).quar = Quar.all := fun _ => hq
  unfold setBody
  rw [bind_ok (getObj_top w o t), bind_ok (notify_quiet E rec .validate nm _ v (atTop_get w o t) (hq' o))]
  have hw : writeStored w.objs.length nm v (atTop w o t) =
      (.ok (), atTop w { o with backend := setS nm v o.backend } t) := by
    unfold writeStored
    rw [modObj_top, hvu]
    rfl
  rw [bind_ok hw]
  have rest : ∀ b : Bool, (do
      let v2 ← (if b then notify E rec w.objs.length .change nm ((lookupS nm o.backend).getD .undef) v
        else pure v)
      let _ ← notify E rec w.objs.length .set nm ((lookupS nm o.backend).getD .undef) v2
      pure () : M Unit) (atTop w { o with backend := setS nm v o.backend } t) =
        (.ok (), atTop w { o with backend := setS nm v o.backend } t) := by
    intro b
    have h2 : (if b then notify E rec w.objs.length .change nm ((lookupS nm o.backend).getD .undef) v
        else pure v) (atTop w { o with backend := setS nm v o.backend } t) =
        (.ok v, atTop w { o with backend := setS nm v o.backend } t) := by
      cases b with
      | true => exact notify_quiet E rec .change nm _ v (atTop_get ..) (hq' _)
      | false => rfl
    rw [bind_ok h2, bind_ok (notify_quiet E rec .set nm _ v (atTop_get ..) (hq' _))]
    rfl
  cases hl : lookupS nm o.backend with
  | none =>
    rw [hl] at rest
    simp only [Option.getD_none, hvu, Val.isUndef, Bool.and_false, Bool.false_eq_true, if_false,
      Bool.or_false, if_true] at rest ⊢
    rw [bind_ok (pure_apply _ _)]
    exact rest true
  | some pv =>
    obtain ⟨h1, h2⟩ := hp pv hl
    obtain ⟨b, hb⟩ := h2 (atTop w { o with backend := setS nm v o.backend } t)
    have hpu : pv.isUndef = false := by cases pv <;> first | rfl | exact absurd rfl h1
    rw [hl] at rest
    simp only [Option.getD_some, hvu, hpu, Bool.and_false, Bool.false_eq_true, if_false,
      Bool.or_false] at rest ⊢
    have hc : (do let e ← rec (.propEqual p pv v); pure (!e.truthy) : M Bool)
        (atTop w { o with backend := setS nm v o.backend } t) =
        (.ok (!b.truthy), atTop w { o with backend := setS nm v o.backend } t) := by
      rw [bind_ok hb]
      rfl
    rw [bind_ok hc]
    exact rest _

/-- Deleting an absent value while listeners are disabled. -/
theorem setBody_quiet_undef {E : Env} {rec : Rec} {nm : PyStr} {p : PropSpec} {w : World} {o : Obj}
    {t : Nat} (hq : w.quar = Quar.all) (hp : lookupS nm o.backend = none) :
    setBody E rec w.objs.length nm p .undef (atTop w o t) =
      (.ok (), atTop w { o with backend := eraseS nm o.backend } t) := by
  have hq' : ∀ o, (atTop w o t).quar = Quar.all := fun _ => hq
  unfold setBody
  rw [bind_ok (getObj_top w o t),
    bind_ok (notify_quiet E rec .validate nm _ .undef (atTop_get w o t) (hq' o))]
  have hw : writeStored w.objs.length nm .undef (atTop w o t) =
      (.ok (), atTop w { o with backend := eraseS nm o.backend } t) := by
    unfold writeStored
    rw [modObj_top]
    rfl
  rw [bind_ok hw, hp]
  simp only [Option.getD_none, Val.isUndef, Bool.and_self, if_true]
  rw [bind_ok (pure_apply _ _)]
  simp only [Bool.false_eq_true, if_false]
  rw [bind_ok (pure_apply _ _), bind_ok (notify_quiet E rec .set nm _ .undef (atTop_get ..) (hq' _))]
  rfl

/-! ## Comparing with a default -/

/-- A value a default leaves behind: an admitted scalar or an empty container. -/
def Prior (E : Env) (p : PropSpec) (v : Val) : Prop :=
  (ScalarTy p.ty ∧ ∃ w, Admits E w p.ty v) ∨
  (∃ k it lo hi co, p.ty = .seq k it lo hi co ∧ v = ofKind k []) ∨
  (∃ kp vp co, p.ty = .dict kp vp co ∧ v = .dict [])

/-- What the value of a property looks like. -/
def Shape (E : Env) (p : PropSpec) (v : Val) : Prop :=
  (ScalarTy p.ty ∧ ∃ w, Admits E w p.ty v) ∨
  (∃ k it lo hi co xs, p.ty = .seq k it lo hi co ∧ v = ofKind k xs) ∨
  (∃ kp vp co kvs, p.ty = .dict kp vp co ∧ v = .dict kvs) ∨
  (∃ c r, p.ty = .inst c ∧ v = .obj r) ∨
  (∃ ps st, p.ty = .union ps st)

theorem scalar_equal_ok {E : Env} {ty : PropTy} {a b : Val} {w w' : World} (hs : ScalarTy ty)
    (ha : Admits E w ty a) (hb : Admits E w' ty b) : ∃ r, scalarEqual E ty a b = some (.ok r) := by
  cases ty with
  | float =>
    cases ha; cases hb
    exact ⟨_, rfl⟩
  | complex =>
    cases ha; cases hb
    exact ⟨_, rfl⟩
  | seq => exact hs.elim
  | dict => exact hs.elim
  | inst => exact hs.elim
  | union => exact hs.elim
  | _ => exact ⟨_, rfl⟩

theorem propEqualBody_scalar {E : Env} {rec : Rec} {p : PropSpec} {a b : Val} {r : Bool}
    (hs : ScalarTy p.ty) (h : scalarEqual E p.ty a b = some (.ok r)) (w : World) :
    propEqualBody E rec p a b w = (.ok (.bool r), w) := by
  obtain ⟨rq, se, de, df, ty⟩ := p
  simp only [PropSpec.ty] at hs h
  unfold propEqualBody
  simp only [PropSpec.ty]
  cases ty <;> first
    | exact hs.elim
    | (simp only [h]; rfl)

theorem prior_equal {E : Env} {p : PropSpec} {a b : Val} (ha : Prior E p a) (hb : Shape E p b)
    (n : Nat) (w : World) : ∃ r, run E (n + 1) (.propEqual p a b) w = (.ok r, w) := by
  show ∃ r, propEqualBody E (run E n) p a b w = (.ok r, w)
  rcases ha with ⟨hs, w1, ha⟩ | ⟨k, it, lo, hi, co, hty, rfl⟩ | ⟨kp, vp, co, hty, rfl⟩
  · rcases hb with ⟨_, w2, hb⟩ | ⟨_, _, _, _, _, _, hty, _⟩ | ⟨_, _, _, _, hty, _⟩ | ⟨_, _, hty, _⟩ | ⟨_, _, hty⟩
    · obtain ⟨r, hr⟩ := scalar_equal_ok hs ha hb
      exact ⟨_, propEqualBody_scalar hs hr w⟩
    all_goals (rw [hty] at hs; exact hs.elim)
  · rcases hb with ⟨hs, _, _⟩ | ⟨_, _, _, _, _, ys, hty', rfl⟩ | ⟨_, _, _, _, hty', _⟩ | ⟨_, _, hty', _⟩ | ⟨_, _, hty'⟩
    · rw [hty] at hs; exact hs.elim
    · rw [hty] at hty'; cases hty'
      unfold propEqualBody
      rw [hty]
      cases k <;> cases ys <;> exact ⟨_, rfl⟩
    all_goals (rw [hty] at hty'; cases hty')
  · rcases hb with ⟨hs, _, _⟩ | ⟨_, _, _, _, _, ys, hty', rfl⟩ | ⟨_, _, _, ys, hty', rfl⟩ | ⟨_, _, hty', _⟩ | ⟨_, _, hty'⟩
    · rw [hty] at hs; exact hs.elim
    · rw [hty] at hty'; cases hty'
    · unfold propEqualBody
      rw [hty]
      cases ys <;> exact ⟨_, rfl⟩
    all_goals (rw [hty] at hty'; cases hty')

/-! ## Defaults -/

theorem ofKind_ne (k : SeqKind) (xs : List Val) : ofKind k xs ≠ .undef ∧ ofKind k xs ≠ .none := by
  cases k <;> simp [ofKind]

/-- A default can be evaluated and validated; only the clock may move on. -/
theorem default_runs_plain {E : Env} {p : PropSpec} {d : Dflt} (h : FineDefault E p.ty d) (hd : d ≠ .undef)
    (hf : ∀ f, d ≠ .fn f) :
    ∀ (rec : Rec) (w : World) (o : Obj) (t : Nat), ∃ x t', x ≠ .undef ∧
      evalDflt E rec d (atTop w o t) = (.ok x, atTop w o t') ∧
      ∀ (n : Nat) (nm : PyStr) (inst : Option Nat) (o : Obj) (t : Nat), ∃ y t'', y ≠ .undef ∧ Prior E p y ∧
        run E (n + 1) (.validate nm p inst x) (atTop w o t) = (.ok y, atTop w o t'') := by
  intro rec w o t
  obtain ⟨rq, se, de, df, ty⟩ := p
  simp only [PropSpec.ty] at h
  have scal : ∀ x, ScalarTy ty → (∀ k, ∃ y, y ≠ .undef ∧ scalarValidate E k ty x = some (.ok y)) →
      ∀ (n : Nat) (nm : PyStr) (inst : Option Nat) (o : Obj) (t : Nat), ∃ y t'', y ≠ .undef ∧
        Prior E (.mk rq se de df ty) y ∧
        run E (n + 1) (.validate nm (.mk rq se de df ty) inst x) (atTop w o t) = (.ok y, atTop w o t'') := by
    intro x hs hv n nm inst o t
    obtain ⟨y, t', h1, h2⟩ := validate_scalar_runs (p := .mk rq se de df ty) hs hv n nm inst (atTop w o t)
    exact ⟨y, t', h1, .inl ⟨hs, _, C01_validated_value_admitted E _ _ _ _ _ _ _ _ h2⟩, h2⟩
  cases h with
  | undef => exact absurd rfl hd
  | scalar _ x hs hx hv => exact ⟨x, t, hx, rfl, scal x hs hv⟩
  | uuid =>
    exact ⟨.uuid (E.uuid4 t), t + 1, by simp, rfl, scal _ trivial fun k => ⟨_, by simp, rfl⟩⟩
  | seq k it lo hi co =>
    refine ⟨ofKind k [], t, (ofKind_ne k []).1, rfl, fun n nm inst o t => ?_⟩
    refine ⟨ofKind k [], t, (ofKind_ne k []).1, .inr (.inl ⟨k, it, lo, hi, co, rfl, rfl⟩), ?_⟩
    show validateBody E (run E n) nm (.mk rq se de df (.seq k it lo hi co)) inst (ofKind k []) (atTop w o t) = _
    unfold validateBody
    simp only [PropSpec.ty]
    unfold seqValidate
    cases k <;> cases co <;> rfl
  | fn _ f => exact absurd rfl (hf f)
  | dict kp vp co =>
    refine ⟨.dict [], t, by simp, rfl, fun n nm inst o t => ?_⟩
    refine ⟨.dict [], t, by simp, .inr (.inr ⟨kp, vp, co, rfl, rfl⟩), ?_⟩
    show validateBody E (run E n) nm (.mk rq se de df (.dict kp vp co)) inst (.dict []) (atTop w o t) = _
    unfold validateBody
    simp only [PropSpec.ty]
    cases co <;> rfl

/-- A default can be evaluated and validated; only the clock may move on. -/
theorem default_runs {E : Env} {p : PropSpec} {d : Dflt} (h : FineDefault E p.ty d) (hd : d ≠ .undef) :
    ∀ (rec : Rec) (w : World) (o : Obj) (t : Nat), ∃ x t', x ≠ .undef ∧
      evalDflt E rec d (atTop w o t) = (.ok x, atTop w o t') ∧
      ∀ (n : Nat) (nm : PyStr) (inst : Option Nat) (o : Obj) (t : Nat), ∃ y t'', y ≠ .undef ∧ Prior E p y ∧
        run E (n + 1) (.validate nm p inst x) (atTop w o t) = (.ok y, atTop w o t'') := by
  by_cases hf : ∃ f, d = .fn f
  · obtain ⟨f, rfl⟩ := hf
    obtain ⟨ty, hty⟩ : ∃ ty, ty = p.ty := ⟨_, rfl⟩
    rw [← hty] at h
    cases h with
    | fn _ _ x he hx h =>
      intro rec w o t
      rw [hty] at h
      obtain ⟨y, t', h1, h2, h3⟩ := default_runs_plain h (by simp) (by simp) rec w o t
      cases h2
      refine ⟨x, t, hx, ?_, h3⟩
      show execProg rec (E.fn f []) (atTop w o t) = _
      rw [he]
      rfl
  · exact default_runs_plain h hd fun f e => hf ⟨f, e⟩

/-- What the defaults of class `c` leave behind. -/
def Initial (E : Env) (c : ClsId) (b : List (PyStr × Val)) : Prop :=
  ∀ nm v, lookupS nm b = some v → v ≠ .undef ∧ ∃ e, lookupS nm (E.classes c).props = some e ∧
    classDefault E c nm e ≠ .undef ∧ ∀ p, e = .mutable p → Prior E p v

/-- A property whose default can be assigned. -/
def Assignable (E : Env) (c : ClsId) (nm : PyStr) (e : Entry) : Prop :=
  classDefault E c nm e = .undef ∨ ∃ p, OwnSpec e p ∧ FineDefault E p.ty (classDefault E c nm e)

theorem initial_set {E : Env} {c : ClsId} {b : List (PyStr × Val)} (h : Initial E c b) {nm : PyStr}
    {v : Val} {e : Entry} (hv : v ≠ .undef) (he : lookupS nm (E.classes c).props = some e)
    (hd : classDefault E c nm e ≠ .undef) (hp : ∀ p, e = .mutable p → Prior E p v) :
    Initial E c (setS nm v b) := by
  intro nm' v' hl
  by_cases hn : nm' = nm
  · subst hn
    rw [lookupS_setS] at hl
    cases hl
    exact ⟨hv, e, he, hd, hp⟩
  · rw [lookupS_setS_ne hn] at hl
    exact h nm' v' hl

theorem initial_erase {E : Env} {c : ClsId} {b : List (PyStr × Val)} (h : Initial E c b) (nm : PyStr) :
    Initial E c (eraseS nm b) := by
  intro nm' v' hl
  by_cases hn : nm' = nm
  · subst hn
    rw [lookupS_eraseS] at hl
    cases hl
  · rw [lookupS_eraseS_ne hn] at hl
    exact h nm' v' hl

theorem gettableDefault_runs {E : Env} {c : ClsId} {nm : PyStr} {e : Entry}
    (he : lookupS nm (E.classes c).props = some e) (ha : Assignable E c nm e) (n : Nat)
    (w : World) (o : Obj) (t : Nat) (hb : Initial E c o.backend) :
    ∃ b t', Initial E c b ∧ gettableDefault E (run E (n + 1)) c w.objs.length (nm, e) (atTop w o t) =
      (.ok (), atTop w { o with backend := b } t') := by
  by_cases hd : classDefault E c nm e = .undef
  · refine ⟨o.backend, t, hb, ?_⟩
    unfold gettableDefault
    simp only [hd]
    split <;> rfl
  · obtain ⟨p, ho, hf⟩ := ha.resolve_left hd
    rcases ho with rfl | rfl
    · exact ⟨o.backend, t, hb, rfl⟩
    · obtain ⟨x, t1, hx, h1, h2⟩ := default_runs hf hd (run E (n + 1)) w o t
      obtain ⟨y, t2, hy, hp, h3⟩ := h2 n nm (some w.objs.length) o t1
      refine ⟨setS nm y o.backend, t2, initial_set hb hy he hd (by simp), ?_⟩
      have hx0 : classDefault E c nm (.gettable p) ≠ .val .undef := by
        intro h
        rw [h] at h1
        cases h1
        exact hx rfl
      have : (match classDefault E c nm (.gettable p) with
          | .undef => pure ()
          | .val .undef => pure ()
          | d => (do
              let v ← evalDflt E (run E (n + 1)) d
              let v' ← entryValidate (run E (n + 1)) nm (.gettable p) (some w.objs.length) v
              putStored w.objs.length nm v' : M Unit)) =
          (do let v ← evalDflt E (run E (n + 1)) (classDefault E c nm (.gettable p))
              let v' ← entryValidate (run E (n + 1)) nm (.gettable p) (some w.objs.length) v
              putStored w.objs.length nm v' : M Unit) := by
        split
        · rename_i h; exact absurd h hd
        · rename_i h; exact absurd h hx0
        · rfl
      have hdef : gettableDefault E (run E (n + 1)) c w.objs.length (nm, .gettable p) =
          (do let v ← evalDflt E (run E (n + 1)) (classDefault E c nm (.gettable p))
              let v' ← entryValidate (run E (n + 1)) nm (.gettable p) (some w.objs.length) v
              putStored w.objs.length nm v' : M Unit) := by
        unfold gettableDefault
        rw [if_neg (by simp [Entry.isMutable])]
        exact this
      rw [hdef, bind_ok h1]
      unfold entryValidate
      simp only
      rw [bind_ok h3]
      unfold putStored
      rw [modObj_top]

theorem gettableDefaults_run {E : Env} {c : ClsId} (n : Nat) (w : World) :
    ∀ (l : List (PyStr × Entry)), (∀ kv ∈ l, lookupS kv.1 (E.classes c).props = some kv.2 ∧
      Assignable E c kv.1 kv.2) → ∀ (o : Obj) (t : Nat), Initial E c o.backend →
    ∃ b t', Initial E c b ∧ forML (gettableDefault E (run E (n + 1)) c w.objs.length) l (atTop w o t) =
      (.ok (), atTop w { o with backend := b } t')
  | [], _, o, t, hb => ⟨o.backend, t, hb, rfl⟩
  | kv :: l, h, o, t, hb => by
    obtain ⟨b, t1, h1, h2⟩ := gettableDefault_runs (h kv (by simp)).1 (h kv (by simp)).2 n w o t hb
    obtain ⟨b', t2, h3, h4⟩ := gettableDefaults_run n w l (fun x hx => h x (by simp [hx]))
      { o with backend := b } t1 h1
    refine ⟨b', t2, h3, ?_⟩
    unfold forML
    rw [bind_ok h2, h4]

theorem setattr_top {E : Env} {n : Nat} {nm : PyStr} {p : PropSpec} {x y : Val} {w : World} {o : Obj}
    {t t' : Nat} (hq : w.quar = Quar.all) (he : lookupS nm (E.classes o.cls).props = some (.mutable p))
    (hx : x ≠ .undef) (hy : y ≠ .undef)
    (hv : run E n (.validate nm p (some w.objs.length) x) (atTop w o t) = (.ok y, atTop w o t'))
    (hp : ∀ pv, lookupS nm o.backend = some pv → pv ≠ .undef ∧
      ∀ w', ∃ b, run E n (.propEqual p pv y) w' = (.ok b, w')) :
    run E (n + 1) (.setattr w.objs.length nm x) (atTop w o t) =
      (.ok .none, atTop w { o with backend := setS nm y o.backend } t') := by
  show setattrBody E (run E n) w.objs.length nm x (atTop w o t) = _
  rw [setattr_mutable (atTop_get w o t) he]
  unfold assignBody
  have hxu : x.isUndef = false := by cases x <;> first | rfl | exact absurd rfl hx
  simp only [hxu, Bool.false_eq_true, if_false]
  rw [bind_ok hv, bind_ok (setBody_quiet hq hy hp)]
  rfl

theorem reset_runs {E : Env} {nm : PyStr} {p : PropSpec} {w : World} {o : Obj}
    (hq : w.quar = Quar.all)
    (he : lookupS nm (E.classes o.cls).props = some (.mutable p))
    (ha : Assignable E o.cls nm (.mutable p)) (n t : Nat) (hb : Initial E o.cls o.backend) :
    ∃ b t', Initial E o.cls b ∧ run E (n + 3) (.reset w.objs.length (some nm)) (atTop w o t) =
      (.ok .none, atTop w { o with backend := b } t') := by
  have hrun : ∀ v t1, evalDflt E (run E (n + 2)) (classDefault E o.cls nm (.mutable p)) (atTop w o t) =
      (.ok v, atTop w o t1) →
      run E (n + 3) (.reset w.objs.length (some nm)) (atTop w o t) =
        run E (n + 2) (.setattr w.objs.length nm v) (atTop w o t1) := by
    intro v t1 h
    show resetBody E (run E (n + 2)) w.objs.length (some nm) (atTop w o t) = _
    unfold resetBody
    rw [bind_ok (getObj_top w o t)]
    simp only [he]
    rw [bind_ok h]
  by_cases hd : classDefault E o.cls nm (.mutable p) = .undef
  · have hnone : lookupS nm o.backend = none := by
      cases h : lookupS nm o.backend with
      | none => rfl
      | some v =>
        obtain ⟨_, e, h1, h2, _⟩ := hb nm v h
        rw [he] at h1
        cases h1
        exact absurd hd h2
    refine ⟨eraseS nm o.backend, t, initial_erase hb nm, ?_⟩
    rw [hrun .undef t (by rw [hd]; rfl)]
    show setattrBody E (run E (n + 1)) w.objs.length nm .undef (atTop w o t) = _
    rw [setattr_mutable (atTop_get w o t) he]
    unfold assignBody
    simp only [Val.isUndef, if_true]
    rw [bind_ok (pure_apply _ _), bind_ok (setBody_quiet_undef hq hnone)]
    rfl
  · obtain ⟨q, ho, hf⟩ := ha.resolve_left hd
    obtain rfl : p = q := by
      rcases ho with h | h <;> cases h
      rfl
    obtain ⟨x, t1, hx, h1, h2⟩ := default_runs hf hd (run E (n + 2)) w o t
    obtain ⟨y, t2, hy, hpr, h3⟩ := h2 n nm (some w.objs.length) o t1
    refine ⟨setS nm y o.backend, t2, initial_set hb hy he hd (fun q hq => by cases hq; exact hpr), ?_⟩
    rw [hrun x t1 h1]
    refine setattr_top hq he hx hy h3 fun pv hpv => ?_
    obtain ⟨h4, e, h5, _, h6⟩ := hb nm pv hpv
    rw [he] at h5
    cases h5
    refine ⟨h4, fun w' => prior_equal (h6 p rfl) ?_ n w'⟩
    rcases hpr with h | ⟨k, it, lo, hi, co, h7, h8⟩ | ⟨kp, vp, co, h7, h8⟩
    · exact .inl h
    · exact .inr (.inl ⟨k, it, lo, hi, co, [], h7, h8⟩)
    · exact .inr (.inr (.inl ⟨kp, vp, co, [], h7, h8⟩))

/-- One property of `_reset()`. -/
def resetEach (rec : Rec) (r : Nat) (kv : PyStr × Entry) : M Unit :=
  if kv.2.isMutable then do
    let _ ← rec (.reset r (some kv.1))
    pure ()
  else pure ()

theorem resets_run {E : Env} {w : World} (hq : w.quar = Quar.all) (n : Nat) :
    ∀ (l : List (PyStr × Entry)) (o : Obj), (∀ kv ∈ l, lookupS kv.1 (E.classes o.cls).props = some kv.2 ∧
      Assignable E o.cls kv.1 kv.2) → ∀ (t : Nat), Initial E o.cls o.backend →
    ∃ b t', Initial E o.cls b ∧ forML (resetEach (run E (n + 3)) w.objs.length) l (atTop w o t) =
      (.ok (), atTop w { o with backend := b } t')
  | [], o, _, t, hb => ⟨o.backend, t, hb, rfl⟩
  | (nm, e) :: l, o, h, t, hb => by
    have h1 : ∃ b t', Initial E o.cls b ∧ resetEach (run E (n + 3)) w.objs.length (nm, e) (atTop w o t) =
        (.ok (), atTop w { o with backend := b } t') := by
      unfold resetEach
      cases e with
      | mutable p =>
        obtain ⟨b, t1, h1, h2⟩ := reset_runs hq (h (nm, .mutable p) (by simp)).1
          (h (nm, .mutable p) (by simp)).2 n t hb
        refine ⟨b, t1, h1, ?_⟩
        rw [if_pos (show (nm, Entry.mutable p).2.isMutable = true from rfl)]
        exact bind_ok h2
      | _ => exact ⟨o.backend, t, hb, rfl⟩
    obtain ⟨b, t1, h1, h2⟩ := h1
    obtain ⟨b', t2, h3, h4⟩ := resets_run hq n l { o with backend := b }
      (fun x hx => h x (by simp [hx])) t1 h1
    refine ⟨b', t2, h3, ?_⟩
    unfold forML
    rw [bind_ok h2, h4]

theorem resetAll_runs {E : Env} {w : World} {o : Obj} (hq : w.quar = Quar.all)
    (h : ∀ kv ∈ (E.classes o.cls).props, lookupS kv.1 (E.classes o.cls).props = some kv.2 ∧
      Assignable E o.cls kv.1 kv.2) (n t : Nat) (hb : Initial E o.cls o.backend) :
    ∃ b t', Initial E o.cls b ∧ run E (n + 4) (.reset w.objs.length none) (atTop w o t) =
      (.ok .none, atTop w { o with backend := b } t') := by
  obtain ⟨b, t', h1, h2⟩ := resets_run hq n _ o h t hb
  refine ⟨b, t', h1, ?_⟩
  show resetBody E (run E (n + 3)) w.objs.length none (atTop w o t) = _
  unfold resetBody
  rw [bind_ok (getObj_top w o t)]
  simp only
  exact bind_ok h2

/-! ## Keywords -/

/-- The keyword `nm = x` is accepted as it is at depth `n`. -/
structure Keyword (E : Env) (n : Nat) (c : ClsId) (w : World) (nm : PyStr) (x : Val) : Prop where
  defined : x ≠ .undef
  own : ∃ e p, lookupS nm (E.classes c).props = some e ∧ OwnSpec e p ∧ Shape E p x ∧
    ∀ inst w', ClsKept w w' → Silent w' inst → run E n (.validate nm p inst x) w' = (.ok x, w')

theorem clsKept_top (w : World) (o : Obj) (t : Nat) : ClsKept w (atTop w o t) := by
  intro r c h
  obtain ⟨o', h1, h2⟩ := h
  exact ⟨o', by
    show (w.objs ++ [o])[r]? = some o'
    rw [List.getElem?_append_left (List.getElem?_eq_some_iff.1 h1).1]
    exact h1, h2⟩

theorem silent_top {w : World} {o : Obj} {t : Nat} (h : o.gv ≠ some false) :
    Silent (atTop w o t) (some w.objs.length) := by
  intro r o' hr ho
  cases hr
  rw [atTop_get] at ho
  cases ho
  exact h

/-- The stored values after some assignments. -/
def assigned (b : List (PyStr × Val)) (kw : List (PyStr × Val)) : List (PyStr × Val) :=
  kw.foldl (fun b kv => setS kv.1 kv.2 b) b

theorem lookup_assigned : ∀ (kw b : List (PyStr × Val)) (nm : PyStr), (kw.map (·.1)).Nodup →
    lookupS nm (assigned b kw) = (lookupS nm kw).or (lookupS nm b)
  | [], b, nm, _ => rfl
  | kv :: kw, b, nm, h => by
    rw [List.map_cons, List.nodup_cons] at h
    show lookupS nm (assigned (setS kv.1 kv.2 b) kw) = _
    rw [lookup_assigned kw _ nm h.2]
    have hc : lookupS nm (kv :: kw) = if kv.1 = nm then some kv.2 else lookupS nm kw := rfl
    rw [hc]
    by_cases hn : kv.1 = nm
    · subst hn
      have : lookupS kv.1 kw = none :=
        lookupS_none _ _ fun x hx e => h.1 (e ▸ List.mem_map_of_mem (f := Prod.fst) hx)
      rw [this, if_pos rfl, lookupS_setS]
      rfl
    · rw [if_neg hn, lookupS_setS_ne (fun e => hn e.symm)]

theorem fin_eq {α : Type} {m : M α} {f : World → World} {w w' : World} {x : Except PyErr α}
    (h : m w = (x, w')) : M.fin m f w = (x, f w') := by
  rw [fin_apply, h]

theorem initStep_runs {E : Env} {n : Nat} {w : World} {o : Obj} {t : Nat} {nm : PyStr} {x : Val}
    {p : PropSpec} (hq : w.quar = Quar.all)
    (he : lookupS nm (E.classes o.cls).props = some (.mutable p)) (hx : x ≠ .undef) (hs : Shape E p x)
    (hv : run E (n + 1) (.validate nm p (some w.objs.length) x) (atTop w o t) = (.ok x, atTop w o t))
    (hp : ∀ pv, lookupS nm o.backend = some pv → pv ≠ .undef ∧ Prior E p pv) :
    initStep (run E (n + 2)) w.objs.length (E.classes o.cls) none (nm, x) (atTop w o t) =
      (.ok none, atTop w { o with backend := setS nm x o.backend } t) := by
  have hset := setattr_top hq he hx hx hv fun pv h =>
    ⟨(hp pv h).1, fun w' => prior_equal (hp pv h).2 hs n w'⟩
  unfold initStep
  simp only [he]
  have : M.attempt (run E (n + 2) (.setattr w.objs.length nm x)) (atTop w o t) =
      (.ok (.ok .none), atTop w { o with backend := setS nm x o.backend } t) := by
    rw [attempt_apply, hset]
  rw [bind_ok this]
  rfl

theorem initSteps_run {E : Env} {n : Nat} {w : World} (hq : w.quar = Quar.all) :
    ∀ (kw : List (PyStr × Val)) (o : Obj) (t : Nat), o.gv ≠ some false → (kw.map (·.1)).Nodup →
    (∀ kv ∈ kw, Keyword E (n + 1) o.cls w kv.1 kv.2 ∧
      ∃ p, lookupS kv.1 (E.classes o.cls).props = some (.mutable p) ∧
        ∀ pv, lookupS kv.1 o.backend = some pv → pv ≠ .undef ∧ Prior E p pv) →
    foldML (initStep (run E (n + 2)) w.objs.length (E.classes o.cls)) none kw (atTop w o t) =
      (.ok none, atTop w { o with backend := assigned o.backend kw } t)
  | [], o, t, _, _, _ => rfl
  | (nm, x) :: kw, o, t, hgv, hnd, h => by
    obtain ⟨⟨hx, e, p, he, ho, hs, hv⟩, p', he', hp⟩ := h (nm, x) (by simp)
    have he : lookupS nm (E.classes o.cls).props = some e := he
    have he' : lookupS nm (E.classes o.cls).props = some (.mutable p') := he'
    rw [he] at he'
    cases he'
    obtain rfl : p = p' := by
      rcases ho with h | h <;> cases h
      rfl
    rw [List.map_cons, List.nodup_cons] at hnd
    unfold foldML
    rw [bind_ok (initStep_runs hq he hx hs (hv _ _ (clsKept_top w o t) (silent_top hgv)) hp)]
    refine initSteps_run hq kw { o with backend := setS nm x o.backend } t hgv hnd.2 fun kv hkv => ?_
    obtain ⟨h1, p2, h2, h3⟩ := h kv (by simp [hkv])
    refine ⟨h1, p2, h2, fun pv hpv => ?_⟩
    have hne : kv.1 ≠ nm := fun e => hnd.1 (by
      rw [show (nm, x).1 = kv.1 from e.symm]
      exact List.mem_map_of_mem (f := Prod.fst) hkv)
    have hpv : lookupS kv.1 (setS nm x o.backend) = some pv := hpv
    rw [lookupS_setS_ne hne] at hpv
    exact h3 pv hpv

/-- Calling the class with canonical keywords, listeners disabled. -/
theorem construct_runs {E : Env} {n : Nat} {c : ClsId} {w : World} (hq : w.quar = Quar.all)
    (hnames : ((E.classes c).props.map (·.1)).Nodup)
    (ha : ∀ nm e, (nm, e) ∈ (E.classes c).props → Assignable E c nm e)
    (hself : ∀ nm e, (nm, e) ∈ (E.classes c).props → nm ≠ s% "self" ∧ nm ≠ s% "cls")
    {kw : List (PyStr × Val)} (hnd : (kw.map (·.1)).Nodup)
    (hkw : ∀ kv ∈ kw, Keyword E (n + 3) c w kv.1 kv.2 ∧
      ∃ p, lookupS kv.1 (E.classes c).props = some (.mutable p)) :
    ∃ o b t, o.cls = c ∧ Initial E c b ∧ o.backend = assigned b kw ∧ o.gv = some false ∧
      o.te = false ∧ o.gs = false ∧
      run E (n + 5) (.construct c kw) w = (.ok (.obj w.objs.length), atTop w o t) := by
  have hprops : ∀ kv ∈ (E.classes c).props, lookupS kv.1 (E.classes c).props = some kv.2 ∧
      Assignable E c kv.1 kv.2 := fun kv hkv =>
    ⟨lookupS_of_mem hnames hkv, ha kv.1 kv.2 hkv⟩
  have hnot : ∀ s, (∀ nm e, (nm, e) ∈ (E.classes c).props → nm ≠ s) →
      kw.any (fun kv => kv.1 == s) = false := by
    intro s hs
    rw [List.any_eq_false]
    intro kv hkv hbad
    obtain ⟨_, p, hp⟩ := hkw kv hkv
    exact hs kv.1 _ (lookupS_mem_props hp) (by simpa using hbad)
  -- allocation
  let o0 : Obj := { cls := c, listeners := initListeners (E.classes c) }
  obtain ⟨b1, t1, hb1, h1⟩ := gettableDefaults_run (n + 3) w _ hprops o0 w.tick
    (fun nm v h => by cases h)
  let o1 : Obj := { o0 with backend := b1 }
  obtain ⟨b2, t2, hb2, h2⟩ := resetAll_runs (o := o1) hq hprops n t1 hb1
  let o2 : Obj := { o1 with backend := b2, gv := some true, errs := some [] }
  have h3 := initSteps_run (n := n + 2) hq kw o2 t2 (by simp [o2]) hnd fun kv hkv => by
    obtain ⟨hk, p', hp'⟩ := hkw kv hkv
    refine ⟨hk, p', hp', fun pv hpv => ?_⟩
    obtain ⟨h4, e, h5, _, h6⟩ := hb2 kv.1 pv hpv
    have h5 : lookupS kv.1 (E.classes c).props = some e := h5
    rw [hp'] at h5
    cases h5
    exact ⟨h4, h6 p' rfl⟩
  let o3 : Obj := { o2 with backend := assigned b2 kw }
  refine ⟨{ o3 with gv := some false, errs := none }, b2, t2, rfl, hb2, rfl, rfl, rfl, rfl, ?_⟩
  show constructBody E (run E (n + 4)) c kw w = _
  unfold constructBody
  rw [hnot _ fun nm e h => (hself nm e h).2]
  have halloc : alloc o0 w = (.ok w.objs.length, atTop w o0 w.tick) := rfl
  have hr0 : raiseWhen false ErrKind.type w = (.ok (), w) := rfl
  rw [bind_ok hr0, bind_ok halloc, bind_ok h1]
  have hdis : withDisabled Quar.all (run E (n + 4) (.reset w.objs.length none)) (atTop w o1 t1) =
      (.ok .none, atTop w { o1 with backend := b2 } t2) := by
    unfold withDisabled
    have hqq : ({ atTop w o1 t1 with quar := (atTop w o1 t1).quar.union Quar.all } : World) = atTop w o1 t1 := by
      have : (atTop w o1 t1).quar = Quar.all := hq
      rw [this, show Quar.all.union Quar.all = Quar.all from rfl]
      show World.mk _ Quar.all _ _ _ _ _ = World.mk _ w.quar _ _ _ _ _
      rw [hq]
      rfl
    rw [hqq]
    simp only [h2]
    rfl
  rw [bind_ok hdis]
  have hinit : initBody E (run E (n + 4)) w.objs.length (E.classes c) kw
      (atTop w { o1 with backend := b2 } t2) =
      (.ok (), atTop w { o3 with gv := some false, errs := none } t2) := by
    unfold initBody
    rw [hnot _ fun nm e h => (hself nm e h).1]
    have hr0 : raiseWhen false ErrKind.type (atTop w { o1 with backend := b2 } t2) =
      (.ok (), atTop w { o1 with backend := b2 } t2) := rfl
    rw [bind_ok hr0, bind_ok (modObj_top ..)]
    have hbody : (do
        let nv ← foldML (initStep (run E (n + 4)) w.objs.length (E.classes c)) none kw
        raiseCollected E (run E (n + 4)) w.objs.length nv : M Unit) (atTop w o2 t2) =
        (.ok (), atTop w o3 t2) := by
      rw [bind_ok h3]
      unfold raiseCollected
      rw [bind_ok (getObj_top w o3 t2)]
      rfl
    refine (fin_eq hbody).trans ?_
    unfold clearValidating
    rw [atTop_set]
  rw [bind_ok hinit]
  rfl

end Verif
