import Verif.Lemmas.Monad
import Verif.Lemmas.Writes
import Verif.Spec.Valid

/-!
# Computations that only look

`Steady m`: the result does not depend on validation markers, collected errors
and the ghost logs, and nothing else is changed.
-/

namespace Verif
open Spec

/-- An object without validation markers. -/
def bareO (o : Obj) : Obj := { o with gv := none, errs := none }

/-- A state without validation markers and ghost logs. -/
def bare (w : World) : World := { w with objs := w.objs.map bareO, trace := [], hooks := [] }

def Agree (w1 w2 : World) : Prop := bare w1 = bare w2

/-- As `Agree`, and objects being validated keep what they have collected and
their error hooks are not called. -/
structure Same (w1 w2 : World) : Prop where
  agree : Agree w1 w2
  gv : ∀ (r : Nat) (o1 o2 : Obj), w1.objs[r]? = some o1 → w2.objs[r]? = some o2 →
    (o2.gv = some true ↔ o1.gv = some true) ∧ (o1.gv = some true → o2.errs = o1.errs)
  hooks : ∃ hs, w2.hooks = w1.hooks ++ hs ∧ ∀ h ∈ hs, ¬ Busy w1 h.1

theorem Agree.refl (w : World) : Agree w w := rfl
theorem Agree.symm {a b : World} (h : Agree a b) : Agree b a := Eq.symm h
theorem Agree.trans {a b c : World} (h : Agree a b) (k : Agree b c) : Agree a c := Eq.trans h k

theorem Agree.objs {a b : World} (h : Agree a b) : a.objs.map bareO = b.objs.map bareO :=
  congrArg World.objs (show bare a = bare b from h)
theorem Agree.len {a b : World} (h : Agree a b) : a.objs.length = b.objs.length := by
  have := congrArg List.length h.objs; simpa using this
theorem Agree.quar {a b : World} (h : Agree a b) : a.quar = b.quar := (congrArg World.quar (show bare a = bare b from h) : (bare a).quar = (bare b).quar)
theorem Agree.user {a b : World} (h : Agree a b) : a.user = b.user := (congrArg World.user (show bare a = bare b from h) : (bare a).user = (bare b).user)

theorem Agree.get {a b : World} (h : Agree a b) (r : Nat) :
    (a.objs[r]?).map bareO = (b.objs[r]?).map bareO := by
  have := congrArg (fun l => l[r]?) h.objs
  simpa using this

theorem Agree.some {a b : World} (h : Agree a b) {r : Nat} {o : Obj} (ho : a.objs[r]? = some o) :
    ∃ o', b.objs[r]? = some o' ∧ bareO o' = bareO o := by
  have := h.get r
  rw [ho] at this
  cases hb : b.objs[r]? with
  | none => rw [hb] at this; simp at this
  | some o' => rw [hb] at this; simp at this; exact ⟨o', rfl, this.symm⟩

theorem Agree.none {a b : World} (h : Agree a b) {r : Nat} (ho : a.objs[r]? = none) :
    b.objs[r]? = none := by
  have := h.get r
  rw [ho] at this
  simpa using this.symm

theorem agree_iff {a b : World} : Agree a b ↔ a.objs.map bareO = b.objs.map bareO ∧
    a.quar = b.quar ∧ a.user = b.user ∧ a.tick = b.tick ∧ a.bypass = b.bypass := by
  constructor
  · intro h
    exact ⟨h.objs, h.quar, h.user, (congrArg World.tick (show bare a = bare b from h) : (bare a).tick = (bare b).tick), (congrArg World.bypass (show bare a = bare b from h) : (bare a).bypass = (bare b).bypass)⟩
  · rintro ⟨h1, h2, h3, h4, h5⟩
    unfold Agree bare
    rw [h1, h2, h3, h4, h5]

theorem Same.refl (w : World) : Same w w :=
  ⟨rfl, fun r o1 o2 h1 h2 => by rw [h1] at h2; cases h2; exact ⟨Iff.rfl, fun _ => rfl⟩,
    [], by simp, by simp⟩

theorem Same.busy {a b : World} (h : Same a b) {x : Nat} : Busy b x ↔ Busy a x := by
  constructor
  · rintro ⟨o2, h2, g2⟩
    obtain ⟨o1, h1, _⟩ := h.agree.symm.some h2
    exact ⟨o1, h1, (h.gv x o1 o2 h1 h2).1.1 g2⟩
  · rintro ⟨o1, h1, g1⟩
    obtain ⟨o2, h2, _⟩ := h.agree.some h1
    exact ⟨o2, h2, (h.gv x o1 o2 h1 h2).1.2 g1⟩

theorem Same.trans {a b c : World} (h : Same a b) (k : Same b c) : Same a c := by
  refine ⟨h.agree.trans k.agree, fun r o1 o2 h1 h2 => ?_, ?_⟩
  · obtain ⟨ob, hb, _⟩ := h.agree.some h1
    have x := h.gv r o1 ob h1 hb
    have y := k.gv r ob o2 hb h2
    exact ⟨y.1.trans x.1, fun g => (y.2 (x.1.2 g)).trans (x.2 g)⟩
  · obtain ⟨hs, e1, n1⟩ := h.hooks
    obtain ⟨ks, e2, n2⟩ := k.hooks
    refine ⟨hs ++ ks, by rw [e2, e1, List.append_assoc], fun x hx => ?_⟩
    rcases List.mem_append.1 hx with hx | hx
    · exact n1 x hx
    · rw [← h.busy]; exact n2 x hx

/-- Only the ghost logs differ. -/
theorem same_logs (w : World) (t : List Event) (hs : List (Nat × List ErrTuple))
    (hn : ∀ h ∈ hs, ¬ Busy w h.1) : Same w { w with trace := t, hooks := w.hooks ++ hs } :=
  ⟨rfl, fun r o1 o2 h1 h2 => by
    have h2 : w.objs[r]? = some o2 := h2
    rw [h1] at h2; cases h2; exact ⟨Iff.rfl, fun _ => rfl⟩, hs, rfl, hn⟩

theorem same_trace (w : World) (t : List Event) : Same w { w with trace := t } := by
  have := same_logs w t [] (by simp)
  rwa [List.append_nil] at this

def Steady {α : Type} (m : M α) : Prop :=
  ∀ w1 w2, Agree w1 w2 → (m w1).1 = (m w2).1 ∧ Same w1 (m w1).2

theorem Steady.same {α : Type} {m : M α} (h : Steady m) (w : World) : Same w (m w).2 :=
  (h w w rfl).2

theorem Steady.ok {α : Type} {m : M α} (h : Steady m) {w1 w2 : World} (ha : Agree w1 w2) {a : α}
    (hm : (m w1).1 = .ok a) : ∃ w', m w2 = (.ok a, w') ∧ Same w2 w' :=
  ⟨(m w2).2, by rw [← hm, (h w1 w2 ha).1], h.same w2⟩

theorem Steady.err {α : Type} {m : M α} (h : Steady m) {w1 w2 : World} (ha : Agree w1 w2) {e : PyErr}
    (hm : (m w1).1 = .error e) : ∃ w', m w2 = (.error e, w') ∧ Same w2 w' :=
  ⟨(m w2).2, by rw [← hm, (h w1 w2 ha).1], h.same w2⟩

theorem steady_pure {α : Type} (a : α) : Steady (pure a : M α) := fun w1 _ _ => ⟨rfl, Same.refl w1⟩
theorem steady_raise {α : Type} (e : PyErr) : Steady (M.raise e : M α) :=
  fun w1 _ _ => ⟨rfl, Same.refl w1⟩
theorem steady_raiseK {α : Type} (k : ErrKind) : Steady (raiseK k : M α) := steady_raise _
theorem steady_raiseWhen (b : Bool) (k : ErrKind) : Steady (raiseWhen b k) := by
  unfold raiseWhen; split
  · exact steady_raiseK k
  · exact steady_pure ()

theorem steady_bind {α β : Type} {m : M α} {f : α → M β} (hm : Steady m) (hf : ∀ a, Steady (f a)) :
    Steady (m >>= f) := by
  intro w1 w2 ha
  obtain ⟨h1, s1⟩ := hm w1 w2 ha
  have s2 := hm.same w2
  simp only [bind_apply]
  cases e1 : m w1 with
  | mk x1 w1' =>
    cases e2 : m w2 with
    | mk x2 w2' =>
      rw [e1, e2] at h1
      rw [e1] at s1; rw [e2] at s2
      simp only at h1 s1 s2
      subst h1
      cases x1 with
      | error e => exact ⟨rfl, s1⟩
      | ok a =>
        have hk := hf a w1' w2' ((s1.agree.symm.trans ha).trans s2.agree)
        exact ⟨hk.1, s1.trans hk.2⟩

theorem steady_catchIf {α : Type} {pred : ErrKind → Bool} {m : M α} {k : PyErr → M α} (hm : Steady m)
    (hk : ∀ e, Steady (k e)) : Steady (M.catchIf pred m k) := by
  intro w1 w2 ha
  obtain ⟨h1, s1⟩ := hm w1 w2 ha
  have s2 := hm.same w2
  unfold M.catchIf
  cases e1 : m w1 with
  | mk x1 w1' =>
    cases e2 : m w2 with
    | mk x2 w2' =>
      rw [e1, e2] at h1
      rw [e1] at s1; rw [e2] at s2
      simp only at h1 s1 s2
      subst h1
      cases x1 with
      | ok a => exact ⟨rfl, s1⟩
      | error e =>
        simp only
        split
        · have := hk e w1' w2' ((s1.agree.symm.trans ha).trans s2.agree)
          exact ⟨this.1, s1.trans this.2⟩
        · exact ⟨rfl, s1⟩

theorem steady_liftK {α : Type} (x : Except ErrKind α) : Steady (liftK x) := by
  cases x with
  | ok a => exact steady_pure a
  | error k => exact steady_raiseK k

/-- Reading an object without looking at its markers. -/
theorem steady_getObj {α : Type} {r : Nat} {k : Obj → M α} (hk : ∀ o, k o = k (bareO o))
    (hs : ∀ o, Steady (k o)) : Steady (getObj r >>= k) := by
  intro w1 w2 ha
  cases h1 : w1.objs[r]? with
  | none =>
    have h2 := ha.none h1
    rw [bind_err (getObj_none h1), bind_err (getObj_none h2)]
    exact ⟨rfl, Same.refl w1⟩
  | some o =>
    obtain ⟨o', h2, e⟩ := ha.some h1
    rw [bind_ok (getObj_some h1), bind_ok (getObj_some h2), hk o', e, ← hk o]
    exact hs o w1 w2 ha

theorem steady_mapML {α β : Type} {f : α → M β} : ∀ {xs : List α}, (∀ x ∈ xs, Steady (f x)) →
    Steady (mapML f xs)
  | [], _ => steady_pure []
  | x :: xs, h => steady_bind (h x (by simp)) fun y =>
      steady_bind (steady_mapML fun z hz => h z (by simp [hz])) fun ys => steady_pure _

theorem steady_forML {α : Type} {f : α → M Unit} : ∀ {xs : List α}, (∀ x ∈ xs, Steady (f x)) →
    Steady (forML f xs)
  | [], _ => steady_pure ()
  | x :: xs, h => steady_bind (h x (by simp)) fun _ =>
      steady_forML fun z hz => h z (by simp [hz])

theorem steady_foldML {α β : Type} {f : β → α → M β} : ∀ {xs : List α} (b : β),
    (∀ b, ∀ x ∈ xs, Steady (f b x)) → Steady (foldML f b xs)
  | [], b, _ => steady_pure b
  | x :: xs, b, h => steady_bind (h b x (by simp)) fun b' =>
      steady_foldML b' fun c z hz => h c z (by simp [hz])

/-! ## The calls that only look -/

section
variable {E : Env}

/-- No class overrides the error hook. -/
def NoHook (E : Env) : Prop := ∀ c, (E.classes c).hook = none

theorem steady_raiseVal (hh : NoHook E) (rec : Rec) {α : Type} (reason prop : Option PyStr)
    (inst : Option Nat) : Steady (raiseVal E rec reason prop inst : M α) := by
  cases inst with
  | none => exact steady_raise _
  | some r =>
    intro w1 w2 ha
    have key : ∀ w : World, (∀ o, w.objs[r]? = some o →
        ∃ t, (raiseVal E rec reason prop (some r) : M α) w =
          (.error ⟨.validation, [⟨reason, prop, some r⟩]⟩, { w with hooks := w.hooks ++ t }) ∧
          ∀ h ∈ t, ¬ Busy w h.1) := by
      intro w o ho
      unfold raiseVal
      simp only
      rw [bind_ok (getObj_some ho)]
      split
      · rename_i hgv
        have : runHook E rec r [⟨reason, prop, some r⟩] w =
            (.ok (), { w with hooks := w.hooks ++ [(r, [⟨reason, prop, some r⟩])] }) := by
          unfold runHook
          rw [bind_ok (getObj_some ho), bind_ok (modify_apply _ _), hh]
          rfl
        refine ⟨[(r, [⟨reason, prop, some r⟩])], bind_ok this, ?_⟩
        simp only [List.mem_singleton, forall_eq]
        rintro ⟨o', ho', hg'⟩
        rw [ho] at ho'; cases ho'
        rw [hg'] at hgv; cases hgv
      · exact ⟨[], by rw [List.append_nil]; rfl, by simp⟩
    cases h1 : w1.objs[r]? with
    | none =>
      have h2 := ha.none h1
      have : ∀ w : World, w.objs[r]? = none →
          (raiseVal E rec reason prop (some r) : M α) w = (.error ⟨.attr, []⟩, w) := by
        intro w hw
        unfold raiseVal
        exact bind_err (getObj_none hw)
      rw [this w1 h1, this w2 h2]
      exact ⟨rfl, Same.refl w1⟩
    | some o =>
      obtain ⟨o', h2, _⟩ := ha.some h1
      obtain ⟨t1, e1, n1⟩ := key w1 o h1
      obtain ⟨t2, e2, _⟩ := key w2 o' h2
      rw [e1, e2]
      exact ⟨rfl, same_logs w1 w1.trace t1 n1⟩

theorem steady_propError (hh : NoHook E) (rec : Rec) {α : Type} (nm : PyStr) (inst : Option Nat) :
    Steady (propError E rec nm inst : M α) := steady_raiseVal hh rec _ _ _

/-- What follows a `self.error` never runs. -/
theorem steady_propError_bind (hh : NoHook E) (rec : Rec) {α β : Type} (nm : PyStr)
    (inst : Option Nat) (f : α → M β) : Steady ((propError E rec nm inst : M α) >>= f) := by
  have h : ∀ w, ∃ e w', (propError E rec nm inst : M α) w = (.error e, w') := by
    intro w
    unfold propError raiseVal
    cases inst with
    | none => exact ⟨_, _, rfl⟩
    | some r =>
      dsimp only
      cases ho : w.objs[r]? with
      | none => exact ⟨_, _, bind_err (getObj_none ho)⟩
      | some o =>
        rw [bind_ok (getObj_some ho)]
        split
        · cases hr : runHook E rec r [⟨some (s% "invalid"), some nm, some r⟩] w with
          | mk x w' => cases x with
            | ok _ => exact ⟨_, _, bind_ok hr⟩
            | error e => exact ⟨_, _, bind_err hr⟩
        · exact ⟨_, _, rfl⟩
  have g : ((propError E rec nm inst : M α) >>= f) =
      ((propError E rec nm inst : M α) >>= fun _ => (raiseK .type : M β)) := by
    funext w
    obtain ⟨e, w', he⟩ := h w
    rw [bind_err he, bind_err he]
  rw [g]
  exact steady_bind (steady_propError hh rec nm inst) fun _ => steady_raiseK _

theorem steady_liftScalar (hh : NoHook E) (rec : Rec) (nm : PyStr) (inst : Option Nat)
    (x : Except SErr Val) : Steady (liftScalar E rec nm inst x) := by
  unfold liftScalar
  split
  · exact steady_pure _
  · exact steady_raiseK _
  · exact steady_catchIf (steady_propError hh rec nm inst) fun _ => steady_propError hh rec nm inst
  · exact steady_propError hh rec nm inst

theorem steady_mkSeq (k : SeqKind) (xs : List Val) : Steady (mkSeq k xs) := by
  unfold mkSeq
  split
  · exact steady_pure _
  · exact steady_pure _
  · split
    · exact steady_pure _
    · exact steady_raiseK _

theorem stillAll_iff {ps : List PropSpec} {v : Val} : StillAll ps v ↔ ∀ p ∈ ps, Still p v := by
  induction ps with
  | nil => simp [StillAll]
  | cons p ps ih => simp [StillAll, ih]

theorem still_ty {p : PropSpec} {v : Val} (h : Still p v) : StillTy p.ty v := by
  cases p; unfold Still at h; exact h

theorem steady_tryProps (hh : NoHook E) {rec : Rec} {nm : PyStr} {inst : Option Nat}
    {f : PropSpec → Call} : ∀ {ps : List PropSpec}, (∀ p ∈ ps, Steady (rec (f p))) →
    Steady (tryProps E rec nm inst f ps)
  | [], _ => steady_propError hh rec nm inst
  | p :: ps, h => steady_catchIf (h p (by simp)) fun _ =>
      steady_tryProps hh fun q hq => h q (by simp [hq])

theorem steady_instValidate (hh : NoHook E) (rec : Rec) (nm : PyStr) (inst : Option Nat) (c : ClsId)
    (v : Val) (hv : ∀ kvs, v ≠ .dict kvs) : Steady (instValidate E rec nm inst c v) := by
  unfold instValidate
  split
  · refine steady_getObj (fun o => rfl) fun o => ?_
    split
    · exact steady_pure _
    · exact steady_propError hh rec nm inst
  · rename_i kvs; exact absurd rfl (hv kvs)
  · exact steady_propError hh rec nm inst

theorem steady_validateBody (hh : NoHook E) {rec : Rec}
    (hr : ∀ nm p inst v, Still p v → Steady (rec (.validate nm p inst v)))
    (nm : PyStr) (p : PropSpec) (inst : Option Nat) (v : Val) (hv : Still p v) :
    Steady (validateBody E rec nm p inst v) := by
  have hv := still_ty hv
  have item : ∀ q x, Still q x → Steady (M.catchIf ErrKind.isValueError
      (rec (.validate nm q inst x)) (fun _ => propError E rec nm inst)) := fun q x hx =>
    steady_catchIf (hr nm q inst x hx) fun _ => steady_propError hh rec nm inst
  unfold validateBody
  split <;> rename_i hty
  · rename_i k it lo hi co
    rw [hty] at hv
    unfold StillTy at hv
    unfold seqValidate
    dsimp only
    split
    · exact steady_propError_bind hh rec nm inst _
    · refine steady_bind (steady_mapML fun x hx => ?_) fun out => steady_mkSeq k out
      refine item it x ?_
      split at hx
      · exact hv.1 x hx
      · rename_i hc
        simp only [List.mem_singleton] at hx
        subst hx
        exact hv.2 (by simpa using hc)
  · rename_i kp vp co
    rw [hty] at hv
    unfold StillTy at hv
    unfold dictValidate
    have fold : ∀ kvs : List (Val × Val), dictCoerce? v = some kvs → Steady (foldML (fun d kv => do
        let key ← M.catchIf ErrKind.isValueError (rec (.validate nm kp inst kv.1))
          (fun _ => propError E rec nm inst)
        let val ← M.catchIf ErrKind.isValueError (rec (.validate nm vp inst kv.2))
          (fun _ => propError E rec nm inst)
        if key.hashable then pure (dictSet d key val) else raiseK .type) [] kvs >>=
          fun out => (pure (.dict out) : M Val)) := by
      intro kvs hkvs
      refine steady_bind (steady_foldML [] fun d kv hkv => ?_) fun out => steady_pure _
      have := hv kvs hkvs kv hkv
      refine steady_bind (item kp kv.1 this.1) fun key => steady_bind (item vp kv.2 this.2) fun x => ?_
      split
      · exact steady_pure _
      · exact steady_raiseK _
    cases hk : (if co = true then dictCoerce? v else
      match v with | .dict kvs => some kvs | _ => none) with
    | none => exact steady_propError_bind hh rec nm inst _
    | some kvs =>
      refine fold kvs ?_
      cases co with
      | true => simpa using hk
      | false =>
        simp only [Bool.false_eq_true, if_false] at hk
        split at hk
        · cases hk; rfl
        · cases hk
  · rw [hty] at hv
    unfold StillTy at hv
    exact steady_instValidate hh rec nm inst _ v hv
  · rw [hty] at hv
    unfold StillTy at hv
    exact steady_tryProps hh fun q hq => hr nm q inst v (stillAll_iff.1 hv q hq)
  · rw [hty] at hv
    unfold StillTy at hv
    unfold colorBody
    split
    · rename_i s; exact absurd rfl (hv _)
    · exact steady_liftScalar hh rec nm inst _
  · split
    · exact steady_liftScalar hh rec nm inst _
    · exact steady_raiseK _

/-! ### Comparison -/

theorem steady_zipEqual {rec : Rec} (p : PropSpec) (hr : ∀ p a b, Steady (rec (.propEqual p a b))) :
    ∀ xs ys, Steady (zipEqual rec p xs ys)
  | x :: xs, y :: ys => steady_bind (hr p x y) fun _ =>
      steady_bind (steady_zipEqual p hr xs ys) fun _ => steady_pure _
  | [], _ => by unfold zipEqual; exact steady_pure true
  | _ :: _, [] => steady_pure true

theorem steady_setRemove {rec : Rec} (p : PropSpec) (hr : ∀ p a b, Steady (rec (.propEqual p a b)))
    (a : Val) : ∀ ys, Steady (setRemove rec p a ys)
  | [] => steady_pure none
  | y :: ys => steady_bind (hr p a y) fun e => by
      split
      · exact steady_pure _
      · exact steady_bind (steady_setRemove p hr a ys) fun _ => steady_pure _

theorem steady_unionEqual {rec : Rec} (hr : ∀ p a b, Steady (rec (.propEqual p a b)))
    (a b : Val) : ∀ ps, Steady (unionEqual rec a b ps)
  | [] => steady_pure _
  | p :: ps => steady_bind (hr p a b) fun e => by
      split
      · exact steady_pure _
      · exact steady_unionEqual hr a b ps

theorem steady_propEqualBody {rec : Rec} (hr : ∀ p a b, Steady (rec (.propEqual p a b)))
    (he : ∀ a b, Steady (rec (.equal a b))) (p : PropSpec) (a b : Val) :
    Steady (propEqualBody E rec p a b) := by
  unfold propEqualBody
  split
  · unfold setEqual
    refine steady_catchIf ?_ fun _ => steady_pure _
    split
    · split
      · exact steady_pure _
      · split
        all_goals first
          | exact steady_raiseK _
          | (refine steady_bind (steady_foldML _ fun c x _ =>
              steady_bind (steady_setRemove _ hr x c) fun o => ?_) fun _ => steady_pure _
             cases o with
             | none => exact steady_pure _
             | some c' => first | exact steady_pure _ | exact steady_raiseK _)
    · exact steady_raiseK _
  · unfold tupEqual
    refine steady_catchIf ?_ fun _ => steady_pure _
    split
    · split
      · exact steady_bind (steady_zipEqual _ hr _ _) fun _ => steady_pure _
      · exact steady_pure _
    · exact steady_raiseK _
  · unfold dictEqual
    refine steady_catchIf ?_ fun _ => steady_pure _
    split
    · split
      · exact steady_pure _
      · split
        all_goals first
          | exact steady_raiseK _
          | (refine steady_bind (steady_foldML _ fun c x _ => steady_bind (steady_liftK _) fun _ =>
              steady_bind (steady_liftK _) fun _ => steady_bind (hr _ _ _) fun _ => ?_)
               fun _ => steady_pure _
             split
             · exact steady_liftK _
             · exact steady_pure _)
    · exact steady_raiseK _
  · exact he a b
  · exact steady_unionEqual hr a b _
  · split
    · exact steady_bind (steady_liftK _) fun _ => steady_pure _
    · exact steady_raiseK _

theorem steady_getStored (r : Nat) (nm : PyStr) : Steady (getStored r nm) :=
  steady_getObj (fun _ => rfl) fun _ => steady_pure _

theorem steady_entryEqual {rec : Rec} (hr : ∀ p a b, Steady (rec (.propEqual p a b))) (e : Entry)
    (a b : Val) : Steady (entryEqual rec e a b) := by
  unfold entryEqual
  split
  · exact hr _ a b
  · exact hr _ a b
  · exact hr _ a b
  · exact steady_pure _

theorem steady_equalLoop {rec : Rec} (hr : ∀ p a b, Steady (rec (.propEqual p a b)))
    (hg : ∀ r nm, Steady (rec (.getattr r nm))) (a b : Nat) : ∀ ps, Steady (equalLoop rec a b ps)
  | [] => steady_pure _
  | (nm, e) :: ps => steady_bind (hg a nm) fun x => steady_bind (hg b nm) fun y => by
      split
      · exact steady_equalLoop hr hg a b ps
      · split
        · exact steady_pure _
        · refine steady_bind (steady_entryEqual hr e x y) fun t => ?_
          split
          · exact steady_equalLoop hr hg a b ps
          · exact steady_pure _

theorem bare_setObj {w : World} {i : Nat} {f : Obj → Obj} (hf : ∀ o, bareO (f o) = f (bareO o)) :
    bare (w.setObj i f) = (bare w).setObj i f := by
  unfold bare World.setObj
  simp only [World.mk.injEq, and_true]
  apply List.ext_getElem?
  intro j
  simp only [List.getElem?_map, List.getElem?_modify]
  cases w.objs[j]? with
  | none => rfl
  | some o =>
    by_cases h : i = j
    · simp [h, hf]
    · simp [h]

theorem setObj_setObj {w : World} {i : Nat} {f g : Obj → Obj} :
    (w.setObj i f).setObj i g = w.setObj i (fun o => g (f o)) := by
  unfold World.setObj
  simp only [World.mk.injEq, and_true]
  apply List.ext_getElem?
  intro j
  simp only [List.getElem?_modify]
  cases w.objs[j]? with
  | none => rfl
  | some o => by_cases h : i = j <;> simp [h]

theorem setObj_id {w : World} {i : Nat} {f : Obj → Obj} {o : Obj} (ho : w.objs[i]? = some o)
    (hf : f o = o) : w.setObj i f = w := by
  have : w.objs.modify i f = w.objs := by
    apply List.ext_getElem?
    intro j
    simp only [List.getElem?_modify]
    by_cases h : i = j
    · subst h; simp [ho, hf]
    · simp [h]
  unfold World.setObj
  rw [this]

/-- Mark, look, remove the mark. -/
theorem same_bracket {w w' : World} {i : Nat} {o : Obj} (f g : Obj → Obj) (ho : w.objs[i]? = some o)
    (hf : ∀ o, bareO (f o) = f (bareO o)) (hg : ∀ o, bareO (g o) = g (bareO o))
    (hfg : g (f (bareO o)) = bareO o) (hfv : ∀ o, (f o).gv = o.gv ∧ (f o).errs = o.errs)
    (hgv : ∀ o, (g o).gv = o.gv ∧ (g o).errs = o.errs) (h : Same (w.setObj i f) w') :
    Same w (w'.setObj i g) := by
  refine ⟨?_, ?_, ?_⟩
  · have h1 : bare (w.setObj i f) = bare w' := h.agree
    unfold Agree
    rw [bare_setObj hg, ← h1, bare_setObj hf, setObj_setObj]
    refine (setObj_id (o := bareO o) ?_ hfg).symm
    simp [bare, ho]
  · intro r o1 o2 h1 h2
    simp only [World.setObj, List.getElem?_modify, Option.map_eq_map] at h2
    cases h3 : w'.objs[r]? with
    | none => rw [h3] at h2; simp at h2
    | some o3 =>
      rw [h3] at h2
      have e2 : o2.gv = o3.gv ∧ o2.errs = o3.errs := by
        by_cases hi : i = r
        · simp [hi] at h2; rw [← h2]; exact hgv o3
        · simp [hi] at h2; rw [h2]; exact ⟨rfl, rfl⟩
      have h4 : (w.setObj i f).objs[r]? = some (if i = r then f o1 else o1) := by
        simp only [World.setObj, List.getElem?_modify, h1]
        by_cases hi : i = r <;> simp [hi]
      have := h.gv r _ o3 h4 h3
      have e1 : (if i = r then f o1 else o1).gv = o1.gv ∧ (if i = r then f o1 else o1).errs = o1.errs := by
        split
        · exact hfv o1
        · exact ⟨rfl, rfl⟩
      rw [e1.1, e1.2] at this
      rw [e2.1, e2.2]
      exact this
  · obtain ⟨hs, e1, n1⟩ := h.hooks
    refine ⟨hs, e1, fun x hx => ?_⟩
    rintro ⟨o1, h1, g1⟩
    refine n1 x hx ⟨if i = x.1 then f o1 else o1, ?_, ?_⟩
    · simp only [World.setObj, List.getElem?_modify, h1]
      by_cases hi : i = x.1 <;> simp [hi]
    · split
      · rw [(hfv o1).1]; exact g1
      · exact g1

theorem steady_equalBody {rec : Rec} (hr : ∀ p a b, Steady (rec (.propEqual p a b)))
    (hg : ∀ r nm, Steady (rec (.getattr r nm))) (a b : Val) : Steady (equalBody E rec a b) := by
  unfold equalBody
  split
  · rename_i i j
    intro w1 w2 ha
    cases h1 : w1.objs[i]? with
    | none =>
      have h2 := ha.none h1
      rw [bind_err (getObj_none h1), bind_err (getObj_none h2)]
      exact ⟨rfl, Same.refl w1⟩
    | some o =>
      obtain ⟨o', h2, e⟩ := ha.some h1
      rw [bind_ok (getObj_some h1), bind_ok (getObj_some h2)]
      have hte : o'.te = o.te := (congrArg Obj.te e : (bareO o').te = (bareO o).te)
      have hcls : o'.cls = o.cls := (congrArg Obj.cls e : (bareO o').cls = (bareO o).cls)
      simp only [hte, hcls]
      by_cases ht : o.te = true
      · simp only [ht, if_true]
        exact ⟨rfl, Same.refl w1⟩
      · simp only [ht]
        simp only [Bool.false_eq_true, if_false]
        rw [bind_ok (modObj_apply _ _ _), bind_ok (modObj_apply _ _ _)]
        simp only [fin_apply]
        have body : Steady (if i = j then (pure (.bool true) : M Val) else do
            let ob ← getObj j
            if o.cls = ob.cls then equalLoop rec i j (E.classes o.cls).props
            else pure (.bool false)) := by
          split
          · exact steady_pure _
          · refine steady_getObj (fun _ => rfl) fun ob => ?_
            split
            · exact steady_equalLoop hr hg i j _
            · exact steady_pure _
        have hag : Agree (w1.setObj i (fun o => { o with te := true }))
            (w2.setObj i (fun o => { o with te := true })) := by
          unfold Agree
          rw [bare_setObj (f := fun o : Obj => { o with te := true }) fun _ => rfl,
            bare_setObj (f := fun o : Obj => { o with te := true }) fun _ => rfl]
          have : bare w1 = bare w2 := ha
          rw [this]
        have hb := body _ _ hag
        refine ⟨hb.1, ?_⟩
        refine same_bracket (fun o => { o with te := true }) (fun o => { o with te := false }) h1 (fun _ => rfl) (fun _ => rfl) ?_ (fun _ => ⟨rfl, rfl⟩)
          (fun _ => ⟨rfl, rfl⟩) hb.2
        have : o.te = false := by simpa using ht
        cases o
        simp only [bareO] at this ⊢
        rw [this]
  · exact steady_pure _

/-! ### Reading and user code that reads -/

theorem steady_execProg {rec : Rec} (hg : ∀ r nm, Steady (rec (.getattr r nm)))
    (hu : Steady (rec .userGet)) : ∀ p, Reader p → Steady (execProg rec p)
  | .ret v, _ => steady_pure v
  | .raise e, _ => steady_raise e
  | .call c k, h => by
      have key : ∀ c, Steady (rec c) → (∀ x, Reader (k x)) → Steady (execProg rec (.call c k)) := by
        intro c hc hk w1 w2 ha
        obtain ⟨h1, s1⟩ := hc w1 w2 ha
        have s2 := hc.same w2
        have := steady_execProg hg hu (k (rec c w1).1) (hk _) (rec c w1).2 (rec c w2).2
          ((s1.agree.symm.trans ha).trans s2.agree)
        unfold execProg
        simp only
        rw [← h1]
        exact ⟨this.1, s1.trans this.2⟩
      cases c <;> simp only [Reader] at h
      · exact key _ (hg _ _) h
      · exact key _ hu h
  | .disabled q b k, h => by simp only [Reader] at h

theorem steady_getattrBody (hE : Looks E) {rec : Rec}
    (hv : ∀ nm p inst v, Still p v → Steady (rec (.validate nm p inst v)))
    (hg : ∀ r nm, Steady (rec (.getattr r nm))) (hu : Steady (rec .userGet)) (r : Nat) (nm : PyStr) :
    Steady (getattrBody E rec r nm) := by
  have : getattrBody E rec r nm = getObj r >>= fun o =>
      match lookupS nm (E.classes o.cls).props with
      | some (.mutable _) => getStored r nm
      | some (.gettable _) => getStored r nm
      | some (.dynamic p getter _ _) => do
          let v ← callFn E rec getter [.obj r]
          match v with
          | .none => pure .none
          | .undef => pure .none
          | v => rec (.validate nm p (some r) v)
      | some (.renamed new) => rec (.getattr r new)
      | none => raiseK .attr := by
    funext w
    unfold getattrBody entryOf
    cases ho : w.objs[r]? with
    | none => rw [bind_err (bind_err (getObj_none ho)), bind_err (getObj_none ho)]
    | some o =>
      rw [bind_ok (a := lookupS nm (E.classes o.cls).props) (w' := w)
        (by rw [bind_ok (getObj_some ho)]; rfl), bind_ok (getObj_some ho)]
      cases lookupS nm (E.classes o.cls).props with
      | none => rfl
      | some e => cases e <;> rfl
  rw [this]
  refine steady_getObj (fun _ => rfl) fun o => ?_
  split
  · exact steady_getStored r nm
  · exact steady_getStored r nm
  · rename_i p g s d hl
    refine steady_bind (steady_execProg hg hu _ (hE.getter _ _ _ _ _ _ (mem_of_lookupS hl) _)) fun v => ?_
    split
    · exact steady_pure _
    · exact steady_pure _
    · exact hv _ _ _ _ (hE.dynamic _ _ _ _ _ _ (mem_of_lookupS hl) _)
  · exact hg r _
  · exact steady_raiseK _

structure LookOk (rec : Rec) : Prop where
  validate : ∀ nm p inst v, Still p v → Steady (rec (.validate nm p inst v))
  propEqual : ∀ p a b, Steady (rec (.propEqual p a b))
  equal : ∀ a b, Steady (rec (.equal a b))
  getattr : ∀ r nm, Steady (rec (.getattr r nm))
  userGet : Steady (rec .userGet)

theorem run_looks (hE : Looks E) : ∀ n, LookOk (run E n)
  | 0 => ⟨fun _ _ _ _ _ => steady_raiseK _, fun _ _ _ => steady_raiseK _, fun _ _ => steady_raiseK _,
      fun _ _ => steady_raiseK _, steady_raiseK _⟩
  | n + 1 => by
      have ih := run_looks hE n
      exact ⟨fun nm p inst v hv => steady_validateBody hE.hook ih.validate nm p inst v hv,
        fun p a b => steady_propEqualBody ih.propEqual ih.equal p a b,
        fun a b => steady_equalBody ih.propEqual ih.getattr a b,
        fun r nm => steady_getattrBody hE ih.validate ih.getattr ih.userGet r nm,
        fun w1 w2 ha => ⟨by show Except.ok w1.user = Except.ok w2.user; rw [ha.user], Same.refl w1⟩⟩

theorem steady_runProg (hE : Looks E) (n : Nat) (p : Prog) (hp : Reader p) : Steady (runProg E n p) :=
  steady_execProg (run_looks hE n).getattr (run_looks hE n).userGet p hp

end
end Verif
