import Verif.Lemmas.Steady
import Verif.Lemmas.Approx
import Verif.Lemmas.ScalarErr

/-!
# Recursion depth of validation and comparison
-/

namespace Verif
open Spec

/-- Steady, and no RecursionError in states satisfying `P`. -/
structure Ends (P : World → Prop) {α : Type} (m : M α) : Prop where
  steady : Steady m
  ends : ∀ w, P w → ¬ Overflows (m w)

section
variable {P : World → Prop} {E : Env}

theorem ends_pure {α : Type} (a : α) : Ends P (pure a : M α) :=
  ⟨steady_pure a, fun _ _ => by rintro ⟨e, he, _⟩; cases he⟩

theorem ends_raise {α : Type} (e : PyErr) (he : e.kind ≠ .recursion) : Ends P (M.raise e : M α) :=
  ⟨steady_raise e, fun _ _ => by
    rintro ⟨e', h, h2⟩
    have : e = e' := by
      have h : (Except.error e : Except PyErr α) = .error e' := h
      cases h; rfl
    exact he (this ▸ h2)⟩

theorem ends_raiseK {α : Type} (k : ErrKind) (hk : k ≠ .recursion) : Ends P (raiseK k : M α) :=
  ends_raise _ hk

theorem ends_bind {α β : Type} (hP : ∀ w w', Agree w w' → P w → P w') {m : M α} {f : α → M β}
    (hm : Ends P m) (hf : ∀ a, Ends P (f a)) : Ends P (m >>= f) := by
  refine ⟨steady_bind hm.steady fun a => (hf a).steady, fun w hw => ?_⟩
  have h1 := hm.ends w hw
  have s1 := hm.steady.same w
  cases e1 : m w with
  | mk x w' =>
    rw [e1] at h1 s1
    cases x with
    | error e => rw [bind_err e1]; rintro ⟨e', he, hk⟩; cases he; exact h1 ⟨e, rfl, hk⟩
    | ok a => rw [bind_ok e1]; exact (hf a).ends w' (hP w w' s1.agree hw)

theorem ends_catchIf {α : Type} (hP : ∀ w w', Agree w w' → P w → P w') {pred : ErrKind → Bool}
    {m : M α} {k : PyErr → M α} (hm : Ends P m) (hk : ∀ e, Ends P (k e)) :
    Ends P (M.catchIf pred m k) := by
  refine ⟨steady_catchIf hm.steady fun e => (hk e).steady, fun w hw => ?_⟩
  have h1 := hm.ends w hw
  have s1 := hm.steady.same w
  cases e1 : m w with
  | mk x w' =>
    rw [e1] at h1 s1
    cases x with
    | ok a => rw [catchIf_ok e1]; rintro ⟨e', he, _⟩; cases he
    | error e =>
      cases hp : pred e.kind with
      | true => rw [catchIf_err e1 hp]; exact (hk e).ends w' (hP w w' s1.agree hw)
      | false => rw [catchIf_pass e1 hp]; exact h1

theorem ends_mapML {α β : Type} (hP : ∀ w w', Agree w w' → P w → P w') {f : α → M β} :
    ∀ {xs : List α}, (∀ x ∈ xs, Ends P (f x)) → Ends P (mapML f xs)
  | [], _ => ends_pure []
  | x :: xs, h => ends_bind hP (h x (by simp)) fun _ =>
      ends_bind hP (ends_mapML hP fun z hz => h z (by simp [hz])) fun _ => ends_pure _

theorem ends_foldML {α β : Type} (hP : ∀ w w', Agree w w' → P w → P w') {f : β → α → M β} :
    ∀ {xs : List α} (b : β), (∀ b, ∀ x ∈ xs, Ends P (f b x)) → Ends P (foldML f b xs)
  | [], b, _ => ends_pure b
  | x :: xs, b, h => ends_bind hP (h b x (by simp)) fun b' =>
      ends_foldML hP b' fun c z hz => h c z (by simp [hz])

theorem ends_liftK {α : Type} {x : Except ErrKind α} (h : x ≠ .error .recursion) :
    Ends P (liftK x) := by
  cases x with
  | ok a => exact ends_pure a
  | error k => exact ends_raiseK k fun hk => h (by rw [hk])

/-- `raise ValidationError`: one tuple, hooks aside. -/
theorem raiseVal_result (hh : NoHook E) (rec : Rec) {α : Type} (reason prop : Option PyStr)
    (inst : Option Nat) (w : World) :
    (raiseVal E rec reason prop inst : M α) w =
        (.error ⟨.validation, [⟨reason, prop, inst⟩]⟩, ((raiseVal E rec reason prop inst : M α) w).2) ∨
    (∃ r, inst = some r ∧ w.objs[r]? = none ∧
      (raiseVal E rec reason prop inst : M α) w = (.error ⟨.attr, []⟩, w)) := by
  cases inst with
  | none => exact .inl rfl
  | some r =>
    cases ho : w.objs[r]? with
    | none => exact .inr ⟨r, rfl, ho, by unfold raiseVal; exact bind_err (getObj_none ho)⟩
    | some o =>
      left
      unfold raiseVal
      simp only
      rw [bind_ok (getObj_some ho)]
      split
      · have : runHook E rec r [⟨reason, prop, some r⟩] w =
            (.ok (), { w with hooks := w.hooks ++ [(r, [⟨reason, prop, some r⟩])] }) := by
          unfold runHook
          rw [bind_ok (getObj_some ho), bind_ok (modify_apply _ _), hh]
          rfl
        rw [bind_ok this]
        rfl
      · rfl

theorem ends_raiseVal (hh : NoHook E) (rec : Rec) {α : Type} (reason prop : Option PyStr)
    (inst : Option Nat) : Ends P (raiseVal E rec reason prop inst : M α) := by
  refine ⟨steady_raiseVal hh rec reason prop inst, fun w _ => ?_⟩
  rcases raiseVal_result (α := α) hh rec reason prop inst w with h | ⟨_, _, _, h⟩ <;>
  · rw [h]; rintro ⟨e, he, hk⟩; cases he; cases hk

theorem ends_propError (hh : NoHook E) (rec : Rec) {α : Type} (nm : PyStr) (inst : Option Nat) :
    Ends P (propError E rec nm inst : M α) := ends_raiseVal hh rec _ _ _

theorem ends_propError_bind (hh : NoHook E) (rec : Rec)
    {α β : Type} (nm : PyStr) (inst : Option Nat) (f : α → M β) :
    Ends P ((propError E rec nm inst : M α) >>= f) := by
  refine ⟨steady_propError_bind hh rec nm inst f, fun w hw => ?_⟩
  rcases raiseVal_result (α := α) hh rec (some (s% "invalid")) (some nm) inst w with h | ⟨_, _, _, h⟩ <;>
  · have h' : (propError E rec nm inst : M α) w = _ := h
    rw [bind_err h']; rintro ⟨e, he, hk⟩; cases he; cases hk

theorem ends_liftScalar (hP : ∀ w w', Agree w w' → P w → P w') (hh : NoHook E) (rec : Rec)
    (nm : PyStr) (inst : Option Nat) {x : Except SErr Val} (hx : x ≠ .error (.raw .recursion)) :
    Ends P (liftScalar E rec nm inst x) := by
  unfold liftScalar
  split
  · exact ends_pure _
  · rename_i k; exact ends_raiseK _ fun hk => hx (by rw [hk])
  · exact ends_catchIf hP (ends_propError hh rec nm inst) fun _ => ends_propError hh rec nm inst
  · exact ends_propError hh rec nm inst

theorem ends_mkSeq (k : SeqKind) (xs : List Val) : Ends P (mkSeq k xs) := by
  unfold mkSeq
  split
  · exact ends_pure _
  · exact ends_pure _
  · split
    · exact ends_pure _
    · exact ends_raiseK _ (by simp)

theorem ends_getObj {α : Type} {r : Nat} {k : Obj → M α} (hk : ∀ o, k o = k (bareO o))
    (hs : ∀ o, Ends P (k o)) : Ends P (getObj r >>= k) := by
  refine ⟨steady_getObj hk fun o => (hs o).steady, fun w hw => ?_⟩
  cases ho : w.objs[r]? with
  | none => rw [bind_err (getObj_none ho)]; rintro ⟨e, he, h⟩; cases he; cases h
  | some o => rw [bind_ok (getObj_some ho)]; exact (hs o).ends w hw

theorem ends_tryProps (hP : ∀ w w', Agree w w' → P w → P w') (hh : NoHook E) {rec : Rec} {nm : PyStr}
    {inst : Option Nat} {f : PropSpec → Call} : ∀ {ps : List PropSpec},
    (∀ p ∈ ps, Ends P (rec (f p))) → Ends P (tryProps E rec nm inst f ps)
  | [], _ => ends_propError hh rec nm inst
  | p :: ps, h => ends_catchIf hP (h p (by simp)) fun _ =>
      ends_tryProps hP hh fun q hq => h q (by simp [hq])

theorem depthAll_le {ps : List PropSpec} {p : PropSpec} (h : p ∈ ps) : depth p ≤ depthAll ps := by
  induction ps with
  | nil => cases h
  | cons q qs ih =>
    unfold depthAll
    rcases List.mem_cons.1 h with rfl | h
    · exact Nat.le_max_left _ _
    · exact Nat.le_trans (ih h) (Nat.le_max_right _ _)

theorem depth_eq (p : PropSpec) : depth p = depthTy p.ty + 1 := by
  cases p; unfold depth; rfl

/-- Validation needs the declared nesting as recursion depth. -/
theorem ends_validate (hE : Looks E) (hP : ∀ w w', Agree w w' → P w → P w') : ∀ n nm p inst v,
    depth p ≤ n → Still p v → Ends P (run E n (.validate nm p inst v))
  | 0, nm, p, inst, v, hd, _ => by rw [depth_eq] at hd; omega
  | n + 1, nm, p, inst, v, hd, hv => by
    have hr : ∀ q x, depth q ≤ depthTy p.ty → Still q x → Ends P (run E n (.validate nm q inst x)) :=
      fun q x hq hx => ends_validate hE hP n nm q inst x (by rw [depth_eq] at hd; omega) hx
    have hh := hE.hook
    have hv := still_ty hv
    show Ends P (validateBody E (run E n) nm p inst v)
    generalize hrec : run E n = rec at hr
    have item : ∀ q x, depth q ≤ depthTy p.ty → Still q x → Ends P (M.catchIf ErrKind.isValueError
        (rec (.validate nm q inst x)) (fun _ => propError E rec nm inst)) := fun q x hq hx =>
      ends_catchIf hP (hr q x hq hx) fun _ => ends_propError hh rec nm inst
    unfold validateBody
    split <;> rename_i hty
    · rename_i k it lo hi co
      rw [hty] at hv item
      unfold StillTy at hv
      unfold depthTy at item
      unfold seqValidate
      dsimp only
      split
      · exact ends_propError_bind hh rec nm inst _
      · refine ends_bind hP (ends_mapML hP fun x hx => ?_) fun out => ends_mkSeq k out
        refine item it x (Nat.le_refl _) ?_
        split at hx
        · exact hv.1 x hx
        · rename_i hc
          simp only [List.mem_singleton] at hx
          subst hx
          exact hv.2 (by simpa using hc)
    · rename_i kp vp co
      rw [hty] at hv item
      unfold StillTy at hv
      unfold depthTy at item
      unfold dictValidate
      have fold : ∀ kvs : List (Val × Val), dictCoerce? v = some kvs → Ends P (foldML (fun d kv => do
          let key ← M.catchIf ErrKind.isValueError (rec (.validate nm kp inst kv.1))
            (fun _ => propError E rec nm inst)
          let val ← M.catchIf ErrKind.isValueError (rec (.validate nm vp inst kv.2))
            (fun _ => propError E rec nm inst)
          if key.hashable then pure (dictSet d key val) else raiseK .type) [] kvs >>=
            fun out => (pure (.dict out) : M Val)) := by
        intro kvs hkvs
        refine ends_bind hP (ends_foldML hP [] fun d kv hkv => ?_) fun out => ends_pure _
        have := hv kvs hkvs kv hkv
        refine ends_bind hP (item kp kv.1 (Nat.le_max_left _ _) this.1) fun key =>
          ends_bind hP (item vp kv.2 (Nat.le_max_right _ _) this.2) fun x => ?_
        split
        · exact ends_pure _
        · exact ends_raiseK _ (by simp)
      cases hk : (if co = true then dictCoerce? v else
        match v with | .dict kvs => some kvs | _ => none) with
      | none => exact ends_propError_bind hh rec nm inst _
      | some kvs =>
        refine fold kvs ?_
        cases co with
        | true => simpa using hk
        | false =>
          simp only [Bool.false_eq_true, if_false] at hk
          split at hk
          · cases hk; rfl
          · cases hk
    · rw [hty] at hv
      unfold StillTy at hv
      unfold instValidate
      split
      · refine ends_getObj (fun o => rfl) fun o => ?_
        split
        · exact ends_pure _
        · exact ends_propError hh rec nm inst
      · exact absurd rfl (hv _)
      · exact ends_propError hh rec nm inst
    · rw [hty] at hv hr
      unfold StillTy at hv
      unfold depthTy at hr
      exact ends_tryProps hP hh fun q hq => hr q v (depthAll_le hq) (stillAll_iff.1 hv q hq)
    · rw [hty] at hv
      unfold StillTy at hv
      unfold colorBody
      split
      · exact absurd rfl (hv _)
      · refine ends_liftScalar hP hh rec nm inst fun h => ?_
        have := scalar_raw (E := E) (pick := 0) (ty := .color) (v := v) (k := .recursion)
          (by unfold scalarValidate; rw [h])
        cases this
    · split
      · rename_i x hx
        refine ends_liftScalar hP hh rec nm inst fun h => ?_
        subst h
        cases scalar_raw hx
      · exact ends_raiseK _ (by simp)

/-! ### Comparison -/

/-- Instances that are not being compared. -/
def idleTe (w : World) : Nat := (bare w).objs.countP (fun o => !o.te)

theorem idleTe_agree {k : Nat} : ∀ w w', Agree w w' → idleTe w ≤ k → idleTe w' ≤ k := by
  intro w w' h hw
  have : bare w = bare w' := h
  unfold idleTe at *
  rw [← this]; exact hw

theorem countP_modify {α : Type} {p : α → Bool} {f : α → α} : ∀ {l : List α} {i : Nat} {a : α},
    l[i]? = some a → p a = true → p (f a) = false → (l.modify i f).countP p + 1 = l.countP p
  | [], _, _, h, _, _ => by simp at h
  | x :: xs, 0, a, h, h1, h2 => by
      simp at h; subst h
      simp [List.modify_cons, h1, h2]
  | x :: xs, i + 1, a, h, h1, h2 => by
      simp at h
      have := countP_modify h h1 h2
      simp [List.countP_cons]
      omega

theorem idleTe_mark {w : World} {i : Nat} {o : Obj} (ho : w.objs[i]? = some o) (ht : o.te = false) :
    idleTe (w.setObj i (fun o => { o with te := true })) + 1 = idleTe w := by
  unfold idleTe
  rw [bare_setObj (f := fun o : Obj => { o with te := true }) fun _ => rfl]
  refine countP_modify (a := bareO o) (by simp [bare, ho]) ?_ rfl
  show (!o.te) = true
  rw [ht]; rfl

theorem ends_zipEqual (hP : ∀ w w', Agree w w' → P w → P w') {rec : Rec} (p : PropSpec)
    (hr : ∀ a b, Ends P (rec (.propEqual p a b))) : ∀ xs ys, Ends P (zipEqual rec p xs ys)
  | x :: xs, y :: ys => ends_bind hP (hr x y) fun _ =>
      ends_bind hP (ends_zipEqual hP p hr xs ys) fun _ => ends_pure _
  | [], _ => by unfold zipEqual; exact ends_pure true
  | _ :: _, [] => ends_pure true

theorem ends_setRemove (hP : ∀ w w', Agree w w' → P w → P w') {rec : Rec} (p : PropSpec)
    (hr : ∀ a b, Ends P (rec (.propEqual p a b))) (a : Val) : ∀ ys, Ends P (setRemove rec p a ys)
  | [] => ends_pure none
  | y :: ys => ends_bind hP (hr a y) fun e => by
      split
      · exact ends_pure _
      · exact ends_bind hP (ends_setRemove hP p hr a ys) fun _ => ends_pure _

theorem ends_unionEqual (hP : ∀ w w', Agree w w' → P w → P w') {rec : Rec} (a b : Val) :
    ∀ ps, (∀ p ∈ ps, ∀ a b, Ends P (rec (.propEqual p a b))) → Ends P (unionEqual rec a b ps)
  | [], _ => ends_pure _
  | p :: ps, hr => ends_bind hP (hr p (by simp) a b) fun e => by
      split
      · exact ends_pure _
      · exact ends_unionEqual hP a b ps fun q hq => hr q (by simp [hq])

theorem ends_propEqualBody (hP : ∀ w w', Agree w w' → P w → P w') {rec : Rec} (p : PropSpec)
    (hr : ∀ q a b, depth q ≤ depthTy p.ty → Ends P (rec (.propEqual q a b)))
    (he : ∀ a b, Ends P (rec (.equal a b))) (a b : Val) :
    Ends P (propEqualBody E rec p a b) := by
  unfold propEqualBody
  split <;> rename_i hty
  · have hr := fun a b => hr _ a b (by rw [hty]; unfold depthTy; exact Nat.le_refl _)
    unfold setEqual
    refine ends_catchIf hP ?_ fun _ => ends_pure _
    split
    · split
      · exact ends_pure _
      · split
        all_goals first
          | exact ends_raiseK _ (by simp)
          | (refine ends_bind hP (ends_foldML hP _ fun c x _ =>
              ends_bind hP (ends_setRemove hP _ hr x c) fun o => ?_) fun _ => ends_pure _
             cases o with
             | none => exact ends_pure _
             | some c' => first | exact ends_pure _ | exact ends_raiseK _ (by simp))
    · exact ends_raiseK _ (by simp)
  · rename_i hty
    have hr := fun a b => hr _ a b (by rw [hty]; unfold depthTy; exact Nat.le_refl _)
    unfold tupEqual
    refine ends_catchIf hP ?_ fun _ => ends_pure _
    split
    · split
      · exact ends_bind hP (ends_zipEqual hP _ hr _ _) fun _ => ends_pure _
      · exact ends_pure _
    · exact ends_raiseK _ (by simp)
  · have hr := fun a b => hr _ a b (by rw [hty]; unfold depthTy; exact Nat.le_max_right _ _)
    unfold dictEqual
    refine ends_catchIf hP ?_ fun _ => ends_pure _
    split
    · split
      · exact ends_pure _
      · split
        all_goals first
          | exact ends_raiseK _ (by simp)
          | (refine ends_bind hP (ends_foldML hP _ fun c x _ =>
               ends_bind hP (ends_liftK fun h => pyIndex_error h rfl) fun _ =>
               ends_bind hP (ends_liftK fun h => pyIndex_error h rfl) fun _ =>
               ends_bind hP (hr _ _) fun _ => ?_) fun _ => ends_pure _
             split
             · exact ends_liftK fun h => pyPop_error h rfl
             · exact ends_pure _)
    · exact ends_raiseK _ (by simp)
  · exact he a b
  · exact ends_unionEqual hP a b _ fun q hq a b =>
      hr q a b (by rw [hty]; unfold depthTy; exact depthAll_le hq)
  · split
    · rename_i x hx
      refine ends_bind hP (ends_liftK fun h => ?_) fun _ => ends_pure _
      subst h
      cases scalarEqual_error hx
    · exact ends_raiseK _ (by simp)

theorem ends_equalLoop (hP : ∀ w w', Agree w w' → P w → P w') {rec : Rec}
    (hg : ∀ r nm, Ends P (rec (.getattr r nm))) (i j : Nat) : ∀ ps : List (PyStr × Entry),
    (∀ ne ∈ ps, ∀ a b, Ends P (entryEqual rec ne.2 a b)) → Ends P (equalLoop rec i j ps)
  | [], _ => ends_pure _
  | (nm, e) :: ps, hr => ends_bind hP (hg i nm) fun x => ends_bind hP (hg j nm) fun y => by
      split
      · exact ends_equalLoop hP hg i j ps fun q hq => hr q (by simp [hq])
      · split
        · exact ends_pure _
        · refine ends_bind hP (hr (nm, e) (by simp) x y) fun t => ?_
          split
          · exact ends_equalLoop hP hg i j ps fun q hq => hr q (by simp [hq])
          · exact ends_pure _

/-- Depth that suffices to compare when `k` instances are not being compared. -/
def eqDepth (K D k : Nat) : Nat := (k + 1) * (D + K + 2)

theorem ends_propEqual_of {k L : Nat} (hE : Looks E)
    (he : ∀ n, L ≤ n → ∀ a b, Ends (fun w => idleTe w ≤ k) (run E n (.equal a b))) :
    ∀ n p a b, depth p + L ≤ n → Ends (fun w => idleTe w ≤ k) (run E n (.propEqual p a b))
  | 0, p, a, b, h => by rw [depth_eq] at h; omega
  | n + 1, p, a, b, h => by
      show Ends _ (propEqualBody E (run E n) p a b)
      refine ends_propEqualBody idleTe_agree p (fun q a b hq => ?_) (fun a b => ?_) a b
      · exact ends_propEqual_of hE he n q a b (by rw [depth_eq] at h; omega)
      · exact he n (by rw [depth_eq] at h; omega) a b

theorem ends_equal {K D : Nat} (hE : Looks E) (hp : Prompt E K D) : ∀ k n, eqDepth K D k ≤ n →
    ∀ a b, Ends (fun w => idleTe w ≤ k) (run E n (.equal a b)) := by
  intro k
  induction k with
  | zero =>
    intro n hn a b
    refine ⟨(run_looks hE n).equal a b, fun w hw => ?_⟩
    obtain ⟨m, rfl⟩ : ∃ m, n = m + 1 := ⟨n - 1, by unfold eqDepth at hn; omega⟩
    show ¬ Overflows (equalBody E (run E m) a b w)
    unfold equalBody
    split
    · rename_i i j
      cases ho : w.objs[i]? with
      | none => rw [bind_err (getObj_none ho)]; rintro ⟨e, he, h⟩; cases he; cases h
      | some o =>
        rw [bind_ok (getObj_some ho)]
        cases ht : o.te with
        | true => rintro ⟨e, he, h⟩; cases he
        | false =>
          have := idleTe_mark ho ht
          have hw : idleTe w ≤ 0 := hw
          omega
    · rintro ⟨e, he, h⟩; cases he
  | succ k ih =>
    intro n hn a b
    have hk : eqDepth K D (k + 1) = eqDepth K D k + (D + K + 2) := by
      unfold eqDepth; rw [Nat.add_mul (k + 1) 1]; omega
    refine ⟨(run_looks hE n).equal a b, fun w hw => ?_⟩
    obtain ⟨m, rfl⟩ : ∃ m, n = m + 1 := ⟨n - 1, by omega⟩
    show ¬ Overflows (equalBody E (run E m) a b w)
    unfold equalBody
    split
    · rename_i i j
      cases ho : w.objs[i]? with
      | none => rw [bind_err (getObj_none ho)]; rintro ⟨e, he, h⟩; cases he; cases h
      | some o =>
        rw [bind_ok (getObj_some ho)]
        cases ht : o.te with
        | true => rintro ⟨e, he, h⟩; cases he
        | false =>
          simp only [Bool.false_eq_true, if_false]
          rw [bind_ok (modObj_apply _ _ _)]
          have hm := idleTe_mark ho ht
          have hw : idleTe w ≤ k + 1 := hw
          have hpe := ends_propEqual_of hE (k := k) (L := eqDepth K D k) ih
          have body : Ends (fun w => idleTe w ≤ k) (if i = j then (pure (.bool true) : M Val) else do
              let ob ← getObj j
              if o.cls = ob.cls then equalLoop (run E m) i j (E.classes o.cls).props
              else pure (.bool false)) := by
            split
            · exact ends_pure _
            · refine ends_getObj (fun _ => rfl) fun ob => ?_
              split
              · refine ends_equalLoop idleTe_agree (fun r nm => ⟨(run_looks hE m).getattr r nm,
                  fun w _ => hp.getattr m (by omega) r nm w⟩) i j _ fun ne hne a b => ?_
                have hd := hp.depth _ ne hne
                unfold entryEqual
                unfold entryDepth at hd
                split <;> rename_i he <;> rw [he] at hd
                · exact hpe m _ a b (by dsimp only at hd; omega)
                · exact hpe m _ a b (by dsimp only at hd; omega)
                · exact hpe m _ a b (by dsimp only at hd; omega)
                · exact ends_pure _
              · exact ends_pure _
          exact body.ends _ (by omega)
    · rintro ⟨e, he, h⟩; cases he

theorem ends_propEqual {K D : Nat} (hE : Looks E) (hp : Prompt E K D) (k n : Nat) (p : PropSpec)
    (a b : Val) (h : depth p + eqDepth K D k ≤ n) :
    Ends (fun w => idleTe w ≤ k) (run E n (.propEqual p a b)) :=
  ends_propEqual_of hE (ends_equal hE hp k) n p a b h

end
end Verif
