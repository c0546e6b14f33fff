import Verif.Spec.Complete
import Verif.Props.C17
import Verif.Props.C70
import Verif.Lemmas.EqualTree
import Verif.Props.C28

/-!
# What the properties of a state hold validates to itself and can be compared
-/

namespace Verif
open Spec

section
variable {E : Env} {D : Nat} {w : World}

theorem held_stored {r : Nat} {o : Obj} {nm : PyStr} (ho : w.objs[r]? = some o) (hne : held w r nm ≠ .none) :
    (nm, held w r nm) ∈ o.backend := by
  unfold held at hne ⊢
  simp only [ho] at hne ⊢
  cases h : lookupS nm o.backend with
  | none => rw [h] at hne; exact absurd rfl hne
  | some v => exact lookupS_mem_props h

theorem repeatable_inv {u : Bool} {p : PropSpec} (h : Repeatable E u p) : RepeatableTy E u p.ty := by
  obtain ⟨rq, se, de, df, ty⟩ := p
  exact h

/-- Values and declarations met when the properties of a state are checked. -/
theorem part_admits_ord (hE : HasDecl E D) (hw : WellTyped E w) (hv : OrdinaryValues E w) {r : Nat} {nm : PyStr}
    {p : PropSpec} {v : Val} (h : Part E w r nm p v) :
    (∃ o, w.objs[r]? = some o) ∧ Repeatable E false p ∧ (v ≠ .none → Admits E w p.ty v) := by
  induction h with
  | root o e p ho hm hs =>
    refine ⟨⟨o, ho⟩, ?_⟩
    rcases hE.entries o.cls nm e hm with ⟨q, hq, hr, _⟩ | ⟨new, _, _, rfl, _⟩
    · have : q = p := by
        rcases hq with rfl | rfl <;> exact Option.some.inj hs
      subst this
      refine ⟨hr, fun hne => ?_⟩
      obtain ⟨e', h1, h2⟩ := hw r o ho nm _ (held_stored ho hne)
      have h3 : lookupS nm (E.classes o.cls).props = some e := mem_lookupS (hE.names o.cls) hm
      rw [h3] at h1
      cases h1
      rcases hq with rfl | rfl <;> exact h2
    · cases hs
  | item p item k lo hi c v xs x hp hty hi' hx ih =>
    obtain ⟨ho, hr, ha⟩ := ih
    have hxn : x ≠ .none := fun h => (hv.items r nm p v k item lo hi c xs hp hty hi').1 (h ▸ hx)
    have hr' := repeatable_inv hr
    rw [hty] at hr'
    refine ⟨ho, hr', fun _ => ?_⟩
    have ha := ha (by rintro rfl; cases hi')
    have e : heldOr w r nm x = x := by cases x <;> first | rfl | exact absurd rfl hxn
    rw [e]
    rw [hty] at ha
    cases ha <;> (cases hi'; rename_i h; exact h x hx)
  | key p kp vp c kvs kv hp hty hx ih =>
    obtain ⟨ho, hr, ha⟩ := ih
    have hxn := (hv.keys r nm p kvs kp vp c hp hty kv hx).1
    have hr' := repeatable_inv hr
    rw [hty] at hr'
    refine ⟨ho, hr'.1, fun _ => ?_⟩
    have ha := ha (by simp)
    have e : heldOr w r nm kv.1 = kv.1 := by
      revert hxn; cases kv.1 <;> first | exact fun _ => rfl | exact fun h => absurd rfl h
    rw [e]
    rw [hty] at ha
    cases ha with
    | dict _ _ _ _ h1 h2 => exact h1 kv hx
  | value p kp vp c kvs kv hp hty hx ih =>
    obtain ⟨ho, hr, ha⟩ := ih
    have hxn := (hv.keys r nm p kvs kp vp c hp hty kv hx).2.1
    have hr' := repeatable_inv hr
    rw [hty] at hr'
    refine ⟨ho, hr'.2, fun _ => ?_⟩
    have ha := ha (by simp)
    have e : heldOr w r nm kv.2 = kv.2 := by
      revert hxn; cases kv.2 <;> first | exact fun _ => rfl | exact fun h => absurd rfl h
    rw [e]
    rw [hty] at ha
    cases ha with
    | dict _ _ _ _ h1 h2 => exact h2 kv hx
  | alternative p q ps s v hp hty hx ih =>
    have hr' := repeatable_inv ih.2.1
    rw [hty] at hr'
    exact absurd hr'.1 (by simp)

theorem Spec.Regular.ordinary (h : Regular E w) : OrdinaryValues E w where
  untyped := h.untyped
  items r nm p v k item lo hi c xs hp hty hi' :=
    ⟨(h.items r nm p v k item lo hi c xs hp hty hi').1, fun hk =>
      ((h.items r nm p v k item lo hi c xs hp hty hi').2 hk).2⟩
  keys r nm p kvs kp vp c hp hty := (h.keys r nm p kvs kp vp c hp hty).2
  old := h.old

theorem part_admits (hE : HasDecl E D) (hw : WellTyped E w) (hv : Regular E w) {r : Nat} {nm : PyStr}
    {p : PropSpec} {v : Val} (h : Part E w r nm p v) :
    (∃ o, w.objs[r]? = some o) ∧ Repeatable E false p ∧ (v ≠ .none → Admits E w p.ty v) :=
  part_admits_ord hE hw hv.ordinary h

theorem heldOr_of {r : Nat} {nm : PyStr} {x : Val} (h : x ≠ .none) : heldOr w r nm x = x := by
  cases x <;> first | rfl | exact absurd rfl h

/-- The items of a container. -/
theorem part_item (hv : Regular E w) {r : Nat} {nm : PyStr} {p item : PropSpec} {v : Val} {k : SeqKind}
    {lo hi : Option Nat} {c : Bool} {xs : List Val} (h : Part E w r nm p v) (hty : p.ty = .seq k item lo hi c)
    (hi' : v.iter? = some xs) {x : Val} (hx : x ∈ xs) : x ≠ .none ∧ Part E w r nm item x := by
  have hn : x ≠ .none := fun e => (hv.items r nm p v k item lo hi c xs h hty hi').1 (e ▸ hx)
  have := Part.item p item k lo hi c v xs x h hty hi' hx
  rw [heldOr_of hn] at this
  exact ⟨hn, this⟩

theorem part_entry (hv : Regular E w) {r : Nat} {nm : PyStr} {p kp vp : PropSpec} {c : Bool}
    {kvs : List (Val × Val)} (h : Part E w r nm p (.dict kvs)) (hty : p.ty = .dict kp vp c) {kv : Val × Val}
    (hx : kv ∈ kvs) : (kv.1 ≠ .none ∧ Part E w r nm kp kv.1) ∧ kv.2 ≠ .none ∧ Part E w r nm vp kv.2 := by
  obtain ⟨h1, h2, _⟩ := (hv.keys r nm p kvs kp vp c h hty).2 kv hx
  have hk := Part.key p kp vp c kvs kv h hty hx
  have hv' := Part.value p kp vp c kvs kv h hty hx
  rw [heldOr_of h1] at hk
  rw [heldOr_of h2] at hv'
  exact ⟨⟨h1, hk⟩, h2, hv'⟩

theorem storable_of_repeatable {ty : PropTy} (hs : ScalarTy ty) (h : RepeatableTy E false ty) :
    StorableTy E ty := by
  cases ty <;> first | exact hs.elim | exact trivial | exact h

/-- Validating what a property holds gives the value back. -/
theorem validate_held (hE : HasDecl E D) (hw : WellTyped E w) (hv : Regular E w) :
    ∀ (m : Nat) (p : PropSpec) (r : Nat) (nm : PyStr) (v : Val) (inst : Option Nat), depth p ≤ m →
    Part E w r nm p v → v ≠ .none → run E m (.validate nm p inst v) w = (.ok v, w) := by
  intro m
  induction m with
  | zero =>
    intro p r nm v inst hd
    obtain ⟨rq, se, de, df, ty⟩ := p
    unfold depth at hd
    omega
  | succ m ih =>
    intro p r nm v inst hd hp hne
    obtain ⟨_, hr, ha⟩ := part_admits hE hw hv hp
    have ha := ha hne
    obtain ⟨rq, se, de, df, ty⟩ := p
    have hr' : RepeatableTy E false ty := hr
    simp only [PropSpec.ty] at ha
    show validateBody E (run E m) nm (.mk rq se de df ty) inst v w = _
    have hsc : ScalarTy ty → ty ≠ .color →
        validateBody E (run E m) nm (.mk rq se de df ty) inst v w = (.ok v, w) := by
      intro h1 h2
      rw [validateBody_scalar h1 h2, admitted_accepted h1 (storable_of_repeatable h1 hr') ha 0]
      rfl
    have hseq : ∀ k item lo hi co xs, ty = .seq k item lo hi co → v = ofKind k xs →
        mapML (fun x => M.catchIf ErrKind.isValueError (run E m (.validate nm item inst x))
            (fun _ => propError E (run E m) nm inst)) xs w = (.ok xs, w) := by
      rintro k item lo hi co xs rfl rfl
      refine mapML_id fun y hy => ?_
      obtain ⟨hn, hpy⟩ := part_item hv hp rfl (iter_ofKind k xs) hy
      refine ih item r nm y inst ?_ hpy hn
      unfold depth depthTy at hd
      omega
    unfold validateBody at hsc ⊢
    simp only [PropSpec.ty] at hsc ⊢
    cases ha with
    | tup item lo hi co xs _ =>
      have := hseq .tup item lo hi co xs rfl rfl
      simp only
      unfold seqValidate
      simp only [SeqKind.matches, Bool.not_true, Bool.and_false, Bool.false_eq_true, if_false,
        Val.isContainer, if_true, Val.items]
      rw [bind_ok this]
      rfl
    | list item lo hi co xs _ =>
      have := hseq .list item lo hi co xs rfl rfl
      simp only
      unfold seqValidate
      simp only [SeqKind.matches, Bool.not_true, Bool.and_false, Bool.false_eq_true, if_false,
        Val.isContainer, if_true, Val.items]
      rw [bind_ok this]
      rfl
    | set item lo hi co xs _ =>
      have := hseq .set item lo hi co xs rfl rfl
      obtain ⟨hdi, _⟩ := (hv.items r nm _ _ _ _ _ _ _ xs hp rfl rfl).2 rfl
      simp only
      unfold seqValidate
      simp only [SeqKind.matches, Bool.not_true, Bool.and_false, Bool.false_eq_true, if_false,
        Val.isContainer, if_true, Val.items]
      rw [bind_ok this]
      unfold mkSeq
      simp only [hashableL_all_iff.2 hdi.1, if_true, setOfList_same hdi.2]
      rfl
    | dict kp vp co kvs _ _ =>
      simp only
      unfold dictValidate
      have hitems : (match (if co = true then dictCoerce? (.dict kvs) else
          match Val.dict kvs with | .dict kvs => some kvs | _ => none) with
        | some kvs => (pure kvs : M _)
        | none => propError E (run E m) nm inst) = pure kvs := by cases co <;> rfl
      refine (congrFun (congrArg (· >>= _) hitems) w).trans ?_
      rw [bind_ok (pure_apply _ _)]
      obtain ⟨hdk, _⟩ := hv.keys r nm _ kvs kp vp co hp rfl
      have hd' : depth kp ≤ m ∧ depth vp ≤ m := by
        unfold depth depthTy at hd
        omega
      have hfold := dictFold_id (E := E) (m := m) (nm := nm) (kp := kp) (vp := vp) (inst := inst)
        (w := w) (kvs := kvs) (d := [])
        ⟨hdk.2, fun kv hkv => hdk.1 _ (List.mem_map.2 ⟨kv, hkv, rfl⟩)⟩ fun kv hkv => by
          obtain ⟨⟨h1, h2⟩, h3, h4⟩ := part_entry hv hp rfl hkv
          exact ⟨ih kp r nm kv.1 inst hd'.1 h2 h1, ih vp r nm kv.2 inst hd'.2 h4 h3⟩
      exact bind_ok hfold
    | inst c s hi =>
      obtain ⟨o, ho, hc⟩ := hi
      show instValidate E (run E m) nm inst c (.obj s) w = _
      unfold instValidate
      simp only
      rw [bind_ok (getObj_some ho), if_pos ((isSub_iff (E := E)).2 (hc.imp_left id))]
      rfl
    | union ps st q _ hm _ => exact absurd hr'.1 (by simp)
    | color _ hx =>
      obtain ⟨a, b, c, rfl, h⟩ := hx
      have h2 := admitted_accepted (E := E) (w := w) (ty := .color) trivial trivial (.color _ ⟨a, b, c, rfl, h⟩) 0
      have h3 : colorValidate E 0 (.tup [a, b, c]) = .ok (.tup [a, b, c]) := Option.some.inj h2
      show liftScalar E (run E m) nm inst (colorValidate E 0 (.tup [a, b, c])) w = _
      rw [h3]; rfl
    | any => exact hsc trivial (by simp)
    | boolean => exact hsc trivial (by simp)
    | integer => exact hsc trivial (by simp)
    | float => exact hsc trivial (by simp)
    | complex => exact hsc trivial (by simp)
    | string => exact hsc trivial (by simp)
    | choice => exact hsc trivial (by simp)
    | datetime => exact hsc trivial (by simp)
    | uuid => exact hsc trivial (by simp)


/-! ## Comparing a value with itself -/

theorem zipEqual_self {rec : Rec} {p : PropSpec} : ∀ {xs : List Val},
    (∀ x ∈ xs, ∃ b, rec (.propEqual p x x) w = (.ok (.bool b), w)) →
    ∃ b, zipEqual rec p xs xs w = (.ok b, w) ∧
      (b = true → ∀ x ∈ xs, rec (.propEqual p x x) w = (.ok (.bool true), w))
  | [], _ => ⟨_, rfl, by simp⟩
  | x :: xs, h => by
    obtain ⟨b, hb⟩ := h x (by simp)
    obtain ⟨c, hc, ht⟩ := zipEqual_self (xs := xs) fun y hy => h y (by simp [hy])
    unfold zipEqual
    rw [bind_ok hb, bind_ok hc]
    refine ⟨_, rfl, fun hbc y hy => ?_⟩
    obtain ⟨h1, h2⟩ : b = true ∧ c = true := by simpa [Val.truthy] using hbc
    rcases List.mem_cons.1 hy with rfl | hy
    · rw [hb, h1]
    · exact ht h2 y hy

theorem dictErase_mid : ∀ {pre kvs : List (Val × Val)} {k v : Val}, (∀ kv ∈ pre, pyEq kv.1 k = false) →
    pyEq k k = true → dictErase (pre ++ (k, v) :: kvs) k = pre ++ kvs
  | [], kvs, k, v, _, he => by
    show dictErase ((k, v) :: kvs) k = _
    unfold dictErase
    rw [if_pos he]
    rfl
  | (k', v') :: pre, kvs, k, v, h, he => by
    show dictErase ((k', v') :: (pre ++ (k, v) :: kvs)) k = _
    unfold dictErase
    have h1 := h (k', v') (by simp)
    rw [if_neg (by rw [h1]; simp), dictErase_mid (fun kv hkv => h kv (by simp [hkv])) he]
    rfl

theorem dictGet_mid : ∀ {pre kvs : List (Val × Val)} {k v : Val}, (∀ kv ∈ pre, pyEq kv.1 k = false) →
    pyEq k k = true → dictGet? (pre ++ (k, v) :: kvs) k = some v
  | [], kvs, k, v, _, he => by
    show dictGet? ((k, v) :: kvs) k = _
    unfold dictGet?
    rw [if_pos he]
  | (k', v') :: pre, kvs, k, v, h, he => by
    show dictGet? ((k', v') :: (pre ++ (k, v) :: kvs)) k = _
    unfold dictGet?
    have h1 := h (k', v') (by simp)
    rw [if_neg (by rw [h1]; simp)]
    exact dictGet_mid (fun kv hkv => h kv (by simp [hkv])) he

theorem dictFold_self {rec : Rec} {vp : PropSpec} {a : Val} :
    ∀ {kvs pre : List (Val × Val)}, ((pre ++ kvs).map (·.1)).Pairwise (fun a b => pyEq a b = false) →
    (∀ kv ∈ kvs, pyEq kv.1 kv.1 = true ∧ kv.1.hashable = true ∧ pyIndex a kv.1 = .ok kv.2 ∧
      ∃ b, rec (.propEqual vp kv.2 kv.2) w = (.ok (.bool b), w)) →
    ∃ out, foldML (fun copy k => do
        let x ← liftK (pyIndex a k)
        let y ← liftK (pyIndex a k)
        let e ← rec (.propEqual vp x y)
        if e.truthy then liftK (pyPop copy k) else pure copy) (.dict (pre ++ kvs)) (kvs.map (·.1)) w =
      (.ok (.dict out), w) ∧
      (out = [] → pre = [] ∧ ∀ kv ∈ kvs, rec (.propEqual vp kv.2 kv.2) w = (.ok (.bool true), w))
  | [], pre, _, _ => ⟨pre, by simp [foldML], fun h => ⟨h, by simp⟩⟩
  | (k, v) :: kvs, pre, hp, h => by
    obtain ⟨h1, hh, h2, b, h3⟩ := h (k, v) (by simp)
    have h1 : pyEq k k = true := h1
    have hh : k.hashable = true := hh
    have h2 : pyIndex a k = .ok v := h2
    have h3 : rec (.propEqual vp v v) w = (.ok (.bool b), w) := h3
    have hpre : ∀ kv ∈ pre, pyEq kv.1 k = false := by
      intro kv hkv
      rw [List.map_append, List.pairwise_append] at hp
      exact hp.2.2 kv.1 (List.mem_map_of_mem (f := Prod.fst) hkv) k (by simp)
    rw [List.map_cons]
    unfold foldML
    cases b with
    | true =>
      have hpop : pyPop (.dict (pre ++ (k, v) :: kvs)) k = .ok (.dict (pre ++ kvs)) := by
        unfold pyPop
        simp only [dictGet_mid hpre h1, dictErase_mid hpre h1]
      have hstep : (do
          let x' ← liftK (pyIndex a k)
          let y' ← liftK (pyIndex a k)
          let e ← rec (.propEqual vp x' y')
          if e.truthy then liftK (pyPop (.dict (pre ++ (k, v) :: kvs)) k)
            else pure (.dict (pre ++ (k, v) :: kvs)) : M Val) w = (.ok (.dict (pre ++ kvs)), w) := by
        rw [h2, bind_ok (show liftK (Except.ok v) w = (.ok v, w) from rfl),
          bind_ok (show liftK (Except.ok v) w = (.ok v, w) from rfl), bind_ok h3]
        simp only [Val.truthy, if_true, hpop]
        rfl
      rw [bind_ok hstep]
      obtain ⟨out, ho1, ho2⟩ := dictFold_self (rec := rec) (vp := vp) (a := a) (kvs := kvs) (pre := pre)
        (hp.sublist (by simp)) fun kv hkv => h kv (by simp [hkv])
      refine ⟨out, ho1, fun e => ⟨(ho2 e).1, fun kv hkv => ?_⟩⟩
      rcases List.mem_cons.1 hkv with rfl | hkv
      · exact h3
      · exact (ho2 e).2 kv hkv
    | false =>
      have hstep : (do
          let x' ← liftK (pyIndex a k)
          let y' ← liftK (pyIndex a k)
          let e ← rec (.propEqual vp x' y')
          if e.truthy then liftK (pyPop (.dict (pre ++ (k, v) :: kvs)) k)
            else pure (.dict (pre ++ (k, v) :: kvs)) : M Val) w = (.ok (.dict (pre ++ (k, v) :: kvs)), w) := by
        rw [h2, bind_ok (show liftK (Except.ok v) w = (.ok v, w) from rfl),
          bind_ok (show liftK (Except.ok v) w = (.ok v, w) from rfl), bind_ok h3]
        rfl
      rw [bind_ok hstep]
      obtain ⟨out, ho1, ho2⟩ := dictFold_self (rec := rec) (vp := vp) (a := a) (kvs := kvs)
        (pre := pre ++ [(k, v)]) (by simpa using hp) fun kv hkv => h kv (by simp [hkv])
      refine ⟨out, by simpa using ho1, fun e => ?_⟩
      have := (ho2 e).1
      simp at this

theorem dictEqual_self {rec : Rec} {vp : PropSpec} {kvs : List (Val × Val)}
    (hd : DistinctItems (kvs.map (·.1))) (hs : ∀ kv ∈ kvs, pyEq kv.1 kv.1 = true)
    (h : ∀ kv ∈ kvs, ∃ b, rec (.propEqual vp kv.2 kv.2) w = (.ok (.bool b), w)) :
    ∃ b, dictEqual rec vp (.dict kvs) (.dict kvs) w = (.ok (.bool b), w) ∧
      (b = true → ∀ kv ∈ kvs, rec (.propEqual vp kv.2 kv.2) w = (.ok (.bool true), w)) := by
  have hh : ∀ kv ∈ kvs, kv.1.hashable = true := fun kv hkv => hd.1 _ (List.mem_map.2 ⟨kv, hkv, rfl⟩)
  obtain ⟨out, hf, hf2⟩ := dictFold_self (w := w) (rec := rec) (vp := vp) (a := .dict kvs) (kvs := kvs) (pre := []) hd.2
    fun kv hkv => by
      refine ⟨hs kv hkv, hh kv hkv, ?_, h kv hkv⟩
      obtain ⟨i, hi⟩ := List.getElem?_of_mem hkv
      unfold pyIndex
      simp only [hh kv hkv, if_true, dictGet_at hd.2 hi (hs kv hkv)]
  unfold dictEqual
  refine ⟨(Val.dict out).len? == some 0, catchIf_ok' ?_, fun e => (hf2 ?_).2⟩
  on_goal 2 => simpa [Val.len?, Val.iter?] using e
  have hi : ∀ l, (Val.dict l).iter? = some (l.map (·.1)) := fun _ => rfl
  simp only [hi]
  rw [if_neg (by simp)]
  exact (bind_ok hf).trans rfl

theorem byte_self {v : Val} (h : IsByte v) : pyEq v v = true := by
  rcases h with ⟨i, rfl, _⟩ | ⟨b, rfl⟩
  · simp [pyEq, Val.num?, PyFloat.eq]
  · simp [pyEq, Val.num?, PyFloat.eq]

theorem pyEqL_ints (a b c : Val) (ha : pyEq a a = true) (hb : pyEq b b = true) (hc : pyEq c c = true) :
    pyEq (.tup [a, b, c]) (.tup [a, b, c]) = true := by
  simp [pyEq, pyEqL, ha, hb, hc]

/-- A scalar compared with itself: equal unless it is a number that is not
finite. -/
theorem scalar_self (hz : E.rnd 0 = .fin 0) {ty : PropTy} {v : Val} (hs : ScalarTy ty)
    (ha : Admits E w ty v) (hany : ty = .any → pyEq v v = true) :
    ∃ b, scalarEqual E ty v v = some (.ok b) ∧ (b = true ↔ FiniteAs ty v) := by
  have close : ∀ f : PyFloat, PyFloat.small (PyFloat.sub E f f) = true ↔ IsFinite f := by
    intro f
    cases f with
    | fin q =>
      have : PyFloat.sub E (.fin q) (.fin q) = .fin 0 := by
        show E.rnd (q - q) = _
        rw [show q - q = 0 by simp, hz]
      rw [this]
      simp only [IsFinite, iff_true]
      decide +kernel
    | _ => simp [PyFloat.sub, PyFloat.small, IsFinite]
  cases ha with
  | any => exact ⟨true, by unfold scalarEqual; rw [hany rfl], by simp [FiniteAs]⟩
  | boolean c b => exact ⟨true, by cases b <;> rfl, by simp [FiniteAs]⟩
  | integer c mn mx i _ => exact ⟨true, by unfold scalarEqual; simp [pyEq, Val.num?, PyFloat.eq], by simp [FiniteAs]⟩
  | float c mn mx f _ => exact ⟨_, rfl, by rw [close]; rfl⟩
  | complex c a b => exact ⟨_, rfl, by rw [Bool.and_eq_true, close, close]; rfl⟩
  | string => exact ⟨true, by unfold scalarEqual; simp [pyEq], by simp [FiniteAs]⟩
  | choice => exact ⟨true, by unfold scalarEqual; simp [pyEq], by simp [FiniteAs]⟩
  | color _ h =>
    obtain ⟨a, b, c, rfl, h1, h2, h3⟩ := h
    refine ⟨true, ?_, by simp [FiniteAs]⟩
    unfold scalarEqual
    simp only
    rw [pyEqL_ints a b c (byte_self h1) (byte_self h2) (byte_self h3)]
  | datetime => exact ⟨true, by unfold scalarEqual; simp [pyEq], by simp [FiniteAs]⟩
  | uuid => exact ⟨true, by unfold scalarEqual; simp [pyEq], by simp [FiniteAs]⟩
  | tup => exact hs.elim
  | list => exact hs.elim
  | set => exact hs.elim
  | dict => exact hs.elim
  | inst => exact hs.elim
  | union => exact hs.elim


/-- No instance is being compared. -/
def Uncompared (w : World) : Prop := ∀ (r : Nat) (o : Obj), w.objs[r]? = some o → o.te = false

theorem iter_finite {rq : Bool} {se de : Option FnId} {df : Dflt} {k : SeqKind} {item : PropSpec}
    {lo hi : Option Nat} {co : Bool} {v : Val} {xs : List Val} (h : v.iter? = some xs) :
    AllFinite (.mk rq se de df (.seq k item lo hi co)) v ↔ ∀ x ∈ xs, AllFinite item x := by
  constructor
  · exact fun hf => hf xs h
  · intro hf ys hy
    rw [h] at hy; cases hy
    exact hf

/-- What a property holds can be compared with itself: it is equal unless it
contains a number that is not finite. -/
theorem equal_held (hE : HasDecl E D) (hw : WellTyped E w) (hv : Regular E w) (ht : Uncompared w) :
    ∀ (m : Nat) (p : PropSpec) (r : Nat) (nm : PyStr) (v : Val), depth p < m →
    Part E w r nm p v → v ≠ .none → ∃ b, run E m (.propEqual p v v) w = (.ok (.bool b), w) ∧
      (b = true ↔ AllFinite p v) := by
  intro m
  induction m with
  | zero => intro p r nm v hd; omega
  | succ m ih =>
    intro p r nm v hd hp hne
    obtain ⟨_, hr, ha⟩ := part_admits hE hw hv hp
    have ha := ha hne
    by_cases hs : ScalarTy p.ty
    · obtain ⟨b, hb, hf⟩ := scalar_self hE.zero hs ha fun hty => hv.untyped r nm p v hp hty hne
      refine ⟨b, propEqualBody_scalar hs hb w, hf.trans ?_⟩
      obtain ⟨rq, se, de, df, ty⟩ := p
      simp only [PropSpec.ty] at hs ⊢
      unfold AllFinite
      cases ty <;> first | exact hs.elim | exact Iff.rfl
    obtain ⟨rq, se, de, df, ty⟩ := p
    have hr' : RepeatableTy E false ty := hr
    simp only [PropSpec.ty] at ha hs
    show ∃ b, propEqualBody E (run E m) (.mk rq se de df ty) v v w = _ ∧ _
    unfold propEqualBody
    simp only [PropSpec.ty]
    have hseq : ∀ k item lo hi co xs, ty = .seq k item lo hi co → v = ofKind k xs → ∀ x ∈ xs,
        ∃ b, run E m (.propEqual item x x) w = (.ok (.bool b), w) ∧ (b = true ↔ AllFinite item x) := by
      rintro k item lo hi co xs rfl rfl x hx
      obtain ⟨hn, hpx⟩ := part_item hv hp rfl (iter_ofKind k xs) hx
      obtain ⟨b, h1, h2⟩ := ih item r nm x (by unfold depth depthTy at hd; omega) hpx hn
      exact ⟨b, h1, h2⟩
    have htup : ∀ item (xs : List Val), (Val.iter? v = some xs) → (∀ x ∈ xs,
        ∃ b, run E m (.propEqual item x x) w = (.ok (.bool b), w) ∧ (b = true ↔ AllFinite item x)) →
        ∃ b, tupEqual (run E m) item v v w = (.ok (.bool b), w) ∧ (b = true ↔ ∀ x ∈ xs, AllFinite item x) := by
      intro item xs hi h
      by_cases hall : ∀ x ∈ xs, AllFinite item x
      · refine ⟨true, ?_, by simpa using hall⟩
        unfold tupEqual
        refine catchIf_ok' ?_
        simp only [hi, if_true]
        rw [bind_ok (zipEqual_true rfl ?_)]
        · rfl
        · intro i x y hx hy
          rw [hx] at hy; cases hy
          obtain ⟨b, h1, h2⟩ := h x (List.mem_of_getElem? hx)
          rw [h1, h2.2 (hall x (List.mem_of_getElem? hx))]
      · obtain ⟨b, hb, hb2⟩ := zipEqual_self (w := w) (rec := run E m) (p := item) (xs := xs) fun x hx => by
          obtain ⟨b, h1, _⟩ := h x hx
          exact ⟨b, h1⟩
        have hex : ∀ x ∈ xs, b = true → AllFinite item x := by
          intro x hx e
          obtain ⟨b', h1, h2⟩ := h x hx
          have := hb2 e x hx
          rw [h1] at this
          injection this with this
          injection this with this
          injection this with this
          exact h2.1 this
        refine ⟨b, ?_, ⟨fun e x hx => hex x hx e, fun h => absurd h hall⟩⟩
        unfold tupEqual
        refine catchIf_ok' ?_
        simp only [hi, if_true]
        rw [bind_ok hb]
        rfl
    cases ha with
    | tup item lo hi co xs _ =>
      obtain ⟨b, h1, h2⟩ := htup item xs rfl (hseq .tup item lo hi co xs rfl rfl)
      exact ⟨b, h1, h2.trans (iter_finite rfl).symm⟩
    | list item lo hi co xs _ =>
      obtain ⟨b, h1, h2⟩ := htup item xs rfl (hseq .list item lo hi co xs rfl rfl)
      exact ⟨b, h1, h2.trans (iter_finite rfl).symm⟩
    | set item lo hi co xs _ =>
      have hfin := ((hv.items r nm _ _ _ _ _ _ _ xs hp rfl rfl).2 rfl).2
      refine ⟨true, setEqual_true fun x hx => ?_, fun _ => (iter_finite rfl).2 hfin, fun _ => rfl⟩
      obtain ⟨b, h1, h2⟩ := hseq .set item lo hi co xs rfl rfl x hx
      rw [h1, h2.2 (hfin x hx)]
    | dict kp vp co kvs _ _ =>
      obtain ⟨hdk, hk⟩ := hv.keys r nm _ kvs kp vp co hp rfl
      have hval : ∀ kv ∈ kvs, ∃ b, run E m (.propEqual vp kv.2 kv.2) w = (.ok (.bool b), w) ∧
          (b = true ↔ AllFinite vp kv.2) := by
        intro kv hkv
        obtain ⟨_, h3, h4⟩ := part_entry hv hp rfl hkv
        obtain ⟨b, h1, h2⟩ := ih vp r nm kv.2 (by unfold depth depthTy at hd; omega) h4 h3
        exact ⟨b, h1, h2⟩
      have hdict : AllFinite (.mk rq se de df (.dict kp vp co)) (.dict kvs) ↔
          ∀ kv ∈ kvs, AllFinite vp kv.2 := by
        constructor
        · exact fun h kv hkv => (h kvs rfl kv hkv).2
        · intro h kvs' e kv hkv
          cases e
          exact ⟨(hk kv hkv).2.2.2, h kv hkv⟩
      by_cases hall : ∀ kv ∈ kvs, AllFinite vp kv.2
      · refine ⟨true, dictEqual_true rfl hdk.2 (fun kv hkv => hdk.1 _ (List.mem_map.2 ⟨kv, hkv, rfl⟩))
          (fun kv hkv => (hk kv hkv).2.2.1) ?_, fun _ => hdict.2 hall, fun _ => rfl⟩
        intro i x y hx hy
        rw [hx] at hy; cases hy
        obtain ⟨b, h1, h2⟩ := hval x (List.mem_of_getElem? hx)
        rw [h1, h2.2 (hall x (List.mem_of_getElem? hx))]
      · obtain ⟨b, hb, hb2⟩ := dictEqual_self (w := w) (rec := run E m) (vp := vp) hdk
          (fun kv hkv => (hk kv hkv).2.2.1) fun kv hkv => by
            obtain ⟨b, h1, _⟩ := hval kv hkv
            exact ⟨b, h1⟩
        refine ⟨b, hb, fun e => hdict.2 fun kv hkv => ?_, fun h => absurd (hdict.1 h) hall⟩
        obtain ⟨b', h1, h2⟩ := hval kv hkv
        have := hb2 e kv hkv
        rw [h1] at this
        injection this with this
        injection this with this
        injection this with this
        exact h2.1 this
    | inst c s hi =>
      obtain ⟨o, ho, _⟩ := hi
      obtain ⟨m, rfl⟩ : ∃ j, m = j + 1 := ⟨m - 1, by unfold depth depthTy at hd; omega⟩
      exact ⟨true, C28_refl E ho (ht s o ho) m, fun _ => trivial, fun _ => rfl⟩
    | union ps st q _ hm _ => exact absurd hr'.1 (by simp)
    | _ => exact absurd trivial hs

end
end Verif
