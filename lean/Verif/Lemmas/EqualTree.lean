import Verif.Lemmas.WriteTree

/-!
# Comparing a canonical tree with a copy of it
-/

namespace Verif
open Spec

/-- `r` is being compared. -/
def Comparing (ws : World) (r : Nat) : Prop := ∃ o, ws.objs[r]? = some o ∧ o.te = true

/-- No instance of the value is being compared. -/
def Idle (E : Env) (w ws : World) (nm : PyStr) (p : PropSpec) (v : Val) : Prop :=
  ∀ s t, Visits E w nm p v s → Reaches E w s t → ¬ Comparing ws t

/-- Comparing the value with a copy of it raises nothing, although the type
refuses both. -/
def CalmEqual (E : Env) (ty : PropTy) (v : Val) : Prop :=
  match ty with
  | .union .. => False
  | .seq k it _ _ _ => v.iter? = none ∨ (k ≠ .set ∧ ScalarTy it.ty ∧ ∀ x y, ∃ b, scalarEqual E it.ty x y = some (.ok b))
  | .dict .. => (∀ xs, v ≠ .list xs) ∧ (∀ xs, v ≠ .set xs) ∧ ∀ xs, v ≠ .dict xs
  | .inst _ => True
  | ty => ∀ u, Alike v u → ∃ b, scalarEqual E ty v u = some (.ok b)

/-- The scalar equals itself, and can be found as a dictionary key.  The earlier
alternatives of a Union do not raise when asked whether the value is equal. -/
def SelfEqual (E : Env) (ty : PropTy) (v : Val) : Prop :=
  match ty with
  | .union pre _ => ∀ p ∈ pre, CalmEqual E p.ty v
  | ty => scalarEqual E ty v v = some (.ok true) ∧ pyEq v v = true

theorem selfEqual_scalar {E : Env} {ty : PropTy} {v : Val} (hs : ScalarTy ty) :
    SelfEqual E ty v ↔ scalarEqual E ty v v = some (.ok true) ∧ pyEq v v = true := by
  cases ty <;> first | exact hs.elim | exact Iff.rfl

theorem calmEqual_scalar {E : Env} {ty : PropTy} {v : Val} (hs : ScalarTy ty) :
    CalmEqual E ty v ↔ ∀ u, Alike v u → ∃ b, scalarEqual E ty v u = some (.ok b) := by
  cases ty <;> first | exact hs.elim | exact Iff.rfl

theorem sameCore_of {w ws : World} (h : SameCore w ws) {r : Nat} {o : Obj} (ho : w.objs[r]? = some o) :
    ∃ o', ws.objs[r]? = some o' ∧ o'.cls = o.cls ∧ o'.backend = o.backend :=
  sameCore_some (fun r => (h r).symm) ho

theorem sameCore_te {w0 ws : World} (h : SameCore w0 ws) (r : Nat) :
    SameCore w0 (ws.setObj r (fun o => { o with te := true })) := by
  intro s
  rw [← h s]
  unfold World.setObj
  rw [List.getElem?_modify]
  cases ws.objs[s]? with
  | none => rfl
  | some o =>
    by_cases hrs : r = s
    · simp [hrs]
    · simp [hrs]

theorem comparing_setObj {w : World} {r t : Nat}
    (h : Comparing (w.setObj r (fun o => { o with te := true })) t) : Comparing w t ∨ t = r := by
  by_cases hr : t = r
  · exact .inr hr
  · obtain ⟨o, ho, hg⟩ := h
    left
    refine ⟨o, ?_, hg⟩
    unfold World.setObj at ho
    rw [List.getElem?_modify] at ho
    have hrt : ¬ r = t := fun h => hr h.symm
    simpa [hrt] using ho

/-- The copies compare equal, with stack `N`. -/
def Equals (E : Env) (w w3 : World) (nm : PyStr) (N : Nat) (p : PropSpec) (v v' : Val) : Prop :=
  ∀ n, N ≤ n → ∀ ws, SameCore w3 ws → Idle E w ws nm p v →
    run E n (.propEqual p v v') ws = (.ok (.bool true), ws)

theorem equals_mono {E : Env} {w w3 : World} {nm : PyStr} {N M : Nat} {p : PropSpec} {v v' : Val}
    (h : Equals E w w3 nm N p v v') (hm : N ≤ M) : Equals E w w3 nm M p v v' :=
  fun n hn => h n (Nat.le_trans hm hn)

theorem catchIf_ok' {α : Type} {c : ErrKind → Bool} {m : M α} {f : PyErr → M α} {w w' : World} {a : α}
    (h : m w = (.ok a, w')) : M.catchIf c m f w = (.ok a, w') := by
  unfold M.catchIf
  simp only [h]

theorem zipEqual_true {rec : Rec} {p : PropSpec} {w : World} : ∀ {xs ys : List Val}, xs.length = ys.length →
    (∀ (i : Nat) x y, xs[i]? = some x → ys[i]? = some y → rec (.propEqual p x y) w = (.ok (.bool true), w)) →
    zipEqual rec p xs ys w = (.ok true, w)
  | [], [], _, _ => rfl
  | x :: xs, y :: ys, hl, h => by
    unfold zipEqual
    rw [bind_ok (h 0 x y rfl rfl), bind_ok (zipEqual_true (by simpa using hl) fun i a b ha hb =>
      h (i + 1) a b (by simpa using ha) (by simpa using hb))]
    rfl

theorem setFold_true {rec : Rec} {p : PropSpec} {w : World} {b : Bool} : ∀ {xs : List Val}, b = false →
    (∀ x ∈ xs, rec (.propEqual p x x) w = (.ok (.bool true), w)) →
    foldML (fun copy x => do
        let r ← setRemove rec p x copy
        match r with
        | some copy' => if b then raiseK .attr else pure copy'
        | none => pure copy) xs xs w = (.ok [], w)
  | [], _, _ => rfl
  | x :: xs, hb, h => by
    subst hb
    have h1 : setRemove rec p x (x :: xs) w = (.ok (some xs), w) := by
      unfold setRemove
      rw [bind_ok (h x (by simp))]
      rfl
    unfold foldML
    have h2 : (do
        let r ← setRemove rec p x (x :: xs)
        match r with
        | some copy' => if false then raiseK .attr else pure copy'
        | none => pure (x :: xs) : M (List Val)) w = (.ok xs, w) := by
      rw [bind_ok h1]
      rfl
    rw [bind_ok h2]
    exact setFold_true rfl fun y hy => h y (by simp [hy])

theorem setEqual_true {rec : Rec} {p : PropSpec} {w : World} {xs : List Val}
    (h : ∀ x ∈ xs, rec (.propEqual p x x) w = (.ok (.bool true), w)) :
    setEqual rec p (.set xs) (.set xs) w = (.ok (.bool true), w) := by
  unfold setEqual
  refine catchIf_ok' ?_
  have hi : (Val.set xs).iter? = some xs := rfl
  simp only [hi]
  rw [if_neg (by simp)]
  refine (bind_ok (setFold_true rfl h)).trans ?_
  rfl

theorem dictGet_at : ∀ {kvs : List (Val × Val)}, (kvs.map (·.1)).Pairwise (fun a b => pyEq a b = false) →
    ∀ {i : Nat} {kv : Val × Val}, kvs[i]? = some kv → pyEq kv.1 kv.1 = true →
    dictGet? kvs kv.1 = some kv.2
  | [], _, i, kv, h, _ => by simp at h
  | (k, v) :: kvs, hp, 0, kv, h, he => by
    simp at h
    subst h
    unfold dictGet?
    rw [if_pos he]
  | (k, v) :: kvs, hp, i + 1, kv, h, he => by
    rw [List.map_cons, List.pairwise_cons] at hp
    have h : kvs[i]? = some kv := by simpa using h
    unfold dictGet?
    rw [if_neg (by
      rw [hp.1 kv.1 (List.mem_map_of_mem (f := Prod.fst) (List.mem_of_getElem? h))]; simp)]
    exact dictGet_at hp.2 h he

theorem dictFold_true {rec : Rec} {vp : PropSpec} {a b : Val} {w : World} :
    ∀ {kvs lvs : List (Val × Val)}, kvs.map (·.1) = lvs.map (·.1) →
    (∀ (i : Nat) x y, kvs[i]? = some x → lvs[i]? = some y → pyEq x.1 x.1 = true ∧
      pyIndex a x.1 = .ok x.2 ∧ pyIndex b x.1 = .ok y.2 ∧
      rec (.propEqual vp x.2 y.2) w = (.ok (.bool true), w)) →
    foldML (fun copy k => do
        let x ← liftK (pyIndex a k)
        let y ← liftK (pyIndex b k)
        let e ← rec (.propEqual vp x y)
        if e.truthy then liftK (pyPop copy k) else pure copy) (.dict lvs) (kvs.map (·.1)) w =
      (.ok (.dict []), w)
  | [], [], _, _ => rfl
  | [], _ :: _, h, _ => by simp at h
  | _ :: _, [], h, _ => by simp at h
  | (k, x) :: kvs, (k', y) :: lvs, hk, h => by
    rw [List.map_cons, List.map_cons, List.cons.injEq] at hk
    obtain ⟨hk1, hk2⟩ := hk
    have hk1 : k = k' := hk1
    subst hk1
    obtain ⟨h1, h2, h3, h4⟩ := h 0 (k, x) (k, y) rfl rfl
    have h1 : pyEq k k = true := h1
    have h2 : pyIndex a k = .ok x := h2
    have h3 : pyIndex b k = .ok y := h3
    rw [List.map_cons]
    unfold foldML
    have hpop : pyPop (.dict ((k, y) :: lvs)) k = .ok (.dict lvs) := by
      unfold pyPop
      have h5 : dictGet? ((k, y) :: lvs) k = some y := by unfold dictGet?; rw [if_pos h1]
      have h6 : dictErase ((k, y) :: lvs) k = lvs := by unfold dictErase; rw [if_pos h1]
      simp only [h5, h6]
    have hstep : (do
        let x' ← liftK (pyIndex a k)
        let y' ← liftK (pyIndex b k)
        let e ← rec (.propEqual vp x' y')
        if e.truthy then liftK (pyPop (.dict ((k, y) :: lvs)) k) else pure (.dict ((k, y) :: lvs)) : M Val) w =
        (.ok (.dict lvs), w) := by
      rw [h2, h3, bind_ok (show liftK (Except.ok x) w = (.ok x, w) from rfl),
        bind_ok (show liftK (Except.ok y) w = (.ok y, w) from rfl), bind_ok h4]
      simp only [Val.truthy, if_true, hpop]
      rfl
    rw [bind_ok hstep]
    exact dictFold_true hk2 fun i u v hu hv => h (i + 1) u v (by simpa using hu) (by simpa using hv)

theorem dictEqual_true {rec : Rec} {vp : PropSpec} {w : World} {kvs lvs : List (Val × Val)}
    (hk : kvs.map (·.1) = lvs.map (·.1))
    (hd : (kvs.map (·.1)).Pairwise (fun a b => pyEq a b = false))
    (hh : ∀ kv ∈ kvs, kv.1.hashable = true) (hs : ∀ kv ∈ kvs, pyEq kv.1 kv.1 = true)
    (h : ∀ (i : Nat) x y, kvs[i]? = some x → lvs[i]? = some y →
      rec (.propEqual vp x.2 y.2) w = (.ok (.bool true), w)) :
    dictEqual rec vp (.dict kvs) (.dict lvs) w = (.ok (.bool true), w) := by
  unfold dictEqual
  refine catchIf_ok' ?_
  have hi : ∀ l, (Val.dict l).iter? = some (l.map (·.1)) := fun _ => rfl
  simp only [hi]
  rw [if_neg (by rw [hk]; simp)]
  refine (bind_ok (dictFold_true hk fun i x y hx hy => ?_)).trans rfl
  have hm := List.mem_of_getElem? hx
  have hxy : y.1 = x.1 := by
    have := congrArg (fun l => l[i]?) hk
    simp only [List.getElem?_map, hx, hy, Option.map_some] at this
    exact (Option.some.inj this).symm
  have hd' := hd
  rw [hk] at hd'
  have h1 := dictGet_at hd hx (hs x hm)
  have h2 := dictGet_at hd' hy (by rw [hxy]; exact hs x hm)
  rw [hxy] at h2
  refine ⟨hs x hm, ?_, ?_, h i x y hx hy⟩
  · unfold pyIndex
    simp only [hh x hm, if_true, h1]
  · unfold pyIndex
    simp only [hh x hm, if_true, h2]

/-- All properties are stored under their own names. -/
def AllOwn (E : Env) : Prop := ∀ c nm e, (nm, e) ∈ (E.classes c).props → ∃ p, OwnSpec e p

theorem getattr_own {E : Env} {n : Nat} {ws : World} {r : Nat} {o : Obj} {nm : PyStr} {e : Entry} {p : PropSpec}
    (ho : ws.objs[r]? = some o) (he : lookupS nm (E.classes o.cls).props = some e) (hp : OwnSpec e p) :
    run E (n + 1) (.getattr r nm) ws = (.ok (valueAt o nm), ws) := by
  show getattrBody E (run E n) r nm ws = _
  rcases hp with rfl | rfl
  · rw [getattr_mutable ho he]; rfl
  · rw [getattr_gettable ho he]; rfl

theorem equalLoop_true {E : Env} {n : Nat} {ws : World} {r r' : Nat} {o o' : Obj}
    (ho : ws.objs[r]? = some o) (ho' : ws.objs[r']? = some o') (hc : o'.cls = o.cls) :
    ∀ (l : List (PyStr × Entry)), (∀ kv ∈ l, lookupS kv.1 (E.classes o.cls).props = some kv.2 ∧
      ∃ p, OwnSpec kv.2 p ∧ ((valueAt o kv.1 = .none ∧ valueAt o' kv.1 = .none) ∨
        (valueAt o kv.1 ≠ .none ∧ valueAt o' kv.1 ≠ .none ∧
          run E (n + 1) (.propEqual p (valueAt o kv.1) (valueAt o' kv.1)) ws = (.ok (.bool true), ws)))) →
    equalLoop (run E (n + 1)) r r' l ws = (.ok (.bool true), ws)
  | [], _ => rfl
  | (nm, e) :: l, h => by
    obtain ⟨h1, p, h2, h3⟩ := h (nm, e) (by simp)
    have ih := equalLoop_true ho ho' hc l fun kv hkv => h kv (by simp [hkv])
    unfold equalLoop
    rw [bind_ok (getattr_own ho h1 h2), bind_ok (getattr_own ho' (by rw [hc]; exact h1) h2)]
    have h3 : (valueAt o nm = .none ∧ valueAt o' nm = .none) ∨
        (valueAt o nm ≠ .none ∧ valueAt o' nm ≠ .none ∧
          run E (n + 1) (.propEqual p (valueAt o nm) (valueAt o' nm)) ws = (.ok (.bool true), ws)) := h3
    rcases h3 with ⟨h4, h5⟩ | ⟨h4, h5, h6⟩
    · rw [h4, h5]
      exact ih
    · have hn : ∀ v : Val, v ≠ .none → v.isNone = false := fun v hv => by
        cases v <;> first | rfl | exact absurd rfl hv
      rw [hn _ h4, hn _ h5]
      simp only [Bool.and_self, Bool.or_self, Bool.false_eq_true, if_false]
      have : entryEqual (run E (n + 1)) e (valueAt o nm) (valueAt o' nm) ws = (.ok (.bool true), ws) := by
        rcases h2 with rfl | rfl <;> exact h6
      rw [bind_ok this]
      exact ih

/-- Comparing an instance with a copy of it. -/
theorem equals_object {E : Env} {w w3 : World} {r r' : Nat} {o o' : Obj} {N : Nat}
    (hown : AllOwn E) (hnames : ((E.classes o.cls).props.map (·.1)).Nodup)
    (ho : w.objs[r]? = some o) (ho3 : w3.objs[r]? = some o) (ho' : w3.objs[r']? = some o')
    (hc : o'.cls = o.cls) (hacc : ∀ t, RefersOn E w r t → ¬ Reaches E w t r)
    (h1 : ∀ nm e q, lookupS nm (E.classes o.cls).props = some e → OwnSpec e q →
        valueAt o nm = .none → valueAt o' nm = .none)
    (h2 : ∀ nm e q, lookupS nm (E.classes o.cls).props = some e → OwnSpec e q →
        valueAt o nm ≠ .none → valueAt o' nm ≠ .none ∧ Equals E w w3 nm N q (valueAt o nm) (valueAt o' nm)) :
    ∀ n, N + 2 ≤ n → ∀ ws, SameCore w3 ws → (∀ t, Reaches E w r t → ¬ Comparing ws t) →
      run E n (.equal (.obj r) (.obj r')) ws = (.ok (.bool true), ws) := by
  intro n hn ws hws hidle
  obtain ⟨m, rfl⟩ : ∃ m, n = m + 2 := ⟨n - 2, by omega⟩
  obtain ⟨oa, hoa, hca, hba⟩ := sameCore_of hws ho3
  have ht : oa.te = false := by
    cases h : oa.te with
    | false => rfl
    | true => exact absurd ⟨oa, hoa, h⟩ (hidle r (.refl r))
  show equalBody E (run E (m + 1)) (.obj r) (.obj r') ws = _
  unfold equalBody
  simp only []
  rw [bind_ok (getObj_some hoa)]
  simp only [ht, Bool.false_eq_true, if_false]
  have hback : (ws.setObj r (fun o => { o with te := true })).setObj r
      (fun o => { o with te := false }) = ws := by
    rw [setObj_setObj]
    exact setObj_id hoa (by cases oa; cases ht; rfl)
  have hw1 := sameCore_te hws r
  rw [bind_ok (modObj_apply _ _ _)]
  generalize hws1 : ws.setObj r (fun o => { o with te := true }) = ws1 at hback hw1
  have hoa1 : ws1.objs[r]? = some { oa with te := true } := by
    rw [← hws1]; unfold World.setObj; rw [List.getElem?_modify]; simp [hoa]
  obtain ⟨ob, hob, hcb, hbb⟩ := sameCore_of hw1 ho'
  by_cases hrr : r = r'
  · have : (pure (.bool true) : M Val) ws1 = (.ok (.bool true), ws1) := rfl
    rw [if_pos hrr]
    refine (fin_eq this).trans ?_
    rw [hback]
  rw [if_neg hrr]
  have key : (do
      let ob ← getObj r'
      if oa.cls = ob.cls then equalLoop (run E (m + 1)) r r' (E.classes oa.cls).props
        else pure (.bool false) : M Val) ws1 = (.ok (.bool true), ws1) := by
    rw [bind_ok (getObj_some hob), if_pos (by rw [hca, hcb, hc])]
    refine equalLoop_true hoa1 hob (by show ob.cls = oa.cls; rw [hca, hcb, hc]) _ fun kv hkv => ?_
    obtain ⟨nm, e⟩ := kv
    rw [hca] at hkv
    have hl : lookupS nm (E.classes o.cls).props = some e := mem_lookupS hnames hkv
    obtain ⟨q, hq⟩ := hown o.cls nm e hkv
    have hva : valueAt { oa with te := true } nm = valueAt o nm := by
      unfold valueAt
      show (lookupS nm oa.backend).getD .none = _
      rw [hba]
    have hvb : valueAt ob nm = valueAt o' nm := by unfold valueAt; rw [hbb]
    refine ⟨by show lookupS nm (E.classes oa.cls).props = _; rw [hca]; exact hl, q, hq, ?_⟩
    show (valueAt { oa with te := true } nm = .none ∧ valueAt ob nm = .none) ∨ (valueAt { oa with te := true } nm ≠ .none ∧ valueAt ob nm ≠ .none ∧
      run E (m + 1) (.propEqual q (valueAt { oa with te := true } nm) (valueAt ob nm)) ws1 = (.ok (.bool true), ws1))
    rw [hva, hvb]
    by_cases hv : valueAt o nm = .none
    · exact .inl ⟨hv, h1 nm e q hl hq hv⟩
    · obtain ⟨h3, h4⟩ := h2 nm e q hl hq hv
      refine .inr ⟨hv, h3, h4 (m + 1) (by omega) ws1 hw1 fun s t hs ht hm => ?_⟩
      have hmem : (nm, valueAt o nm) ∈ o.backend := by
        unfold valueAt at hv ⊢
        cases h : lookupS nm o.backend with
        | none => rw [h] at hv; exact absurd rfl hv
        | some v => exact lookupS_mem_props h
      have href : RefersOn E w r s := ⟨o, nm, _, e, q, ho, hmem, hl, hq, hs⟩
      rw [← hws1] at hm
      rcases comparing_setObj hm with hm | rfl
      · exact hidle t (.step _ _ _ href ht) hm
      · exact hacc s href ht
  refine (fin_eq key).trans ?_
  rw [hback]

/-- The values are instances that compare equal. -/
def EqualsRef (E : Env) (w w3 : World) (nm : PyStr) (N : Nat) (p : PropSpec) (v v' : Val) : Prop :=
  ∀ r, v = .obj r → ∀ n, N ≤ n → ∀ ws, SameCore w3 ws → Idle E w ws nm p v →
    run E n (.equal v v') ws = (.ok (.bool true), ws)

/-- `any` stops at an alternative that finds the values equal, when none before raises. -/
theorem unionEqual_after {rec : Rec} {a b : Val} {q : PropSpec} {post : List PropSpec} {w : World} :
    ∀ {pre : List PropSpec}, (∀ p ∈ pre, ∃ x, rec (.propEqual p a b) w = (.ok (.bool x), w)) →
    rec (.propEqual q a b) w = (.ok (.bool true), w) →
    unionEqual rec a b (pre ++ q :: post) w = (.ok (.bool true), w)
  | [], _, h => by
    show unionEqual rec a b (q :: post) w = _
    unfold unionEqual
    rw [bind_ok h]
    rfl
  | p :: pre, hp, h => by
    obtain ⟨x, hx⟩ := hp p (by simp)
    show unionEqual rec a b (p :: (pre ++ q :: post)) w = _
    unfold unionEqual
    rw [bind_ok hx]
    cases x with
    | true => rfl
    | false => exact unionEqual_after (fun p' hp' => hp p' (by simp [hp'])) h

theorem zipEqual_calm {E : Env} {n : Nat} {p : PropSpec} (hs : ScalarTy p.ty)
    (h : ∀ x y, ∃ b, scalarEqual E p.ty x y = some (.ok b)) {w : World} : ∀ xs ys : List Val,
    ∃ b, zipEqual (run E (n + 1)) p xs ys w = (.ok b, w)
  | [], _ => ⟨_, rfl⟩
  | _ :: _, [] => ⟨_, rfl⟩
  | x :: xs, y :: ys => by
    obtain ⟨b, hb⟩ := h x y
    obtain ⟨c, hc⟩ := zipEqual_calm (n := n) hs h xs ys (w := w)
    have h1 : run E (n + 1) (.propEqual p x y) w = (.ok (.bool b), w) := propEqualBody_scalar hs hb w
    unfold zipEqual
    rw [bind_ok h1, bind_ok hc]
    exact ⟨_, rfl⟩

theorem catchIf_err' {α : Type} {c : ErrKind → Bool} {m : M α} {f : PyErr → M α} {w w' : World} {e : PyErr}
    (h : m w = (.error e, w')) (hc : c e.kind = true) : M.catchIf c m f w = f e w' := by
  unfold M.catchIf
  simp only [h, hc, if_true]

/-- An alternative that refuses the value answers, when asked for equality. -/
theorem calm_equal {E : Env} {p : PropSpec} {v v' : Val} {k : Nat} {ws : World} (hal : Alike v v')
    (hc : CalmEqual E p.ty v)
    (hobj : ∀ r, v = .obj r → run E (k + 1) (.equal v v') ws = (.ok (.bool true), ws)) :
    ∃ x, run E (k + 2) (.propEqual p v v') ws = (.ok (.bool x), ws) := by
  obtain ⟨rq, se, de, df, ty⟩ := p
  simp only [PropSpec.ty] at hc
  show ∃ x, propEqualBody E (run E (k + 1)) (.mk rq se de df ty) v v' ws = _
  by_cases hs : ScalarTy ty
  · obtain ⟨b, hb⟩ := (calmEqual_scalar hs).1 hc v' hal
    exact ⟨b, propEqualBody_scalar (p := .mk rq se de df ty) hs hb ws⟩
  cases ty with
  | union ps st => exact hc.elim
  | inst c =>
    show ∃ x, run E (k + 1) (.equal v v') ws = _
    cases v with
    | obj r => exact ⟨true, hobj r rfl⟩
    | _ => exact ⟨_, rfl⟩
  | dict kp vp co =>
    obtain ⟨h1, h2, h3⟩ := hc
    have h4 : (∀ xs, v' ≠ .list xs) ∧ (∀ xs, v' ≠ .set xs) ∧ ∀ xs, v' ≠ .dict xs := by
      cases v <;> first
        | exact absurd rfl (h1 _)
        | exact absurd rfl (h2 _)
        | exact absurd rfl (h3 _)
        | (cases hal; exact ⟨h1, h2, h3⟩)
        | (cases v' <;> first | (cases hal; done) | exact ⟨fun _ h => (nomatch h), fun _ h => (nomatch h), fun _ h => nomatch h⟩)
    show ∃ x, dictEqual (run E (k + 1)) vp v v' ws = _
    unfold dictEqual
    generalize v.iter? = a
    match a with
    | none => exact ⟨false, catchIf_err' (e := ⟨.type, []⟩) rfl rfl⟩
    | some xs =>
      generalize hb : v'.iter? = b
      match b with
      | none => exact ⟨false, catchIf_err' (e := ⟨.type, []⟩) rfl rfl⟩
      | some ys =>
        by_cases hl : xs.length ≠ ys.length
        · refine ⟨false, catchIf_ok' ?_⟩
          simp only [hl, ne_eq, not_false_eq_true, if_true]
          rfl
        · refine ⟨false, catchIf_err' (e := ⟨.attr, []⟩) ?_ rfl⟩
          simp only [hl, if_false]
          cases v' <;> first
            | rfl
            | exact absurd rfl (h4.1 _)
            | exact absurd rfl (h4.2.1 _)
            | exact absurd rfl (h4.2.2 _)
  | seq kind it lo hi co =>
    have hset : kind = .set → ∃ x, setEqual (run E (k + 1)) it v v' ws = (.ok (.bool x), ws) := by
      intro hk
      rcases hc with h | h
      · unfold setEqual
        rw [h]
        exact ⟨false, catchIf_err' (e := ⟨.type, []⟩) rfl rfl⟩
      · exact absurd hk h.1
    have htup : ∃ x, tupEqual (run E (k + 1)) it v v' ws = (.ok (.bool x), ws) := by
      unfold tupEqual
      rcases hc with h | ⟨_, h1, h2⟩
      · rw [h]
        exact ⟨false, catchIf_err' (e := ⟨.type, []⟩) rfl rfl⟩
      · generalize v.iter? = a
        generalize v'.iter? = b
        match a, b with
        | none, _ => exact ⟨false, catchIf_err' (e := ⟨.type, []⟩) rfl rfl⟩
        | some _, none => exact ⟨false, catchIf_err' (e := ⟨.type, []⟩) rfl rfl⟩
        | some xs, some ys =>
          by_cases hl : xs.length = ys.length
          · obtain ⟨b, hb⟩ := zipEqual_calm (n := k) h1 h2 xs ys (w := ws)
            refine ⟨b, catchIf_ok' ?_⟩
            simp only [hl, if_true]
            rw [bind_ok hb]
            rfl
          · refine ⟨false, catchIf_ok' ?_⟩
            simp only [hl, if_false]
            rfl
    cases kind with
    | set => exact hset rfl
    | tup => exact htup
    | list => exact htup
  | _ => exact absurd trivial hs

/-- A canonical tree compares equal to its copies. -/
theorem canon_equals {E : Env} {ic tr : Bool} {w : World} (hown : AllOwn E) {p : PropSpec}
    {v : Val} (h : Canon E (SelfEqual E) ic tr w p v) : ∃ N, ∀ nm w3 L v', OnlyNew w w3 →
    CopyOf E w w3 L p v v' → Equals E w w3 nm N p v v' ∧ EqualsRef E w w3 nm N p v v' := by
  induction h with
  | scalar p v hc hs hcs hS =>
    refine ⟨1, fun nm w3 L v' _ hv => ⟨fun n hn ws _ _ => ?_, fun r h => absurd h (hcs.plain r)⟩⟩
    obtain ⟨m, rfl⟩ : ∃ m, n = m + 1 := ⟨n - 1, by omega⟩
    rw [copyOf_scalar hv hs]
    exact propEqualBody_scalar hs ((selfEqual_scalar hs).1 hS).1 ws
  | custom p v j hs _ hcs _ _ _ hS =>
    refine ⟨1, fun nm w3 L v' _ hv => ⟨fun n hn ws _ _ => ?_, fun r h => absurd h (hcs.plain r)⟩⟩
    obtain ⟨m, rfl⟩ : ∃ m, n = m + 1 := ⟨n - 1, by omega⟩
    rw [copyOf_scalar hv hs]
    exact propEqualBody_scalar hs ((selfEqual_scalar hs).1 hS).1 ws
  | seq p k it lo hi co xs hc hty hset _ ih =>
    obtain ⟨N, hN⟩ := bound_list (P := fun x N => ∀ nm w3 L v', OnlyNew w w3 → CopyOf E w w3 L it x v' →
        Equals E w w3 nm N it x v')
      (fun x n m hnm hx nm w3 L v' h1 hv => equals_mono (hx nm w3 L v' h1 hv) hnm) xs
      fun x hx => (ih x hx).imp fun N h nm w3 L v' h1 hv => (h nm w3 L v' h1 hv).1
    refine ⟨N + 1, fun nm w3 L v' hon hv => ⟨fun n hn ws hws hid => ?_, fun r h => nomatch k, h⟩⟩
    obtain ⟨m, rfl⟩ : ∃ m, n = m + 1 := ⟨n - 1, by omega⟩
    have hb := copyOf_inv hv
    rw [hty] at hb
    obtain ⟨ys, rfl, hl, hcp⟩ := hb xs rfl
    have hitem : ∀ (i : Nat) x y, xs[i]? = some x → ys[i]? = some y →
        run E m (.propEqual it x y) ws = (.ok (.bool true), ws) := fun i x y hx hy =>
      hN x (List.mem_of_getElem? hx) nm w3 L y hon (hcp i x y hx hy) m (by omega) ws hws
        fun s t hs ht => hid s t (.item nm p it k lo hi co _ x xs s hc.1 hty (iter_ofKind k xs)
          (List.mem_of_getElem? hx) hs) ht
    show propEqualBody E (run E m) p _ _ ws = _
    unfold propEqualBody
    have htup : tupEqual (run E m) it (ofKind k xs) (ofKind k ys) ws = (.ok (.bool true), ws) := by
      unfold tupEqual
      refine catchIf_ok' ?_
      simp only [iter_ofKind, hl, if_true]
      rw [bind_ok (zipEqual_true hl hitem)]
      rfl
    cases k with
    | tup => simp only [hty]; exact htup
    | list => simp only [hty]; exact htup
    | set =>
      obtain ⟨h1, _, _⟩ := hset rfl
      have : ys = xs := eq_of_getElem? hl fun i x y hx hy => copyOf_scalar (hcp i x y hx hy) h1
      subst this
      simp only [hty]
      refine setEqual_true fun x hx => ?_
      obtain ⟨i, hi, rfl⟩ := List.getElem_of_mem hx
      exact hitem i _ _ (List.getElem?_eq_getElem hi) (List.getElem?_eq_getElem hi)
  | dict p kp vp co kvs hc hty hsk hh hd hj1 hj2 hck _ ihk ihv =>
    obtain ⟨N, hN⟩ := bound_list (P := fun (x : Val × Val) N => ∀ nm w3 L v', OnlyNew w w3 →
        CopyOf E w w3 L vp x.2 v' → Equals E w w3 nm N vp x.2 v')
      (fun x n m hnm hx nm w3 L v' h1 hv => equals_mono (hx nm w3 L v' h1 hv) hnm) kvs
      fun x hx => (ihv x hx).imp fun N h nm w3 L v' h1 hv => (h nm w3 L v' h1 hv).1
    refine ⟨N + 1, fun nm w3 L v' hon hv => ⟨fun n hn ws hws hid => ?_, fun r h => nomatch h⟩⟩
    obtain ⟨m, rfl⟩ : ∃ m, n = m + 1 := ⟨n - 1, by omega⟩
    have hb := copyOf_inv hv
    rw [hty] at hb
    obtain ⟨lvs, rfl, hk, hcp⟩ := hb kvs rfl
    show propEqualBody E (run E m) p _ _ ws = _
    unfold propEqualBody
    simp only [hty]
    refine dictEqual_true hk hd hh (fun kv hkv => ((selfEqual_scalar hsk).1 (canon_scalar_inv (hck kv hkv) hsk).2.1).2) fun i x y hx hy => ?_
    have hm := List.mem_of_getElem? hx
    exact hN x hm nm w3 L y.2 hon (hcp i x y hx hy) m (by omega) ws hws
      fun s t hs ht => hid s t (.value nm p kp vp co kvs x s hc.1 hty hm hs) ht
  | inst p c r o hc hty ho hsub hrec hreb hnd hownc hcan ih =>
    obtain ⟨N, hN⟩ := bound_list (P := fun (nv : PyStr × Val) N => nv.2 ≠ .none → ∀ e q,
        lookupS nv.1 (E.classes o.cls).props = some e → OwnSpec e q → ∀ nm w3 L v', OnlyNew w w3 →
        CopyOf E w w3 L q nv.2 v' → Equals E w w3 nm N q nv.2 v')
      (fun x n m hnm hx h1 e q h2 h3 nm w3 L v' h4 hv => equals_mono (hx h1 e q h2 h3 nm w3 L v' h4 hv) hnm)
      o.backend fun nv hnv => by
        by_cases hv : nv.2 = .none
        · exact ⟨0, fun h => absurd hv h⟩
        · obtain ⟨e, q, h1, h2, _⟩ := hownc nv.1 nv.2 hnv
          obtain ⟨N, hN⟩ := ih nv.1 nv.2 e q hnv h1 h2 hv
          refine ⟨N, fun _ e' q' h3 h4 => ?_⟩
          rw [h1] at h3
          cases h3
          cases ownSpec_det h2 h4
          exact fun nm w3 L v' h1 hv => (hN nm w3 L v' h1 hv).1
    have hacc := fun nm => acc_no_cycle (canon_acc (Canon.inst p c r o hc hty ho hsub hrec hreb hnd hownc hcan) nm r
        (.inst nm p c r hc.1 hty))
    refine ⟨N + 3, fun nm w3 L v' hon hv => ?_⟩
    have hb := copyOf_inv hv
    rw [hty] at hb
    obtain ⟨r', o1, o', rfl, g1, g2, g3, g4, g5, g6⟩ := hb r rfl
    rw [ho] at g1
    cases g1
    suffices key : ∀ n, N + 2 ≤ n → ∀ ws, SameCore w3 ws → Idle E w ws nm p (.obj r) →
        run E n (.equal (.obj r) (.obj r')) ws = (.ok (.bool true), ws) by
      refine ⟨fun n hn ws hws hid => ?_, fun _ _ n hn ws hws hid => key n (by omega) ws hws hid⟩
      obtain ⟨m, rfl⟩ : ∃ m, n = m + 1 := ⟨n - 1, by omega⟩
      show propEqualBody E (run E m) p (.obj r) (.obj r') ws = _
      unfold propEqualBody
      simp only [hty]
      exact key m (by omega) ws hws hid
    intro n hn ws hws hid
    refine equals_object (N := N) hown hreb.names ho (hon.old _ _ ho) g2 g4 (hacc []) g5 (fun nm' e q h1 h2 h3 => ?_) n
      hn ws hws fun t ht => hid r t (.inst nm p c r hc.1 hty) ht
    have hmem : (nm', valueAt o nm') ∈ o.backend := by
      unfold valueAt at h3 ⊢
      cases h : lookupS nm' o.backend with
      | none => rw [h] at h3; exact absurd rfl h3
      | some v => exact lookupS_mem_props h
    have hcopy := g6 nm' e q h1 h2 h3
    refine ⟨fun h4 => h3 ?_, hN _ hmem h3 e q h1 h2 nm' w3 L _ hon hcopy⟩
    obtain ⟨M, hM⟩ := canon_usable (hcan nm' _ e q hmem h1 h2 h3)
    exact (hM w3 L _ hcopy).some h4
  | union p q pp post v hc hv0 hty href hread hS hcan ih =>
    obtain ⟨N, hN⟩ := ih
    have hpick := canon_picks hcan href (post := post)
    refine ⟨N + 3, fun nm w3 L v' hon hv => ?_⟩
    have hb := copyOf_inv hv
    rw [hty] at hb
    obtain ⟨q', hp', hcq⟩ := hb
    cases picks_unique (hpick []) (hp' [])
    obtain ⟨h1, h2⟩ := hN nm w3 L v' hon hcq
    have hidq : ∀ ws, Idle E w ws nm p v → Idle E w ws nm q v := fun ws hid s t hs ht =>
      hid s t (.union nm p _ _ v q s hc.1 hty (hpick nm) hs) ht
    refine ⟨fun n hn ws hws hid => ?_, fun r hr n hn ws hws hid => h2 r hr n (by omega) ws hws (hidq ws hid)⟩
    obtain ⟨m, rfl⟩ : ∃ m, n = m + 1 := ⟨n - 1, by omega⟩
    obtain ⟨k, rfl⟩ : ∃ k, m = k + 2 := ⟨m - 2, by omega⟩
    show propEqualBody E (run E (k + 2)) p v v' ws = _
    unfold propEqualBody
    simp only [hty]
    refine unionEqual_after (fun p1 hp1 => ?_) (h1 (k + 2) (by omega) ws hws (hidq ws hid))
    exact calm_equal (copy_alike hcq) (hS p1 hp1) fun r hr => h2 r hr (k + 1) (by omega) ws hws (hidq ws hid)

end Verif
