import Verif.Lemmas.ReadBack
import Verif.Lemmas.Serialize
import Verif.Lemmas.Tree
import Verif.Props.C26

/-!
# Deserializing the serialized form of a canonical tree: instances
-/

namespace Verif
open Spec

/-- Reading `j` gives a copy of `v`; if scalars hold no instances, each instance of the copy is
held in one place. -/
def Reads (E : Env) (S : PropTy → Val → Prop) (w : World) (tr : Bool) (N : Nat) (p : PropSpec) (v : Val) (nm : PyStr) (j : Val) : Prop :=
  ∀ kw : DeKw, kw.trusted = tr → kw.assertValid = false → ∀ n, N ≤ n → ∀ w2 L, L ≤ w2.objs.length →
    ∃ v' w3, run E n (.deserializeP nm p j kw) w2 = (.ok v', w3) ∧ OnlyNew w2 w3 ∧
      CopyOf E w w3 L p v v' ∧
      ((∀ ty x, S ty x → RefFree x) → Built w3 w2.objs.length w3.objs.length [v'])

theorem reads_mono {E : Env} {S : PropTy → Val → Prop} {w : World} {tr : Bool} {N M : Nat} {p : PropSpec} {v : Val} {nm : PyStr}
    {j : Val} (h : Reads E S w tr N p v nm j) (hm : N ≤ M) : Reads E S w tr M p v nm j :=
  fun kw h1 h2 n hn => h kw h1 h2 n (Nat.le_trans hm hn)

/-! ## The data of an instance -/

/-- The written properties, and the name of the class. -/
def written (ic : Bool) (name : PyStr) (st : List (PyStr × Val)) : List (Val × Val) :=
  st.map (fun kv => (Val.str kv.1, kv.2)) ++ (if ic then [(Val.str (s% "__class__"), .str name)] else [])

theorem complete_written {ic : Bool} {name : PyStr} {data : List (Val × Val)} {st : List (PyStr × Val)}
    (h : data.filter (fun kv => !kv.2.isNone) = st.map (fun kv => (Val.str kv.1, kv.2)))
    (hc : ∀ kv ∈ st, kv.1 ≠ s% "__class__") : complete ic name data = written ic name st := by
  unfold complete written
  rw [h]
  cases ic with
  | false => simp
  | true =>
    simp only [if_true]
    refine dictSet_new fun kv hkv => ?_
    obtain ⟨x, hx, rfl⟩ := List.mem_map.1 hkv
    refine Bool.eq_false_iff.2 fun hp => hc x hx ?_
    exact Val.str.inj (pyEq_str_right.1 hp)

theorem propState_written {props : List (PyStr × Entry)} (ic : Bool) (name : PyStr)
    (hcls : lookupS (s% "__class__") props = none) : ∀ (st : List (PyStr × Val)),
    (∀ kv ∈ st, ∃ e, lookupS kv.1 props = some e) → propState props (written ic name st) = st
  | [], _ => by
    cases ic with
    | false => rfl
    | true =>
      show propState props [(Val.str (s% "__class__"), .str name)] = []
      unfold propState
      rw [hcls]
      rfl
  | (k, v) :: st, h => by
    obtain ⟨e, he⟩ := h (k, v) (by simp)
    have he : lookupS k props = some e := he
    show propState props ((Val.str k, v) :: written ic name st) = _
    unfold propState
    rw [he, propState_written ic name hcls st fun kv hkv => h kv (by simp [hkv])]
    rfl

theorem unused_written {props : List (PyStr × Entry)} (ic : Bool) (name : PyStr)
    (st : List (PyStr × Val)) (h : ∀ kv ∈ st, ∃ e, lookupS kv.1 props = some e) :
    (unusedKeys props (written ic name st)).filter (fun k => !(pyEq k (.str (s% "__class__")))) = [] := by
  rw [List.filter_eq_nil_iff]
  intro k hk
  unfold unusedKeys at hk
  obtain ⟨kv, hkv, rfl⟩ := List.mem_map.1 hk
  obtain ⟨h1, h2⟩ := List.mem_filter.1 hkv
  unfold written at h1
  rcases List.mem_append.1 h1 with h1 | h1
  · obtain ⟨x, hx, rfl⟩ := List.mem_map.1 h1
    obtain ⟨e, he⟩ := h x hx
    simp [he] at h2
  · cases ic with
    | false => simp at h1
    | true =>
      simp only [if_true, List.mem_singleton] at h1
      subst h1
      have : pyEq (.str (s% "__class__")) (.str (s% "__class__")) = true := pyEq_str_right.2 rfl
      simp [this]

theorem class_written (ic : Bool) (name : PyStr) (st : List (PyStr × Val))
    (hc : ∀ kv ∈ st, kv.1 ≠ s% "__class__") :
    (dictGet? (written ic name st) (.str (s% "__class__"))).getD .none =
      if ic then .str name else .none := by
  unfold written
  rw [dictGet_skip fun kv hkv e => by
    obtain ⟨x, hx, rfl⟩ := List.mem_map.1 hkv
    exact hc x hx (Val.str.inj e)]
  cases ic with
  | false => rfl
  | true =>
    simp only [if_true]
    rw [dictGet_cons, if_pos (pyEq_str_right.2 rfl)]
    rfl

theorem class_recovered {E : Env} {ic : Bool} {c d : ClsId} {tr st : Bool} (h : Recovered E ic tr c d)
    (w : World) : deserializeClass E c (if ic then .str (E.classes d).name else .none) tr st w = (.ok d, w) := by
  unfold deserializeClass
  rcases h with rfl | ⟨rfl, rfl, h1, h2, h3⟩
  · cases ic with
    | false => rfl
    | true =>
      have : pyEq (.str (E.classes d).name) (.str (E.classes d).name) = true := pyEq_str_right.2 rfl
      simp only [if_true, this, Bool.or_true]
      rfl
  · have h4 : pyEq (.str (E.classes d).name) (.str (E.classes c).name) = false := by
      refine Bool.eq_false_iff.2 fun hp => h2 ?_
      exact Val.str.inj (pyEq_str_right.1 hp)
    have h5 : (Val.str (E.classes d).name).truthy = true := by
      unfold Val.truthy
      cases hn : (E.classes d).name with
      | nil => exact absurd hn h1
      | cons => rfl
    simp only [if_true, h4, h5, h3]
    rfl

/-! ## Values stored after construction -/

theorem setImmutables_run {E : Env} {rec : Rec} {w : World} : ∀ (kw : List (PyStr × Val)) (o : Obj) (t : Nat),
    (∀ kv ∈ kw, ∃ e p, lookupS kv.1 (E.classes o.cls).props = some e ∧ OwnSpec e p ∧
      ∀ o', o'.cls = o.cls → rec (.validate kv.1 p (some w.objs.length) kv.2) (atTop w o' t) =
        (.ok kv.2, atTop w o' t)) →
    forML (setImmutable E rec o.cls w.objs.length) kw (atTop w o t) =
      (.ok (), atTop w { o with backend := assigned o.backend kw } t)
  | [], o, t, _ => rfl
  | (nm, x) :: kw, o, t, h => by
    obtain ⟨e, p, he, ho, hv⟩ := h (nm, x) (by simp)
    have he : lookupS nm (E.classes o.cls).props = some e := he
    have h1 : setImmutable E rec o.cls w.objs.length (nm, x) (atTop w o t) =
        (.ok (), atTop w { o with backend := setS nm x o.backend } t) := by
      unfold setImmutable
      simp only [he]
      have : entryValidate rec nm e (some w.objs.length) x (atTop w o t) = (.ok x, atTop w o t) := by
        rcases ho with rfl | rfl
        · exact hv o rfl
        · exact hv o rfl
      rw [bind_ok this]
      exact modObj_top ..
    unfold forML
    rw [bind_ok h1]
    exact setImmutables_run kw { o with backend := setS nm x o.backend } t fun kv hkv => h kv (by simp [hkv])

theorem forall₂_keys {α : Type} {R : PyStr × α → PyStr × Val → Prop} {xs : List (PyStr × α)}
    {ys : List (PyStr × Val)} (h : List.Forall₂ R xs ys) (hk : ∀ x y, R x y → y.1 = x.1) :
    ys.map (·.1) = xs.map (·.1) := by
  induction h with
  | nil => rfl
  | cons h _ ih => rw [List.map_cons, List.map_cons, ih, hk _ _ h]

theorem lookupS_append_filter {kw : List (PyStr × Val)} {f : PyStr × Val → Bool}
    (hnd : (kw.map (·.1)).Nodup) {nm : PyStr} {b : List (PyStr × Val)} :
    lookupS nm (assigned (assigned b (kw.filter f)) (kw.filter fun kv => !f kv)) =
      (lookupS nm kw).or (lookupS nm b) := by
  have h1 : ((kw.filter f).map (·.1)).Nodup := hnd.sublist (List.filter_sublist.map _)
  have h2 : ((kw.filter fun kv => !f kv).map (·.1)).Nodup := hnd.sublist (List.filter_sublist.map _)
  rw [lookup_assigned _ _ _ h2, lookup_assigned _ _ _ h1]
  cases hx : lookupS nm kw with
  | none =>
    have hno : ∀ g : PyStr × Val → Bool, lookupS nm (kw.filter g) = none := by
      intro g
      cases hg : lookupS nm (kw.filter g) with
      | none => rfl
      | some y =>
        have := lookupS_mem_props hg
        rw [mem_lookupS hnd (List.mem_filter.1 this).1] at hx
        cases hx
    rw [hno, hno]
    rfl
  | some x =>
    have hm := lookupS_mem_props hx
    have hsub : ∀ g : PyStr × Val → Bool, ∀ y, lookupS nm (kw.filter g) = some y → y = x := by
      intro g y hg
      have := mem_lookupS hnd (List.mem_filter.1 (lookupS_mem_props hg)).1
      rw [hx] at this
      cases this
      rfl
    by_cases hf : f (nm, x) = true
    · have h3 : lookupS nm (kw.filter f) = some x := mem_lookupS h1 (List.mem_filter.2 ⟨hm, hf⟩)
      rw [h3]
      cases h4 : lookupS nm (kw.filter fun kv => !f kv) with
      | none => rfl
      | some y => rw [hsub _ y h4]; rfl
    · have h3 : lookupS nm (kw.filter fun kv => !f kv) = some x :=
        mem_lookupS h2 (List.mem_filter.2 ⟨hm, by simpa using hf⟩)
      rw [h3]
      rfl

theorem atTop_quar (w : World) (q : Quar) (o : Obj) (t : Nat) :
    ({ atTop { w with quar := q } o t with quar := w.quar } : World) = atTop w o t := rfl

theorem quar_union_all (q : Quar) : q.union Quar.all = Quar.all := by
  unfold Quar.union Quar.all
  simp

/-- Reading the data of an instance. -/
theorem reads_object {E : Env} {S : PropTy → Val → Prop} {ic tr : Bool} {w : World} {c : ClsId}
    {r : Nat} {o : Obj} (ho : w.objs[r]? = some o) (hrec : Recovered E ic tr c o.cls)
    (hreb : Rebuildable E o) (hnd : (o.backend.map (·.1)).Nodup)
    (hown : ∀ nm v, (nm, v) ∈ o.backend → ∃ e q, lookupS nm (E.classes o.cls).props = some e ∧
      OwnSpec e q ∧ (v = .none → SkipsNone E ic q))
    (hcan : ∀ nm v e q, (nm, v) ∈ o.backend → lookupS nm (E.classes o.cls).props = some e →
      OwnSpec e q → v ≠ .none → Canon E S ic tr w q v)
    (hih : ∀ nm v e q, (nm, v) ∈ o.backend → lookupS nm (E.classes o.cls).props = some e →
      OwnSpec e q → v ≠ .none → ∀ nm' j, SerP E w ic nm' q v j → ∃ N, Reads E S w tr N q v nm' j)
    {j : Val} (hj : SerO E w ic r j) :
    ∃ N, ∀ kw : DeKw, kw.trusted = tr → kw.assertValid = false → ∀ n, N ≤ n → ∀ w2 L,
      L ≤ w2.objs.length → ∃ r' o' w3, run E n (.hpDeserialize c j kw) w2 = (.ok (.obj r'), w3) ∧
        OnlyNew w2 w3 ∧ w3.objs[r']? = some o' ∧ L ≤ r' ∧ o'.cls = o.cls ∧
      (∀ nm e q, lookupS nm (E.classes o.cls).props = some e → OwnSpec e q →
        valueAt o nm = .none → valueAt o' nm = .none) ∧
      (∀ nm e q, lookupS nm (E.classes o.cls).props = some e → OwnSpec e q →
        valueAt o nm ≠ .none → CopyOf E w w3 L q (valueAt o nm) (valueAt o' nm)) ∧
      ((∀ ty x, S ty x → RefFree x) → Built w3 w2.objs.length w3.objs.length [.obj r']) := by
  cases hj with
  | mk _ o1 data ho1 hf =>
  rw [ho] at ho1
  cases ho1
  obtain ⟨st, hst, hsub, hall, hcov⟩ := serF_state hf
  have hprop : ∀ kv ∈ st, ∃ e, lookupS kv.1 (E.classes o.cls).props = some e := fun kv hkv => by
    obtain ⟨_, v, e, p, _, h, _⟩ := hall kv hkv
    exact ⟨e, h⟩
  have hcls : ∀ kv ∈ st, kv.1 ≠ s% "__class__" := fun kv hkv => by
    obtain ⟨e, he⟩ := hprop kv hkv
    exact (hreb.reserved kv.1 e (lookupS_mem_props he)).1
  have hclsn : lookupS (s% "__class__") (E.classes o.cls).props = none := by
    cases h : lookupS (s% "__class__") (E.classes o.cls).props with
    | none => rfl
    | some e => exact absurd rfl (hreb.reserved _ e (lookupS_mem_props h)).1
  rw [complete_written hst hcls]
  have hstnd : (st.map (·.1)).Nodup := hnd.sublist hsub
  -- each written entry can be read and used
  have hvn : ∀ kv ∈ st, ∀ v, (kv.1, v) ∈ o.backend → v ≠ .none := by
    intro kv hkv v hv hvn
    obtain ⟨h1, v', e, p, h2, hl, ho2, h3⟩ := hall kv hkv
    have h4 := mem_lookupS hnd hv
    rw [mem_lookupS hnd h2] at h4
    cases h4
    subst hvn
    obtain ⟨e', q, hl', ho', hsk⟩ := hown kv.1 .none hv
    rw [hl] at hl'
    cases hl'
    have hpq : p = q := by
      rcases ho2 with rfl | rfl <;> rcases ho' with h | h <;> cases h <;> rfl
    subst hpq
    exact h1 (serP_none h3 (hsk rfl))
  obtain ⟨N, hN⟩ := bound_list (P := fun (kv : PyStr × Val) N => ∃ v e p, (kv.1, v) ∈ o.backend ∧
      lookupS kv.1 (E.classes o.cls).props = some e ∧ OwnSpec e p ∧ Reads E S w tr N p v kv.1 kv.2 ∧
      ∀ w3 L v', CopyOf E w w3 L p v v' → Usable E p N w3 v v')
    (fun kv n m hnm ⟨v, e, p, h1, h2, h3, h4, h5⟩ => ⟨v, e, p, h1, h2, h3, reads_mono h4 hnm,
      fun w3 L v' hv => usable_mono (h5 w3 L v' hv) hnm⟩) st fun kv hkv => by
    obtain ⟨_, v, e, p, h2, h3, h4, h5⟩ := hall kv hkv
    have hv := hvn kv hkv v h2
    obtain ⟨N1, hN1⟩ := hih kv.1 v e p h2 h3 h4 hv kv.1 kv.2 h5
    obtain ⟨N2, hN2⟩ := canon_usable (hcan kv.1 v e p h2 h3 h4 hv)
    exact ⟨max N1 N2, v, e, p, h2, h3, h4, reads_mono hN1 (Nat.le_max_left ..),
      fun w3 L v' hv => usable_mono (hN2 w3 L v' hv) (Nat.le_max_right ..)⟩
  refine ⟨N + 6, fun kw hkt hka n hn w2 L hL => ?_⟩
  obtain ⟨k, rfl⟩ : ∃ k, n = k + 6 := ⟨n - 6, by omega⟩
  -- the values
  obtain ⟨new, w3, hnew, hon, hcp⟩ := mapML_copies (w0 := w2)
    (f := deserEntry E (run E (k + 5)) o.cls { kw with assertValid := false })
    (Q := fun w3 kv y => y.1 = kv.1 ∧ ∃ v e p, (kv.1, v) ∈ o.backend ∧
      lookupS kv.1 (E.classes o.cls).props = some e ∧ OwnSpec e p ∧ CopyOf E w w3 L p v y.2 ∧
      ∀ w3 L v', CopyOf E w w3 L p v v' → Usable E p N w3 v v')
    (fun w1 w2 x y h ⟨h1, v, e, p, h2, h3, h4, h5, h6⟩ => ⟨h1, v, e, p, h2, h3, h4, copyOf_later h5 h, h6⟩)
    st (fun kv hkv w4 hw4 => by
      obtain ⟨v, e, p, h2, h3, h4, h5, h6⟩ := hN kv hkv
      obtain ⟨v', w5, h7, h8, h9, _⟩ := h5 { kw with assertValid := false } hkt rfl (k + 5) (by omega) w4 L
        (Nat.le_trans hL hw4.length)
      refine ⟨(kv.1, v'), w5, ?_, h8, rfl, v, e, p, h2, h3, h4, h9, h6⟩
      unfold deserEntry
      simp only [h3]
      have : entryDeserialize E (run E (k + 5)) kv.1 e kv.2 { kw with assertValid := false } w4 =
          (.ok v', w5) := by
        rcases h4 with rfl | rfl <;> exact h7
      rw [bind_ok this]
      rfl) w2 (.refl _)
  have hbuilt : (∀ ty x, S ty x → RefFree x) → Built w3 w2.objs.length w3.objs.length (new.map (·.2)) := fun hS =>
    (mapML_built (w0 := w2) (g := fun y : PyStr × Val => y.2) st (fun kv hkv w4 hw4 => by
      obtain ⟨v, e, p, h2, h3, h4, h5, h6⟩ := hN kv hkv
      obtain ⟨v', w5, h7, h8, _, h9⟩ := h5 { kw with assertValid := false } hkt rfl (k + 5) (by omega) w4 L
        (Nat.le_trans hL hw4.length)
      refine ⟨(kv.1, v'), w5, ?_, h8, h9 hS⟩
      unfold deserEntry
      simp only [h3]
      have : entryDeserialize E (run E (k + 5)) kv.1 e kv.2 { kw with assertValid := false } w4 =
          (.ok v', w5) := by
        rcases h4 with rfl | rfl <;> exact h7
      rw [bind_ok this]
      rfl) w2 (.refl _) new w3 hnew).2
  rw [hkt] at hnew
  have hkeys := forall₂_keys hcp fun x y h => h.1
  have hnewnd : (new.map (·.1)).Nodup := by rw [hkeys]; exact hstnd
  have hmem : ∀ y ∈ new, ∃ v e p, (y.1, v) ∈ o.backend ∧
      lookupS y.1 (E.classes o.cls).props = some e ∧ OwnSpec e p ∧ CopyOf E w w3 L p v y.2 ∧
      Usable E p N w3 v y.2 := by
    intro y hy
    obtain ⟨kv, hkv, h1, v, e, p, h2, h3, h4, h5, h6⟩ := forall₂_right hcp hy
    rw [← h1] at h2 h3
    exact ⟨v, e, p, h2, h3, h4, h5, h6 _ _ _ h5⟩
  -- the constructor
  have hset : ∀ kv : PyStr × Val, isSettable E o.cls kv = true → ∀ e p,
      lookupS kv.1 (E.classes o.cls).props = some e → OwnSpec e p → e = .mutable p := by
    intro kv h e p he hop
    unfold isSettable at h
    rw [he] at h
    rcases hop with rfl | rfl
    · rfl
    · cases h
  obtain ⟨oo, b, t, hoc, hinit, hob, _, _, _, hrun⟩ := construct_runs (n := k) (c := o.cls)
    (w := { w3 with quar := Quar.all }) rfl hreb.names (fun nm e he => by
      rcases hreb.defaults nm e he with h | ⟨_, h⟩
      · exact .inl h
      · exact .inr h) (fun nm e he => (hreb.reserved nm e he).2)
    (kw := new.filter (isSettable E o.cls)) (hnewnd.sublist (List.filter_sublist.map _))
    (fun kv hkv => by
      obtain ⟨h1, h2⟩ := List.mem_filter.1 hkv
      obtain ⟨v, e, p, h3, h4, h5, h6, h7⟩ := hmem kv h1
      have he := hset kv h2 e p h4 h5
      subst he
      exact ⟨⟨h7.defined, _, p, h4, h5, h7.shape, fun inst w' hw' hs =>
        h7.valid (k + 3) (by omega) kv.1 inst w' (fun r' c' hr => hw' r' c' hr) (.inl hs)⟩, p, h4⟩)
  have hdis : withDisabled Quar.all (run E (k + 5) (.construct o.cls (new.filter (isSettable E o.cls)))) w3 =
      (.ok (.obj w3.objs.length), atTop w3 oo t) := by
    unfold withDisabled
    rw [quar_union_all]
    simp only [hrun]
    rfl
  -- the values of immutable properties
  have himm := setImmutables_run (E := E) (rec := run E (k + 5)) (w := w3)
    (new.filter fun kv => !isSettable E o.cls kv) oo t (fun kv hkv => by
      obtain ⟨v, e, p, h3, h4, h5, h6, h7⟩ := hmem kv (List.mem_filter.1 hkv).1
      rw [hoc]
      refine ⟨e, p, h4, h5, fun o' _ => h7.valid (k + 5) (by omega) kv.1 _ _ (clsKept_top w3 o' t) (.inr ?_)⟩
      have h8 := (List.mem_filter.1 hkv).2
      rcases h5 with rfl | rfl
      · unfold isSettable at h8
        rw [h4] at h8
        cases h8
      · exact hreb.readOnly kv.1 p (lookupS_mem_props h4))
  generalize hoo : ({ oo with backend := assigned oo.backend (new.filter fun kv => !isSettable E o.cls kv) } : Obj) = o' at himm
  rw [hoc] at himm
  have hlook : ∀ nm, lookupS nm o'.backend = (lookupS nm new).or (lookupS nm b) := by
    intro nm
    rw [← hoo]
    show lookupS nm (assigned oo.backend _) = _
    rw [hob]
    exact lookupS_append_filter hnewnd
  have hfin : deserFinish E (run E (k + 5)) o.cls kw (new.filter fun kv => !isSettable E o.cls kv)
      (.obj w3.objs.length) (atTop w3 oo t) = (.ok (.obj w3.objs.length), atTop w3 o' t) := by
    unfold deserFinish
    simp only []
    rw [bind_ok himm, hka]
    rfl
  refine ⟨w3.objs.length, o', atTop w3 o' t, ?_, hon.trans (onlyNew_top ..), atTop_get .., ?_, ?_, ?_, ?_, ?_⟩
  · show hpDeserializeBody E (run E (k + 5)) c (.dict (written ic (E.classes o.cls).name st)) kw w2 = _
    unfold hpDeserializeBody
    simp only []
    rw [class_written ic _ st hcls, hkt, bind_ok (class_recovered hrec w2),
      propState_written ic _ hclsn st hprop, unused_written ic _ st hprop]
    have hr0 : raiseWhen (kw.strict && !([] : List Val).isEmpty) (if ([] : List Val).all Val.isStr then ErrKind.value else .type) w2 =
        (.ok (), w2) := by
      simp [raiseWhen, pure_apply]
    rw [bind_ok hr0, bind_ok hnew, bind_ok hdis]
    exact hfin
  · exact Nat.le_trans hL hon.length
  · rw [← hoo]; exact hoc
  · intro nm e q he hown' hnone
    unfold valueAt
    rw [hlook]
    have hnn : ∀ v, (nm, v) ∈ o.backend → v = .none := by
      intro v hv
      unfold valueAt at hnone
      rw [mem_lookupS hnd hv] at hnone
      exact hnone
    have h1 : lookupS nm new = none := by
      cases h : lookupS nm new with
      | none => rfl
      | some y =>
        have hy := lookupS_mem_props h
        have hin : nm ∈ st.map (·.1) := by
          rw [← hkeys]; exact List.mem_map_of_mem (f := Prod.fst) hy
        obtain ⟨kv, hkv, rfl⟩ := List.mem_map.1 hin
        obtain ⟨_, v, _, _, h2, _⟩ := hall kv hkv
        exact absurd (hnn v h2) (hvn kv hkv v h2)
    have h2 : lookupS nm b = none := by
      cases h : lookupS nm b with
      | none => rfl
      | some y =>
        obtain ⟨_, e', he', hd, _⟩ := hinit nm y h
        rcases hreb.defaults nm e' (lookupS_mem_props he') with h3 | ⟨⟨v, hv, hv2⟩, _⟩
        · exact absurd h3 hd
        · exact absurd (hnn v hv) hv2
    rw [h1, h2]
    rfl
  · intro nm e q he hown hne
    obtain ⟨v, hv⟩ : ∃ v, (nm, v) ∈ o.backend ∧ valueAt o nm = v := by
      unfold valueAt at hne ⊢
      cases h : lookupS nm o.backend with
      | none => rw [h] at hne; exact absurd rfl hne
      | some v => exact ⟨v, lookupS_mem_props h, rfl⟩
    rw [hv.2] at hne ⊢
    have hdet : ∀ e' p', lookupS nm (E.classes o.cls).props = some e' → OwnSpec e' p' → p' = q := by
      intro e' p' h1 h2
      rw [he] at h1
      cases h1
      rcases hown with rfl | rfl <;> rcases h2 with h2 | h2 <;> cases h2 <;> rfl
    rcases hcov nm v hv.1 with ⟨jx, hjx⟩ | ⟨e', p', h1, h2, h3⟩
    · have hin : nm ∈ new.map (·.1) := by
        rw [hkeys]; exact List.mem_map_of_mem (f := Prod.fst) hjx
      obtain ⟨y, hy, rfl⟩ := List.mem_map.1 hin
      obtain ⟨v', e', p', h4, h5, h6, h7, _⟩ := hmem y hy
      have h8 := mem_lookupS hnd h4
      rw [mem_lookupS hnd hv.1] at h8
      cases h8
      cases hdet e' p' h5 h6
      have : valueAt o' y.1 = y.2 := by
        unfold valueAt
        rw [hlook, mem_lookupS hnewnd hy]
        rfl
      rw [this]
      exact copyOf_later h7 (onlyNew_top ..)
    · cases hdet e' p' h1 h2
      exact absurd rfl (canon_ser_some (hcan nm v e _ hv.1 he hown hne) hne h3)
  · intro hS
    have hlen : (atTop w3 o' t).objs.length = w3.objs.length + 1 := by
      show (w3.objs ++ [o']).length = _
      simp
    rw [hlen]
    refine built_object (built_later (onlyNew_top ..) (hbuilt hS)) (atTop_get ..) hon.length fun nm y hy => ?_
    rw [hlook] at hy
    cases h : lookupS nm new with
    | some z =>
      rw [h] at hy
      exact .inl hy
    | none =>
      rw [h] at hy
      have hy' : lookupS nm b = some y := hy
      obtain ⟨_, e', he', hd, _⟩ := hinit nm y hy'
      rcases hreb.defaults nm e' (lookupS_mem_props he') with h3 | ⟨⟨v, hv, hv2⟩, _⟩
      · exact absurd h3 hd
      · rcases hcov nm v hv with ⟨jx, hjx⟩ | ⟨e2, p2, h4, h5, h6⟩
        · have hin : nm ∈ new.map (·.1) := by
            rw [hkeys]; exact List.mem_map_of_mem (f := Prod.fst) hjx
          obtain ⟨z, hz, rfl⟩ := List.mem_map.1 hin
          rw [mem_lookupS hnewnd hz] at h
          cases h
        · exact absurd rfl (canon_ser_some (hcan nm v e2 p2 hv h4 h5 hv2) hv2 h6)

theorem forall₂_bound {α β : Type} {P : α → β → Nat → Prop} {R : α → β → Prop}
    (mono : ∀ x y n m, n ≤ m → P x y n → P x y m) {xs : List α} {ys : List β}
    (h : List.Forall₂ R xs ys) (hp : ∀ x ∈ xs, ∀ y, R x y → ∃ n, P x y n) :
    ∃ n, List.Forall₂ (fun x y => P x y n) xs ys := by
  induction h with
  | nil => exact ⟨0, .nil⟩
  | cons h _ ih =>
    obtain ⟨n, hn⟩ := hp _ (by simp) _ h
    obtain ⟨m, hm⟩ := ih fun x hx => hp x (by simp [hx])
    exact ⟨max n m, .cons (mono _ _ _ _ (Nat.le_max_left ..) hn)
      (hm.imp fun x y h => mono _ _ _ _ (Nat.le_max_right ..) h)⟩

theorem mapML_copies₂ {α β γ : Type} {f : β → M γ} {w0 : World} {Q : World → α → γ → Prop}
    (later : ∀ (w1 w2 : World) (x : α) (y : γ), OnlyNew w1 w2 → Q w1 x y → Q w2 x y) {xs : List α} {js : List β}
    (h : List.Forall₂ (fun x j => ∀ w2, OnlyNew w0 w2 → ∃ y w3, f j w2 = (.ok y, w3) ∧ OnlyNew w2 w3 ∧ Q w3 x y) xs js) :
    ∀ w2, OnlyNew w0 w2 → ∃ ys w3, mapML f js w2 = (.ok ys, w3) ∧ OnlyNew w2 w3 ∧
      List.Forall₂ (Q w3) xs ys := by
  induction h with
  | nil => exact fun w2 _ => ⟨[], w2, rfl, .refl _, .nil⟩
  | cons h _ ih =>
    intro w2 h2
    obtain ⟨y, w3, h3, h4, h5⟩ := h w2 h2
    obtain ⟨ys, w4, h6, h7, h8⟩ := ih w3 (h2.trans h4)
    refine ⟨y :: ys, w4, ?_, h4.trans h7, .cons (later _ _ _ _ h7 h5) h8⟩
    unfold mapML
    rw [bind_ok h3, bind_ok h6]
    rfl

theorem forall₂_pairwise {α β : Type} {A T : α → β → Prop} {R : β → β → Prop} {xs : List α} {ys : List β}
    (h : List.Forall₂ A xs ys) (ht : ∀ x ∈ xs, ∀ y, A x y → T x y)
    (hp : xs.Pairwise (fun a b => ∀ i j, T a i → T b j → R i j)) : ys.Pairwise R := by
  induction h with
  | nil => exact .nil
  | cons h hs ih =>
    rename_i x y xs ys
    rw [List.pairwise_cons] at hp ⊢
    refine ⟨fun z hz => ?_, ih (fun x hx => ht x (by simp [hx])) hp.2⟩
    obtain ⟨a, ha, h1⟩ := forall₂_right hs hz
    exact hp.1 a ha y z (ht x (by simp) y h) (ht a (by simp [ha]) z h1)

theorem forall₂_fst {α β γ : Type} {R : α × β → α × γ → Prop} {xs : List (α × β)} {ys : List (α × γ)}
    (h : List.Forall₂ R xs ys) (hk : ∀ x y, R x y → y.1 = x.1) : xs.map (·.1) = ys.map (·.1) := by
  induction h with
  | nil => rfl
  | cons h _ ih => rw [List.map_cons, List.map_cons, ih, hk _ _ h]

theorem canon_scalar_inv {E : Env} {S : PropTy → Val → Prop} {ic tr : Bool} {w : World} {p : PropSpec}
    {v : Val} (h : Canon E S ic tr w p v) (hs : ScalarTy p.ty) : TakenAsIs E p.ty v ∧ S p.ty v ∧
      ∀ nm j, SerP E w ic nm p v j → WrittenAs E ic p v j := by
  cases h with
  | scalar _ _ hc _ hcs hS =>
    exact ⟨hcs.asIs, hS, fun nm j hj => .inl ⟨hc.1, (serP_canonScalar hc.1 hs hcs hj).1⟩⟩
  | custom _ _ j _ hv hcs _ _ _ hS => exact ⟨hcs, hS, fun nm j hj => serP_written hs hv hj⟩
  | seq _ k it lo hi co xs _ hty => rw [hty] at hs; exact hs.elim
  | dict _ kp vp co kvs _ hty => rw [hty] at hs; exact hs.elim
  | inst _ c r o _ hty => rw [hty] at hs; exact hs.elim
  | union _ _ _ _ _ _ _ hty => rw [hty] at hs; exact hs.elim

/-- Reading the serialized form of a canonical tree gives a copy of it. -/
theorem canon_reads {E : Env} {S : PropTy → Val → Prop} {ic tr : Bool} {w : World} {p : PropSpec}
    {v : Val} (h : Canon E S ic tr w p v) : ∀ nm j, SerP E w ic nm p v j →
    ∃ N, Reads E S w tr N p v nm j := by
  induction h with
  | scalar p v hc hs hcs hS =>
    intro nm j hj
    obtain ⟨_, h2, h3⟩ := serP_canonScalar hc.1 hs hcs hj
    refine ⟨1, fun kw _ _ n hn w2 L _ => ?_⟩
    obtain ⟨m, rfl⟩ : ∃ m, n = m + 1 := ⟨n - 1, by omega⟩
    exact ⟨v, w2, deserialize_scalar hc.2 hs h2 h3 w2, .refl _, .scalar p v hs, fun h =>
      built_free (fun y hy => by rw [List.mem_singleton.1 hy]; exact h _ _ hS) (Nat.le_refl _)⟩
  | custom p v j' hs hv _ hw hj0 hr hS =>
    intro nm j hj
    rw [written_det (serP_written hs hv hj) hw]
    refine ⟨1, fun kw h1 h2 n hn w2 L _ => ?_⟩
    obtain ⟨m, rfl⟩ : ∃ m, n = m + 1 := ⟨n - 1, by omega⟩
    exact ⟨v, w2, deserialize_readAs hs hj0 hr h1 h2 w2, .refl _, .scalar p v hs, fun h =>
      built_free (fun y hy => by rw [List.mem_singleton.1 hy]; exact h _ _ hS) (Nat.le_refl _)⟩
  | seq p k it lo hi co xs hc hty hset _ ih =>
    intro nm j hj
    have hb := serP_inv hj hc.1 (ofKind_ne k xs).2
    rw [hty] at hb
    obtain ⟨xs', js, hx, hl, rfl⟩ := hb
    have : xs' = xs := by cases k <;> (cases hx; rfl)
    subst this
    obtain ⟨N, hN⟩ := forall₂_bound (P := fun x j N => Reads E S w tr N it x nm j)
      (fun x y n m h h2 => reads_mono h2 h) (serL_iff hl) fun x hx j hj => ih x hx nm j hj
    refine ⟨N + 1, fun kw h1 h2 n hn w2 L hL => ?_⟩
    obtain ⟨m, rfl⟩ : ∃ m, n = m + 1 := ⟨n - 1, by omega⟩
    obtain ⟨ys, w3, h3, h4, h5⟩ := mapML_copies₂ (w0 := w2)
      (f := fun x => run E m (.deserializeP nm it x kw)) (Q := fun w3 x y => CopyOf E w w3 L it x y)
      (fun _ _ _ _ h h2 => copyOf_later h2 h)
      (hN.imp fun x j h w4 hw4 => by
        obtain ⟨y, w5, h6, h7, h8, _⟩ := h kw h1 h2 m (by omega) w4 L (Nat.le_trans hL hw4.length)
        exact ⟨y, w5, h6, h7, h8⟩) w2 (.refl _)
    refine ⟨ofKind k ys, w3, ?_, h4, .seq p k it lo hi co _ ys hty h5.length_eq (forall₂_get h5), fun hS => ?_⟩
    rotate_left
    · have hb := (mapML_built (w0 := w2) (g := fun y : Val => y) js (fun j hj w4 hw4 => by
        obtain ⟨x, _, h⟩ := forall₂_right hN hj
        obtain ⟨y, w5, h6, h7, _, h8⟩ := h kw h1 h2 m (by omega) w4 L (Nat.le_trans hL hw4.length)
        exact ⟨y, w5, h6, h7, h8 hS⟩) w2 (.refl _) ys w3 h3).2
      rw [List.map_id'] at hb
      exact built_kind hb
    show deserializeBody E (run E m) nm p (.list js) kw w2 = _
    unfold deserializeBody
    simp only [hc.2, hty]
    have hit : (Val.list js).iter? = some js := rfl
    simp only [hit]
    refine (bind_ok h3).trans ?_
    cases k with
    | tup => rfl
    | list => rfl
    | set =>
      obtain ⟨h6, h7, h8⟩ := hset rfl
      have : ys = xs' := eq_of_getElem? h5.length_eq fun i x y hx hy =>
        copyOf_scalar (forall₂_get h5 i x y hx hy) h6
      subst this
      unfold mkSeq
      simp only [hashableL_all_iff.2 h7, if_true, setOfList_same h8]
      rfl
  | dict p kp vp co kvs hc hty hsk hh hd hj1 hj2 hck _ ihk ihv =>
    intro nm j hj
    have hb := serP_inv hj hc.1 (by simp)
    rw [hty] at hb
    obtain ⟨kvs', jvs, hx, hl, rfl⟩ := hb
    cases hx
    have hf := serD_iff hl
    have hjd : dictOfPairs jvs = jvs := by
      refine dictOfPairs_pairwise ?_
      rw [List.pairwise_map] at hj2 ⊢
      refine forall₂_pairwise (T := fun x j => WrittenAs E ic kp x.1 j.1) hf
        (fun x hx j hj => (canon_scalar_inv (hck x hx) hsk).2.2 nm j.1 hj.1)
        (hj2.imp fun {a b} h (i j : Val × Val) => h i.1 j.1)
    rw [hjd]
    obtain ⟨N, hN⟩ := forall₂_bound
      (P := fun (x j : Val × Val) N => Reads E S w tr N kp x.1 nm j.1 ∧ Reads E S w tr N vp x.2 nm j.2)
      (fun x y n m h h2 => ⟨reads_mono h2.1 h, reads_mono h2.2 h⟩) hf fun x hx j hj => by
        obtain ⟨n1, h1⟩ := ihk x hx nm j.1 hj.1
        obtain ⟨n2, h2⟩ := ihv x hx nm j.2 hj.2
        exact ⟨max n1 n2, reads_mono h1 (Nat.le_max_left ..), reads_mono h2 (Nat.le_max_right ..)⟩
    refine ⟨N + 1, fun kw h1 h2 n hn w2 L hL => ?_⟩
    obtain ⟨m, rfl⟩ : ∃ m, n = m + 1 := ⟨n - 1, by omega⟩
    obtain ⟨ys, w3, h3, h4, h5⟩ := mapML_copies₂ (w0 := w2)
      (f := fun (kv : Val × Val) => do
        let k ← run E m (.deserializeP nm kp kv.1 kw)
        let x ← run E m (.deserializeP nm vp kv.2 kw)
        pure (k, x))
      (Q := fun w3 (x y : Val × Val) => y.1 = x.1 ∧ CopyOf E w w3 L vp x.2 y.2)
      (fun _ _ _ _ h h2 => ⟨h2.1, copyOf_later h2.2 h⟩)
      (hN.imp fun x j h w4 hw4 => by
        obtain ⟨k', w5, h6, h7, h8, _⟩ := h.1 kw h1 h2 m (by omega) w4 L (Nat.le_trans hL hw4.length)
        obtain ⟨x', w6, h9, h10, h11, _⟩ := h.2 kw h1 h2 m (by omega) w5 L
          (Nat.le_trans hL (hw4.trans h7).length)
        refine ⟨(k', x'), w6, ?_, h7.trans h10, copyOf_scalar h8 hsk, h11⟩
        rw [bind_ok h6, bind_ok h9]
        rfl) w2 (.refl _)
    have hkeys : kvs.map (·.1) = ys.map (·.1) := forall₂_fst h5 fun x y h => h.1
    refine ⟨.dict ys, w3, ?_, h4, .dict p kp vp co kvs ys hty hkeys fun i x y hx hy =>
      (forall₂_get h5 i x y hx hy).2, fun hS => ?_⟩
    rotate_left
    · refine built_dict (mapML_built (w0 := w2) (g := fun y : Val × Val => y.2) jvs (fun j hj w4 hw4 => by
        obtain ⟨x, _, h⟩ := forall₂_right hN hj
        obtain ⟨k', w5, h6, h7, h8, _⟩ := h.1 kw h1 h2 m (by omega) w4 L (Nat.le_trans hL hw4.length)
        obtain ⟨x', w6, h9, h10, _, h11⟩ := h.2 kw h1 h2 m (by omega) w5 L
          (Nat.le_trans hL (hw4.trans h7).length)
        refine ⟨(k', x'), w6, ?_, h7.trans h10, built_mono (h11 hS) h7.length (Nat.le_refl _) (Nat.le_refl _)⟩
        rw [bind_ok h6, bind_ok h9]
        rfl) w2 (.refl _) ys w3 h3).2 fun y hy => ?_
      obtain ⟨x, hx, h7, _⟩ := forall₂_right h5 hy
      rw [h7]
      exact hS _ _ (canon_scalar_inv (hck x hx) hsk).2.1
    show deserializeBody E (run E m) nm p (.dict jvs) kw w2 = _
    unfold deserializeBody
    simp only [hc.2, hty]
    refine (bind_ok h3).trans ?_
    unfold mkDict
    have h6 : ys.all (fun kv => kv.1.hashable) = true := by
      rw [List.all_eq_true]
      intro y hy
      obtain ⟨x, hx, h7, _⟩ := forall₂_right h5 hy
      rw [h7]
      exact hh x hx
    rw [if_pos h6, dictOfPairs_pairwise (by rw [← hkeys]; exact hd)]
    rfl
  | inst p c r o hc hty ho hsub hrec hreb hnd hown hcan ih =>
    intro nm j hj
    have hb := serP_inv hj hc.1 (by simp)
    rw [hty] at hb
    obtain ⟨N, hN⟩ := reads_object ho hrec hreb hnd hown hcan ih (hb r rfl)
    refine ⟨N + 1, fun kw h1 h2 n hn w2 L hL => ?_⟩
    obtain ⟨m, rfl⟩ : ∃ m, n = m + 1 := ⟨n - 1, by omega⟩
    obtain ⟨r', o', w3, h3, h4, h5, h6, h7, h8, h9, h10⟩ := hN kw h1 h2 m (by omega) w2 L hL
    refine ⟨.obj r', w3, ?_, h4, .inst p c r r' o o' hty ho h5 h6 h7 h8 h9, h10⟩
    cases hb r rfl with
    | mk _ _ data =>
    show deserializeBody E (run E m) nm p _ kw w2 = _
    unfold deserializeBody
    simp only [hc.2, hty]
    exact h3
  | union p q pre post v hc hvn hty href hread hS hcan ih =>
    intro nm j hj
    have hjq := canon_ser_union hc.1 hvn hty href hcan hj
    have hjn := canon_ser_some hcan hvn hjq
    obtain ⟨N, hN⟩ := ih nm j hjq
    obtain ⟨U, hU⟩ := canon_usable hcan
    have hpick := fun nm => canon_picks (post := post) hcan href nm
    rcases hread nm j hjq with ⟨a, b, hab, hq, ha⟩ | ⟨hno, hun⟩
    · refine ⟨N + 1, fun kw h1 h2 n hn w2 L hL => ?_⟩
      obtain ⟨m, rfl⟩ : ∃ m, n = m + 1 := ⟨n - 1, by omega⟩
      obtain ⟨v', w3, h3, h4, h5, h6⟩ := hN kw h1 h2 m (by omega) w2 L hL
      refine ⟨v', w3, ?_, h4, .union p q _ _ v v' hty hpick h5, h6⟩
      show deserializeBody E (run E m) nm p j kw w2 = _
      rw [deserialize_union hc.2 hjn hty h2, hab, namedIn_some hq ha]
      exact h3
    · obtain ⟨M, hM⟩ := bound_list (P := fun p' N => ∀ n, N ≤ n → ∀ nm kw w,
        (∃ e : PyErr, e.kind.isGeneric = true ∧ run E n (.deserializeP nm p' j kw) w = (.error e, w)) ∨
        (∃ y, run E n (.deserializeP nm p' j kw) w = (.ok y, w) ∧ ∃ e : PyErr, e.kind.isGeneric = true ∧
          run E n (.validate nm p' none y) w = (.error e, w)))
        (fun x n m hnm h k hk => h k (Nat.le_trans hnm hk)) pre hun
      refine ⟨max N (max M U) + 1, fun kw h1 h2 n hn w2 L hL => ?_⟩
      obtain ⟨m, rfl⟩ : ∃ m, n = m + 1 := ⟨n - 1, by omega⟩
      obtain ⟨v', w3, h3, h4, h5, h6⟩ := hN kw h1 h2 m (by omega) w2 L hL
      refine ⟨v', w3, ?_, h4, .union p q _ _ v v' hty hpick h5, h6⟩
      show deserializeBody E (run E m) nm p j kw w2 = _
      rw [deserialize_union hc.2 hjn hty h2, namedIn_none hno]
      exact unionDeserialize_after h3 ((hU w3 L v' h5).valid m (by omega) nm none w3
        (clsKept_refl w3) (.inl (silent_none w3))) pre fun p' hp' => hM p' hp' m (by omega) nm kw w2

end Verif
