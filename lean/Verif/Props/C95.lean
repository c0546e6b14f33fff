import Verif.Models.Into
import Verif.Spec.Into
import Verif.Props.C73
import Verif.Props.C26
import Verif.Props.C16
import Verif.Props.C27

/-!
# C95: deserialization into a given instance
-/

namespace Verif
open Spec

section
variable {E : Env}

theorem unheard_all {w : World} (o : Obj) (k : PyStr) : Unheard { w with quar := w.quar.union Quar.all } o k := by
  intro mode
  unfold enabled
  rw [union_all']
  cases mode <;> simp [Quar.all, Quar.has]

variable {r : Nat} (hE : ∀ f args, Spares r (E.fn f args))
include hE

theorem setattr_unheard {n : Nat} {k : PyStr} {p : PropSpec} {w w' : World} {o : Obj} {v x : Val}
    (ho : w.objs[r]? = some o) (hq : Unheard w o k)
    (hp : lookupS k (E.classes o.cls).props = some (.mutable p))
    (h : run E n (.setattr r k v) w = (.ok x, w')) :
    ∃ o', w'.objs[r]? = some o' ∧ o'.cls = o.cls ∧ o'.listeners = o.listeners ∧ w'.quar = w.quar ∧
      observed r w'.trace = observed r w.trace ∧
      (∀ k', k' ≠ k → lookupS k' o'.backend = lookupS k' o.backend) ∧
      ((v = .undef ∧ lookupS k o'.backend = none) ∨
       (v ≠ .undef ∧ ∃ m y w3 w4, run E m (.validate k p (some r) v) w3 = (.ok y, w4) ∧
          lookupS k o'.backend = (if y.isUndef then none else some y))) := by
  have hr : r < w.objs.length := (List.getElem?_eq_some_iff.1 ho).1
  cases n with
  | zero => cases h
  | succ n =>
    change setattrBody E (run E n) r k v w = _ at h
    unfold setattrBody at h
    have e1 : entryOf E r k w = (.ok (some (.mutable p)), w) := by
      unfold entryOf
      rw [bind_ok (getObj_some ho), hp]
      rfl
    have h2' := (bind_ok e1).symm.trans h
    change assignBody E (run E n) r k p v w = _ at h2'
    unfold assignBody at h2'
    obtain ⟨v', w2, h3, h4⟩ := bind_ok_inv h2'
    have s2 : Spared r w w2 := by
      by_cases hv : v.isUndef = true
      · rw [if_pos hv] at h3
        cases h3
        exact (spared_stable hE).refl w hr
      · rw [if_neg hv] at h3
        have := spared_run hE n (.validate k p (some r) v) trivial hr
        rw [h3] at this
        exact this
    obtain ⟨o2, ho2, c2, b2, l2⟩ := s2.data o ho
    obtain ⟨u, w3, h4, h5⟩ := bind_ok_inv h4
    cases h5
    obtain ⟨o3, ho3, c3, l3, q3, t3, b3⟩ := setBody_unheard hE ho2
      (hq.same s2.base.quar l2) h4
    refine ⟨o3, ho3, c3.trans c2, l3.trans l2, q3.trans s2.base.quar, t3.trans s2.events,
      fun k' hk' => ?_, ?_⟩
    · rw [b3]
      split
      · rw [lookupS_eraseS_ne (Ne.symm hk' ·.symm), b2]
      · rw [lookupS_setS_ne (Ne.symm hk' ·.symm), b2]
    · by_cases hv : v.isUndef = true
      · rw [if_pos hv] at h3
        cases h3
        refine .inl ⟨(by cases v <;> first | rfl | cases hv), ?_⟩
        rw [b3, if_pos hv, lookupS_eraseS]
      · rw [if_neg hv] at h3
        refine .inr ⟨(by rintro rfl; exact hv rfl), n, v', w, w2, h3, ?_⟩
        rw [b3]
        split
        · rw [lookupS_eraseS]
        · rw [lookupS_setS]

/-- What a settable property holds after a value was assigned. -/
def HoldsSet (E : Env) (r : Nat) (k : PyStr) (p : PropSpec) (v : Val) (stored : Option Val) : Prop :=
  (v = .undef ∧ stored = none) ∨
  (v ≠ .undef ∧ ∃ m y w3 w4, run E m (.validate k p (some r) v) w3 = (.ok y, w4) ∧
    stored = (if y.isUndef then none else some y))

theorem assignEach_unheard {n : Nat} : ∀ {kvs : List (PyStr × Val)} {w w' : World} {o : Obj},
    w.objs[r]? = some o → (∀ k, Unheard w o k) → (kvs.map Prod.fst).Nodup →
    (∀ kv ∈ kvs, ∃ p, lookupS kv.1 (E.classes o.cls).props = some (.mutable p)) →
    assignEach (run E n) r kvs w = (.ok (), w') →
    ∃ o', w'.objs[r]? = some o' ∧ o'.cls = o.cls ∧ o'.listeners = o.listeners ∧ w'.quar = w.quar ∧
      observed r w'.trace = observed r w.trace ∧
      (∀ k', (∀ v, (k', v) ∉ kvs) → lookupS k' o'.backend = lookupS k' o.backend) ∧
      (∀ k v p, (k, v) ∈ kvs → lookupS k (E.classes o.cls).props = some (.mutable p) →
        HoldsSet E r k p v (lookupS k o'.backend))
  | [], w, w', o, ho, _, _, _, h => by
      cases h
      exact ⟨o, ho, rfl, rfl, rfl, rfl, fun _ _ => rfl, fun _ _ _ h => by cases h⟩
  | (k0, v0) :: kvs, w, w', o, ho, hq, hnd, hps, h => by
      obtain ⟨_, w1, h1, h2⟩ := bind_ok_inv h
      have hnd' := List.nodup_cons.1 hnd
      obtain ⟨x, w1', h3, h4⟩ := bind_ok_inv h1
      cases h4
      obtain ⟨p0, hp0⟩ := hps (k0, v0) (by simp)
      obtain ⟨o1, a1, a2, a3, a4, a5, a6, a7⟩ := setattr_unheard hE ho (hq k0) hp0 h3
      obtain ⟨o2, b1, b2, b3, b4, b5, b6, b7⟩ := assignEach_unheard a1 (fun k => (hq k).same a4 a3) hnd'.2
        (fun kv hkv => by rw [a2]; exact hps kv (List.mem_cons_of_mem _ hkv)) h2
      refine ⟨o2, b1, b2.trans a2, b3.trans a3, b4.trans a4, b5.trans a5, fun k' hk' => ?_, fun k v p hm hp => ?_⟩
      · rw [b6 k' fun v hv => hk' v (List.mem_cons_of_mem _ hv)]
        exact a6 k' fun e => hk' v0 (by rw [e]; simp)
      · rcases List.mem_cons.1 hm with hm | hm
        · cases hm
          rw [b6 k0 fun v hv => absurd (List.mem_map_of_mem (f := Prod.fst) hv) hnd'.1]
          rw [hp0] at hp
          cases hp
          exact a7
        · exact b7 k v p hm (by rw [a2]; exact hp)

/-- One entry is deserialized: the name stays, the property's method is used. -/
def EntryDecoded (E : Env) (C : ClassDef) (k : PyStr) (kw : DeKw) (v d : Val) : Prop :=
  (∃ n w1 w2 p, (lookupS k C.props = some (.mutable p) ∨ lookupS k C.props = some (.gettable p)) ∧
    run E n (.deserializeP k p v kw) w1 = (.ok d, w2)) ∨
  (∀ p, lookupS k C.props ≠ some (.mutable p) ∧ lookupS k C.props ≠ some (.gettable p))

theorem deserEntries {n : Nat} {c : ClsId} {kw : DeKw} : ∀ {xs : List (PyStr × Val)} {ys : List (PyStr × Val)} {w w' : World},
    r < w.objs.length → mapML (deserEntry E (run E n) c kw) xs w = (.ok ys, w') →
    Spared r w w' ∧ ys.map Prod.fst = xs.map Prod.fst ∧
      (∀ k d, (k, d) ∈ ys → ∃ v, (k, v) ∈ xs ∧ EntryDecoded E (E.classes c) k kw v d)
  | [], ys, w, w', hr, h => by
      cases h
      exact ⟨(spared_stable hE).refl w hr, rfl, fun _ _ h => by cases h⟩
  | (k0, v0) :: xs, ys, w, w', hr, h => by
      obtain ⟨y, w1, h1, h2⟩ := bind_ok_inv h
      obtain ⟨ys', w2, h3, h4⟩ := bind_ok_inv h2
      cases h4
      have s1 : Spared r w w1 := by
        have H := (spared_stable hE).run_ok n
        have := (pres_deserEntry (spared_stable hE).toBase H trivial c kw (k0, v0)) w hr
        rw [h1] at this
        exact this
      obtain ⟨s2, e2, m2⟩ := deserEntries (Nat.lt_of_lt_of_le hr s1.base.len) h3
      have hy : ∃ d, y = (k0, d) ∧ EntryDecoded E (E.classes c) k0 kw v0 d := by
        unfold deserEntry at h1
        dsimp only at h1
        cases hl : lookupS k0 (E.classes c).props with
        | none => rw [hl] at h1; cases h1
        | some e =>
          rw [hl] at h1
          obtain ⟨d, w3, h5, h6⟩ := bind_ok_inv h1
          cases h6
          refine ⟨d, rfl, ?_⟩
          cases e with
          | mutable p => exact .inl ⟨n, w, _, p, .inl hl, h5⟩
          | gettable p => exact .inl ⟨n, w, _, p, .inr hl, h5⟩
          | dynamic p g s d => exact .inr fun q => by rw [hl]; simp
          | renamed x => exact .inr fun q => by rw [hl]; simp
      obtain ⟨d, rfl, hd⟩ := hy
      refine ⟨(spared_stable hE).trans s1 s2, by simp [e2], fun k d' hm => ?_⟩
      rcases List.mem_cons.1 hm with hm | hm
      · cases hm
        exact ⟨v0, by simp, hd⟩
      · obtain ⟨v, hv, hv'⟩ := m2 k d' hm
        exact ⟨v, by simp [hv], hv'⟩

theorem immutables_held {n : Nat} {c : ClsId} : ∀ {kvs : List (PyStr × Val)} {w w' : World} {o : Obj},
    w.objs[r]? = some o → (kvs.map Prod.fst).Nodup →
    forML (setImmutable E (run E n) c r) kvs w = (.ok (), w') →
    ∃ o', w'.objs[r]? = some o' ∧ o'.cls = o.cls ∧ o'.listeners = o.listeners ∧ w'.quar = w.quar ∧
      observed r w'.trace = observed r w.trace ∧
      (∀ k', (∀ v, (k', v) ∉ kvs) → lookupS k' o'.backend = lookupS k' o.backend) ∧
      (∀ k v p, (k, v) ∈ kvs → lookupS k (E.classes c).props = some (.gettable p) →
        ∃ m x w3 w4, run E m (.validate k p (some r) v) w3 = (.ok x, w4) ∧ lookupS k o'.backend = some x)
  | [], w, w', o, ho, _, h => by
      cases h
      exact ⟨o, ho, rfl, rfl, rfl, rfl, fun _ _ => rfl, fun _ _ _ h => by cases h⟩
  | (k0, v0) :: kvs, w, w', o, ho, hnd, h => by
      have hr : r < w.objs.length := (List.getElem?_eq_some_iff.1 ho).1
      obtain ⟨_, w1, h1, h2⟩ := bind_ok_inv h
      have hnd' := List.nodup_cons.1 hnd
      have hstep : ∃ o1, w1.objs[r]? = some o1 ∧ o1.cls = o.cls ∧ o1.listeners = o.listeners ∧
          w1.quar = w.quar ∧ observed r w1.trace = observed r w.trace ∧
          (∀ k', k' ≠ k0 → lookupS k' o1.backend = lookupS k' o.backend) ∧
          (∀ p, lookupS k0 (E.classes c).props = some (.gettable p) →
            ∃ m x w3 w4, run E m (.validate k0 p (some r) v0) w3 = (.ok x, w4) ∧
              lookupS k0 o1.backend = some x) := by
        unfold setImmutable at h1
        dsimp only at h1
        cases hl : lookupS k0 (E.classes c).props with
        | none => rw [hl] at h1; cases h1
        | some e =>
          rw [hl] at h1
          obtain ⟨x, w2, h3, h4⟩ := bind_ok_inv h1
          have s1 : Spared r w w2 := by
            have H := (spared_stable hE).run_ok n
            have := (pres_entryValidate (spared_stable hE).toBase H k0 e (some r) v0) w hr
            rw [h3] at this
            exact this
          obtain ⟨o2, ho2, c2, b2, l2⟩ := s1.data o ho
          cases h4
          refine ⟨{ o2 with backend := setS k0 x o2.backend }, by simp [World.setObj, ho2], c2, l2, s1.base.quar,
            s1.events, fun k' hk' => ?_, fun p hp => ?_⟩
          · show lookupS k' (setS k0 x o2.backend) = _
            rw [lookupS_setS_ne hk', b2]
          · cases hp
            exact ⟨n, x, w, w2, h3, lookupS_setS _ _ _⟩
      obtain ⟨o1, a1, a2, a3, a4, a5, a6, a7⟩ := hstep
      obtain ⟨o2, b1, b2, b3, b4, b5, b6, b7⟩ := immutables_held a1 hnd'.2 h2
      refine ⟨o2, b1, b2.trans a2, b3.trans a3, b4.trans a4, b5.trans a5, fun k' hk' => ?_, fun k v p hm hp => ?_⟩
      · rw [b6 k' fun v hv => hk' v (List.mem_cons_of_mem _ hv)]
        exact a6 k' fun e => hk' v0 (by rw [e]; simp)
      · rcases List.mem_cons.1 hm with hm | hm
        · cases hm
          rw [b6 k0 fun v hv => absurd (List.mem_map_of_mem (f := Prod.fst) hv) hnd'.1]
          exact a7 p hp
        · exact b7 k v p hm hp

omit hE in
theorem mem_propState {ps : List (PyStr × Entry)} {k : PyStr} {v : Val} : ∀ {kvs : List (Val × Val)},
    (k, v) ∈ propState ps kvs ↔ (.str k, v) ∈ kvs ∧ (lookupS k ps).isSome = true
  | [] => by simp [propState]
  | (kv, x) :: kvs => by
      have ih := mem_propState (ps := ps) (k := k) (v := v) (kvs := kvs)
      cases kv with
      | str s =>
        unfold propState
        by_cases h : (lookupS s ps).isSome = true
        · rw [if_pos h, List.mem_cons, List.mem_cons, ih]
          constructor
          · rintro (h' | h')
            · cases h'; exact ⟨.inl rfl, h⟩
            · exact ⟨.inr h'.1, h'.2⟩
          · rintro ⟨h' | h', h2⟩
            · cases h'; exact .inl rfl
            · exact .inr ⟨h', h2⟩
        · rw [if_neg h, ih, List.mem_cons]
          constructor
          · rintro ⟨h1, h2⟩; exact ⟨.inr h1, h2⟩
          · rintro ⟨h1 | h1, h2⟩
            · cases h1; exact absurd h2 h
            · exact ⟨h1, h2⟩
      | _ =>
        unfold propState
        rw [ih, List.mem_cons]
        constructor
        · rintro ⟨h1, h2⟩; exact ⟨.inr h1, h2⟩
        · rintro ⟨h1 | h1, h2⟩
          · cases h1
          · exact ⟨h1, h2⟩

omit hE in
theorem nodup_propState {ps : List (PyStr × Entry)} : ∀ {kvs : List (Val × Val)}, (kvs.map Prod.fst).Nodup →
    ((propState ps kvs).map Prod.fst).Nodup
  | [], _ => by simp [propState]
  | (kv, x) :: kvs, h => by
      have h' := List.nodup_cons.1 h
      have ih := nodup_propState (ps := ps) h'.2
      cases kv with
      | str s =>
        unfold propState
        split
        · refine List.nodup_cons.2 ⟨fun hm => ?_, ih⟩
          obtain ⟨⟨k, v⟩, hk, rfl⟩ := List.mem_map.1 hm
          exact h'.1 (List.mem_map.2 ⟨(.str k, v), (mem_propState.1 hk).1, rfl⟩)
        · exact ih
      | _ => unfold propState; exact ih

omit hE in
theorem nodup_value {kvs : List (Val × Val)} (h : (kvs.map Prod.fst).Nodup) {k a b : Val} (ha : (k, a) ∈ kvs)
    (hb : (k, b) ∈ kvs) : a = b := by
  induction kvs with
  | nil => cases ha
  | cons kv kvs ih =>
    have h' := List.nodup_cons.1 h
    rcases List.mem_cons.1 ha with ha | ha
    · rcases List.mem_cons.1 hb with hb | hb
      · rw [← ha] at hb; cases hb; rfl
      · exact absurd (List.mem_map.2 ⟨_, hb, by rw [← ha]⟩) h'.1
    · rcases List.mem_cons.1 hb with hb | hb
      · exact absurd (List.mem_map.2 ⟨_, ha, by rw [← hb]⟩) h'.1
      · exact ih h'.2 ha hb

theorem assertBuilt_spared {n : Nat} {b : Bool} {w : World} (hr : r < w.objs.length) :
    Spared r w (assertBuilt E (run E n) r b w).2 := by
  have S := (spared_stable hE).toBase
  have H := (spared_stable hE).run_ok n
  have : Pres (fun w => r < w.objs.length) (Spared r) (assertBuilt E (run E n) r b) := by
    unfold assertBuilt
    split
    · refine pres_bind S.toPreord (H.pres _ trivial) fun ok => ?_
      split
      · exact pres_pure S.toPreord _
      · exact pres_raise S.toPreord _
    · exact pres_pure S.toPreord _
  exact this w hr

/-- C95: deserialization into a given instance returns that instance. It holds afterwards, for every
property in the data, the value deserialized and coerced; what it held for all others, for which no
default is set; the class, the listeners and which of these are enabled are as before, and none of
its observers is called. -/
theorem C95_into {n : Nat} {c d : ClsId} {kvs : List (Val × Val)} {g : Option Val} {kw : DeKw} {w w' : World}
    {o : Obj} {x : Val} (hg : GivenName kvs g) (hc : ChosenClass E c kw.trusted kw.strict g d)
    (hnd : (kvs.map Prod.fst).Nodup) (ho : w.objs[r]? = some o)
    (hm : ∀ k, GivesKey kvs k → (∀ new, lookupS k (E.classes d).props ≠ some (.renamed new)) ∧
      ∀ p, lookupS k (E.classes d).props = some (.mutable p) →
        ∃ p', lookupS k (E.classes o.cls).props = some (.mutable p'))
    (h : hpDeserializeInto E (run E n) c (.dict kvs) kw r w = (.ok x, w')) :
    x = .obj r ∧ ∃ o', w'.objs[r]? = some o' ∧ o'.cls = o.cls ∧ o'.listeners = o.listeners ∧
      w'.quar = w.quar ∧ observed r w'.trace = observed r w.trace ∧
      (∀ k, ¬ GivesKey kvs k ∨ lookupS k (E.classes d).props = none →
        lookupS k o'.backend = lookupS k o.backend) ∧
      (∀ k v p p', (.str k, v) ∈ kvs → lookupS k (E.classes d).props = some (.mutable p) →
        lookupS k (E.classes o.cls).props = some (.mutable p') →
        HoldsGiven E r k { kw with assertValid := false } p p' v (lookupS k o'.backend)) ∧
      (∀ k v p, (.str k, v) ∈ kvs → lookupS k (E.classes d).props = some (.gettable p) →
        HoldsGivenFixed E r k { kw with assertValid := false } p v (lookupS k o'.backend)) := by
  have hr : r < w.objs.length := (List.getElem?_eq_some_iff.1 ho).1
  unfold hpDeserializeInto at h
  dsimp only at h
  rw [dictGet_given hg, chosen_run hc] at h
  rw [bind_ok (show (pure d : M ClsId) w = (.ok d, w) from rfl)] at h
  rw [bind_ok (getObj_some ho)] at h
  obtain ⟨_, w0, h0, hA⟩ := bind_ok_inv h
  clear h
  have e0 : w0 = w := by
    unfold raiseWhen at h0
    split at h0
    · cases h0
    · cases h0; rfl
  subst e0
  obtain ⟨_, w0', h0', h⟩ := bind_ok_inv hA
  clear hA
  have e0 : w0' = w0 := by
    unfold raiseWhen at h0'
    split at h0'
    · cases h0'
    · cases h0'; rfl
  subst e0
  obtain ⟨ys, w1, h1, h⟩ := bind_ok_inv h
  obtain ⟨s1, e1, m1⟩ := deserEntries hE hr h1
  obtain ⟨o1, ho1, c1, b1, l1⟩ := s1.data o ho
  have hnd1 : (ys.map Prod.fst).Nodup := by rw [e1]; exact nodup_propState hnd
  obtain ⟨_, w2, h2, h⟩ := bind_ok_inv h
  unfold withDisabled at h2
  dsimp only at h2
  cases h3 : assignEach (run E n) r (ys.filter (isSettable E d)) { w1 with quar := w1.quar.union Quar.all } with
  | mk res u =>
  rw [h3] at h2
  cases h2
  have hsub : ∀ {f : PyStr × Val → Bool}, ((ys.filter f).map Prod.fst).Nodup := fun {f} =>
    hnd1.sublist (List.filter_sublist.map _)
  obtain ⟨o2, ho2, c2, l2, q2, t2, k2, f2⟩ := assignEach_unheard hE
    (w := { w1 with quar := w1.quar.union Quar.all }) (o := o1) ho1 (fun k => unheard_all o1 k) hsub
    (fun kv hkv => by
      obtain ⟨hkv, hs⟩ := List.mem_filter.1 hkv
      obtain ⟨v, hv, _⟩ := m1 kv.1 kv.2 hkv
      obtain ⟨hv, _⟩ := mem_propState.1 hv
      obtain ⟨a, b⟩ := hm kv.1 ⟨v, hv⟩
      unfold isSettable at hs
      rw [c1]
      cases hl : lookupS kv.1 (E.classes d).props with
      | none => rw [hl] at hs; cases hs
      | some e =>
        rw [hl] at hs
        cases e with
        | mutable p => exact b p hl
        | renamed new => exact absurd hl (a new)
        | gettable p => cases hs
        | dynamic p g s d => cases hs) h3
  have ho2' : ({ u with quar := w1.quar } : World).objs[r]? = some o2 := ho2
  unfold deserFinish at h
  dsimp only at h
  obtain ⟨_, w3, h4, h⟩ := bind_ok_inv h
  obtain ⟨o3, ho3, c3, l3, q3, t3, k3, f3⟩ := immutables_held hE ho2' hsub h4
  obtain ⟨_, w4, h5, h⟩ := bind_ok_inv h
  cases h
  have s4 : Spared r w3 w' := by
    have := assertBuilt_spared hE (n := n) (b := kw.assertValid) (w := w3) (List.getElem?_eq_some_iff.1 ho3).1
    rw [h5] at this
    exact this
  obtain ⟨o4, ho4, c4, b4, l4⟩ := s4.data o3 ho3
  have key : ∀ k d', (k, d') ∈ ys → ∀ v, (.str k, v) ∈ kvs → EntryDecoded E (E.classes d) k { kw with assertValid := false } v d' := by
    intro k d' hd v hv
    obtain ⟨v', hv', hr'⟩ := m1 k d' hd
    have : v' = v := by
      have a := (mem_propState.1 hv').1
      exact nodup_value hnd a hv
    exact this ▸ hr'
  have found : ∀ k v e, (.str k, v) ∈ kvs → lookupS k (E.classes d).props = some e → ∃ d', (k, d') ∈ ys := by
    intro k v e hv he
    have : k ∈ ys.map Prod.fst := by
      rw [e1]
      exact List.mem_map.2 ⟨(k, v), mem_propState.2 ⟨hv, by rw [he]; rfl⟩, rfl⟩
    obtain ⟨⟨k', d'⟩, h1, rfl⟩ := List.mem_map.1 this
    exact ⟨d', h1⟩
  refine ⟨rfl, o4, ho4, c4.trans (c3.trans (c2.trans c1)), l4.trans (l3.trans (l2.trans l1)),
    s4.base.quar.trans (q3.trans s1.base.quar), s4.events.trans (t3.trans (t2.trans s1.events)), fun k hk => ?_,
    fun k v p p' hv hp hp' => ?_, fun k v p hv hp => ?_⟩
  · have hno : ∀ d', (k, d') ∉ ys := by
      intro d' hd'
      obtain ⟨v, hv, _⟩ := m1 k d' hd'
      obtain ⟨hv, hs⟩ := mem_propState.1 hv
      rcases hk with hk | hk
      · exact hk ⟨v, hv⟩
      · rw [hk] at hs; cases hs
    rw [b4, k3 k fun v hv => hno v (List.mem_filter.1 hv).1, k2 k fun v hv => hno v (List.mem_filter.1 hv).1, b1]
  · obtain ⟨d', hd'⟩ := found k v _ hv hp
    have hset : isSettable E d (k, d') = true := by unfold isSettable; rw [hp]; rfl
    have hh := f2 k d' p' (List.mem_filter.2 ⟨hd', hset⟩) (by rw [c1]; exact hp')
    have hst : lookupS k o4.backend = lookupS k o2.backend := by
      rw [b4, k3 k fun v' hv' => ?_]
      obtain ⟨a, b⟩ := List.mem_filter.1 hv'
      have : isSettable E d (k, v') = isSettable E d (k, d') := rfl
      rw [this, hset] at b
      cases b
    rw [hst]
    rcases key k d' hd' v hv with ⟨n1, u1, u2, q, hq, hrun⟩ | hno
    · have : q = p := by
        rcases hq with hq | hq <;> rw [hp] at hq <;> cases hq
        rfl
      subst this
      rcases hh with ⟨a, b⟩ | ⟨a, m, y, u3, u4, b1, b2⟩
      · exact ⟨n1, 0, u1, u2, u1, d', hrun, .inl ⟨a, b⟩⟩
      · exact ⟨n1, m, u1, u2, u3, d', hrun, .inr ⟨a, y, u4, b1, b2⟩⟩
    · exact absurd hp (hno p).1
  · obtain ⟨d', hd'⟩ := found k v _ hv hp
    have hset : (!isSettable E d (k, d')) = true := by unfold isSettable; rw [hp]; rfl
    obtain ⟨m, y, u3, u4, a1, a2⟩ := f3 k d' p (List.mem_filter.2 ⟨hd', hset⟩) hp
    rw [b4, a2]
    rcases key k d' hd' v hv with ⟨n1, u1, u2, q, hq, hrun⟩ | hno
    · have : q = p := by
        rcases hq with hq | hq <;> rw [hp] at hq <;> cases hq
        rfl
      subst this
      exact ⟨n1, m, u1, u2, u3, u4, d', y, hrun, a1, rfl⟩
    · exact absurd hp (hno p).2

end

section
variable {E : Env}

theorem json_scalar {n : Nat} {k : PyStr} {p : PropSpec} {v d : Val} {kw : DeKw} {w w' : World}
    (hs : IsScalar p.ty) (hd : p.deser = none) (h : run E n (.deserializeP k p v kw) w = (.ok d, w')) :
    (v = .none ∧ d = .none) ∨ (v ≠ .none ∧ scalarFromJson E p.ty v = some (.ok d)) := by
  cases n with
  | zero => cases h
  | succ n =>
    change deserializeBody E (run E n) k p v kw w = _ at h
    unfold deserializeBody at h
    rw [hd] at h
    dsimp only at h
    by_cases hv : v.isNone = true
    · rw [if_pos hv] at h
      cases h
      exact .inl ⟨(by cases v <;> first | rfl | cases hv), rfl⟩
    · rw [if_neg hv] at h
      have hv' : v ≠ .none := by rintro rfl; exact hv rfl
      obtain ⟨rq, se, de, df, ty⟩ := p
      dsimp only [PropSpec.ty] at h hs ⊢
      cases ty <;> first
        | exact hs.elim
        | (dsimp only at h
           refine .inr ?_
           generalize hx : scalarFromJson E _ v = y at h ⊢
           cases y with
           | some x =>
             refine ⟨hv', ?_⟩
             cases x with
             | ok a => cases h; rfl
             | error e => cases h
           | none =>
             cases h)

theorem json_scalar_one {n n' : Nat} {k k' : PyStr} {p : PropSpec} {v d d' : Val} {kw kw' : DeKw} {w w' u u' : World}
    (hs : IsScalar p.ty) (hd : p.deser = none) (h : run E n (.deserializeP k p v kw) w = (.ok d, w'))
    (h' : run E n' (.deserializeP k' p v kw') u = (.ok d', u')) : d = d' := by
  rcases json_scalar hs hd h with ⟨a, b⟩ | ⟨a, b⟩ <;>
    rcases json_scalar hs hd h' with ⟨a', b'⟩ | ⟨a', b'⟩
  · rw [b, b']
  · exact absurd a a'
  · exact absurd a' a
  · rw [b] at b'; cases b'; rfl

/-- C95: for the basic types the value depends on nothing but the data: neither on the instance nor on
what it held. (Color is left out because of its name `random`.) -/
theorem C95_determined {r r' : Nat} {k : PyStr} {kw kw' : DeKw} {p p' : PropSpec} {v : Val} {s s' : Option Val}
    (hs : ScalarTy p.ty) (hs' : ScalarTy p'.ty) (hc : p'.ty ≠ .color) (hd : p.deser = none)
    (h : HoldsGiven E r k kw p p' v s) (h' : HoldsGiven E r' k kw' p p' v s') : s = s' := by
  have hi : IsScalar p.ty := by
    unfold ScalarTy at hs
    unfold IsScalar
    cases hp : p.ty <;> rw [hp] at hs <;> trivial
  obtain ⟨n, m, w1, w2, w3, d, h1, h⟩ := h
  obtain ⟨n', m', w1', w2', w3', d', h1', h'⟩ := h'
  obtain rfl := json_scalar_one hi hd h1 h1'
  rcases h with ⟨e, rfl⟩ | ⟨e, y, w4, hy, rfl⟩
  · rcases h' with ⟨_, rfl⟩ | ⟨e', _⟩
    · rfl
    · exact absurd e e'
  · rcases h' with ⟨e', _⟩ | ⟨_, y', w4', hy', rfl⟩
    · exact absurd e' e
    · have a := validate_scalar hs' hc hy
      have b := validate_scalar hs' hc hy'
      rw [a] at b
      cases b
      rfl

/-- C95: an instance of another class is refused with ValueError, before anything else is done. -/
theorem C95_refused {n : Nat} {c d : ClsId} {kvs : List (Val × Val)} {g : Option Val} {kw : DeKw} {w : World}
    {r : Nat} {o : Obj} (hg : GivenName kvs g) (hc : ChosenClass E c kw.trusted kw.strict g d)
    (ho : w.objs[r]? = some o) (hne : o.cls ≠ d) (hna : d ∉ (E.classes o.cls).ancestors) :
    hpDeserializeInto E (run E n) c (.dict kvs) kw r w = (.error ⟨.value, []⟩, w) := by
  unfold hpDeserializeInto
  dsimp only
  rw [dictGet_given hg, chosen_run hc, bind_ok (show (pure d : M ClsId) w = (.ok d, w) from rfl),
    bind_ok (getObj_some ho)]
  refine bind_err ?_
  unfold raiseWhen isSub
  rw [if_pos (by simp [hne, hna])]
  rfl

/-- C95: with `strict`, data with a key that is neither `__class__` nor the name of a
property are refused before anything is done; the exception is ValueError if such keys
are text. -/
theorem C95_strict {n : Nat} {c d : ClsId} {kvs : List (Val × Val)} {g : Option Val} {kw : DeKw} {w : World}
    {r : Nat} {o : Obj} (hg : GivenName kvs g) (hc : ChosenClass E c kw.trusted kw.strict g d)
    (ho : w.objs[r]? = some o) (hst : kw.strict = true) {k : PyStr} {v : Val} (hk : (.str k, v) ∈ kvs)
    (hne : k ≠ s% "__class__") (hp : lookupS k (E.classes d).props = none) :
    ∃ e, hpDeserializeInto E (run E n) c (.dict kvs) kw r w = (.error e, w) ∧
      ((∀ x ∈ kvs, ∃ t, x.1 = .str t) → e.kind = .value) := by
  have hu : Val.str k ∈ (unusedKeys (E.classes d).props kvs).filter
      (fun k => !(pyEq k (.str (s% "__class__")))) := by
    refine List.mem_filter.2 ⟨?_, ?_⟩
    · refine List.mem_map.2 ⟨(.str k, v), List.mem_filter.2 ⟨hk, ?_⟩, rfl⟩
      simp [hp]
    · have : pyEq (.str k) (.str (s% "__class__")) = false := by
        rw [Bool.eq_false_iff]
        exact fun h => hne (Val.str.inj (pyEq_str_right.1 h))
      rw [this]; rfl
  unfold hpDeserializeInto
  dsimp only
  rw [dictGet_given hg, chosen_run hc, bind_ok (show (pure d : M ClsId) w = (.ok d, w) from rfl),
    bind_ok (getObj_some ho)]
  cases hsub : isSub E o.cls d with
  | false => exact ⟨_, bind_err (by unfold raiseWhen; rfl), fun _ => rfl⟩
  | true =>
    refine ⟨⟨if ((unusedKeys (E.classes d).props kvs).filter
        (fun k => !(pyEq k (.str (s% "__class__"))))).all Val.isStr then .value else .type, []⟩,
      (bind_ok (a := ()) (w' := w) (by unfold raiseWhen; rfl)).trans (bind_err ?_), fun hs => ?_⟩
    · unfold raiseWhen
      rw [if_pos]
      · rfl
      · rw [hst, Bool.true_and]
        cases hl : (unusedKeys (E.classes d).props kvs).filter (fun k => !(pyEq k (.str (s% "__class__")))) with
        | nil => rw [hl] at hu; cases hu
        | cons => rfl
    · dsimp only
      rw [if_pos]
      refine List.all_eq_true.2 fun x hx => ?_
      obtain ⟨y, hy, rfl⟩ := List.mem_map.1 (List.mem_filter.1 hx).1
      obtain ⟨t, ht⟩ := hs y (List.mem_filter.1 hy).1
      rw [ht]
      rfl

/-- C95: an instance of the class or of a subclass is taken; data without any property change nothing. -/
theorem C95_taken {n : Nat} {c d : ClsId} {kvs : List (Val × Val)} {g : Option Val} {kw : DeKw} {w : World}
    {r : Nat} {o : Obj} (hg : GivenName kvs g) (hc : ChosenClass E c kw.trusted kw.strict g d)
    (ho : w.objs[r]? = some o) (hok : o.cls = d ∨ d ∈ (E.classes o.cls).ancestors)
    (hempty : ∀ k, GivesKey kvs k → lookupS k (E.classes d).props = none) (hs : kw.strict = false)
    (ha : kw.assertValid = false) :
    hpDeserializeInto E (run E n) c (.dict kvs) kw r w = (.ok (.obj r), w) := by
  have hst : propState (E.classes d).props kvs = [] := by
    refine List.eq_nil_iff_forall_not_mem.2 fun ⟨k, v⟩ hm => ?_
    obtain ⟨a, b⟩ := mem_propState.1 hm
    rw [hempty k ⟨v, a⟩] at b
    cases b
  unfold hpDeserializeInto
  dsimp only
  rw [dictGet_given hg, chosen_run hc, bind_ok (show (pure d : M ClsId) w = (.ok d, w) from rfl),
    bind_ok (getObj_some ho)]
  have e1 : raiseWhen (!isSub E o.cls d) .value w = (.ok (), w) := by
    unfold raiseWhen isSub
    rw [if_neg (by rcases hok with h | h <;> simp [h])]
    rfl
  rw [bind_ok e1, hs, hst]
  unfold deserFinish assertBuilt
  rw [ha]
  rfl

local notation "P0" => sameTrace_preord

theorem assignEach_silent (n r : Nat) (kvs : List (PyStr × Val)) (w : World) :
    (withDisabled Quar.all (assignEach (run E n) r kvs) w).2.trace = w.trace := by
  have S := (silent_stable E).toBase
  have H := (silent_stable E).run_ok n
  have : Pres (fun w => w.quar = Quar.all) Silent (assignEach (run E n) r kvs) :=
    pres_forML S.toPreord (fun kv => pres_bind S.toPreord (H.pres _ (Call.allowed_all _)) fun _ =>
      pres_pure S.toPreord _) kvs
  exact (this { w with quar := w.quar.union Quar.all } (union_all' _)).2

/-- C95: no listener at all is called, of this instance or another, whether the call succeeds or
fails, if the classes are plain in the sense of C27 and validity is not to be asserted. -/
theorem C95_silent (hE : PlainClasses E) (n : Nat) (c : ClsId) (v : Val) (kw : DeKw)
    (ha : kw.assertValid = false) (r : Nat) (w : World) :
    (hpDeserializeInto E (run E n) c v kw r w).2.trace = w.trace := by
  have H := deserOk hE n
  refine (?_ : NoCalls (hpDeserializeInto E (run E n) c v kw r)) w trivial
  unfold hpDeserializeInto
  split
  · refine pres_bind P0 (noCalls_deserializeClass E _ _ _ _) fun outc => ?_
    refine pres_bind P0 (pres_getObj P0 _) fun o => ?_
    refine pres_bind P0 (pres_raiseWhen P0 _ _) fun _ => ?_
    dsimp only
    refine pres_bind P0 (pres_raiseWhen P0 _ _) fun _ => ?_
    refine pres_bind P0 (pres_mapML P0 (fun kv => ?_) _) fun newstate => ?_
    · unfold deserEntry
      split
      · exact pres_raiseK P0 _
      · rename_i e he
        refine pres_bind P0 ?_ fun _ => pres_pure P0 _
        have hp := hE.entry _ _ _ he
        cases e with
        | mutable p => exact H.prop true p hp _ _ _ rfl
        | gettable p => exact H.prop false p (.scalar _ _ hp.1 hp.2) _ _ _ rfl
        | dynamic p g s d =>
          unfold entryDeserialize
          dsimp only
          rw [hp.1]; exact pres_pure P0 _
        | renamed new => exact pres_pure P0 _
    · refine pres_bind P0 (fun w _ => assignEach_silent n r _ w) fun _ => ?_
      unfold deserFinish
      dsimp only
      refine pres_bind P0 (pres_forML_mem P0 _ fun kv hkv => ?_) fun _ => ?_
      · unfold setImmutable
        split
        · exact pres_raiseK P0 _
        · rename_i e he
          refine pres_bind P0 ?_ fun _ => fun w _ => rfl
          have hp := hE.entry _ _ _ he
          cases e with
          | mutable p =>
            have := (List.mem_filter.1 hkv).2
            simp [isSettable, he, Entry.settable] at this
          | gettable p => exact quietly_scalar hE.hook p hp.2 _ _ _ _
          | dynamic p g s d => exact quietly_scalar hE.hook p hp.2 _ _ _ _
          | renamed new => exact pres_pure P0 _
      · refine pres_bind P0 ?_ fun _ => pres_pure P0 _
        unfold assertBuilt
        rw [ha]; exact pres_pure P0 _
  · exact pres_raiseK P0 _

end

/-! ## Example -/

/-- The second instance has an observer; it holds a and b. -/
def c95World : World :=
  { objs := [{ cls := 0 },
      { cls := 0
        backend := [(s% "a", .int 4), (s% "b", .int 5)]
        listeners := [⟨s% "a", .set, 0⟩] }] }

/-- `a` becomes 3, `b` is kept, the key that names nothing is ignored, no listener is called. -/
theorem C95_example :
    (hpDeserializeInto c16Env (run c16Env 5) 0 (.dict [(.str (s% "a"), .int 3), (.str (s% "zz"), .int 1)]) {} 1
      c95World).1 = .ok (.obj 1) ∧
    (hpDeserializeInto c16Env (run c16Env 5) 0 (.dict [(.str (s% "a"), .int 3), (.str (s% "zz"), .int 1)]) {} 1
      c95World).2.objs.map Obj.backend = [[], [(s% "a", .int 3), (s% "b", .int 5)]] ∧
    (hpDeserializeInto c16Env (run c16Env 5) 0 (.dict [(.str (s% "a"), .int 3), (.str (s% "zz"), .int 1)]) {} 1
      c95World).2.trace.length = 0 := by
  refine ⟨?_, ?_, ?_⟩ <;> with_unfolding_all rfl

/-- A refused value ends the call with what was deserialized before it already set. -/
theorem C95_not_atomic :
    ((hpDeserializeInto c16Env (run c16Env 5) 0 (.dict [(.str (s% "a"), .int 3), (.str (s% "b"), .none)]) {} 1
      c95World).1.toOption.isNone = true) ∧
    (hpDeserializeInto c16Env (run c16Env 5) 0 (.dict [(.str (s% "a"), .int 3), (.str (s% "b"), .none)]) {} 1
      c95World).2.objs.map Obj.backend = [[], [(s% "a", .int 3), (s% "b", .int 5)]] := by
  refine ⟨?_, ?_⟩ <;> with_unfolding_all rfl

/-- The hypotheses of the theorems hold there. -/
example : (∀ f args, Spares 1 (c16Env.fn f args)) ∧ PlainClasses c16Env ∧
    GivenName [(.str (s% "a"), .int 3), (.str (s% "zz"), .int 1)] none ∧ ChosenClass c16Env 0 false false none 0 := by
  refine ⟨fun _ _ => trivial, ⟨fun _ => rfl, fun c nm e h => ?_⟩, .missing _ (by simp), .noName⟩
  have h : lookupS nm [(s% "a", Entry.mutable (.mk true none none .undef (.integer false none none))),
    (s% "b", .mutable (.mk true none none .undef (.integer false none none)))] = some e := h
  unfold lookupS at h
  split at h
  · cases h
    exact .scalar _ _ rfl trivial
  · unfold lookupS at h
    split at h
    · cases h
      exact .scalar _ _ rfl trivial
    · cases h

end Verif
