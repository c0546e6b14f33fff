import Verif.Lemmas.ReadTree

/-!
# Serializing a canonical tree
-/

namespace Verif
open Spec

/-! ## Canonical trees have no cycles -/

/-- Instances visited, by type. -/
def VisitBody (E : Env) (w : World) (nm : PyStr) (ty : PropTy) (v : Val) (s : Nat) : Prop :=
  match ty with
  | .seq _ it _ _ _ => ∃ xs x, v.iter? = some xs ∧ x ∈ xs ∧ Visits E w nm it x s
  | .dict kp vp _ => ∃ kvs kv, v = .dict kvs ∧ kv ∈ kvs ∧ (Visits E w nm kp kv.1 s ∨ Visits E w nm vp kv.2 s)
  | .inst _ => v = .obj s
  | .union ps _ => (∃ q, Picks E w nm v ps (some q) ∧ Visits E w nm q v s) ∨ Picks E w nm v ps none
  | _ => False

theorem visitsT_inv {E : Env} {w : World} {nm : PyStr} {p : PropSpec} {v : Val} {s : Nat}
    (h : Visits E w nm p v s) : VisitBody E w nm p.ty v s := by
  cases h with
  | inst _ c _ _ hty => rw [hty]; rfl
  | item _ it k lo hi c _ x xs _ _ hty h1 h2 h3 => rw [hty]; exact ⟨xs, x, h1, h2, h3⟩
  | key _ kp vp c kvs kv _ _ hty h1 h2 => rw [hty]; exact ⟨kvs, kv, rfl, h1, .inl h2⟩
  | value _ kp vp c kvs kv _ _ hty h1 h2 => rw [hty]; exact ⟨kvs, kv, rfl, h1, .inr h2⟩
  | union _ ps st _ q _ _ hty h1 h2 => rw [hty]; exact .inl ⟨q, h1, h2⟩
  | unionObj _ ps st _ _ hty h => rw [hty]; exact .inr h

theorem visits_scalar {E : Env} {w : World} {nm : PyStr} {p : PropSpec} {v : Val} {s : Nat}
    (hs : ScalarTy p.ty) (h : Visits E w nm p v s) : False := by
  have := visitsT_inv h
  cases hty : p.ty <;> rw [hty] at hs this <;> first | exact hs.elim | exact this

theorem iter_ofKind (k : SeqKind) (xs : List Val) : (ofKind k xs).iter? = some xs := by
  cases k <;> rfl

theorem ownSpec_det {e : Entry} {p q : PropSpec} (h : OwnSpec e p) (h2 : OwnSpec e q) : p = q := by
  rcases h with rfl | rfl <;> rcases h2 with h | h <;> cases h <;> rfl

theorem visits_none {E : Env} {w : World} {nm : PyStr} {p : PropSpec} {v : Val} {s : Nat}
    (h : Visits E w nm p v s) : v ≠ .none := by
  induction h with
  | inst => simp
  | item _ _ _ _ _ _ _ _ _ _ _ _ h _ _ _ => rintro rfl; cases h
  | key => simp
  | value => simp
  | union _ _ _ _ _ _ _ _ _ _ ih => exact ih
  | unionObj => simp

/-- No infinite descent from the instances of a canonical tree. -/
theorem canon_acc {E : Env} {S : PropTy → Val → Prop} {ic tr : Bool} {w : World} {p : PropSpec}
    {v : Val} (h : Canon E S ic tr w p v) : ∀ nm s, Visits E w nm p v s →
    Acc (fun a b => RefersOn E w b a) s := by
  induction h with
  | scalar p v _ hs _ _ => exact fun nm s h => (visits_scalar hs h).elim
  | custom p v j hs _ _ _ _ _ _ => exact fun nm s h => (visits_scalar hs h).elim
  | seq p k it lo hi co xs hc hty hset _ ih =>
    intro nm s h
    have hb := visitsT_inv h
    rw [hty] at hb
    obtain ⟨xs', x, h1, h2, h3⟩ := hb
    rw [iter_ofKind] at h1
    cases h1
    exact ih x h2 nm s h3
  | dict p kp vp co kvs hc hty hsk hh hd hj1 hj2 _ _ ihk ihv =>
    intro nm s h
    have hb := visitsT_inv h
    rw [hty] at hb
    obtain ⟨kvs', kv, h1, h2, h3⟩ := hb
    cases h1
    rcases h3 with h3 | h3
    · exact ihk kv h2 nm s h3
    · exact ihv kv h2 nm s h3
  | inst p c r o hc hty ho hsub hrec hreb hnd hown _ ih =>
    intro nm s h
    have hb := visitsT_inv h
    rw [hty] at hb
    cases hb
    refine ⟨_, fun t ⟨o', nm', v, e, q, h1, h2, h3, h4, h5⟩ => ?_⟩
    rw [ho] at h1
    cases h1
    by_cases hv : v = .none
    · subst hv
      exact (visits_none h5 rfl).elim
    · exact ih nm' v e q h2 h3 h4 hv nm' t h5
  | union p q pre post v hc hvn hty href _ _ hcan ih =>
    intro nm s h
    have hb := visitsT_inv h
    rw [hty] at hb
    have hp := canon_picks (post := post) hcan href nm
    rcases hb with ⟨q', h1, h2⟩ | h1
    · cases picks_unique hp h1
      exact ih nm s h2
    · cases picks_unique hp h1

theorem acc_no_cycle {E : Env} {w : World} {s : Nat} (h : Acc (fun a b => RefersOn E w b a) s) :
    ∀ t, RefersOn E w s t → ¬ Reaches E w t s := by
  induction h with
  | intro s _ ih =>
    intro t h1 h2
    cases h2 with
    | refl => exact ih s h1 s h1 (.refl s)
    | step _ u _ h3 h4 => exact ih t h1 u h3 (reaches_trans h4 (.step _ _ _ h1 (.refl t)))

/-! ## Writing -/

/-- No instance of the value is being serialized. -/
def Clear (E : Env) (w ws : World) (nm : PyStr) (p : PropSpec) (v : Val) : Prop :=
  ∀ s t, Visits E w nm p v s → Reaches E w s t → ¬ Marked ws t

/-- Writing `v` gives `j` and leaves the state alone. -/
def WritesAs (E : Env) (w : World) (ic : Bool) (N : Nat) (nm : PyStr) (p : PropSpec) (v j : Val) : Prop :=
  SerP E w ic nm p v j ∧ ∀ n, N ≤ n → ∀ ws, SameCore w ws → Clear E w ws nm p v →
    run E n (.serializeP nm p v ⟨ic, false⟩) ws = (.ok j, ws)

theorem writesAs_mono {E : Env} {w : World} {ic : Bool} {N M : Nat} {p : PropSpec} {v : Val} {nm : PyStr}
    {j : Val} (h : WritesAs E w ic N nm p v j) (hm : N ≤ M) : WritesAs E w ic M nm p v j :=
  ⟨h.1, fun n hn => h.2 n (Nat.le_trans hm hn)⟩

theorem choose_list {α β : Type} {A : α → β → Nat → Prop} (mono : ∀ x y n m, n ≤ m → A x y n → A x y m) :
    ∀ (xs : List α), (∀ x ∈ xs, ∃ n y, A x y n) → ∃ n ys, List.Forall₂ (fun x y => A x y n) xs ys
  | [], _ => ⟨0, [], .nil⟩
  | x :: xs, h => by
    obtain ⟨n, y, hy⟩ := h x (by simp)
    obtain ⟨m, ys, hys⟩ := choose_list mono xs fun z hz => h z (by simp [hz])
    exact ⟨max n m, y :: ys, .cons (mono _ _ _ _ (Nat.le_max_left ..) hy)
      (hys.imp fun _ _ h => mono _ _ _ _ (Nat.le_max_right ..) h)⟩

theorem mapML_forall₂ {α β : Type} {f : α → M β} {w : World} {xs : List α} {ys : List β}
    (h : List.Forall₂ (fun x y => f x w = (.ok y, w)) xs ys) : mapML f xs w = (.ok ys, w) := by
  induction h with
  | nil => rfl
  | cons h _ ih =>
    unfold mapML
    rw [bind_ok h, bind_ok ih]
    rfl

theorem forall₂_memL {α β : Type} {R : α → β → Prop} {xs : List α} {ys : List β}
    (h : List.Forall₂ R xs ys) : List.Forall₂ (fun x y => x ∈ xs ∧ R x y) xs ys := by
  induction h with
  | nil => exact .nil
  | cons h _ ih => exact .cons ⟨by simp, h⟩ (ih.imp fun x y h => ⟨by simp [h.1], h.2⟩)

/-- Writing an instance. -/
theorem writes_object {E : Env} {ic : Bool} {w : World} {r : Nat} {o : Obj} (ho : w.objs[r]? = some o)
    (hnd : (o.backend.map (·.1)).Nodup)
    (hown : ∀ nm v, (nm, v) ∈ o.backend → ∃ e q, lookupS nm (E.classes o.cls).props = some e ∧
        OwnSpec e q ∧ (v = .none → SkipsNone E ic q))
    (hacc : ∀ t, RefersOn E w r t → ¬ Reaches E w t r)
    (hih : ∀ nm v e q, (nm, v) ∈ o.backend → lookupS nm (E.classes o.cls).props = some e →
      OwnSpec e q → v ≠ .none → ∃ N j, WritesAs E w ic N nm q v j) :
    ∃ N j, SerO E w ic r j ∧ ∀ n, N ≤ n → ∀ ws, SameCore w ws →
      (∀ t, Reaches E w r t → ¬ Marked ws t) → run E n (.hpSerialize r ⟨ic, false⟩) ws = (.ok j, ws) := by
  obtain ⟨N, data, hdata⟩ := choose_list (A := fun (nv : PyStr × Val) (d : Val × Val) N =>
      d.1 = .str nv.1 ∧ ∃ e q, lookupS nv.1 (E.classes o.cls).props = some e ∧
        OwnSpec e q ∧ WritesAs E w ic N nv.1 q nv.2 d.2)
    (fun _ _ n m h ⟨h1, e, q, h2, h3, h4⟩ => ⟨h1, e, q, h2, h3, writesAs_mono h4 h⟩) o.backend fun nv hnv => by
      obtain ⟨e, q, h1, h2, h3⟩ := hown nv.1 nv.2 hnv
      by_cases hv : nv.2 = .none
      · refine ⟨1, (.str nv.1, .none), rfl, e, q, h1, h2, ?_⟩
        have h3 := h3 hv
        rw [hv]
        cases hser : q.ser with
        | none =>
          refine ⟨.none _ _ hser, fun n hn ws _ _ => ?_⟩
          obtain ⟨m, rfl⟩ : ∃ m, n = m + 1 := ⟨n - 1, by omega⟩
          show serializeBody E (run E m) nv.1 q .none _ ws = _
          unfold serializeBody
          simp only [hser]
          rfl
        | some f =>
          refine ⟨.custom _ _ f _ _ hser (h3 f hser), fun n hn ws _ _ => ?_⟩
          obtain ⟨m, rfl⟩ : ∃ m, n = m + 1 := ⟨n - 1, by omega⟩
          show serializeBody E (run E m) nv.1 q .none _ ws = _
          unfold serializeBody
          simp only [hser]
          exact callWrapped_answers (h3 f hser) ws
      · obtain ⟨N, j, hj⟩ := hih nv.1 nv.2 e q hnv h1 h2 hv
        exact ⟨N, (.str nv.1, j), rfl, e, q, h1, h2, hj⟩
  refine ⟨N + 2, _, .mk r o data ho (serF_of (hdata.imp fun nv d ⟨h1, e, q, h2, h3, h4⟩ =>
    ⟨h1, e, q, h2, h3, h4.1⟩)), fun n hn ws hws hclear => ?_⟩
  obtain ⟨m, rfl⟩ : ∃ m, n = m + 2 := ⟨n - 2, by omega⟩
  show hpSerializeBody E (run E (m + 1)) r ⟨ic, false⟩ ws = _
  obtain ⟨o', ho', hc', hb'⟩ : ∃ o', ws.objs[r]? = some o' ∧ o'.cls = o.cls ∧ o'.backend = o.backend :=
    sameCore_some (fun r => (hws r).symm) ho
  have hg : o'.gs = false := by
    cases h : o'.gs with
    | false => rfl
    | true => exact absurd ⟨o', ho', h⟩ (hclear r (.refl r))
  unfold hpSerializeBody
  rw [bind_ok (getObj_some ho')]
  simp only [hg, Bool.false_eq_true, if_false]
  have hback : (ws.setObj r (fun o => { o with gs := true })).setObj r
      (fun o => { o with gs := false }) = ws := by
    rw [setObj_setObj]
    exact setObj_id ho' (by cases o'; cases hg; rfl)
  have hw1 := sameCore_mark hws r
  rw [bind_ok (modObj_apply _ _ _)]
  generalize hws1 : ws.setObj r (fun o => { o with gs := true }) = ws1 at hback hw1
  have ho1 : ws1.objs[r]? = some { o' with gs := true } := by
    rw [← hws1]; unfold World.setObj; rw [List.getElem?_modify]; simp [ho']
  have key : (do
      let data ← mapML (fun key => do
        match lookupS key (E.classes o'.cls).props with
        | none => raiseK .key
        | some e => do
            let v ← run E (m + 1) (.getattr r key)
            let j ← entrySerialize E (run E (m + 1)) key e v ⟨ic, false⟩
            pure (Val.str key, j)) (o'.backend.map (·.1))
      pure (.dict (complete ic (E.classes o'.cls).name data)) : M Val) ws1 =
      (.ok (.dict (complete ic (E.classes o.cls).name data)), ws1) := by
    rw [mapML_map, hb', hc']
    refine bind_ok (mapML_forall₂ ((forall₂_memL hdata).imp fun nv d ⟨hmem, h1, e, q, h2, h3, h4⟩ => ?_))
    obtain ⟨nm, v⟩ := nv
    obtain ⟨k, j⟩ := d
    have h1 : k = .str nm := h1
    subst h1
    have h2 : lookupS nm (E.classes o.cls).props = some e := h2
    have h4 : WritesAs E w ic N nm q v j := h4
    simp only [h2]
    have hv : (lookupS nm o'.backend).getD .none = v := by
      rw [hb', mem_lookupS hnd hmem]; rfl
    have hget : run E (m + 1) (.getattr r nm) ws1 = (.ok v, ws1) := by
      show getattrBody E (run E m) r nm ws1 = _
      have h2' : lookupS nm (E.classes o'.cls).props = some e := by rw [hc']; exact h2
      rcases h3 with rfl | rfl
      · rw [getattr_mutable ho1 h2']; exact congrArg (fun v => (Except.ok v, ws1)) hv
      · rw [getattr_gettable ho1 h2']; exact congrArg (fun v => (Except.ok v, ws1)) hv
    have hser := h4.2 (m + 1) (by omega) ws1 hw1 (fun s t hs ht hm => by
      have href : RefersOn E w r s := ⟨o, nm, v, e, q, ho, hmem, h2, h3, hs⟩
      rw [← hws1] at hm
      rcases marked_setObj hm with hm | rfl
      · exact hclear t (.step _ _ _ href ht) hm
      · exact hacc s href ht)
    have hent : entrySerialize E (run E (m + 1)) nm e v ⟨ic, false⟩ ws1 = (.ok j, ws1) := by
      rcases h3 with rfl | rfl <;> exact hser
    rw [bind_ok hget, bind_ok hent]
    rfl
  refine (fin_eq key).trans ?_
  rw [hback]

/-- Writing a canonical tree. -/
theorem canon_writes {E : Env} {S : PropTy → Val → Prop} {ic tr : Bool} {w : World} {p : PropSpec}
    {v : Val} (h : Canon E S ic tr w p v) : ∀ nm, ∃ N j, WritesAs E w ic N nm p v j := by
  induction h with
  | scalar p v hc hs hcs _ =>
    intro nm
    obtain ⟨j, hj, hn, _⟩ := hcs.json
    have hrun : ∀ n, 1 ≤ n → ∀ ws, run E n (.serializeP nm p v ⟨ic, false⟩) ws =
        (.ok (if v.isNone then .none else j), ws) := by
      intro n hn ws
      obtain ⟨m, rfl⟩ : ∃ m, n = m + 1 := ⟨n - 1, by omega⟩
      show serializeBody E (run E m) nm p v _ ws = _
      unfold serializeBody
      simp only [hc.1]
      cases hvn : v.isNone with
      | true => rfl
      | false =>
        simp only [Bool.false_eq_true, if_false]
        cases hty : p.ty <;> rw [hty] at hs hj <;> first
          | exact hs.elim
          | (simp only [hj]; rfl)
    refine ⟨1, _, ?_, fun n hn ws _ _ => hrun n hn ws⟩
    cases hvn : v.isNone with
    | true =>
      cases v <;> cases hvn
      exact .none nm p hc.1
    | false => exact .scalar nm p v j hc.1 (by rintro rfl; cases hvn) hj
  | custom p v j hs hv _ hw _ _ _ =>
    intro nm
    rcases hw with ⟨hser, hj⟩ | ⟨f, hser, hj⟩
    · refine ⟨1, j, .scalar nm p v j hser hv hj, fun n hn ws _ _ => ?_⟩
      obtain ⟨m, rfl⟩ : ∃ m, n = m + 1 := ⟨n - 1, by omega⟩
      show serializeBody E (run E m) nm p v _ ws = _
      unfold serializeBody
      have hnn : v.isNone = false := by cases v <;> first | rfl | exact absurd rfl hv
      simp only [hser, hnn, Bool.false_eq_true, if_false]
      cases hty : p.ty <;> rw [hty] at hs hj <;> first
        | exact hs.elim
        | (simp only [hj]; rfl)
    · refine ⟨1, j, .custom nm p f v j hser hj, fun n hn ws _ _ => ?_⟩
      obtain ⟨m, rfl⟩ : ∃ m, n = m + 1 := ⟨n - 1, by omega⟩
      show serializeBody E (run E m) nm p v _ ws = _
      unfold serializeBody
      simp only [hser]
      exact callWrapped_answers hj ws
  | seq p k it lo hi co xs hc hty hset _ ih =>
    intro nm
    obtain ⟨N, js, hjs⟩ := choose_list (A := fun x j N => WritesAs E w ic N nm it x j)
      (fun x y n m h h2 => writesAs_mono h2 h) xs fun x hx => ih x hx nm
    refine ⟨N + 1, .list js, .seq nm p it k lo hi co _ xs js hc.1 (ofKind_ne k xs).2 hty (iter_ofKind k xs)
      (serL_of (hjs.imp fun _ _ h => h.1)), fun n hn ws hws hcl => ?_⟩
    obtain ⟨m, rfl⟩ : ∃ m, n = m + 1 := ⟨n - 1, by omega⟩
    show serializeBody E (run E m) nm p _ _ ws = _
    unfold serializeBody
    have hnn : (ofKind k xs).isNone = false := by cases k <;> rfl
    simp only [hc.1, hty, hnn, Bool.false_eq_true, if_false, iter_ofKind]
    refine (bind_ok (mapML_forall₂ ((forall₂_memL hjs).imp fun x j h => ?_)))
    exact h.2.2 m (by omega) ws hws fun s t hs ht =>
      hcl s t (.item _ p it k lo hi co _ x xs s hc.1 hty (iter_ofKind k xs) h.1 hs) ht
  | dict p kp vp co kvs hc hty hsk hh hd hj1 hj2 hck _ ihk ihv =>
    intro nm
    obtain ⟨N, jvs, hjs⟩ := choose_list
      (A := fun (x j : Val × Val) N => WritesAs E w ic N nm kp x.1 j.1 ∧ WritesAs E w ic N nm vp x.2 j.2)
      (fun x y n m h h2 => ⟨writesAs_mono h2.1 h, writesAs_mono h2.2 h⟩) kvs fun x hx => by
        obtain ⟨n1, j1, h1⟩ := ihk x hx nm
        obtain ⟨n2, j2, h2⟩ := ihv x hx nm
        exact ⟨max n1 n2, (j1, j2), writesAs_mono h1 (Nat.le_max_left ..), writesAs_mono h2 (Nat.le_max_right ..)⟩
    have hhash : ∀ kv ∈ jvs, kv.1.hashable = true := by
      intro j hj
      obtain ⟨x, hx, h1, _⟩ := forall₂_right hjs hj
      exact hj1 x hx j.1 ((canon_scalar_inv (hck x hx) hsk).2.2 nm j.1 h1.1)
    refine ⟨N + 1, _, .dict nm p kp vp co kvs jvs hc.1 hty
      (serD_of (hjs.imp fun _ _ h => ⟨h.1.1, h.2.1⟩)) hhash, fun n hn ws hws hcl => ?_⟩
    obtain ⟨m, rfl⟩ : ∃ m, n = m + 1 := ⟨n - 1, by omega⟩
    show serializeBody E (run E m) nm p (.dict kvs) _ ws = _
    unfold serializeBody
    have hnn : (Val.dict kvs).isNone = false := rfl
    simp only [hc.1, hty, hnn, Bool.false_eq_true, if_false]
    refine (bind_ok (mapML_forall₂ ((forall₂_memL hjs).imp fun x j h => ?_))).trans ?_
    · rw [bind_ok (h.2.1.2 m (by omega) ws hws fun s t hs ht =>
        hcl s t (.key _ p kp vp co kvs x s hc.1 hty h.1 hs) ht), bind_ok (h.2.2.2 m (by omega) ws hws fun s t hs ht =>
        hcl s t (.value _ p kp vp co kvs x s hc.1 hty h.1 hs) ht)]
      rfl
    · unfold mkDict
      rw [if_pos (List.all_eq_true.2 hhash)]
      rfl
  | inst p c r o hc hty ho hsub hrec hreb hnd hown hcan ih =>
    intro nm
    obtain ⟨N, j, hj, hrun⟩ := writes_object (ic := ic) ho hnd hown
      (acc_no_cycle (canon_acc (Canon.inst p c r o hc hty ho hsub hrec hreb hnd hown hcan) nm r
        (.inst _ p c r hc.1 hty))) fun nm v e q h1 h2 h3 h4 => ih nm v e q h1 h2 h3 h4 nm
    refine ⟨N + 1, j, .inst nm p c r j hc.1 hty hj, fun n hn ws hws hcl => ?_⟩
    obtain ⟨m, rfl⟩ : ∃ m, n = m + 1 := ⟨n - 1, by omega⟩
    show serializeBody E (run E m) nm p (.obj r) _ ws = _
    unfold serializeBody
    have hnn : (Val.obj r).isNone = false := rfl
    simp only [hc.1, hty, hnn, Bool.false_eq_true, if_false]
    exact hrun m (by omega) ws hws fun t ht => hcl r t (.inst _ p c r hc.1 hty) ht
  | union p q pre post v hc hvn hty href _ _ hcan ih =>
    intro nm
    obtain ⟨N, j, hj, hrun⟩ := ih nm
    obtain ⟨hself, _, U, hU⟩ := canon_usable_self hcan
    have hp := canon_picks (post := post) hcan href nm
    refine ⟨max N (max U 1) + 1, j, .union nm p _ _ v q j hc.1 hvn hty hp hj, fun n hn ws hws hcl => ?_⟩
    obtain ⟨m, rfl⟩ : ∃ m, n = m + 2 := ⟨n - 2, by omega⟩
    have hk : ClsKept w ws := fun r c ⟨o, ho, hc⟩ => by
      obtain ⟨o', h1, h2, _⟩ := sameCore_some (fun r => (hws r).symm) ho
      exact ⟨o', h1, h2.trans hc⟩
    show serializeBody E (run E (m + 1)) nm p v _ ws = _
    unfold serializeBody
    have hnn : v.isNone = false := by cases v <;> first | rfl | exact absurd rfl hvn
    simp only [hc.1, hty, hnn, Bool.false_eq_true, if_false]
    refine unionSerialize_after
      ((hU w 0 v hself).valid (m + 1) (by omega) nm none ws hk (.inl (silent_none ws)))
      (hrun (m + 1) (by omega) ws hws fun s t hs ht => hcl s t (.union nm p _ _ v q s hc.1 hty hp hs) ht) pre fun p' hp' => ?_
    obtain ⟨e, he, hr⟩ := refuses_run (nm := nm) (href p' hp') hk (silent_none ws)
    exact ⟨e, he, hr m⟩

end Verif
