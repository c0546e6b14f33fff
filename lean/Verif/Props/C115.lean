import Verif.Props.C114
import Verif.Spec.PlainOwn

/-!
# C115: copies do not depend on trusted and strict
-/

namespace Verif
open Spec Spec.Exc

namespace Led

theorem none_unused {E : Env} {c : ClsId} {kvs kvs' : List (Val × Val)} (hl : kvs.length = kvs'.length)
    (hk : ∀ ab ∈ kvs.zip kvs', ab.1.1 = ab.2.1)
    (hy : ∀ ab ∈ kvs.zip kvs', ∃ k e q, ab.1.1 = .str k ∧ lookupS k (E.classes c).props = some e ∧ OwnSpec e q) :
    (unusedKeys (E.classes c).props kvs').filter (fun k => !(pyEq k (.str (s% "__class__")))) = [] := by
  have h : List.Forall₂ (fun a b : Val × Val => a.1 = b.1 ∧ ∃ k e q, a.1 = .str k ∧
      lookupS k (E.classes c).props = some e ∧ OwnSpec e q) kvs kvs' :=
    List.forall₂_iff_zip.2 ⟨hl, fun {x y} hm => ⟨hk (x, y) hm, hy (x, y) hm⟩⟩
  have hu : unusedKeys (E.classes c).props kvs' = [] := by
    clear hl hk hy
    induction h with
    | nil => rfl
    | cons h _ ih =>
      obtain ⟨h1, k, e, q, h2, h3, _⟩ := h
      rw [h1] at h2
      rw [Lab.unused_keys] at ih ⊢
      simp only [List.map_cons, h2, List.filter_cons, h3, Option.isSome_some, Bool.not_true, Bool.false_eq_true, if_false]
      exact ih
  rw [hu]
  rfl

theorem rec_wri {E : Env} : ∀ n nm p v v' (t t' s s' a : Bool), Written E p v v' →
    run E n (.deserializeP nm p v ⟨t, s, a⟩) = run E n (.deserializeP nm p v' ⟨t', s', a⟩) := by
  intro n
  induction n using Nat.strongRecOn with
  | ind n ihn =>
  intro nm p v v' t t' s s' a h
  cases n with
  | zero => rfl
  | succ n =>
  have ih := ihn n (by omega)
  show deserializeBody E (run E n) nm p v ⟨t, s, a⟩ = deserializeBody E (run E n) nm p v' ⟨t', s', a⟩
  cases h with
  | none _ hd =>
    unfold deserializeBody
    rw [hd]
    rfl
  | scalar _ _ hd hty =>
    unfold deserializeBody
    rw [hd]
    dsimp only
    split
    · rfl
    · generalize p.ty = ty at hty
      cases ty <;> first
        | exact hty.elim
        | rfl
  | seq _ k it lo hi co xs ys hd hty hl hx =>
    unfold deserializeBody
    rw [hd, hty]
    simp only [Val.isNone, Bool.false_eq_true, if_false, Val.iter?]
    have hm : mapML (fun x => run E n (.deserializeP nm it x ⟨t, s, a⟩)) xs =
        mapML (fun x => run E n (.deserializeP nm it x ⟨t', s', a⟩)) ys :=
      Tag.mapML_congr₂ (List.forall₂_iff_zip.2 ⟨hl, fun {x y} hm => ih nm it x y t t' s s' a (hx (x, y) hm)⟩)
    rw [hm]
  | dict _ kp vp co kvs kvs' hd hty hl hk hkk hx =>
    unfold deserializeBody
    rw [hd, hty]
    simp only [Val.isNone, Bool.false_eq_true, if_false]
    have hm : mapML (fun kv : Val × Val => do
          let k ← run E n (.deserializeP nm kp kv.1 ⟨t, s, a⟩)
          let x ← run E n (.deserializeP nm vp kv.2 ⟨t, s, a⟩)
          pure (k, x)) kvs =
        mapML (fun kv : Val × Val => do
          let k ← run E n (.deserializeP nm kp kv.1 ⟨t', s', a⟩)
          let x ← run E n (.deserializeP nm vp kv.2 ⟨t', s', a⟩)
          pure (k, x)) kvs' :=
      Tag.mapML_congr₂ (List.forall₂_iff_zip.2 ⟨hl, fun {x y} hm => by
        have h1 := hk (x, y) hm
        have h2 := ih nm vp _ _ t t' s s' a (hx (x, y) hm)
        have h3 := ih nm kp _ _ t t' s s' a (hkk (x, y) hm)
        dsimp only at h1 h2 h3
        rw [h2, h3, h1]⟩)
    rw [hm]
  | inst _ c kvs kvs' hd hty hl hk hx hy ht hn =>
    unfold deserializeBody
    rw [hd, hty]
    simp only [Val.isNone, Bool.false_eq_true, if_false]
    cases n with
    | zero => rfl
    | succ n =>
    have ih := ihn n (by omega)
    show hpDeserializeBody E (run E n) c (.dict (kvs ++ [(.str (s% "__class__"), .str (E.classes c).name)])) ⟨t, s, a⟩ =
      hpDeserializeBody E (run E n) c (.dict kvs') ⟨t', s', a⟩
    unfold hpDeserializeBody
    dsimp only
    rw [Lab.lab_class (kvs := kvs) hl hk ht, Lab.bare_class ht]
    have hst := Tag.state_pairs (ps := (E.classes c).props)
      (R := fun k x y => ∀ e, lookupS k (E.classes c).props = some e →
        (∀ q, OwnSpec e q → Written E q x y) ∧ ∃ q, OwnSpec e q)
      (List.forall₂_iff_zip.2 ⟨hl, fun {x y} hm => ⟨hk (x, y) hm, fun k hks e he =>
        ⟨fun q ho => hx (x, y) hm k e q hks he ho, by
          obtain ⟨k', e', q, h1, h2, h3⟩ := hy (x, y) hm
          obtain rfl : k' = k := Val.str.inj (h1.symm.trans hks)
          obtain rfl : e' = e := Option.some.inj (h2.symm.trans he)
          exact ⟨q, h3⟩⟩⟩⟩)
    have hent : mapML (deserEntry E (run E n) c ⟨t, s, false⟩) (propState (E.classes c).props (kvs ++ [(.str (s% "__class__"), .str (E.classes c).name)])) =
        mapML (deserEntry E (run E n) c ⟨t', s', false⟩) (propState (E.classes c).props kvs') := by
      rw [Tag.state_tags (by simp) hn]
      refine Tag.mapML_congr₂ (hst.imp ?_)
      rintro ⟨k, x⟩ ⟨k', y⟩ ⟨hkk, h⟩
      obtain rfl : k = k' := hkk
      unfold deserEntry
      dsimp only at h ⊢
      cases hl : lookupS k (E.classes c).props with
      | none => rfl
      | some e =>
        obtain ⟨h1, h2⟩ := h e hl
        have he : entryDeserialize E (run E n) k e x ⟨t, s, false⟩ =
            entryDeserialize E (run E n) k e y ⟨t', s', false⟩ := by
          cases e with
          | mutable q => exact ih k q x y t t' s s' false (h1 q (.inl rfl))
          | gettable q => exact ih k q x y t t' s s' false (h1 q (.inr rfl))
          | dynamic p g s d => obtain ⟨q, hq | hq⟩ := h2 <;> cases hq
          | renamed _ => obtain ⟨q, hq | hq⟩ := h2 <;> cases hq
        simp only [he]
    funext w
    rw [bind_ok (show (pure c : M ClsId) w = (.ok c, w) from rfl),
      bind_ok (show (pure c : M ClsId) w = (.ok c, w) from rfl), hent, Lab.lab_unused hl hk, none_unused hl hk hy]
    simp only [List.isEmpty_nil, Bool.not_true, Bool.and_false]
    rfl

/-- For reading an instance. -/
theorem read_any {E : Env} {c : ClsId} {v v' : Val}
    (h : Written E (.mk true none none .undef (.inst c)) v v') (n : Nat) (t t' s s' a : Bool) (w : World) :
    run E n (.hpDeserialize c v ⟨t, s, a⟩) w = run E n (.hpDeserialize c v' ⟨t', s', a⟩) w := by
  have key := rec_wri (n + 1) [] _ v v' t t' s s' a h
  have hb : ∀ (x : Val) (kw : DeKw), x.isNone = false →
      run E (n + 1) (.deserializeP [] (.mk true none none .undef (.inst c)) x kw) =
      run E n (.hpDeserialize c x kw) := by
    intro x kw hx
    show deserializeBody E (run E n) [] (.mk true none none .undef (.inst c)) x kw = _
    unfold deserializeBody
    simp only [PropSpec.deser, PropSpec.ty, hx, Bool.false_eq_true, if_false]
  cases h with
  | none => cases n <;> rfl
  | scalar _ _ _ hty => exact hty.elim
  | seq => rw [hb _ _ rfl, hb _ _ rfl] at key; rw [key]
  | dict => rw [hb _ _ rfl, hb _ _ rfl] at key; rw [key]
  | inst => rw [hb _ _ rfl, hb _ _ rfl] at key; rw [key]

end Led

namespace Tagd

theorem t_hashable {E : Env} {p : PropSpec} {x y : Val} (h : Written E p x y) (hh : x.hashable = true) : x = y := by
  cases h with
  | none => rfl
  | scalar => rfl
  | seq => cases hh
  | dict => cases hh
  | inst => cases hh

theorem t_sameHashable {E : Env} {p : PropSpec} {x y : Val} (h : Written E p x y) : x.hashable = y.hashable := by
  cases h <;> rfl

theorem t_isNone {E : Env} {p : PropSpec} {x y : Val} (h : Written E p x y) : x.isNone = y.isNone := by
  cases h <;> rfl

/-- Entries with the same key and related values. -/
def Rel (K : Val → Prop) (R : Val → Val → Prop) (a b : Val × Val) : Prop := a.1 = b.1 ∧ K a.1 ∧ R a.2 b.2

theorem r_dictSet {K : Val → Prop} {R : Val → Val → Prop} {k x y : Val} (hk : K k) (hxy : R x y) {d d' : List (Val × Val)}
    (h : List.Forall₂ (Rel K R) d d') : List.Forall₂ (Rel K R) (dictSet d k x) (dictSet d' k y) := by
  induction h with
  | nil => exact .cons ⟨rfl, hk, hxy⟩ .nil
  | @cons a b as bs hab _ ih =>
    obtain ⟨a1, a2⟩ := a
    obtain ⟨b1, b2⟩ := b
    obtain ⟨h1, hk', h2⟩ := hab
    simp only at h1 h2 hk'
    subst h1
    simp only [dictSet]
    split
    · exact .cons ⟨rfl, hk', hxy⟩ ‹_›
    · exact .cons ⟨rfl, hk', h2⟩ ih

theorem r_dictOfPairs {K : Val → Prop} {R : Val → Val → Prop} {jvs jvs' : List (Val × Val)} (h : List.Forall₂ (Rel K R) jvs jvs') :
    List.Forall₂ (Rel K R) (dictOfPairs jvs) (dictOfPairs jvs') := by
  unfold dictOfPairs
  have : ∀ d d', List.Forall₂ (Rel K R) d d' →
      List.Forall₂ (Rel K R) (jvs.foldl (fun d kv => dictSet d kv.1 kv.2) d)
        (jvs'.foldl (fun d kv => dictSet d kv.1 kv.2) d') := by
    induction h with
    | nil => exact fun _ _ h => h
    | cons hab _ ih =>
      intro d d' hd
      simp only [List.foldl_cons]
      refine ih _ _ ?_
      rw [← hab.1]
      exact r_dictSet hab.2.1 hab.2.2 hd
  exact this [] [] .nil

theorem r_filterNone {R : Val × Val → Val × Val → Prop} (hR : ∀ a b, R a b → a.2.isNone = b.2.isNone)
    {d d' : List (Val × Val)} (h : List.Forall₂ R d d') :
    List.Forall₂ R (d.filter (fun kv => !kv.2.isNone)) (d'.filter (fun kv => !kv.2.isNone)) := by
  induction h with
  | nil => exact .nil
  | cons hab _ ih =>
    simp only [List.filter_cons]
    rw [hR _ _ hab]
    split
    · exact .cons hab ih
    · exact ih

/-- Read as an instance of class `c`. -/
def AsInst (E : Env) (c : ClsId) (j j' : Val) : Prop :=
  ∀ p : PropSpec, p.deser = none → p.ty = .inst c → Written E p j j'

theorem ser_tag {E : Env} {ws : World} {n : Nat}
    (ho : ∀ m, m < n → ∀ r c, (∀ d, classAt ws r = some d → d = c) →
      Both ws ws (AsInst E c) (run E m (.hpSerialize r ⟨true, false⟩)) (run E m (.hpSerialize r ⟨false, false⟩))) :
    ∀ m, m ≤ n → ∀ nm p v, PlainOwn (classAt ws) p v →
      Both ws ws (Written E p) (run E m (.serializeP nm p v ⟨true, false⟩)) (run E m (.serializeP nm p v ⟨false, false⟩))
  | 0, _, _, _, _, _ => .inr ⟨_, _, rfl, rfl⟩
  | m + 1, hm, nm, p, v, hw => by
    have ih := ser_tag ho m (by omega)
    have ho := ho m (by omega)
    show Both ws ws (Written E p) (serializeBody E (run E m) nm p v ⟨true, false⟩)
      (serializeBody E (run E m) nm p v ⟨false, false⟩)
    unfold serializeBody
    have hser : p.ser = none := by cases hw <;> assumption
    have hdes : p.deser = none := by cases hw <;> assumption
    rw [hser]
    dsimp only
    split
    · exact both_pure (.none _ hdes)
    cases hw with
    | scalar _ _ _ _ hty =>
      generalize hg : p.ty = ty at hty ⊢
      cases ty <;> first
        | exact hty.elim
        | (dsimp only
           generalize scalarToJson E _ v = y
           rcases y with _ | (k | j)
           · exact both_raiseK _ _
           · exact .inr ⟨_, _, rfl, rfl⟩
           · exact .inl ⟨j, j, rfl, rfl, .scalar _ _ hdes (by rw [hg]; trivial)⟩)
    | seq _ k it lo hi co _ _ hde hty hit =>
      rw [hty]
      dsimp only
      split <;> rename_i hi
      · exact both_raiseK _ _
      · refine both_bind (both_mapML fun x hx => ih nm _ x (hit _ hi x hx)) fun _ _ h => both_pure ?_
        obtain ⟨h1, h2⟩ := List.forall₂_iff_zip.1 h
        exact .seq _ _ _ _ _ _ _ _ hde hty h1 fun xy hm => h2 (a := xy.1) (b := xy.2) hm
    | dict _ kp vp co _ _ hde hty hk hv =>
      rw [hty]
      dsimp only
      split
      · rename_i kvs _
        refine both_bind (R := List.Forall₂ fun a b => Written E kp a.1 b.1 ∧ Written E vp a.2 b.2)
          (both_mapML fun kv hkv => both_bind (ih nm _ kv.1 (hk kvs rfl kv hkv)) fun a b hab =>
            both_bind (ih nm _ kv.2 (hv kvs rfl kv hkv)) fun c d hcd => both_pure ⟨hab, hcd⟩) ?_
        intro a b hab
        unfold mkDict
        have hh : (a.all fun kv => kv.1.hashable) = (b.all fun kv => kv.1.hashable) := by
          induction hab with
          | nil => rfl
          | cons h _ ih => simp only [List.all_cons, ih, t_sameHashable h.1]
        rw [← hh]
        split
        · rename_i ha
          have hd : List.Forall₂ (Rel (fun k => Written E kp k k) (Written E vp)) (dictOfPairs a) (dictOfPairs b) := by
            refine r_dictOfPairs ?_
            rw [List.all_eq_true] at ha
            clear hh
            induction hab with
            | nil => exact .nil
            | cons h _ ih =>
              have he := t_hashable h.1 (ha _ (by simp))
              exact .cons ⟨he, (by have := h.1; rwa [← he] at this), h.2⟩ (ih fun z hz => ha z (by simp [hz]))
          obtain ⟨h1, h2⟩ := List.forall₂_iff_zip.1 hd
          exact both_pure (.dict _ _ _ _ _ _ hde hty h1 (fun ab hm => (h2 (a := ab.1) (b := ab.2) hm).1)
            (fun ab hm => (h2 (a := ab.1) (b := ab.2) hm).2.1) fun ab hm => (h2 (a := ab.1) (b := ab.2) hm).2.2)
        · exact both_raiseK _ _
      · exact both_raiseK _ _
    | inst _ c _ _ hde hty hc =>
      rw [hty]
      dsimp only
      rcases hc with rfl | ⟨r, rfl, hc⟩
      · rename_i hn; exact absurd rfl hn
      · dsimp only
        rcases ho r c hc with ⟨a, b, h1, h2, h3⟩ | ⟨e, e', h1, h2⟩
        · exact .inl ⟨a, b, h1, h2, h3 p hde hty⟩
        · exact .inr ⟨e, e', h1, h2⟩

theorem exact_mark {E : Env} {w : World} (h : PlainOwnWorld E w) (r : Nat) :
    PlainOwnWorld E (w.setObj r fun o => { o with gs := true }) := by
  have hcl : classAt (w.setObj r fun o => { o with gs := true }) = classAt w := by
    funext i
    unfold classAt World.setObj
    rw [List.getElem?_modify]
    cases w.objs[i]? with
    | none => rfl
    | some o => by_cases hr : r = i <;> simp [hr]
  intro i o hi
  rw [hcl]
  unfold World.setObj at hi
  rw [List.getElem?_modify] at hi
  cases ho : w.objs[i]? with
  | none => rw [ho] at hi; cases hi
  | some o' =>
    rw [ho] at hi
    have := h i o' ho
    by_cases hr : r = i
    · simp only [hr, if_true, Option.map_eq_map, Option.map_some, Option.some.injEq] at hi
      subst hi
      exact this
    · simp only [hr, if_false, Option.map_eq_map, Option.map_some, Option.some.injEq, id] at hi
      subst hi
      exact this

theorem hp_tag {E : Env} : ∀ (n : Nat) {ws : World}, PlainOwnWorld E ws → ∀ r c, (∀ d, classAt ws r = some d → d = c) →
    Both ws ws (AsInst E c) (run E n (.hpSerialize r ⟨true, false⟩)) (run E n (.hpSerialize r ⟨false, false⟩)) := by
  intro n
  induction n using Nat.strongRecOn with
  | ind n ihn =>
  intro ws ht r c hc
  cases n with
  | zero => exact .inr ⟨_, _, rfl, rfl⟩
  | succ m =>
  show Both ws ws (AsInst E c) (hpSerializeBody E (run E m) r ⟨true, false⟩)
    (hpSerializeBody E (run E m) r ⟨false, false⟩)
  unfold hpSerializeBody
  cases ho : ws.objs[r]? with
  | none => exact .inr ⟨_, _, bind_err (getObj_none ho), bind_err (getObj_none ho)⟩
  | some o =>
  obtain rfl : o.cls = c := hc _ (by unfold classAt; rw [ho]; rfl)
  refine both_bind (R := fun a b => a = o ∧ b = o) (.inl ⟨o, o, getObj_some ho, getObj_some ho, rfl, rfl⟩) ?_
  rintro a a' ⟨ha, ha'⟩
  rw [ha, ha']
  clear ha ha' a a' hc
  cases hg : o.gs with
  | true => exact both_raiseK _ _
  | false =>
  simp only [Bool.false_eq_true, if_false, if_true]
  obtain ⟨hN, hC, hB⟩ := ht r o ho
  have hback := markObj_back ho hg
  have ht1 := exact_mark ht r
  have ho1 : (ws.setObj r fun o => { o with gs := true }).objs[r]? = some { o with gs := true } := by
    unfold World.setObj; rw [List.getElem?_modify]; simp [ho]
  have hB1 := (ht1 r _ ho1).2.2
  generalize hws1 : ws.setObj r (fun o => { o with gs := true }) = ws1 at *
  have hser := ser_tag (E := E) (n := m) (fun k hkm r c => ihn k (by omega) ht1 r c) m (Nat.le_refl m)
  have hact : ∀ key ∈ o.backend.map (·.1), Both ws1 ws1 (fun a b => a.1 = b.1 ∧ ∃ nm e p, a.1 = .str nm ∧
        lookupS nm (E.classes o.cls).props = some e ∧ OwnSpec e p ∧ Written E p a.2 b.2)
      (match lookupS key (E.classes o.cls).props with
        | none => raiseK .key
        | some e => do
            let v ← run E m (.getattr r key)
            let j ← entrySerialize E (run E m) key e v ⟨true, false⟩
            pure (Val.str key, j))
      (match lookupS key (E.classes o.cls).props with
        | none => raiseK .key
        | some e => do
            let v ← run E m (.getattr r key)
            let j ← entrySerialize E (run E m) key e v ⟨false, false⟩
            pure (Val.str key, j)) := by
    intro key hkey
    obtain ⟨⟨nm, v⟩, hmem, rfl⟩ := List.mem_map.1 hkey
    obtain ⟨e, p, hlk, hown, hex⟩ := hB1 nm v hmem
    have hlk' : lookupS nm (E.classes o.cls).props = some e := hlk
    simp only [hlk']
    have hv : lookupS nm o.backend = some v := mem_lookupS hN hmem
    cases m with
    | zero => exact .inr ⟨_, _, bind_err rfl, bind_err rfl⟩
    | succ m' =>
    have hget : run E (m' + 1) (.getattr r nm) ws1 = (.ok v, ws1) := by
      show getattrBody E (run E m') r nm ws1 = _
      rcases hown with rfl | rfl
      · rw [getattr_mutable ho1 hlk]; exact congrArg (fun v => (Except.ok v, ws1)) (by simp [hv])
      · rw [getattr_gettable ho1 hlk]; exact congrArg (fun v => (Except.ok v, ws1)) (by simp [hv])
    refine both_bind (R := fun a b => a = v ∧ b = v) (.inl ⟨v, v, hget, hget, rfl, rfl⟩) ?_
    rintro a a' ⟨ha, ha'⟩
    rw [ha, ha']
    have hent : ∀ kw, entrySerialize E (run E (m' + 1)) nm e v kw = run E (m' + 1) (.serializeP nm p v kw) := by
      rcases hown with rfl | rfl <;> exact fun _ => rfl
    rw [hent, hent]
    exact both_bind (hser nm p v hex) fun _ _ h => both_pure ⟨rfl, nm, e, p, rfl, hlk', hown, h⟩
  have hdata := both_mapML hact
  have key : Both ws1 ws1 (AsInst E o.cls)
      (do
        let data ← mapML (fun key => do
          match lookupS key (E.classes o.cls).props with
          | none => raiseK .key
          | some e => do
              let v ← run E m (.getattr r key)
              let j ← entrySerialize E (run E m) key e v ⟨true, false⟩
              pure (Val.str key, j)) (o.backend.map (·.1))
        pure (.dict (dictSet (data.filter (fun kv => !kv.2.isNone)) (.str (s% "__class__")) (.str (E.classes o.cls).name))))
      (do
        let data ← mapML (fun key => do
          match lookupS key (E.classes o.cls).props with
          | none => raiseK .key
          | some e => do
              let v ← run E m (.getattr r key)
              let j ← entrySerialize E (run E m) key e v ⟨false, false⟩
              pure (Val.str key, j)) (o.backend.map (·.1))
        pure (.dict (data.filter (fun kv => !kv.2.isNone)))) := by
    refine both_bind hdata fun d d' hd => ?_
    have hd' := r_filterNone (fun a b h => by obtain ⟨_, _, _, _, _, _, _, h⟩ := h; exact t_isNone h) hd
    have h3 : ∀ kv ∈ d.filter (fun kv => !kv.2.isNone), kv.1 ≠ .str (s% "__class__") := by
      generalize d.filter (fun kv => !kv.2.isNone) = x at hd' ⊢
      generalize d'.filter (fun kv => !kv.2.isNone) = y at hd'
      induction hd' with
      | nil => simp
      | cons h _ ih =>
        intro kv hkv
        rcases List.mem_cons.1 hkv with rfl | hkv
        · obtain ⟨_, nm, e, p, hnm, hlk, _⟩ := h
          intro hq
          rw [hnm] at hq
          rw [Val.str.inj hq, hC] at hlk
          cases hlk
        · exact ih kv hkv
    rw [dictSet_new fun kv hkv => by
      have := h3 kv hkv
      cases hq : pyEq kv.1 (.str (s% "__class__")) with
      | false => rfl
      | true => exact absurd (Ign.pyEq_text hq) this]
    refine both_pure fun p hde hty => ?_
    obtain ⟨h1, h2⟩ := List.forall₂_iff_zip.1 hd'
    refine .inst p o.cls _ _ hde hty h1 (fun ab hm => (h2 (a := ab.1) (b := ab.2) hm).1) ?_ ?_ ?_ hC
    · intro ab hm k e q hk hl hown
      obtain ⟨_, nm, e', p', hnm, hlk, hown', hT⟩ := h2 (a := ab.1) (b := ab.2) hm
      obtain rfl : nm = k := Val.str.inj (hnm.symm.trans hk)
      obtain rfl : e' = e := Option.some.inj (hlk.symm.trans hl)
      obtain rfl : p' = q := by
        rcases hown with rfl | rfl <;> rcases hown' with h | h <;> cases h <;> rfl
      exact hT
    · intro ab hm
      obtain ⟨_, nm, e', p', hnm, hlk, hown', hT⟩ := h2 (a := ab.1) (b := ab.2) hm
      exact ⟨nm, e', p', hnm, hlk, hown'⟩
    · have hke := Lab.keys_eq h1 fun ab hm => (h2 (a := ab.1) (b := ab.2) hm).1
      intro kv hm hq
      have : Val.str (s% "__class__") ∈ (d.filter (fun kv => !kv.2.isNone)).map (·.1) := by
        rw [hke]
        exact List.mem_map.2 ⟨kv, hm, hq⟩
      obtain ⟨kv', hm', hq'⟩ := List.mem_map.1 this
      exact h3 kv' hm' hq'
  rcases key with ⟨x, x', h1, h2, hr⟩ | ⟨e, e', h1, h2⟩
  · refine .inl ⟨x, x', ?_, ?_, hr⟩
    · rw [bind_ok (modObj_apply _ _ _), hws1]
      refine (congrArg (fun q : Except PyErr Val × World =>
        (q.1, q.2.setObj r (fun o => { o with gs := false }))) h1).trans ?_
      rw [hback]
    · rw [bind_ok (modObj_apply _ _ _), hws1]
      refine (congrArg (fun q : Except PyErr Val × World =>
        (q.1, q.2.setObj r (fun o => { o with gs := false }))) h2).trans ?_
      rw [hback]
  · refine .inr ⟨e, e', ?_, ?_⟩
    · rw [bind_ok (modObj_apply _ _ _), hws1]
      refine (congrArg (fun q : Except PyErr Val × World =>
        (q.1, q.2.setObj r (fun o => { o with gs := false }))) h1).trans ?_
      rw [hback]
    · rw [bind_ok (modObj_apply _ _ _), hws1]
      refine (congrArg (fun q : Except PyErr Val × World =>
        (q.1, q.2.setObj r (fun o => { o with gs := false }))) h2).trans ?_
      rw [hback]

end Tagd

/-- **C115**.  Where neither registered functions nor Unions read or write and
instances are of the class declared, `copy` is the same with and without `trusted`
and `strict`: the same result or exception and the same state. -/
theorem C115_copy {E : Env} {w : World} (hE : PlainOwnWorld E w) {r : Nat} {o : Obj} (ho : w.objs[r]? = some o)
    (n : Nat) (ic t t' s s' a : Bool) :
    run E (n + 1) (.copy (.obj r) ⟨ic, false⟩ ⟨t, s, a⟩) w =
      run E (n + 1) (.copy (.obj r) ⟨ic, false⟩ ⟨t', s', a⟩) w := by
  have hc : ∀ d, classAt w r = some d → d = o.cls := by
    intro d hd
    unfold classAt at hd
    rw [ho] at hd
    exact (Option.some.inj hd).symm
  rcases Tagd.hp_tag n hE r o.cls hc with ⟨j, j', h1, h2, h3⟩ | ⟨e, e', h1, h2⟩
  · have hr := Led.read_any (h3 (.mk true none none .undef (.inst o.cls)) rfl rfl) n
    cases ic with
    | true =>
      rw [copy_parts ho h1, copy_parts ho h1]
      exact (hr t t s s a w).trans (hr t' t s' s a w).symm
    | false =>
      rw [copy_parts ho h2, copy_parts ho h2]
      exact (hr t t s s a w).symm.trans (hr t t' s s' a w)
  · cases ic with
    | true => rw [copy_fails ho h1, copy_fails ho h1]
    | false => rw [copy_fails ho h2, copy_fails ho h2]

/-! ## Own classes and a subclass -/

/-- The classes of C112 and a subclass 2 of the points, found under the name `Q`. -/
def c115Env : Env := { demoEnv with
  classes := fun c => { (default : ClassDef) with
    name := if c = 0 then s% "P" else if c = 2 then s% "Q" else s% "L"
    registry := [(s% "Q", 2)], ancestors := if c = 2 then [0] else []
    props := if c = 1 then [(s% "i", .mutable c112Ends)] else [(s% "a", .mutable c110Num)] } }

/-- A line with a point of the subclass. -/
def c115W : World := { objs := [{ cls := 2 }, { cls := 1, backend := [(s% "i", .list [.obj 0])] }] }

theorem c115_written : run c115Env 9 (.hpSerialize 1 ⟨true, false⟩) c115W = (.ok (.dict [(.str (s% "i"),
      .list [.dict [(.str (s% "__class__"), .str (s% "Q"))]]), (.str (s% "__class__"), .str (s% "L"))]), c115W) := by
  with_unfolding_all rfl

theorem c115_trusted : (run c115Env 10 (.copy (.obj 1) {} { trusted := true }) c115W).2.objs.map Obj.cls =
    [2, 1, 2, 1] := by
  rw [copy_parts rfl c115_written]
  with_unfolding_all rfl

theorem c115_untrusted : (run c115Env 10 (.copy (.obj 1) {} {}) c115W).2.objs.map Obj.cls = [2, 1, 0, 1] := by
  rw [copy_parts rfl c115_written]
  with_unfolding_all rfl

/-- The line of C114 meets the hypotheses; where a point is of a subclass, the copy
has a point of that class with `trusted` only. -/
theorem C115_example : PlainOwnWorld c112Env c114W ∧
    (run c115Env 10 (.copy (.obj 1) {} { trusted := true }) c115W).2.objs.map Obj.cls = [2, 1, 2, 1] ∧
    (run c115Env 10 (.copy (.obj 1) {} {}) c115W).2.objs.map Obj.cls = [2, 1, 0, 1] := by
  refine ⟨fun r o ho => ?_, c115_trusted, c115_untrusted⟩
  have hm : o ∈ c114W.objs := List.mem_of_getElem? ho
  simp only [c114W, List.mem_cons, List.not_mem_nil, or_false] at hm
  rcases hm with rfl | rfl | rfl
  · refine ⟨by simp, rfl, fun nm v hv => ?_⟩
    obtain ⟨rfl, rfl⟩ := Prod.mk.inj (List.mem_singleton.1 hv)
    exact ⟨.mutable c110Num, c110Num, rfl, .inl rfl, .scalar _ _ rfl rfl trivial⟩
  · exact ⟨List.nodup_nil, rfl, fun nm v hv => by cases hv⟩
  · refine ⟨by simp, rfl, fun nm v hv => ?_⟩
    obtain ⟨rfl, rfl⟩ := Prod.mk.inj (List.mem_singleton.1 hv)
    refine ⟨.mutable c112Ends, c112Ends, rfl, .inl rfl, .seq _ _ _ _ _ _ _ rfl rfl rfl fun xs hx x hm => ?_⟩
    cases hx
    simp only [List.mem_cons, List.not_mem_nil, or_false] at hm
    rcases hm with rfl | rfl <;>
      exact .inst _ 0 _ rfl rfl rfl (.inr ⟨_, rfl, fun d hd => (Option.some.inj hd).symm⟩)

end Verif
