import Verif.Props.C113
import Verif.Props.C108
import Verif.Props.C109
import Verif.Spec.OwnClass

/-!
# C114: copies do not depend on include_class
-/

namespace Verif
open Spec Spec.Exc

namespace Lab

theorem keys_eq {kvs kvs' : List (Val × Val)} (hl : kvs.length = kvs'.length)
    (hk : ∀ ab ∈ kvs.zip kvs', ab.1.1 = ab.2.1) : kvs.map (·.1) = kvs'.map (·.1) := by
  have : List.Forall₂ (fun a b : Val × Val => a.1 = b.1) kvs kvs' :=
    List.forall₂_iff_zip.2 ⟨hl, fun {x y} hm => hk (x, y) hm⟩
  induction this with
  | nil => rfl
  | cons h h2 ih =>
    obtain ⟨h3, h4⟩ := List.forall₂_iff_zip.1 h2
    rw [List.map_cons, List.map_cons, h, ih h3 fun ab hm => h4 (a := ab.1) (b := ab.2) hm]

theorem get_none {k : PyStr} : ∀ {kvs : List (Val × Val)}, (∀ kv ∈ kvs, kv.1 ≠ .str k) → dictGet? kvs (.str k) = none
  | [], _ => rfl
  | (a, v) :: kvs, h => by
    have hne : pyEq a (.str k) ≠ true := fun he => h (a, v) (by simp) (Ign.pyEq_text he)
    simp only [dictGet?, if_neg hne]
    exact get_none fun kv hm => h kv (by simp [hm])

theorem get_last {k : PyStr} {x : Val} : ∀ {kvs : List (Val × Val)}, (∀ kv ∈ kvs, kv.1 ≠ .str k) →
    dictGet? (kvs ++ [(.str k, x)]) (.str k) = some x
  | [], _ => by simp [dictGet?, pyEq]
  | (a, v) :: kvs, h => by
    have hne : pyEq a (.str k) ≠ true := fun he => h (a, v) (by simp) (Ign.pyEq_text he)
    simp only [List.cons_append, dictGet?, if_neg hne]
    exact get_last fun kv hm => h kv (by simp [hm])

theorem bare_class {E : Env} {c : ClsId} {kvs' : List (Val × Val)} (ht : ∀ kv ∈ kvs', kv.1 ≠ .str (s% "__class__"))
    {t s : Bool} : deserializeClass E c ((dictGet? kvs' (.str (s% "__class__"))).getD .none) t s = pure c := by
  rw [get_none ht]
  rfl

theorem lab_class {E : Env} {c : ClsId} {kvs kvs' : List (Val × Val)} (hl : kvs.length = kvs'.length)
    (hk : ∀ ab ∈ kvs.zip kvs', ab.1.1 = ab.2.1) (ht : ∀ kv ∈ kvs', kv.1 ≠ .str (s% "__class__")) {t s : Bool} :
    deserializeClass E c ((dictGet? (kvs ++ [(.str (s% "__class__"), .str (E.classes c).name)])
      (.str (s% "__class__"))).getD .none) t s = pure c := by
  have ht' : ∀ kv ∈ kvs, kv.1 ≠ .str (s% "__class__") := by
    intro kv hm hq
    have : Val.str (s% "__class__") ∈ kvs'.map (·.1) := by
      rw [← keys_eq hl hk]
      exact List.mem_map.2 ⟨kv, hm, hq⟩
    obtain ⟨kv', hm', hq'⟩ := List.mem_map.1 this
    exact ht kv' hm' hq'
  rw [get_last ht']
  unfold deserializeClass
  simp [pyEq]

theorem unused_keys (ps : List (PyStr × Entry)) (kvs : List (Val × Val)) : unusedKeys ps kvs =
    (kvs.map (·.1)).filter (fun k => match k with
      | .str k => !(lookupS k ps).isSome
      | _ => true) := by
  unfold unusedKeys
  rw [List.filter_map]
  rfl

theorem lab_unused {ps : List (PyStr × Entry)} {x : Val} {kvs kvs' : List (Val × Val)} (hl : kvs.length = kvs'.length)
    (hk : ∀ ab ∈ kvs.zip kvs', ab.1.1 = ab.2.1) :
    (unusedKeys ps (kvs ++ [(.str (s% "__class__"), x)])).filter (fun k => !(pyEq k (.str (s% "__class__")))) =
    (unusedKeys ps kvs').filter (fun k => !(pyEq k (.str (s% "__class__")))) := by
  rw [unused_keys, unused_keys, List.map_append, keys_eq hl hk, List.filter_append, List.filter_append]
  have : ∀ l : List Val, (∀ k ∈ l, k = .str (s% "__class__")) →
      l.filter (fun k => !(pyEq k (.str (s% "__class__")))) = [] := by
    intro l hl
    rw [List.filter_eq_nil_iff]
    intro k hm
    rw [hl k hm]
    simp [pyEq]
  rw [this (List.filter _ (List.map _ [(Val.str (s% "__class__"), x)])) ?_, List.append_nil]
  intro k hm
  have := (List.mem_filter.1 hm).1
  simpa using this

theorem rec_lab {E : Env} : ∀ n nm p v v' (kw : DeKw), Labelled E p v v' →
    run E n (.deserializeP nm p v kw) = run E n (.deserializeP nm p v' kw) := by
  intro n
  induction n using Nat.strongRecOn with
  | ind n ihn =>
  intro nm p v v' kw h
  cases n with
  | zero => rfl
  | succ n =>
  have ih := ihn n (by omega)
  show deserializeBody E (run E n) nm p v _ = deserializeBody E (run E n) nm p v' _
  cases h with
  | same => rfl
  | seq _ k it lo hi co xs ys hd hty hl hx =>
    unfold deserializeBody
    rw [hd, hty]
    simp only [Val.isNone, Bool.false_eq_true, if_false, Val.iter?]
    have hm : mapML (fun x => run E n (.deserializeP nm it x kw)) xs =
        mapML (fun x => run E n (.deserializeP nm it x kw)) ys :=
      Tag.mapML_congr₂ (List.forall₂_iff_zip.2 ⟨hl, fun {x y} hm => ih nm it x y kw (hx (x, y) hm)⟩)
    rw [hm]
  | dict _ kp vp co kvs kvs' hd hty hl hk hx =>
    unfold deserializeBody
    rw [hd, hty]
    simp only [Val.isNone, Bool.false_eq_true, if_false]
    rw [Tag.mapML_congr₂ (List.forall₂_iff_zip.2 ⟨hl, fun {x y} hm => by
      have h1 := hk (x, y) hm
      have h2 := ih nm vp _ _ kw (hx (x, y) hm)
      dsimp only at h1 h2
      rw [h1, h2]⟩)]
  | inst _ c kvs kvs' hd hty hl hk hx hy ht hn =>
    unfold deserializeBody
    rw [hd, hty]
    simp only [Val.isNone, Bool.false_eq_true, if_false]
    cases n with
    | zero => rfl
    | succ n =>
    have ih := ihn n (by omega)
    show hpDeserializeBody E (run E n) c (.dict (kvs ++ [(.str (s% "__class__"), .str (E.classes c).name)])) kw =
      hpDeserializeBody E (run E n) c (.dict kvs') kw
    unfold hpDeserializeBody
    dsimp only
    rw [lab_class (kvs := kvs) hl hk ht, bare_class ht]
    have hst := Tag.state_pairs (ps := (E.classes c).props)
      (R := fun k x y => ∀ e, lookupS k (E.classes c).props = some e →
        (∀ q, OwnSpec e q → Labelled E q x y) ∧ ((∀ q, ¬OwnSpec e q) → x = y))
      (List.forall₂_iff_zip.2 ⟨hl, fun {x y} hm => ⟨hk (x, y) hm, fun k hks e he =>
        ⟨fun q ho => hx (x, y) hm k e q hks he ho, fun ho => hy (x, y) hm k e hks he ho⟩⟩⟩)
    have hent : mapML (deserEntry E (run E n) c { kw with assertValid := false }) (propState (E.classes c).props (kvs ++ [(.str (s% "__class__"), .str (E.classes c).name)])) =
        mapML (deserEntry E (run E n) c { kw with assertValid := false }) (propState (E.classes c).props kvs') := by
      rw [Tag.state_tags (by simp) hn]
      refine Tag.mapML_congr₂ (hst.imp ?_)
      rintro ⟨k, x⟩ ⟨k', y⟩ ⟨hkk, h⟩
      obtain rfl : k = k' := hkk
      unfold deserEntry
      dsimp only at h ⊢
      cases hl : lookupS k (E.classes c).props with
      | none => rfl
      | some e =>
        obtain ⟨h1, h2⟩ := h e hl
        have he : entryDeserialize E (run E n) k e x { kw with assertValid := false } =
            entryDeserialize E (run E n) k e y { kw with assertValid := false } := by
          cases e with
          | mutable q => exact ih k q x y _ (h1 q (.inl rfl))
          | gettable q => exact ih k q x y _ (h1 q (.inr rfl))
          | dynamic p g s d => rw [h2 fun q hq => by rcases hq with hq | hq <;> cases hq]
          | renamed _ => rw [h2 fun q hq => by rcases hq with hq | hq <;> cases hq]
        simp only [he]
    funext w
    rw [bind_ok (show (pure c : M ClsId) w = (.ok c, w) from rfl),
      bind_ok (show (pure c : M ClsId) w = (.ok c, w) from rfl), hent, lab_unused hl hk]

/-- For reading an instance. -/
theorem read_same {E : Env} {c : ClsId} {v v' : Val}
    (h : Labelled E (.mk true none none .undef (.inst c)) v v') (n : Nat) (kw : DeKw) (w : World) :
    run E n (.hpDeserialize c v kw) w = run E n (.hpDeserialize c v' kw) w := by
  by_cases hv : v.isNone = true
  · cases h with
    | same => rfl
    | seq => cases hv
    | dict => cases hv
    | inst => cases hv
  · by_cases hv' : v'.isNone = true
    · cases h with
      | same => rfl
      | seq => cases hv'
      | dict => cases hv'
      | inst => cases hv'
    · have key := rec_lab (n + 1) [] _ v v' kw h
      have hb : ∀ x : Val, ¬x.isNone = true →
          run E (n + 1) (.deserializeP [] (.mk true none none .undef (.inst c)) x kw) =
          run E n (.hpDeserialize c x kw) := by
        intro x hx
        show deserializeBody E (run E n) [] (.mk true none none .undef (.inst c)) x kw = _
        unfold deserializeBody
        simp only [PropSpec.deser, PropSpec.ty, hx, if_false]
        rfl
      rw [hb v hv, hb v' hv'] at key
      rw [key]

end Lab

namespace Tagc

theorem t_hashable {E : Env} {p : PropSpec} {x y : Val} (h : Labelled E p x y) (hh : x.hashable = true) : x = y := by
  cases h with
  | same => rfl
  | seq => cases hh
  | dict => cases hh
  | inst => cases hh

theorem t_sameHashable {E : Env} {p : PropSpec} {x y : Val} (h : Labelled E p x y) : x.hashable = y.hashable := by
  cases h <;> rfl

theorem t_isNone {E : Env} {p : PropSpec} {x y : Val} (h : Labelled E p x y) : x.isNone = y.isNone := by
  cases h <;> rfl

/-- Entries with the same key and related values. -/
def Rel (R : Val → Val → Prop) (a b : Val × Val) : Prop := a.1 = b.1 ∧ R a.2 b.2

theorem r_dictSet {R : Val → Val → Prop} {k x y : Val} (hxy : R x y) {d d' : List (Val × Val)}
    (h : List.Forall₂ (Rel R) d d') : List.Forall₂ (Rel R) (dictSet d k x) (dictSet d' k y) := by
  induction h with
  | nil => exact .cons ⟨rfl, hxy⟩ .nil
  | @cons a b as bs hab _ ih =>
    obtain ⟨a1, a2⟩ := a
    obtain ⟨b1, b2⟩ := b
    obtain ⟨h1, h2⟩ := hab
    simp only at h1 h2
    subst h1
    simp only [dictSet]
    split
    · exact .cons ⟨rfl, hxy⟩ ‹_›
    · exact .cons ⟨rfl, h2⟩ ih

theorem r_dictOfPairs {R : Val → Val → Prop} {jvs jvs' : List (Val × Val)} (h : List.Forall₂ (Rel R) jvs jvs') :
    List.Forall₂ (Rel R) (dictOfPairs jvs) (dictOfPairs jvs') := by
  unfold dictOfPairs
  have : ∀ d d', List.Forall₂ (Rel R) d d' →
      List.Forall₂ (Rel R) (jvs.foldl (fun d kv => dictSet d kv.1 kv.2) d)
        (jvs'.foldl (fun d kv => dictSet d kv.1 kv.2) d') := by
    induction h with
    | nil => exact fun _ _ h => h
    | cons hab _ ih =>
      intro d d' hd
      simp only [List.foldl_cons]
      refine ih _ _ ?_
      rw [hab.1]
      exact r_dictSet hab.2 hd
  exact this [] [] .nil

theorem r_filterNone {R : Val × Val → Val × Val → Prop} (hR : ∀ a b, R a b → a.2.isNone = b.2.isNone)
    {d d' : List (Val × Val)} (h : List.Forall₂ R d d') :
    List.Forall₂ R (d.filter (fun kv => !kv.2.isNone)) (d'.filter (fun kv => !kv.2.isNone)) := by
  induction h with
  | nil => exact .nil
  | cons hab _ ih =>
    simp only [List.filter_cons]
    rw [hR _ _ hab]
    split
    · exact .cons hab ih
    · exact ih

/-- Read as an instance of class `c`. -/
def AsInst (E : Env) (c : ClsId) (j j' : Val) : Prop :=
  ∀ p : PropSpec, p.deser = none → p.ty = .inst c → Labelled E p j j'

theorem ser_tag {E : Env} {ws : World} {n : Nat}
    (ho : ∀ m, m < n → ∀ r c, (∀ d, classAt ws r = some d → d = c) →
      BothS ws (AsInst E c) (run E m (.hpSerialize r ⟨true, false⟩)) (run E m (.hpSerialize r ⟨false, false⟩))) :
    ∀ m, m ≤ n → ∀ nm p v, OwnClass (classAt ws) p v →
      BothS ws (Labelled E p) (run E m (.serializeP nm p v ⟨true, false⟩)) (run E m (.serializeP nm p v ⟨false, false⟩))
  | 0, _, _, _, _, _ => .inr ⟨_, rfl, rfl⟩
  | m + 1, hm, nm, p, v, hw => by
    have ih := ser_tag ho m (by omega)
    have ho := ho m (by omega)
    show BothS ws (Labelled E p) (serializeBody E (run E m) nm p v ⟨true, false⟩)
      (serializeBody E (run E m) nm p v ⟨false, false⟩)
    unfold serializeBody
    have hser : p.ser = none := by cases hw <;> assumption
    rw [hser]
    dsimp only
    split
    · exact boths_pure (.same _ _)
    cases hw with
    | scalar _ _ _ hty =>
      generalize hg : p.ty = ty at hty ⊢
      cases ty <;> first
        | exact hty.elim
        | (dsimp only
           generalize scalarToJson E _ v = y
           rcases y with _ | (k | j)
           · exact boths_raiseK _
           · exact .inr ⟨_, rfl, rfl⟩
           · exact .inl ⟨j, j, rfl, rfl, .same _ _⟩)
    | seq _ k it lo hi co _ _ hde hty hit =>
      rw [hty]
      dsimp only
      split <;> rename_i hi
      · exact boths_raiseK _
      · refine boths_bind (boths_mapML fun x hx => ih nm _ x (hit _ hi x hx)) fun _ _ h => boths_pure ?_
        obtain ⟨h1, h2⟩ := List.forall₂_iff_zip.1 h
        exact .seq _ _ _ _ _ _ _ _ hde hty h1 fun xy hm => h2 (a := xy.1) (b := xy.2) hm
    | dict _ kp vp co _ _ hde hty hk hv =>
      rw [hty]
      dsimp only
      split
      · rename_i kvs _
        refine boths_bind (R := List.Forall₂ fun a b => Labelled E kp a.1 b.1 ∧ Labelled E vp a.2 b.2)
          (boths_mapML fun kv hkv => boths_bind (ih nm _ kv.1 (hk kvs rfl kv hkv)) fun a b hab =>
            boths_bind (ih nm _ kv.2 (hv kvs rfl kv hkv)) fun c d hcd => boths_pure ⟨hab, hcd⟩) ?_
        intro a b hab
        unfold mkDict
        have hh : (a.all fun kv => kv.1.hashable) = (b.all fun kv => kv.1.hashable) := by
          induction hab with
          | nil => rfl
          | cons h _ ih => simp only [List.all_cons, ih, t_sameHashable h.1]
        rw [← hh]
        split
        · rename_i ha
          have hd : List.Forall₂ (Rel (Labelled E vp)) (dictOfPairs a) (dictOfPairs b) := by
            refine r_dictOfPairs ?_
            rw [List.all_eq_true] at ha
            clear hh
            induction hab with
            | nil => exact .nil
            | cons h _ ih =>
              exact .cons ⟨t_hashable h.1 (ha _ (by simp)), h.2⟩ (ih fun z hz => ha z (by simp [hz]))
          obtain ⟨h1, h2⟩ := List.forall₂_iff_zip.1 hd
          exact boths_pure (.dict _ _ _ _ _ _ hde hty h1 (fun ab hm => (h2 (a := ab.1) (b := ab.2) hm).1)
            fun ab hm => (h2 (a := ab.1) (b := ab.2) hm).2)
        · exact boths_raiseK _
      · exact boths_raiseK _
    | inst _ c _ _ hde hty hc =>
      rw [hty]
      dsimp only
      split
      · rename_i r _
        rcases ho r c (fun d hd => hc r d rfl hd) with ⟨a, b, h1, h2, h3⟩ | ⟨e, h1, h2⟩
        · exact .inl ⟨a, b, h1, h2, h3 p hde hty⟩
        · exact .inr ⟨e, h1, h2⟩
      · split
        · exact boths_pure (.same _ _)
        · exact boths_raiseK _

theorem exact_mark {E : Env} {w : World} (h : OwnClassWorld E w) (r : Nat) :
    OwnClassWorld E (w.setObj r fun o => { o with gs := true }) := by
  have hcl : classAt (w.setObj r fun o => { o with gs := true }) = classAt w := by
    funext i
    unfold classAt World.setObj
    rw [List.getElem?_modify]
    cases w.objs[i]? with
    | none => rfl
    | some o => by_cases hr : r = i <;> simp [hr]
  intro i o hi
  rw [hcl]
  unfold World.setObj at hi
  rw [List.getElem?_modify] at hi
  cases ho : w.objs[i]? with
  | none => rw [ho] at hi; cases hi
  | some o' =>
    rw [ho] at hi
    have := h i o' ho
    by_cases hr : r = i
    · simp only [hr, if_true, Option.map_eq_map, Option.map_some, Option.some.injEq] at hi
      subst hi
      exact this
    · simp only [hr, if_false, Option.map_eq_map, Option.map_some, Option.some.injEq, id] at hi
      subst hi
      exact this

theorem hp_tag {E : Env} : ∀ (n : Nat) {ws : World}, OwnClassWorld E ws → ∀ r c, (∀ d, classAt ws r = some d → d = c) →
    BothS ws (AsInst E c) (run E n (.hpSerialize r ⟨true, false⟩)) (run E n (.hpSerialize r ⟨false, false⟩)) := by
  intro n
  induction n using Nat.strongRecOn with
  | ind n ihn =>
  intro ws ht r c hc
  cases n with
  | zero => exact .inr ⟨_, rfl, rfl⟩
  | succ m =>
  show BothS ws (AsInst E c) (hpSerializeBody E (run E m) r ⟨true, false⟩)
    (hpSerializeBody E (run E m) r ⟨false, false⟩)
  unfold hpSerializeBody
  cases ho : ws.objs[r]? with
  | none => exact .inr ⟨_, bind_err (getObj_none ho), bind_err (getObj_none ho)⟩
  | some o =>
  obtain rfl : o.cls = c := hc _ (by unfold classAt; rw [ho]; rfl)
  refine boths_bind (R := fun a b => a = o ∧ b = o) (.inl ⟨o, o, getObj_some ho, getObj_some ho, rfl, rfl⟩) ?_
  rintro a a' ⟨ha, ha'⟩
  rw [ha, ha']
  clear ha ha' a a' hc
  cases hg : o.gs with
  | true => exact boths_raiseK _
  | false =>
  simp only [Bool.false_eq_true, if_false, if_true]
  obtain ⟨hN, hC, hB⟩ := ht r o ho
  have hback := markObj_back ho hg
  have ht1 := exact_mark ht r
  have ho1 : (ws.setObj r fun o => { o with gs := true }).objs[r]? = some { o with gs := true } := by
    unfold World.setObj; rw [List.getElem?_modify]; simp [ho]
  have hB1 := (ht1 r _ ho1).2.2
  generalize hws1 : ws.setObj r (fun o => { o with gs := true }) = ws1 at *
  have hser := ser_tag (E := E) (n := m) (fun k hkm r c => ihn k (by omega) ht1 r c) m (Nat.le_refl m)
  have hact : ∀ key ∈ o.backend.map (·.1), BothS ws1 (fun a b => a.1 = b.1 ∧ ∃ nm e p, a.1 = .str nm ∧
        lookupS nm (E.classes o.cls).props = some e ∧ OwnSpec e p ∧ Labelled E p a.2 b.2)
      (match lookupS key (E.classes o.cls).props with
        | none => raiseK .key
        | some e => do
            let v ← run E m (.getattr r key)
            let j ← entrySerialize E (run E m) key e v ⟨true, false⟩
            pure (Val.str key, j))
      (match lookupS key (E.classes o.cls).props with
        | none => raiseK .key
        | some e => do
            let v ← run E m (.getattr r key)
            let j ← entrySerialize E (run E m) key e v ⟨false, false⟩
            pure (Val.str key, j)) := by
    intro key hkey
    obtain ⟨⟨nm, v⟩, hmem, rfl⟩ := List.mem_map.1 hkey
    obtain ⟨e, p, hlk, hown, hex⟩ := hB1 nm v hmem
    have hlk' : lookupS nm (E.classes o.cls).props = some e := hlk
    simp only [hlk']
    have hv : lookupS nm o.backend = some v := mem_lookupS hN hmem
    cases m with
    | zero => exact .inr ⟨_, bind_err rfl, bind_err rfl⟩
    | succ m' =>
    have hget : run E (m' + 1) (.getattr r nm) ws1 = (.ok v, ws1) := by
      show getattrBody E (run E m') r nm ws1 = _
      rcases hown with rfl | rfl
      · rw [getattr_mutable ho1 hlk]; exact congrArg (fun v => (Except.ok v, ws1)) (by simp [hv])
      · rw [getattr_gettable ho1 hlk]; exact congrArg (fun v => (Except.ok v, ws1)) (by simp [hv])
    refine boths_bind (R := fun a b => a = v ∧ b = v) (.inl ⟨v, v, hget, hget, rfl, rfl⟩) ?_
    rintro a a' ⟨ha, ha'⟩
    rw [ha, ha']
    have hent : ∀ kw, entrySerialize E (run E (m' + 1)) nm e v kw = run E (m' + 1) (.serializeP nm p v kw) := by
      rcases hown with rfl | rfl <;> exact fun _ => rfl
    rw [hent, hent]
    exact boths_bind (hser nm p v hex) fun _ _ h => boths_pure ⟨rfl, nm, e, p, rfl, hlk', hown, h⟩
  have hdata := boths_mapML hact
  have key : BothS ws1 (AsInst E o.cls)
      (do
        let data ← mapML (fun key => do
          match lookupS key (E.classes o.cls).props with
          | none => raiseK .key
          | some e => do
              let v ← run E m (.getattr r key)
              let j ← entrySerialize E (run E m) key e v ⟨true, false⟩
              pure (Val.str key, j)) (o.backend.map (·.1))
        pure (.dict (dictSet (data.filter (fun kv => !kv.2.isNone)) (.str (s% "__class__")) (.str (E.classes o.cls).name))))
      (do
        let data ← mapML (fun key => do
          match lookupS key (E.classes o.cls).props with
          | none => raiseK .key
          | some e => do
              let v ← run E m (.getattr r key)
              let j ← entrySerialize E (run E m) key e v ⟨false, false⟩
              pure (Val.str key, j)) (o.backend.map (·.1))
        pure (.dict (data.filter (fun kv => !kv.2.isNone)))) := by
    refine boths_bind hdata fun d d' hd => ?_
    have hd' := r_filterNone (fun a b h => by obtain ⟨_, _, _, _, _, _, _, h⟩ := h; exact t_isNone h) hd
    have h3 : ∀ kv ∈ d.filter (fun kv => !kv.2.isNone), kv.1 ≠ .str (s% "__class__") := by
      generalize d.filter (fun kv => !kv.2.isNone) = x at hd' ⊢
      generalize d'.filter (fun kv => !kv.2.isNone) = y at hd'
      induction hd' with
      | nil => simp
      | cons h _ ih =>
        intro kv hkv
        rcases List.mem_cons.1 hkv with rfl | hkv
        · obtain ⟨_, nm, e, p, hnm, hlk, _⟩ := h
          intro hq
          rw [hnm] at hq
          rw [Val.str.inj hq, hC] at hlk
          cases hlk
        · exact ih kv hkv
    rw [dictSet_new fun kv hkv => by
      have := h3 kv hkv
      cases hq : pyEq kv.1 (.str (s% "__class__")) with
      | false => rfl
      | true => exact absurd (Ign.pyEq_text hq) this]
    refine boths_pure fun p hde hty => ?_
    obtain ⟨h1, h2⟩ := List.forall₂_iff_zip.1 hd'
    refine .inst p o.cls _ _ hde hty h1 (fun ab hm => (h2 (a := ab.1) (b := ab.2) hm).1) ?_ ?_ ?_ hC
    · intro ab hm k e q hk hl hown
      obtain ⟨_, nm, e', p', hnm, hlk, hown', hT⟩ := h2 (a := ab.1) (b := ab.2) hm
      obtain rfl : nm = k := Val.str.inj (hnm.symm.trans hk)
      obtain rfl : e' = e := Option.some.inj (hlk.symm.trans hl)
      obtain rfl : p' = q := by
        rcases hown with rfl | rfl <;> rcases hown' with h | h <;> cases h <;> rfl
      exact hT
    · intro ab hm k e hk hl hown
      obtain ⟨_, nm, e', p', hnm, hlk, hown', hT⟩ := h2 (a := ab.1) (b := ab.2) hm
      obtain rfl : nm = k := Val.str.inj (hnm.symm.trans hk)
      obtain rfl : e' = e := Option.some.inj (hlk.symm.trans hl)
      exact absurd hown' (hown p')
    · have hke := Lab.keys_eq h1 fun ab hm => (h2 (a := ab.1) (b := ab.2) hm).1
      intro kv hm hq
      have : Val.str (s% "__class__") ∈ (d.filter (fun kv => !kv.2.isNone)).map (·.1) := by
        rw [hke]
        exact List.mem_map.2 ⟨kv, hm, hq⟩
      obtain ⟨kv', hm', hq'⟩ := List.mem_map.1 this
      exact h3 kv' hm' hq'
  rcases key with ⟨x, x', h1, h2, hr⟩ | ⟨e, h1, h2⟩
  · refine .inl ⟨x, x', ?_, ?_, hr⟩
    · rw [bind_ok (modObj_apply _ _ _), hws1]
      refine (congrArg (fun q : Except PyErr Val × World =>
        (q.1, q.2.setObj r (fun o => { o with gs := false }))) h1).trans ?_
      rw [hback]
    · rw [bind_ok (modObj_apply _ _ _), hws1]
      refine (congrArg (fun q : Except PyErr Val × World =>
        (q.1, q.2.setObj r (fun o => { o with gs := false }))) h2).trans ?_
      rw [hback]
  · refine .inr ⟨e, ?_, ?_⟩
    · rw [bind_ok (modObj_apply _ _ _), hws1]
      refine (congrArg (fun q : Except PyErr Val × World =>
        (q.1, q.2.setObj r (fun o => { o with gs := false }))) h1).trans ?_
      rw [hback]
    · rw [bind_ok (modObj_apply _ _ _), hws1]
      refine (congrArg (fun q : Except PyErr Val × World =>
        (q.1, q.2.setObj r (fun o => { o with gs := false }))) h2).trans ?_
      rw [hback]

end Tagc

/-- **C114**.  Without Unions and registered functions, and where instances are of
the class declared, `copy` is the same with and without `include_class`, whatever
the options for reading: the same result or exception and the same state. -/
theorem C114_copy {E : Env} {w : World} (hE : OwnClassWorld E w) {r : Nat} {o : Obj} (ho : w.objs[r]? = some o)
    (n : Nat) (dkw : DeKw) :
    run E (n + 1) (.copy (.obj r) ⟨true, false⟩ dkw) w = run E (n + 1) (.copy (.obj r) ⟨false, false⟩ dkw) w := by
  have hc : ∀ d, classAt w r = some d → d = o.cls := by
    intro d hd
    unfold classAt at hd
    rw [ho] at hd
    exact (Option.some.inj hd).symm
  rcases Tagc.hp_tag n hE r o.cls hc with ⟨j, j', h1, h2, h3⟩ | ⟨e, h1, h2⟩
  · rw [copy_parts ho h1, copy_parts ho h2]
    exact Lab.read_same (h3 _ rfl rfl) n dkw w
  · rw [copy_fails ho h1, copy_fails ho h2]

/-! ## A line with two points -/

def c114W : World := { objs := [
  { cls := 0, backend := [(s% "a", .int 3)] }, { cls := 0 },
  { cls := 1, backend := [(s% "i", .list [.obj 0, .obj 1])] }] }

theorem c114_written : run c112Env 8 (.hpSerialize 2 ⟨true, false⟩) c114W = (.ok (.dict [(.str (s% "i"),
      .list [.dict [(.str (s% "a"), .int 3), (.str (s% "__class__"), .str (s% "P"))],
        .dict [(.str (s% "__class__"), .str (s% "P"))]]), (.str (s% "__class__"), .str (s% "L"))]), c114W) := by
  with_unfolding_all rfl

/-- Its copy is a new line with two new points. -/
theorem C114_example : OwnClassWorld c112Env c114W ∧
    (run c112Env 9 (.copy (.obj 2) ⟨true, false⟩ { trusted := true }) c114W).1 = .ok (.obj 5) := by
  refine ⟨fun r o ho => ?_, ?_⟩
  · have hm : o ∈ c114W.objs := List.mem_of_getElem? ho
    simp only [c114W, List.mem_cons, List.not_mem_nil, or_false] at hm
    rcases hm with rfl | rfl | rfl
    · refine ⟨by simp, rfl, fun nm v hv => ?_⟩
      obtain ⟨rfl, rfl⟩ := Prod.mk.inj (List.mem_singleton.1 hv)
      exact ⟨.mutable c110Num, c110Num, rfl, .inl rfl, .scalar _ _ rfl trivial⟩
    · exact ⟨List.nodup_nil, rfl, fun nm v hv => by cases hv⟩
    · refine ⟨by simp, rfl, fun nm v hv => ?_⟩
      obtain ⟨rfl, rfl⟩ := Prod.mk.inj (List.mem_singleton.1 hv)
      refine ⟨.mutable c112Ends, c112Ends, rfl, .inl rfl, .seq _ _ _ _ _ _ _ rfl rfl rfl fun xs hx x hm => ?_⟩
      refine .inst _ 0 _ rfl rfl rfl fun r d hr hd => ?_
      cases hx
      subst hr
      simp only [List.mem_cons, List.not_mem_nil, or_false, Val.obj.injEq] at hm
      rcases hm with rfl | rfl <;> exact (Option.some.inj hd).symm
  · rw [copy_parts rfl c114_written]
    with_unfolding_all rfl

end Verif
