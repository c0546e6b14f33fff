import Verif.Lemmas.BothSame
import Verif.Lemmas.Idempotent
import Verif.Spec.PlusClass

/-!
# Serialized forms with and without the names of classes
-/

namespace Verif
open Spec

namespace Plus

/-- Entries with the same key. -/
def Pair (a b : Val × Val) : Prop := a.1 = b.1 ∧ PlusClass a.2 b.2

theorem p_list {xs ys : List Val} (h : List.Forall₂ PlusClass xs ys) :
    PlusClass (.list xs) (.list ys) := by
  obtain ⟨h1, h2⟩ := List.forall₂_iff_zip.1 h
  exact .list _ _ h1 fun xy hm => h2 hm

theorem p_dict {kvs kvs' : List (Val × Val)} (h : List.Forall₂ Pair kvs kvs') :
    PlusClass (.dict kvs) (.dict kvs') := by
  obtain ⟨h1, h2⟩ := List.forall₂_iff_zip.1 h
  exact .dict _ _ h1 (fun ab hm => (h2 (a := ab.1) (b := ab.2) hm).1)
    (fun ab hm => (h2 (a := ab.1) (b := ab.2) hm).2)

theorem p_inst {kvs kvs' : List (Val × Val)} {name : PyStr} (h : List.Forall₂ Pair kvs kvs')
    (hn : ∀ kv ∈ kvs', kv.1 ≠ .str (s% "__class__")) :
    PlusClass (.dict (kvs ++ [(.str (s% "__class__"), .str name)])) (.dict kvs') := by
  obtain ⟨h1, h2⟩ := List.forall₂_iff_zip.1 h
  exact .inst _ _ _ h1 (fun ab hm => (h2 (a := ab.1) (b := ab.2) hm).1)
    (fun ab hm => (h2 (a := ab.1) (b := ab.2) hm).2) hn

theorem p_hashable {x y : Val} (h : PlusClass x y) (hh : x.hashable = true) : x = y := by
  cases h with
  | same => rfl
  | list => cases hh
  | dict => cases hh
  | inst => cases hh

theorem p_sameHashable {x y : Val} (h : PlusClass x y) : x.hashable = y.hashable := by
  cases h <;> rfl

theorem p_isNone {x y : Val} (h : PlusClass x y) : x.isNone = y.isNone := by
  cases h <;> rfl

theorem p_dictSet {k x y : Val} (hxy : PlusClass x y) {d d' : List (Val × Val)}
    (h : List.Forall₂ Pair d d') : List.Forall₂ Pair (dictSet d k x) (dictSet d' k y) := by
  induction h with
  | nil => exact .cons ⟨rfl, hxy⟩ .nil
  | @cons a b as bs hab _ ih =>
    obtain ⟨a1, a2⟩ := a
    obtain ⟨b1, b2⟩ := b
    obtain ⟨h1, h2⟩ := hab
    simp only at h1 h2
    subst h1
    simp only [dictSet]
    split
    · exact .cons ⟨rfl, hxy⟩ ‹_›
    · exact .cons ⟨rfl, h2⟩ ih

theorem p_dictOfPairs {jvs jvs' : List (Val × Val)} (h : List.Forall₂ Pair jvs jvs') :
    List.Forall₂ Pair (dictOfPairs jvs) (dictOfPairs jvs') := by
  unfold dictOfPairs
  have : ∀ d d', List.Forall₂ Pair d d' →
      List.Forall₂ Pair (jvs.foldl (fun d kv => dictSet d kv.1 kv.2) d)
        (jvs'.foldl (fun d kv => dictSet d kv.1 kv.2) d') := by
    induction h with
    | nil => exact fun _ _ h => h
    | cons hab _ ih =>
      intro d d' hd
      simp only [List.foldl_cons]
      refine ih _ _ ?_
      rw [hab.1]
      exact p_dictSet hab.2 hd
  exact this [] [] .nil

theorem p_filterNone {d d' : List (Val × Val)} (h : List.Forall₂ Pair d d') :
    List.Forall₂ Pair (d.filter (fun kv => !kv.2.isNone)) (d'.filter (fun kv => !kv.2.isNone)) := by
  induction h with
  | nil => exact .nil
  | cons hab _ ih =>
    simp only [List.filter_cons]
    rw [p_isNone hab.2]
    split
    · exact .cons hab ih
    · exact ih

/-- Both options, without `save_dynamic`. -/
def withC : SerKw := { includeClass := true, saveDynamic := false }
def noC : SerKw := { includeClass := false, saveDynamic := false }

section
variable {E : Env}

theorem union_both {ws : World} {n : Nat} {nm : PyStr} {v : Val}
    (ho : ∀ r, BothS ws PlusClass (run E n (.hpSerialize r withC)) (run E n (.hpSerialize r noC))) :
    ∀ {ps : List PropSpec}, (∀ q ∈ ps, Still q v ∧
      BothS ws PlusClass (run E n (.serializeP nm q v withC)) (run E n (.serializeP nm q v noC))) →
    BothS ws PlusClass (unionSerialize (run E n) nm v withC ps) (unionSerialize (run E n) nm v noC ps)
  | [], _ => by
    unfold unionSerialize
    split
    · exact ho _
    · exact boths_pure (.same _)
  | p :: ps, h => by
    unfold unionSerialize
    obtain ⟨x, h1⟩ : ∃ x, run E n (.validate nm p none v) ws = (x, ws) := by
      rcases run_pval_or (E := E) (nm := nm) (inst := none) (n := n) (w := ws) (h p (by simp)).1
        (fun r hr => by cases hr) with h | ⟨_, e, h, _⟩ <;> rw [h] <;> exact ⟨_, rfl⟩
    refine boths_bind (R := fun a b => a = x ∧ b = x) (.inl ⟨x, x, ?_, ?_, rfl, rfl⟩) ?_
    · rw [attempt_apply, h1]
    · rw [attempt_apply, h1]
    · rintro _ _ ⟨rfl, rfl⟩
      split
      · exact (h p (by simp)).2
      · split
        · exact union_both ho fun q hq => h q (by simp [hq])
        · exact .inr ⟨_, rfl, rfl⟩

theorem ser_both {ws : World} {n : Nat}
    (ho : ∀ m, m < n → ∀ r, BothS ws PlusClass (run E m (.hpSerialize r withC)) (run E m (.hpSerialize r noC))) :
    ∀ m, m ≤ n → ∀ nm p v, OwnWriter p → Tame E p v →
      BothS ws PlusClass (run E m (.serializeP nm p v withC)) (run E m (.serializeP nm p v noC))
  | 0, _, _, _, _, _, _ => .inr ⟨_, rfl, rfl⟩
  | m + 1, hm, nm, p, v, hw, ht => by
    have ih := ser_both ho m (by omega)
    have ho := ho m (by omega)
    show BothS ws PlusClass (serializeBody E (run E m) nm p v withC) (serializeBody E (run E m) nm p v noC)
    unfold serializeBody
    have hser : p.ser = none := by cases hw <;> assumption
    have htt : TameTy E p.ty v := by
      rcases tame_cases ht with ⟨_, h⟩ | ⟨f, h, _⟩
      · exact h
      · rw [hser] at h; cases h
    rw [hser]
    dsimp only
    split
    · exact boths_pure (.same _)
    cases hw with
    | scalar _ _ hty =>
      generalize p.ty = ty at hty htt ⊢
      cases ty <;> first
        | exact hty.elim
        | (dsimp only
           generalize scalarToJson E _ v = y
           rcases y with _ | (k | j)
           · exact boths_raiseK _
           · exact .inr ⟨_, rfl, rfl⟩
           · exact .inl ⟨j, j, rfl, rfl, .same _⟩)
    | seq _ k it lo hi co _ hty hit =>
      rw [hty] at htt ⊢
      unfold TameTy at htt
      dsimp only
      split <;> rename_i hi
      · exact boths_raiseK _
      · exact boths_bind (boths_mapML fun x hx => ih nm _ x hit (htt _ hi x hx)) fun _ _ h =>
          boths_pure (p_list h)
    | dict _ kp vp co _ hty hk hv =>
      rw [hty] at htt ⊢
      unfold TameTy at htt
      dsimp only
      split
      · rename_i kvs _
        refine boths_bind (R := List.Forall₂ fun a b => PlusClass a.1 b.1 ∧ PlusClass a.2 b.2)
          (boths_mapML fun kv hkv => boths_bind (ih nm _ kv.1 hk (htt kvs rfl kv hkv).1) fun a b hab =>
            boths_bind (ih nm _ kv.2 hv (htt kvs rfl kv hkv).2) fun c d hcd => boths_pure ⟨hab, hcd⟩) ?_
        intro a b hab
        unfold mkDict
        have hh : (a.all fun kv => kv.1.hashable) = (b.all fun kv => kv.1.hashable) := by
          induction hab with
          | nil => rfl
          | cons h _ ih => simp only [List.all_cons, ih, p_sameHashable h.1]
        rw [← hh]
        split
        · rename_i ha
          refine boths_pure (p_dict (p_dictOfPairs ?_))
          rw [List.all_eq_true] at ha
          clear hh
          induction hab with
          | nil => exact .nil
          | cons h _ ih =>
            exact .cons ⟨p_hashable h.1 (ha _ (by simp)), h.2⟩ (ih fun z hz => ha z (by simp [hz]))
        · exact boths_raiseK _
      · exact boths_raiseK _
    | inst _ c _ hty =>
      rw [hty]
      dsimp only
      split
      · exact ho _
      · split
        · exact boths_pure (.same _)
        · exact boths_raiseK _
    | union _ ps s _ hty hps =>
      rw [hty] at htt ⊢
      unfold TameTy at htt
      dsimp only
      refine union_both ho fun q hq => ?_
      have : Still q v ∧ Tame E q v := by
        clear hty hps
        induction ps with
        | nil => cases hq
        | cons p ps ihp =>
          unfold TameAll at htt
          rcases List.mem_cons.1 hq with rfl | hq
          · exact htt.1
          · exact ihp htt.2 hq
      exact ⟨this.1, ih nm q v (hps q hq) this.2⟩

theorem hp_both (hE : OwnWriters E) : ∀ (n : Nat) {ws : World}, TameState E ws → ∀ r,
    BothS ws PlusClass (run E n (.hpSerialize r withC)) (run E n (.hpSerialize r noC)) := by
  intro n
  induction n using Nat.strongRecOn with
  | ind n ihn =>
  intro ws ht r
  cases n with
  | zero => exact .inr ⟨_, rfl, rfl⟩
  | succ m =>
  show BothS ws PlusClass (hpSerializeBody E (run E m) r withC) (hpSerializeBody E (run E m) r noC)
  unfold hpSerializeBody
  cases ho : ws.objs[r]? with
  | none => exact .inr ⟨_, bind_err (getObj_none ho), bind_err (getObj_none ho)⟩
  | some o =>
  refine boths_bind (R := fun a b => a = o ∧ b = o) (.inl ⟨o, o, getObj_some ho, getObj_some ho, rfl, rfl⟩) ?_
  rintro _ _ ⟨rfl, rfl⟩
  rename_i o
  cases hg : o.gs with
  | true => exact boths_raiseK _
  | false =>
  simp only [Bool.false_eq_true, if_false, withC, noC, if_true]
  have hN := (ht r o ho).1
  have hback := markObj_back ho hg
  have ht1 := tameState_mark ht r
  have ho1 : (ws.setObj r fun o => { o with gs := true }).objs[r]? = some { o with gs := true } := by
    unfold World.setObj; rw [List.getElem?_modify]; simp [ho]
  generalize hws1 : ws.setObj r (fun o => { o with gs := true }) = ws1 at *
  have hser := ser_both (n := m) (fun k hkm r => ihn k (by omega) ht1 r) m (Nat.le_refl m)
  have hact : ∀ key ∈ o.backend.map (·.1), BothS ws1 (fun a b => Pair a b ∧ b.1 ≠ .str (s% "__class__"))
      (match lookupS key (E.classes o.cls).props with
        | none => raiseK .key
        | some e => do
            let v ← run E m (.getattr r key)
            let j ← entrySerialize E (run E m) key e v withC
            pure (Val.str key, j))
      (match lookupS key (E.classes o.cls).props with
        | none => raiseK .key
        | some e => do
            let v ← run E m (.getattr r key)
            let j ← entrySerialize E (run E m) key e v noC
            pure (Val.str key, j)) := by
    intro key hkey
    obtain ⟨⟨nm, v⟩, hmem, rfl⟩ := List.mem_map.1 hkey
    obtain ⟨e, p, hlk, hown, htm⟩ := (ht r o ho).2 nm v hmem
    have hne : Val.str nm ≠ .str (s% "__class__") := by
      intro h
      rw [Val.str.inj h, (hE o.cls).1] at hlk
      cases hlk
    simp only [hlk]
    have hv : lookupS nm o.backend = some v := mem_lookupS hN hmem
    cases m with
    | zero => exact .inr ⟨_, bind_err rfl, bind_err rfl⟩
    | succ m' =>
    have hget : run E (m' + 1) (.getattr r nm) ws1 = (.ok v, ws1) := by
      show getattrBody E (run E m') r nm ws1 = _
      rcases hown with rfl | rfl
      · rw [getattr_mutable ho1 hlk]; exact congrArg (fun v => (Except.ok v, ws1)) (by simp [hv])
      · rw [getattr_gettable ho1 hlk]; exact congrArg (fun v => (Except.ok v, ws1)) (by simp [hv])
    refine boths_bind (R := fun a b => a = v ∧ b = v) (.inl ⟨v, v, hget, hget, rfl, rfl⟩) ?_
    rintro a a' ⟨ha, ha'⟩
    rw [ha, ha']
    have hent : ∀ kw, entrySerialize E (run E (m' + 1)) nm e v kw = run E (m' + 1) (.serializeP nm p v kw) := by
      rcases hown with rfl | rfl <;> exact fun _ => rfl
    rw [hent, hent]
    exact boths_bind (hser nm p v ((hE o.cls).2 nm e p hlk hown) htm) fun _ _ h => boths_pure ⟨⟨rfl, h⟩, hne⟩
  have hdata := boths_mapML hact
  have key : BothS ws1 PlusClass
      (do
        let data ← mapML (fun key => do
          match lookupS key (E.classes o.cls).props with
          | none => raiseK .key
          | some e => do
              let v ← run E m (.getattr r key)
              let j ← entrySerialize E (run E m) key e v withC
              pure (Val.str key, j)) (o.backend.map (·.1))
        pure (.dict (dictSet (data.filter (fun kv => !kv.2.isNone)) (.str (s% "__class__")) (.str (E.classes o.cls).name))))
      (do
        let data ← mapML (fun key => do
          match lookupS key (E.classes o.cls).props with
          | none => raiseK .key
          | some e => do
              let v ← run E m (.getattr r key)
              let j ← entrySerialize E (run E m) key e v noC
              pure (Val.str key, j)) (o.backend.map (·.1))
        pure (.dict (data.filter (fun kv => !kv.2.isNone)))) := by
    refine boths_bind hdata fun d d' hd => ?_
    have h1 : List.Forall₂ Pair d d' := hd.imp fun _ _ h => h.1
    have h2 : ∀ kv ∈ d', kv.1 ≠ .str (s% "__class__") := by
      clear h1 hdata
      induction hd with
      | nil => simp
      | cons h _ ih =>
        intro kv hkv
        rcases List.mem_cons.1 hkv with rfl | hkv
        · exact h.2
        · exact ih kv hkv
    have h3 : ∀ kv ∈ d, kv.1 ≠ .str (s% "__class__") := by
      clear h1 hdata h2
      induction hd with
      | nil => simp
      | cons h _ ih =>
        intro kv hkv
        rcases List.mem_cons.1 hkv with rfl | hkv
        · rw [h.1.1]; exact h.2
        · exact ih kv hkv
    rw [dictSet_new fun kv hkv => by
      have := h3 kv (List.mem_filter.1 hkv).1
      cases hq : pyEq kv.1 (.str (s% "__class__")) with
      | false => rfl
      | true =>
        refine absurd ?_ this
        generalize kv.1 = k at hq
        cases k <;> unfold pyEq at hq <;> simp [Val.num?] at hq
        rw [hq]]
    exact boths_pure (p_inst (p_filterNone h1) fun kv hkv => h2 kv (List.mem_filter.1 hkv).1)
  rcases key with ⟨x, x', h1, h2, hr⟩ | ⟨e, h1, h2⟩
  · refine .inl ⟨x, x', ?_, ?_, hr⟩
    · rw [bind_ok (modObj_apply _ _ _), hws1]
      refine (congrArg (fun q : Except PyErr Val × World =>
        (q.1, q.2.setObj r (fun o => { o with gs := false }))) h1).trans ?_
      rw [hback]
    · rw [bind_ok (modObj_apply _ _ _), hws1]
      refine (congrArg (fun q : Except PyErr Val × World =>
        (q.1, q.2.setObj r (fun o => { o with gs := false }))) h2).trans ?_
      rw [hback]
  · refine .inr ⟨e, ?_, ?_⟩
    · rw [bind_ok (modObj_apply _ _ _), hws1]
      refine (congrArg (fun q : Except PyErr Val × World =>
        (q.1, q.2.setObj r (fun o => { o with gs := false }))) h1).trans ?_
      rw [hback]
    · rw [bind_ok (modObj_apply _ _ _), hws1]
      refine (congrArg (fun q : Except PyErr Val × World =>
        (q.1, q.2.setObj r (fun o => { o with gs := false }))) h2).trans ?_
      rw [hback]

end

end Plus

end Verif
