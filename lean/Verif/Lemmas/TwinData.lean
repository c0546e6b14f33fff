import Verif.Lemmas.Twins
import Verif.Lemmas.Serialize
import Verif.Lemmas.Steady
import Verif.Lemmas.Access

/-!
# Serialized forms in states that differ in the order of the stored entries
-/

set_option linter.unusedSectionVars false

namespace Verif
open Spec

/-- Entries with the same key and the same data. -/
def SamePair (a b : Val × Val) : Prop := a.1 = b.1 ∧ SameJson a.2 b.2

theorem sameJson_list {xs ys : List Val} (h : List.Forall₂ SameJson xs ys) :
    SameJson (.list xs) (.list ys) := by
  obtain ⟨h1, h2⟩ := List.forall₂_iff_zip.1 h
  exact .list _ _ h1 fun xy hm => h2 hm

theorem sameJson_dict {kvs mid kvs' : List (Val × Val)} (h : List.Forall₂ SamePair kvs mid)
    (hp : mid.Perm kvs') : SameJson (.dict kvs) (.dict kvs') := by
  obtain ⟨h1, h2⟩ := List.forall₂_iff_zip.1 h
  exact .dict _ _ _ h1 (fun ab hm => (h2 (a := ab.1) (b := ab.2) hm).1)
    (fun ab hm => (h2 (a := ab.1) (b := ab.2) hm).2) hp

theorem sameJson_hashable {x y : Val} (h : SameJson x y) (hh : x.hashable = true) : x = y := by
  cases h with
  | same => rfl
  | list => cases hh
  | dict => cases hh

theorem sameJson_sameHashable {x y : Val} (h : SameJson x y) : x.hashable = y.hashable := by
  cases h <;> rfl

theorem sameJson_isNone {x y : Val} (h : SameJson x y) : x.isNone = y.isNone := by
  cases h <;> rfl

theorem forall₂_dictSet {k x y : Val} (hxy : SameJson x y) {d d' : List (Val × Val)}
    (h : List.Forall₂ SamePair d d') : List.Forall₂ SamePair (dictSet d k x) (dictSet d' k y) := by
  induction h with
  | nil => exact .cons ⟨rfl, hxy⟩ .nil
  | @cons a b as bs hab _ ih =>
    obtain ⟨a1, a2⟩ := a
    obtain ⟨b1, b2⟩ := b
    obtain ⟨h1, h2⟩ := hab
    simp only at h1 h2
    subst h1
    simp only [dictSet]
    split
    · exact .cons ⟨rfl, hxy⟩ ‹_›
    · exact .cons ⟨rfl, h2⟩ ih

theorem forall₂_dictOfPairs {jvs jvs' : List (Val × Val)} (h : List.Forall₂ SamePair jvs jvs') :
    List.Forall₂ SamePair (dictOfPairs jvs) (dictOfPairs jvs') := by
  unfold dictOfPairs
  have : ∀ d d', List.Forall₂ SamePair d d' →
      List.Forall₂ SamePair (jvs.foldl (fun d kv => dictSet d kv.1 kv.2) d)
        (jvs'.foldl (fun d kv => dictSet d kv.1 kv.2) d') := by
    induction h with
    | nil => exact fun _ _ h => h
    | cons hab _ ih =>
      intro d d' hd
      simp only [List.foldl_cons]
      refine ih _ _ ?_
      rw [hab.1]
      exact forall₂_dictSet hab.2 hd
  exact this [] [] .nil

theorem forall₂_filterNone {d d' : List (Val × Val)} (h : List.Forall₂ SamePair d d') :
    List.Forall₂ SamePair (d.filter (fun kv => !kv.2.isNone)) (d'.filter (fun kv => !kv.2.isNone)) := by
  induction h with
  | nil => exact .nil
  | cons hab _ ih =>
    simp only [List.filter_cons]
    rw [sameJson_isNone hab.2]
    split
    · exact .cons hab ih
    · exact ih

theorem forall₂_complete {ic : Bool} {nm : PyStr} {d d' : List (Val × Val)}
    (h : List.Forall₂ SamePair d d') : List.Forall₂ SamePair (complete ic nm d) (complete ic nm d') := by
  unfold complete
  split
  · exact forall₂_dictSet (.same _) (forall₂_filterNone h)
  · exact forall₂_filterNone h

theorem dictSet_perm {k : PyStr} {x : Val} {d d' : List (Val × Val)} (hp : d.Perm d')
    (hs : ∀ kv ∈ d, ∃ s, kv.1 = .str s) (hn : (d.map (·.1)).Nodup) :
    (dictSet d (.str k) x).Perm (dictSet d' (.str k) x) := by
  induction hp with
  | nil => exact .refl _
  | @cons a l l' hp ih =>
    simp only [dictSet]
    have := ih (fun kv h => hs kv (by simp [h])) (by simp only [List.map_cons, List.nodup_cons] at hn; exact hn.2)
    split
    · exact hp.cons _
    · exact this.cons _
  | swap a b l =>
    obtain ⟨a1, a2⟩ := a
    obtain ⟨b1, b2⟩ := b
    obtain ⟨s, rfl⟩ := hs (a1, a2) (by simp)
    obtain ⟨t, rfl⟩ := hs (b1, b2) (by simp)
    simp only [List.map_cons, List.nodup_cons, List.mem_cons, not_or] at hn
    have hst : s ≠ t := fun h => hn.1.1 (by rw [h])
    have hq : ∀ u : PyStr, pyEq (.str u) (.str k) = decide (u = k) := fun u => by
      by_cases h : u = k <;> simp [pyEq, h]
    simp only [dictSet, hq, decide_eq_true_eq]
    by_cases h1 : t = k
    · have h2 : s ≠ k := fun h => hst (h.trans h1.symm)
      simp only [h1, h2, if_true, if_false]
      exact .swap _ _ _
    · by_cases h2 : s = k
      · simp only [h1, h2, if_true, if_false]
        exact .swap _ _ _
      · simp only [h1, h2, if_false]
        exact .swap _ _ _
  | trans h1 _ ih1 ih2 =>
    refine (ih1 hs hn).trans (ih2 (fun kv h => hs kv (h1.mem_iff.2 h)) ?_)
    exact (h1.map _).nodup_iff.1 hn

theorem complete_perm {ic : Bool} {nm : PyStr} {d d' : List (Val × Val)} (hp : d.Perm d')
    (hs : ∀ kv ∈ d, ∃ s, kv.1 = .str s) (hn : (d.map (·.1)).Nodup) :
    (complete ic nm d).Perm (complete ic nm d') := by
  unfold complete
  split
  · exact dictSet_perm (hp.filter _) (fun kv h => hs kv (List.mem_filter.1 h).1)
      (hn.sublist (List.filter_sublist.map _))
  · exact hp.filter _

/-! ## Two calls that go the same way -/

/-- Both return related results or both raise; nothing changes. -/
def Both {α β : Type} (ws ws' : World) (R : α → β → Prop) (m : M α) (m' : M β) : Prop :=
  (∃ a b, m ws = (.ok a, ws) ∧ m' ws' = (.ok b, ws') ∧ R a b) ∨
  (∃ e e', m ws = (.error e, ws) ∧ m' ws' = (.error e', ws'))

section
variable {α β γ δ : Type} {ws ws' : World}

theorem both_pure {R : α → β → Prop} {a : α} {b : β} (h : R a b) :
    Both ws ws' R (pure a) (pure b) := .inl ⟨a, b, rfl, rfl, h⟩

theorem both_raiseK {R : α → β → Prop} (k k' : ErrKind) :
    Both ws ws' R (raiseK k : M α) (raiseK k' : M β) := .inr ⟨_, _, rfl, rfl⟩

theorem both_bind {R : α → β → Prop} {S : γ → δ → Prop} {m : M α} {m' : M β} {f : α → M γ} {f' : β → M δ}
    (h : Both ws ws' R m m') (hf : ∀ a b, R a b → Both ws ws' S (f a) (f' b)) :
    Both ws ws' S (m >>= f) (m' >>= f') := by
  rcases h with ⟨a, b, h1, h2, hr⟩ | ⟨e, e', h1, h2⟩
  · unfold Both
    rw [bind_ok h1, bind_ok h2]
    exact hf a b hr
  · exact .inr ⟨e, e', bind_err h1, bind_err h2⟩

theorem both_mapML {R : β → γ → Prop} {f : α → M β} {f' : α → M γ} : ∀ {xs : List α},
    (∀ x ∈ xs, Both ws ws' R (f x) (f' x)) → Both ws ws' (List.Forall₂ R) (mapML f xs) (mapML f' xs)
  | [], _ => both_pure .nil
  | x :: xs, h => both_bind (h x (by simp)) fun _ _ hab =>
      both_bind (both_mapML fun y hy => h y (by simp [hy])) fun _ _ hs => both_pure (.cons hab hs)

/-- Where nothing changes, the order of the items does not matter. -/
theorem both_perm {f : α → M β} {xs ys : List α} (hp : xs.Perm ys)
    (h : ∀ x ∈ xs, ∃ y, f x ws = (y, ws)) : Both ws ws List.Perm (mapML f xs) (mapML f ys) := by
  induction hp with
  | nil => exact both_pure (.refl _)
  | @cons x l l' hp ih =>
    unfold mapML
    refine both_bind (R := (· = ·)) ?_ fun a b hab => ?_
    · obtain ⟨y, hy⟩ := h x (by simp)
      cases y with
      | ok y => exact .inl ⟨y, y, hy, hy, rfl⟩
      | error e => exact .inr ⟨e, e, hy, hy⟩
    · subst hab
      exact both_bind (ih fun z hz => h z (by simp [hz])) fun _ _ hs => both_pure (hs.cons _)
  | swap x y l =>
    obtain ⟨rx, hx⟩ := h x (by simp)
    obtain ⟨ry, hy⟩ := h y (by simp)
    have hl : ∃ r, mapML f l ws = (r, ws) := by
      have : Both ws ws (fun _ _ => True) (mapML f l) (mapML f l) := by
        have := both_mapML (ws := ws) (ws' := ws) (R := fun _ _ => True) (f := f) (f' := f) (xs := l)
          fun z hz => by
            obtain ⟨r, hr⟩ := h z (by simp [hz])
            cases r with
            | ok r => exact .inl ⟨r, r, hr, hr, trivial⟩
            | error e => exact .inr ⟨e, e, hr, hr⟩
        rcases this with ⟨a, b, h1, h2, _⟩ | h
        · exact .inl ⟨a, b, h1, h2, trivial⟩
        · exact .inr h
      rcases this with ⟨a, b, h1, h2, _⟩ | ⟨e, _, h1, _⟩
      · exact ⟨_, h1⟩
      · exact ⟨_, h1⟩
    obtain ⟨rl, hl⟩ := hl
    have e1 : ∀ {u v : α} {ru rv : Except PyErr β}, f u ws = (ru, ws) → f v ws = (rv, ws) →
        mapML f (u :: v :: l) ws = (ru.bind fun a => rv.bind fun b => rl.map fun r => a :: b :: r, ws) := by
      intro u v ru rv hu hv
      unfold mapML
      cases ru with
      | error e => exact bind_err hu
      | ok a =>
        rw [bind_ok hu]
        unfold mapML
        cases rv with
        | error e => exact bind_err (bind_err hv)
        | ok b =>
          cases rl with
          | error e => exact bind_err ((bind_ok hv).trans (bind_err hl))
          | ok r => exact bind_ok ((bind_ok hv).trans (bind_ok hl))
    have h1 := e1 hy hx
    have h2 := e1 hx hy
    unfold Both
    rw [h1, h2]
    cases rx with
    | error e => cases ry with
      | error e' => exact .inr ⟨_, _, rfl, rfl⟩
      | ok b => exact .inr ⟨_, _, rfl, rfl⟩
    | ok a => cases ry with
      | error e' => exact .inr ⟨_, _, rfl, rfl⟩
      | ok b => cases rl with
        | error e => exact .inr ⟨_, _, rfl, rfl⟩
        | ok r => exact .inl ⟨_, _, rfl, rfl, .swap _ _ _⟩
  | trans h1 _ ih1 ih2 =>
    rcases ih1 h with ⟨a, b, p1, p2, hab⟩ | ⟨e, e', p1, p2⟩ <;>
    rcases ih2 (fun z hz => h z (h1.mem_iff.2 hz)) with ⟨a', b', q1, q2, hab'⟩ | ⟨e2, e2', q1, q2⟩
    · rw [p2] at q1; cases q1
      exact .inl ⟨a, b', p1, q2, hab.trans hab'⟩
    · rw [p2] at q1; cases q1
    · rw [p2] at q1; cases q1
    · exact .inr ⟨e, e2', p1, q2⟩

end

theorem nodup_of_names {b : List (PyStr × Val)} (hn : (b.map (·.1)).Nodup) : b.Nodup :=
  (List.pairwise_map.1 hn).imp fun h e => h (congrArg _ e)

theorem perm_of_lookups {b b' : List (PyStr × Val)} (hn : (b.map (·.1)).Nodup) (hn' : (b'.map (·.1)).Nodup)
    (h : ∀ k, lookupS k b' = lookupS k b) : b'.Perm b := by
  have hm : ∀ (l : List (PyStr × Val)), (l.map (·.1)).Nodup → ∀ k v, (k, v) ∈ l ↔ lookupS k l = some v := by
    intro l
    induction l with
    | nil => simp [lookupS]
    | cons a l ih =>
      intro hl k v
      obtain ⟨a1, a2⟩ := a
      simp only [List.map_cons, List.nodup_cons] at hl
      simp only [lookupS, List.mem_cons, Prod.mk.injEq]
      by_cases hk : a1 = k
      · subst hk
        simp only [if_true, Option.some.injEq, true_and]
        refine ⟨fun h => ?_, fun h => .inl h.symm⟩
        rcases h with h | h
        · exact h.symm
        · exact absurd (List.mem_map.2 ⟨_, h, rfl⟩) hl.1
      · have hk' : ¬ k = a1 := fun h => hk h.symm
        simp only [hk, hk', if_false, false_and, false_or]
        exact ih hl.2 k v
  refine (List.perm_ext_iff_of_nodup (nodup_of_names hn') (nodup_of_names hn)).2 ?_
  rintro ⟨k, v⟩
  rw [hm b' hn', hm b hn, h]

/-! ## Serialization -/

theorem mapML_keys {f : PyStr → M (Val × Val)}
    (hf : ∀ x w y w', f x w = (.ok y, w') → y.1 = .str x) : ∀ {xs : List PyStr} {ys : List (Val × Val)}
    {w w' : World}, mapML f xs w = (.ok ys, w') → ys.map (·.1) = xs.map Val.str
  | [], ys, w, w', h => by cases h; rfl
  | x :: xs, ys, w, w', h => by
    unfold mapML at h
    obtain ⟨y, w1, h1, h⟩ := bind_ok_inv h
    obtain ⟨zs, w2, h2, h⟩ := bind_ok_inv h
    cases h
    simp only [List.map_cons, hf x _ _ _ h1, mapML_keys hf h2]

/-- Stored values belong to properties stored under their own names, with
serializers that only compute. -/
def TameState (E : Env) (w : World) : Prop :=
  ∀ (r : Nat) (o : Obj), w.objs[r]? = some o → (o.backend.map (·.1)).Nodup ∧
    ∀ nm v, (nm, v) ∈ o.backend → ∃ e p, lookupS nm (E.classes o.cls).props = some e ∧
      OwnSpec e p ∧ Tame E p v

theorem tameState_mark {E : Env} {w : World} (h : TameState E w) (r : Nat) :
    TameState E (w.setObj r (fun o => { o with gs := true })) := by
  intro i o ho
  simp only [World.setObj, List.getElem?_modify] at ho
  cases hw : w.objs[i]? with
  | none => rw [hw] at ho; simp at ho
  | some o1 =>
    rw [hw] at ho
    simp only [Option.map_eq_map, Option.map_some, Option.some.injEq] at ho
    have := h i o1 hw
    subst ho
    split <;> exact this

theorem sameWorld_back {w w' : World} (hs : SameWorld w w') {i : Nat} {o' : Obj}
    (ho' : w'.objs[i]? = some o') : ∃ o, w.objs[i]? = some o ∧ SameObj o o' := by
  obtain ⟨os, rfl, hlen, h⟩ := hs
  have hi : i < w.objs.length := by
    rw [← hlen]; exact (List.getElem?_eq_some_iff.1 ho').1
  obtain ⟨o2, h2, h3⟩ := h i _ (List.getElem?_eq_getElem hi)
  have : o2 = o' := Option.some.inj (h2.symm.trans ho')
  subst this
  exact ⟨_, List.getElem?_eq_getElem hi, h3⟩

theorem sameWorld_fwd {w w' : World} (hs : SameWorld w w') {i : Nat} {o : Obj}
    (ho : w.objs[i]? = some o) : ∃ o', w'.objs[i]? = some o' ∧ SameObj o o' := by
  obtain ⟨os, rfl, _, h⟩ := hs
  exact h i o ho

theorem markObj_back {ws : World} {r : Nat} {o : Obj} (ho : ws.objs[r]? = some o) (hg : o.gs = false) :
    (ws.setObj r (fun o => { o with gs := true })).setObj r (fun o => { o with gs := false }) = ws := by
  rw [setObj_setObj]
  exact setObj_id ho (by cases o; cases hg; rfl)

section
variable {E : Env} (hO : ∀ f args, OrderlessProg (E.fn f args)) {kw : SerKw} (hk : kw.saveDynamic = false)
include hO

theorem validate_both {ws ws' : World} (hs : SameWorld ws ws') {n : Nat} {nm : PyStr} {p : PropSpec} {v : Val}
    (hp : Still p v) : ∃ x, run E n (.validate nm p none v) ws = (x, ws) ∧
      run E n (.validate nm p none v) ws' = (x, ws') := by
  have h1 : ∀ u : World, (run E n (.validate nm p none v) u).2 = u := fun u => by
    rcases run_pval_or (E := E) (nm := nm) (inst := none) (n := n) (w := u) hp (fun r hr => by cases hr) with
      h | ⟨_, e, h, _⟩ <;> rw [h]
  refine ⟨_, Prod.ext rfl (h1 ws), Prod.ext ?_ (h1 ws')⟩
  exact (run_blind hO n (.validate nm p none v) trivial ws ws' hs).1.symm

theorem unionSerialize_both {ws ws' : World} (hs : SameWorld ws ws') {n : Nat} {nm : PyStr} {v : Val}
    (ho : ∀ r, Both ws ws' SameJson (run E n (.hpSerialize r kw)) (run E n (.hpSerialize r kw))) :
    ∀ {ps : List PropSpec}, (∀ q ∈ ps, Still q v ∧
      Both ws ws' SameJson (run E n (.serializeP nm q v kw)) (run E n (.serializeP nm q v kw))) →
    Both ws ws' SameJson (unionSerialize (run E n) nm v kw ps) (unionSerialize (run E n) nm v kw ps)
  | [], _ => by
    unfold unionSerialize
    split
    · exact ho _
    · exact both_pure (.same _)
  | p :: ps, h => by
    unfold unionSerialize
    obtain ⟨x, h1, h2⟩ := validate_both hO hs (n := n) (nm := nm) (h p (by simp)).1
    refine both_bind (R := fun a b => a = x ∧ b = x) (.inl ⟨x, x, ?_, ?_, rfl, rfl⟩) ?_
    · rw [attempt_apply, h1]
    · rw [attempt_apply, h2]
    · rintro _ _ ⟨rfl, rfl⟩
      split
      · exact (h p (by simp)).2
      · split
        · exact unionSerialize_both hs ho fun q hq => h q (by simp [hq])
        · exact .inr ⟨_, _, rfl, rfl⟩

include hk

theorem serializeP_both {ws ws' : World} (hs : SameWorld ws ws') {n : Nat}
    (ho : ∀ m, m < n → ∀ r, Both ws ws' SameJson (run E m (.hpSerialize r kw)) (run E m (.hpSerialize r kw))) :
    ∀ m, m ≤ n → ∀ nm p v, Tame E p v →
      Both ws ws' SameJson (run E m (.serializeP nm p v kw)) (run E m (.serializeP nm p v kw))
  | 0, _, _, _, _, _ => .inr ⟨_, _, rfl, rfl⟩
  | m + 1, hm, nm, p, v, ht => by
    have ih := serializeP_both hs ho m (by omega)
    have ho := ho m (by omega)
    show Both ws ws' SameJson (serializeBody E (run E m) nm p v kw) (serializeBody E (run E m) nm p v kw)
    unfold serializeBody
    rcases tame_cases ht with ⟨hser, htt⟩ | ⟨f, hser, hcomp⟩
    rotate_left
    · rw [hser]
      dsimp only
      have hkw : kw.args = serOpts kw.includeClass := by
        unfold SerKw.args serOpts; rw [hk]
      rw [hkw]
      rcases hcomp kw.includeClass with ⟨j, hj⟩ | ⟨e, he, _⟩
      · exact .inl ⟨j, j, callWrapped_answers hj ws, callWrapped_answers hj ws', .same _⟩
      · exact .inr ⟨e, e, callWrapped_raises he ws, callWrapped_raises he ws'⟩
    rw [hser]
    dsimp only
    split
    · exact both_pure (.same _)
    split <;> rename_i hty
    · rw [hty] at htt
      unfold TameTy at htt
      split <;> rename_i hi
      · exact both_raiseK _ _
      · exact both_bind (both_mapML fun x hx => ih nm _ x (htt _ hi x hx)) fun _ _ h =>
          both_pure (sameJson_list h)
    · rw [hty] at htt
      unfold TameTy at htt
      split
      · rename_i kvs _
        refine both_bind (R := List.Forall₂ fun a b => SameJson a.1 b.1 ∧ SameJson a.2 b.2)
          (both_mapML fun kv hkv => both_bind (ih nm _ kv.1 (htt kvs rfl kv hkv).1) fun a b hab =>
            both_bind (ih nm _ kv.2 (htt kvs rfl kv hkv).2) fun c d hcd => both_pure ⟨hab, hcd⟩) ?_
        intro a b hab
        unfold mkDict
        have hh : (a.all fun kv => kv.1.hashable) = (b.all fun kv => kv.1.hashable) := by
          induction hab with
          | nil => rfl
          | cons h _ ih => simp only [List.all_cons, ih, sameJson_sameHashable h.1]
        rw [← hh]
        split
        · rename_i ha
          refine both_pure (sameJson_dict (forall₂_dictOfPairs ?_) (.refl _))
          rw [List.all_eq_true] at ha
          clear hh
          induction hab with
          | nil => exact .nil
          | cons h _ ih =>
            exact .cons ⟨sameJson_hashable h.1 (ha _ (by simp)), h.2⟩ (ih fun z hz => ha z (by simp [hz]))
        · exact both_raiseK _ _
      · exact both_raiseK _ _
    · split
      · exact ho _
      · split
        · exact both_pure (.same _)
        · exact both_raiseK _ _
    · rw [hty] at htt
      unfold TameTy at htt
      refine unionSerialize_both hO hs ho fun q hq => ?_
      have : Still q v ∧ Tame E q v := by
        clear hty
        rename_i ps _
        induction ps with
        | nil => cases hq
        | cons p ps ihp =>
          unfold TameAll at htt
          rcases List.mem_cons.1 hq with rfl | hq
          · exact htt.1
          · exact ihp htt.2 hq
      exact ⟨this.1, ih nm q v this.2⟩
    · split
      · rename_i x _
        cases x with
        | error e => exact .inr ⟨_, _, rfl, rfl⟩
        | ok j => exact .inl ⟨j, j, rfl, rfl, .same _⟩
      · exact both_raiseK _ _

theorem hpSerialize_both : ∀ (n : Nat) {ws ws' : World}, SameWorld ws ws' → TameState E ws →
    (∀ (r : Nat) (o : Obj), ws'.objs[r]? = some o → (o.backend.map (·.1)).Nodup) → ∀ r,
    Both ws ws' SameJson (run E n (.hpSerialize r kw)) (run E n (.hpSerialize r kw)) := by
  intro n
  induction n using Nat.strongRecOn with
  | ind n ihn =>
  intro ws ws' hs ht hn' r
  cases n with
  | zero => exact .inr ⟨_, _, rfl, rfl⟩
  | succ m =>
  show Both ws ws' SameJson (hpSerializeBody E (run E m) r kw) (hpSerializeBody E (run E m) r kw)
  unfold hpSerializeBody
  cases ho : ws.objs[r]? with
  | none =>
    have ho' : ws'.objs[r]? = none := by
      cases h : ws'.objs[r]? with
      | none => rfl
      | some o' =>
        obtain ⟨o, h1, _⟩ := sameWorld_back hs h
        rw [ho] at h1; cases h1
    exact .inr ⟨_, _, bind_err (getObj_none ho), bind_err (getObj_none ho')⟩
  | some o =>
  obtain ⟨o', ho', b, hb, hl⟩ := sameWorld_fwd hs ho
  refine both_bind (R := fun a b => a = o ∧ b = o') (.inl ⟨o, o', getObj_some ho, getObj_some ho', rfl, rfl⟩) ?_
  rintro _ _ ⟨rfl, rfl⟩
  rename_i o o'
  have hgs : o'.gs = o.gs := by rw [hb]
  have hcls : o'.cls = o.cls := by rw [hb]
  rw [hgs]
  cases hg : o.gs with
  | true => exact both_raiseK _ _
  | false =>
  simp only [Bool.false_eq_true, if_false]
  rw [hk, hcls]
  simp only [Bool.false_eq_true, if_false]
  have hN := (ht r o ho).1
  have hN' := hn' r o' ho'
  have hbk : o'.backend = b := by rw [hb]
  have hperm : o'.backend.Perm o.backend := perm_of_lookups hN hN' (by rw [hbk]; exact hl)
  have hs1 : SameWorld (ws.setObj r fun o => { o with gs := true })
      (ws'.setObj r fun o => { o with gs := true }) :=
    same_setObj hs r fun _ b hb => ⟨b, rfl, hb⟩
  have hback := markObj_back ho hg
  have hback' := markObj_back ho' (hgs.trans hg)
  have ht1 := tameState_mark ht r
  have hn1 : ∀ (i : Nat) (o : Obj), (ws'.setObj r fun o => { o with gs := true }).objs[i]? = some o →
      (o.backend.map (·.1)).Nodup := by
    intro i o2 h2
    simp only [World.setObj, List.getElem?_modify] at h2
    cases hw : ws'.objs[i]? with
    | none => rw [hw] at h2; simp at h2
    | some o1 =>
      rw [hw] at h2
      simp only [Option.map_eq_map, Option.map_some, Option.some.injEq] at h2
      have := hn' i o1 hw
      subst h2
      split <;> exact this
  have ho1 : (ws.setObj r fun o => { o with gs := true }).objs[r]? = some { o with gs := true } := by
    unfold World.setObj; rw [List.getElem?_modify]; simp [ho]
  have ho1' : (ws'.setObj r fun o => { o with gs := true }).objs[r]? = some { o' with gs := true } := by
    unfold World.setObj; rw [List.getElem?_modify]; simp [ho']
  generalize hws1 : ws.setObj r (fun o => { o with gs := true }) = ws1 at *
  generalize hws1' : ws'.setObj r (fun o => { o with gs := true }) = ws1' at *
  have hser := serializeP_both hO hk hs1 (n := m)
    (fun k hkm r => ihn k (by omega) hs1 ht1 hn1 r) m (Nat.le_refl m)
  have hact : ∀ key ∈ o.backend.map (·.1), Both ws1 ws1' SamePair
      (match lookupS key (E.classes o.cls).props with
        | none => raiseK .key
        | some e => do
            let v ← run E m (.getattr r key)
            let j ← entrySerialize E (run E m) key e v kw
            pure (Val.str key, j))
      (match lookupS key (E.classes o.cls).props with
        | none => raiseK .key
        | some e => do
            let v ← run E m (.getattr r key)
            let j ← entrySerialize E (run E m) key e v kw
            pure (Val.str key, j)) := by
    intro key hkey
    obtain ⟨⟨nm, v⟩, hmem, rfl⟩ := List.mem_map.1 hkey
    obtain ⟨e, p, hlk, hown, htm⟩ := (ht r o ho).2 nm v hmem
    simp only [hlk]
    have hv : lookupS nm o.backend = some v := mem_lookupS hN hmem
    have hv' : lookupS nm o'.backend = some v := by rw [hbk, hl nm]; exact hv
    cases m with
    | zero => exact .inr ⟨_, _, bind_err rfl, bind_err rfl⟩
    | succ m' =>
    have hget : run E (m' + 1) (.getattr r nm) ws1 = (.ok v, ws1) := by
      show getattrBody E (run E m') r nm ws1 = _
      rcases hown with rfl | rfl
      · rw [getattr_mutable ho1 hlk]; exact congrArg (fun v => (Except.ok v, ws1)) (by simp [hv])
      · rw [getattr_gettable ho1 hlk]; exact congrArg (fun v => (Except.ok v, ws1)) (by simp [hv])
    have hlk' : lookupS nm (E.classes o'.cls).props = some e := by rw [hcls]; exact hlk
    have hget' : run E (m' + 1) (.getattr r nm) ws1' = (.ok v, ws1') := by
      show getattrBody E (run E m') r nm ws1' = _
      rcases hown with rfl | rfl
      · rw [getattr_mutable ho1' hlk']; exact congrArg (fun v => (Except.ok v, ws1')) (by simp [hv'])
      · rw [getattr_gettable ho1' hlk']; exact congrArg (fun v => (Except.ok v, ws1')) (by simp [hv'])
    refine both_bind (R := fun a b => a = v ∧ b = v) (.inl ⟨v, v, hget, hget', rfl, rfl⟩) ?_
    rintro a a' ⟨ha, ha'⟩
    rw [ha, ha']
    have hent : entrySerialize E (run E (m' + 1)) nm e v kw = run E (m' + 1) (.serializeP nm p v kw) := by
      rcases hown with rfl | rfl <;> rfl
    rw [hent]
    exact both_bind (hser nm p v htm) fun _ _ h => both_pure ⟨rfl, h⟩
  have hdata := both_mapML hact
  have hdata' := both_perm (ws := ws1') (hperm.map (·.1)).symm fun key hkey => by
    rcases hact key hkey with ⟨_, b, _, h2, _⟩ | ⟨_, e, _, h2⟩
    · exact ⟨_, h2⟩
    · exact ⟨_, h2⟩
  have key : Both ws1 ws1' SameJson
      (do
        let data ← mapML (fun key => do
          match lookupS key (E.classes o.cls).props with
          | none => raiseK .key
          | some e => do
              let v ← run E m (.getattr r key)
              let j ← entrySerialize E (run E m) key e v kw
              pure (Val.str key, j)) (o.backend.map (·.1))
        pure (.dict (complete kw.includeClass (E.classes o.cls).name data)))
      (do
        let data ← mapML (fun key => do
          match lookupS key (E.classes o.cls).props with
          | none => raiseK .key
          | some e => do
              let v ← run E m (.getattr r key)
              let j ← entrySerialize E (run E m) key e v kw
              pure (Val.str key, j)) (o'.backend.map (·.1))
        pure (.dict (complete kw.includeClass (E.classes o.cls).name data))) := by
    rcases hdata with ⟨d, d1, p1, p2, hd⟩ | ⟨e, e1, p1, p2⟩ <;>
    rcases hdata' with ⟨d2, d', q1, q2, hd'⟩ | ⟨e2, e', q1, q2⟩
    · rw [p2] at q1; cases q1
      have hkeys := mapML_keys (fun x u y u' hx => by
        cases hlk : lookupS x (E.classes o.cls).props with
        | none => simp only [hlk] at hx; cases hx
        | some e =>
          simp only [hlk] at hx
          obtain ⟨_, _, _, hx⟩ := bind_ok_inv hx
          obtain ⟨_, _, _, hx⟩ := bind_ok_inv hx
          cases hx
          rfl) p2
      refine .inl ⟨_, _, bind_ok p1, bind_ok q2, sameJson_dict (forall₂_complete hd) (complete_perm hd' ?_ ?_)⟩
      · intro kv hkv
        have : kv.1 ∈ (o.backend.map (·.1)).map Val.str := by
          rw [← hkeys]; exact List.mem_map.2 ⟨kv, hkv, rfl⟩
        obtain ⟨s, _, hs⟩ := List.mem_map.1 this
        exact ⟨s, hs.symm⟩
      · rw [hkeys]
        exact List.pairwise_map.2 (hN.imp fun h e => h (Val.str.inj e))
    · rw [p2] at q1; cases q1
    · rw [p2] at q1; cases q1
    · exact .inr ⟨_, _, bind_err p1, bind_err q2⟩
  rcases key with ⟨x, x', h1, h2, hr⟩ | ⟨e, e', h1, h2⟩
  · refine .inl ⟨x, x', ?_, ?_, hr⟩
    · rw [bind_ok (modObj_apply _ _ _), hws1]
      refine (congrArg (fun q : Except PyErr Val × World =>
        (q.1, q.2.setObj r (fun o => { o with gs := false }))) h1).trans ?_
      rw [hback]
    · rw [bind_ok (modObj_apply _ _ _), hws1']
      refine (congrArg (fun q : Except PyErr Val × World =>
        (q.1, q.2.setObj r (fun o => { o with gs := false }))) h2).trans ?_
      rw [hback']
  · refine .inr ⟨e, e', ?_, ?_⟩
    · rw [bind_ok (modObj_apply _ _ _), hws1]
      refine (congrArg (fun q : Except PyErr Val × World =>
        (q.1, q.2.setObj r (fun o => { o with gs := false }))) h1).trans ?_
      rw [hback]
    · rw [bind_ok (modObj_apply _ _ _), hws1']
      refine (congrArg (fun q : Except PyErr Val × World =>
        (q.1, q.2.setObj r (fun o => { o with gs := false }))) h2).trans ?_
      rw [hback']
end

end Verif
