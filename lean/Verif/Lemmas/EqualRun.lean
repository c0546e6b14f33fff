import Verif.Lemmas.Equal
import Verif.Lemmas.Access
import Verif.Lemmas.Serialize

/-!
# `equal` decides `Same`
-/

namespace Verif
open Spec

/-- The truth value of a statement. -/
noncomputable def truth (P : Prop) : Bool := @decide P (Classical.propDecidable P)

theorem truth_iff {P : Prop} : truth P = true ↔ P := by
  unfold truth
  exact @decide_eq_true_iff P (Classical.propDecidable P)

theorem truth_true {P : Prop} (h : P) : truth P = true := truth_iff.2 h

theorem truth_false {P : Prop} (h : ¬ P) : truth P = false := by
  cases ht : truth P with
  | false => rfl
  | true => exact absurd (truth_iff.1 ht) h

theorem truth_eq {P : Prop} {b : Bool} (h : b = true ↔ P) : truth P = b := by
  cases b with
  | true => exact truth_true (h.1 rfl)
  | false => exact truth_false fun hp => by cases h.2 hp

/-! ## Containers, for any equality of items -/

section Items
variable {rec : Rec} {p : PropSpec} {ws : World} {R : Val → Val → Bool}

theorem setRemove_apply (x : Val) :
    ∀ ys, (∀ y ∈ ys, rec (.propEqual p x y) ws = (.ok (.bool (R x y)), ws)) →
      setRemove rec p x ys ws = (.ok (takeFirst R x ys), ws)
  | [], _ => rfl
  | y :: ys, h => by
    unfold setRemove takeFirst
    rw [bind_ok (h y (by simp))]
    show (if R x y = true then (pure (some ys) : M _) else _) ws = _
    cases hr : R x y with
    | true => rfl
    | false =>
      simp only [Bool.false_eq_true, if_false]
      rw [bind_ok (setRemove_apply x ys fun z hz => h z (by simp [hz]))]
      rfl

theorem takeFirst_sub {α β : Type} {R : α → β → Bool} {x : α} {ys zs : List β}
    (h : takeFirst R x ys = some zs) : ∀ z ∈ zs, z ∈ ys := by
  obtain ⟨pre, y, post, rfl, rfl, _⟩ := takeFirst_some h
  intro z hz
  simp only [List.mem_append, List.mem_cons] at hz ⊢
  tauto

theorem setFold_apply :
    ∀ (xs ys : List Val),
      (∀ x ∈ xs, ∀ y ∈ ys, rec (.propEqual p x y) ws = (.ok (.bool (R x y)), ws)) →
      foldML (fun copy x => do
        let r ← setRemove rec p x copy
        match r with
        | some copy' => if false then raiseK .attr else pure copy'
        | none => pure copy) ys xs ws = (.ok (leftOver R xs ys), ws)
  | [], _, _ => rfl
  | x :: xs, ys, h => by
    have h1 := setRemove_apply (R := R) (rec := rec) (p := p) (ws := ws) x ys (h x (by simp))
    have h2 : (do
        let r ← setRemove rec p x ys
        match r with
        | some copy' => if false then raiseK .attr else pure copy'
        | none => pure ys : M (List Val)) ws = (.ok ((takeFirst R x ys).getD ys), ws) := by
      rw [bind_ok h1]
      cases takeFirst R x ys <;> rfl
    unfold foldML
    rw [bind_ok h2]
    refine (setFold_apply xs _ fun a ha y hy => h a (by simp [ha]) y ?_).trans rfl
    cases hf : takeFirst R x ys with
    | none => rw [hf] at hy; exact hy
    | some zs => rw [hf] at hy; exact takeFirst_sub hf y hy

theorem setEqual_apply (xs ys : List Val)
    (h : ∀ x ∈ xs, ∀ y ∈ ys, rec (.propEqual p x y) ws = (.ok (.bool (R x y)), ws)) :
    setEqual rec p (.set xs) (.set ys) ws =
      (.ok (.bool (xs.length == ys.length && (leftOver R xs ys).isEmpty)), ws) := by
  unfold setEqual
  refine catchIf_ok ?_
  show (if xs.length ≠ ys.length then (pure (.bool false) : M Val) else do
      let rest ← foldML (fun copy x => do
        let r ← setRemove rec p x copy
        match r with
        | some copy' => if false then raiseK .attr else pure copy'
        | none => pure copy) ys xs
      pure (.bool rest.isEmpty)) ws = _
  by_cases hl : xs.length = ys.length
  · simp only [hl, ne_eq, not_true_eq_false, if_false, BEq.rfl, Bool.true_and]
    rw [bind_ok (setFold_apply xs ys h)]
    rfl
  · simp only [ne_eq, hl, not_false_eq_true, if_true]
    have : (xs.length == ys.length) = false := by simp [hl]
    rw [this]
    rfl

theorem zipEqual_apply :
    ∀ (xs ys : List Val), xs.length = ys.length →
      (∀ x ∈ xs, ∀ y ∈ ys, rec (.propEqual p x y) ws = (.ok (.bool (R x y)), ws)) →
      ∃ b, zipEqual rec p xs ys ws = (.ok b, ws) ∧
        (b = true ↔ List.Forall₂ (fun x y => R x y = true) xs ys)
  | [], [], _, _ => ⟨true, rfl, by simp⟩
  | [], _ :: _, hl, _ => by simp at hl
  | _ :: _, [], hl, _ => by simp at hl
  | x :: xs, y :: ys, hl, h => by
    obtain ⟨b, hb, hi⟩ := zipEqual_apply xs ys (by simpa using hl)
      fun a ha c hc => h a (by simp [ha]) c (by simp [hc])
    refine ⟨R x y && b, ?_, ?_⟩
    · unfold zipEqual
      rw [bind_ok (h x (by simp) y (by simp)), bind_ok hb]
      rfl
    · rw [Bool.and_eq_true, hi]
      constructor
      · rintro ⟨h1, h2⟩; exact .cons h1 h2
      · intro h; cases h with | cons h1 h2 => exact ⟨h1, h2⟩

theorem tupEqual_apply {a b : Val}
    (h : ∀ xs ys, a.iter? = some xs → b.iter? = some ys →
      ∀ x ∈ xs, ∀ y ∈ ys, rec (.propEqual p x y) ws = (.ok (.bool (R x y)), ws)) :
    ∃ c, tupEqual rec p a b ws = (.ok (.bool c), ws) ∧
      (c = true ↔ ∃ xs ys, a.iter? = some xs ∧ b.iter? = some ys ∧
        List.Forall₂ (fun x y => R x y = true) xs ys) := by
  unfold tupEqual
  cases ha : a.iter? with
  | none =>
    refine ⟨false, ?_, by simp⟩
    rw [catchIf_err (w' := ws) (e := { kind := .type }) ?_ rfl]
    · rfl
    · rfl
  | some xs =>
    cases hb : b.iter? with
    | none =>
      refine ⟨false, ?_, by simp⟩
      rw [catchIf_err (w' := ws) (e := { kind := .type }) ?_ rfl]
      · rfl
      · rfl
    | some ys =>
      by_cases hl : xs.length = ys.length
      · obtain ⟨c, hc, hi⟩ := zipEqual_apply (R := R) xs ys hl (h xs ys ha hb)
        refine ⟨c, catchIf_ok ?_, ?_⟩
        · simp only [hl, if_true]
          rw [bind_ok hc]
          rfl
        · rw [hi]
          constructor
          · intro h; exact ⟨xs, ys, rfl, rfl, h⟩
          · rintro ⟨_, _, h1, h2, h⟩; cases h1; cases h2; exact h
      · refine ⟨false, catchIf_ok ?_, ?_⟩
        · simp only [hl, if_false]
          rfl
        · simp only [Bool.false_eq_true, false_iff]
          rintro ⟨_, _, h1, h2, h⟩
          cases h1; cases h2
          exact hl h.length_eq

theorem forall₂_left {α β : Type} {R : α → β → Prop} :
    ∀ {xs : List α} {ys : List β}, List.Forall₂ R xs ys → ∀ x ∈ xs, ∃ y ∈ ys, R x y
  | _, _, .nil, _, h => by cases h
  | _, _, .cons h hs, x, hx => by
    rcases List.mem_cons.1 hx with rfl | hx
    · exact ⟨_, by simp, h⟩
    · obtain ⟨y, hy, hr⟩ := forall₂_left hs x hx
      exact ⟨y, by simp [hy], hr⟩

/-- Keys of a dict: hashable and distinct. -/
def GoodKeys (kvs : List (Val × Val)) : Prop :=
  (kvs.map (·.1)).Pairwise (fun a b => pyEq a b = false) ∧ ∀ kv ∈ kvs, kv.1.hashable = true

theorem goodKeys_unique : ∀ {kvs : List (Val × Val)}, GoodKeys kvs → ∀ x ∈ kvs, ∀ y ∈ kvs,
    pyEq x.1 y.1 = true → x = y
  | [], _, x, hx, _, _, _ => by cases hx
  | a :: kvs, h, x, hx, y, hy, he => by
    obtain ⟨h1, h2⟩ := h
    simp only [List.map_cons, List.pairwise_cons] at h1
    rcases List.mem_cons.1 hx with rfl | hx'
    · rcases List.mem_cons.1 hy with rfl | hy'
      · rfl
      · rw [h1.1 y.1 (List.mem_map.2 ⟨y, hy', rfl⟩)] at he; cases he
    · rcases List.mem_cons.1 hy with rfl | hy'
      · have := pyEq_symm (h2 x hx) he
        rw [h1.1 x.1 (List.mem_map.2 ⟨x, hx', rfl⟩)] at this; cases this
      · exact goodKeys_unique ⟨h1.2, fun kv hkv => h2 kv (by simp [hkv])⟩ x hx' y hy' he

/-- Two entries found under the same key are the same entry. -/
theorem goodKeys_found {kvs : List (Val × Val)} (h : GoodKeys kvs) {x y : Val × Val} {k : Val}
    (hx : x ∈ kvs) (hy : y ∈ kvs) (ex : pyEq x.1 k = true) (ey : pyEq y.1 k = true) : x = y :=
  goodKeys_unique h x hx y hy
    (pyEq_trans (h.2 x hx) ex (pyEq_symm (h.2 y hy) ey))

theorem dictGet_some : ∀ {kvs : List (Val × Val)} {k v : Val}, dictGet? kvs k = some v →
    ∃ k', (k', v) ∈ kvs ∧ pyEq k' k = true
  | [], _, _, h => by cases h
  | (k', v') :: kvs, k, v, h => by
    unfold dictGet? at h
    split at h
    · cases h; exact ⟨k', by simp, by assumption⟩
    · obtain ⟨k2, h1, h2⟩ := dictGet_some h
      exact ⟨k2, by simp [h1], h2⟩

theorem dictGet_none : ∀ {kvs : List (Val × Val)} {k : Val}, dictGet? kvs k = none →
    ∀ kv ∈ kvs, pyEq kv.1 k = false
  | [], _, _, _, hx => by cases hx
  | (k', v') :: kvs, k, h, kv, hkv => by
    unfold dictGet? at h
    split at h
    · cases h
    · rcases List.mem_cons.1 hkv with rfl | hkv
      · rename_i hn
        simpa using hn
      · exact dictGet_none h kv hkv

/-- Entries are related when their keys are equal and their values related. -/
def entryRel (R : Val → Val → Bool) (x y : Val × Val) : Bool := pyEq x.1 y.1 && R x.2 y.2

theorem takeFirst_erase {R : Val → Val → Bool} {x y : Val × Val} (hxh : x.1.hashable = true)
    (hr : R x.2 y.2 = true) : ∀ {c : List (Val × Val)}, GoodKeys c → y ∈ c → pyEq y.1 x.1 = true →
      takeFirst (entryRel R) x c = some (dictErase c x.1)
  | [], _, hy, _ => by cases hy
  | a :: c, hg, hy, he => by
    unfold takeFirst dictErase
    cases ha : pyEq a.1 x.1 with
    | true =>
      have : a = y := goodKeys_found hg (by simp) hy ha he
      subst this
      have : entryRel R x a = true := by
        unfold entryRel
        rw [pyEq_symm (hg.2 a (by simp)) ha, hr]; rfl
      simp [this]
    | false =>
      have hn : entryRel R x a = false := by
        unfold entryRel
        cases h : pyEq x.1 a.1 with
        | false => rfl
        | true => rw [pyEq_symm hxh h] at ha; cases ha
      have hy' : y ∈ c := by
        rcases List.mem_cons.1 hy with rfl | h
        · rw [he] at ha; cases ha
        · exact h
      have hg' : GoodKeys c := by
        obtain ⟨h1, h2⟩ := hg
        simp only [List.map_cons, List.pairwise_cons] at h1
        exact ⟨h1.2, fun kv hkv => h2 kv (by simp [hkv])⟩
      rw [hn, takeFirst_erase hxh hr hg' hy' he]
      rfl

theorem takeFirst_no {α β : Type} {R : α → β → Bool} {x : α} :
    ∀ {ys : List β}, (∀ y ∈ ys, R x y = false) → takeFirst R x ys = none
  | [], _ => rfl
  | y :: ys, h => by
    unfold takeFirst
    rw [h y (by simp), takeFirst_no fun z hz => h z (by simp [hz])]
    rfl

theorem goodKeys_sub {c d : List (Val × Val)} (h : c.Sublist d) (hg : GoodKeys d) : GoodKeys c :=
  ⟨hg.1.sublist (h.map _), fun kv hkv => hg.2 kv (h.subset hkv)⟩

/-- One round of the loop of `Dictionary.equal`. -/
def dStep (rec : Rec) (p : PropSpec) (a b copy k : Val) : M Val := do
  let x ← liftK (pyIndex a k)
  let y ← liftK (pyIndex b k)
  let e ← rec (.propEqual p x y)
  if e.truthy then liftK (pyPop copy k) else pure copy

/-- The loop of `Dictionary.equal` is the greedy search for a pairing of the
entries, or stops at a key that the second dictionary does not have. -/
theorem dictFold_apply {as bs : List (Val × Val)} (ha : GoodKeys as) (hb : GoodKeys bs)
    (h : ∀ x ∈ as, ∀ y ∈ bs, rec (.propEqual p x.2 y.2) ws = (.ok (.bool (R x.2 y.2)), ws)) :
    ∀ (rest c : List (Val × Val)), rest.Sublist as → c.Sublist bs →
      (∀ x ∈ rest, ∀ y ∈ bs, pyEq y.1 x.1 = true → y ∈ c) →
      foldML (dStep rec p (.dict as) (.dict bs)) (.dict c) (rest.map (·.1)) ws =
        (.ok (.dict (leftOver (entryRel R) rest c)), ws) ∨
      (foldML (dStep rec p (.dict as) (.dict bs)) (.dict c) (rest.map (·.1)) ws =
        (.error { kind := .key }, ws) ∧ ∃ x ∈ as, ∀ y ∈ bs, entryRel R x y = false)
  | [], _, _, _, _ => .inl rfl
  | x :: rest, c, hr, hc, hin => by
    have hx : x ∈ as := hr.subset (by simp)
    have hxh := ha.2 x hx
    simp only [List.map_cons]
    unfold foldML
    have hidx : ∀ kvs : List (Val × Val), (∀ v, dictGet? kvs x.1 = some v →
        pyIndex (.dict kvs) x.1 = .ok v) ∧ (dictGet? kvs x.1 = none →
        pyIndex (.dict kvs) x.1 = .error .key) := by
      intro kvs
      unfold pyIndex
      simp only [hxh, if_true]
      refine ⟨fun v h => by rw [h], fun h => by rw [h]⟩
    have hno : (∀ y ∈ bs, pyEq y.1 x.1 = false) → ∃ x ∈ as, ∀ y ∈ bs, entryRel R x y = false := by
      intro hn
      refine ⟨x, hx, fun y hy => ?_⟩
      unfold entryRel
      cases h : pyEq x.1 y.1 with
      | false => rfl
      | true => have := pyEq_symm hxh h; rw [hn y hy] at this; cases this
    cases h1 : dictGet? as x.1 with
    | none =>
      refine .inr ⟨?_, hno fun y hy => ?_⟩
      · refine bind_err ?_
        unfold dStep
        rw [(hidx as).2 h1]
        exact bind_err rfl
      · cases h : pyEq y.1 x.1 with
        | false => rfl
        | true =>
          have h3 := pyEq_symm (hb.2 y hy) h
          have h4 := pyEq_trans hxh h3 h
          rw [dictGet_none h1 x hx] at h4; cases h4
    | some v =>
      obtain ⟨k', hm, he⟩ := dictGet_some h1
      have : (k', v) = x := goodKeys_unique ha _ hm x hx he
      subst this
      cases h2 : dictGet? bs k' with
      | none =>
        refine .inr ⟨?_, hno (dictGet_none h2)⟩
        refine bind_err ?_
        unfold dStep
        rw [(hidx as).1 v h1, (hidx bs).2 h2, bind_ok (liftK_ok v ws)]
        exact bind_err rfl
      | some u =>
        obtain ⟨k2, hm2, he2⟩ := dictGet_some h2
        have hrun := h (k', v) hx (k2, u) hm2
        have hy : (k2, u) ∈ c := hin (k', v) (by simp) _ hm2 he2
        have hstep : dStep rec p (.dict as) (.dict bs) (.dict c) k' ws =
            (.ok (.dict ((takeFirst (entryRel R) (k', v) c).getD c)), ws) := by
          unfold dStep
          rw [(hidx as).1 v h1, (hidx bs).1 u h2]
          rw [bind_ok (liftK_ok v ws), bind_ok (liftK_ok u ws), bind_ok hrun]
          cases hR : R v u with
          | true =>
            rw [takeFirst_erase (x := (k', v)) (y := (k2, u)) hxh hR (goodKeys_sub hc hb) hy he2]
            have hpop : pyPop (Val.dict c) k' = .ok (Val.dict (dictErase c k')) := by
              unfold pyPop
              cases hg : dictGet? c k' with
              | none => have := dictGet_none hg _ hy; rw [he2] at this; cases this
              | some _ => simp only [hg]
            show liftK (pyPop (Val.dict c) k') ws = _
            rw [hpop]
            rfl
          | false =>
            rw [takeFirst_no (R := entryRel R) (x := (k', v)) fun z hz => ?_]
            · rfl
            · unfold entryRel
              cases hz2 : pyEq k' z.1 with
              | false => rfl
              | true =>
                have : z = (k2, u) := goodKeys_found hb (hc.subset hz) hm2 (pyEq_symm hxh hz2) he2
                subst this
                exact hR
        rw [bind_ok hstep]
        have ih := dictFold_apply ha hb h rest ((takeFirst (entryRel R) (k', v) c).getD c)
          ((List.sublist_cons_self _ _).trans hr) ?_ ?_
        · rcases ih with ih | ⟨ih, ih'⟩
          · exact .inl ih
          · exact .inr ⟨ih, ih'⟩
        · cases hf : takeFirst (entryRel R) (k', v) c with
          | none => exact hc
          | some zs =>
            obtain ⟨pre, y, post, rfl, rfl, _⟩ := takeFirst_some hf
            exact (List.Sublist.append_left (List.sublist_cons_self _ _) _).trans hc
        · intro x' hx' y hy' he'
          have hyc := hin x' (by simp [hx']) y hy' he'
          cases hf : takeFirst (entryRel R) (k', v) c with
          | none => exact hyc
          | some zs =>
            obtain ⟨pre, z, post, rfl, rfl, hz⟩ := takeFirst_some hf
            simp only [Option.getD_some, List.mem_append, List.mem_cons] at hyc ⊢
            rcases hyc with h | rfl | h
            · exact .inl h
            · -- `x'` and `x` would have equal keys
              exfalso
              unfold entryRel at hz
              simp only [Bool.and_eq_true] at hz
              have h5 := pyEq_trans hxh hz.1 he'
              have hx'as : x' ∈ as := hr.subset (by simp [hx'])
              have := goodKeys_unique ha (k', v) hx x' hx'as h5
              subst this
              have hp := (ha.1.sublist (hr.map _))
              simp only [List.map_cons, List.pairwise_cons] at hp
              rw [hp.1 k' (List.mem_map.2 ⟨_, hx', rfl⟩)] at h5; cases h5
            · exact .inr h

/-- Dictionaries are equal when their entries can be paired by key and value. -/
theorem dictEqual_apply {as bs : List (Val × Val)} (ha : GoodKeys as) (hb : GoodKeys bs)
    (h : ∀ x ∈ as, ∀ y ∈ bs, rec (.propEqual p x.2 y.2) ws = (.ok (.bool (R x.2 y.2)), ws)) :
    ∃ c, dictEqual rec p (.dict as) (.dict bs) ws = (.ok (.bool c), ws) ∧
      (c = true ↔ Pairing (fun x y => pyEq x.1 y.1 = true ∧ R x.2 y.2 = true) as bs) := by
  have hrel : ∀ x y : Val × Val, entryRel R x y = true ↔ pyEq x.1 y.1 = true ∧ R x.2 y.2 = true :=
    fun x y => by unfold entryRel; rw [Bool.and_eq_true]
  have hpair : Pairing (fun x y => pyEq x.1 y.1 = true ∧ R x.2 y.2 = true) as bs ↔
      Pairing (fun x y => entryRel R x y = true) as bs :=
    ⟨pairing_mono fun x _ y _ => (hrel x y).2, pairing_mono fun x _ y _ => (hrel x y).1⟩
  rw [hpair]
  unfold dictEqual
  show ∃ c, M.catchIf _ (if (as.map (·.1)).length ≠ (bs.map (·.1)).length then (pure (.bool false) : M Val)
      else do
        let rest ← foldML (dStep rec p (.dict as) (.dict bs)) (.dict bs) (as.map (·.1))
        pure (.bool (rest.len? == some 0))) _ ws = _ ∧ _
  by_cases hl : as.length = bs.length
  · have hl' : ¬ (as.map (·.1)).length ≠ (bs.map (·.1)).length := by simp [hl]
    rw [if_neg hl']
    rcases dictFold_apply (R := R) ha hb h as bs (List.Sublist.refl _) (List.Sublist.refl _)
      (fun _ _ y hy _ => hy) with hf | ⟨hf, x, hx, hn⟩
    · refine ⟨(leftOver (entryRel R) as bs).isEmpty, catchIf_ok ?_, ?_⟩
      · rw [bind_ok hf]
        show (Except.ok (Val.bool _), ws) = _
        congr 3
        cases leftOver (entryRel R) as bs <;> rfl
      · rw [List.isEmpty_iff]
        refine leftOver_nil hl fun x hx x' hx' y hy y' hy' h1 h2 h3 => ?_
        rw [hrel] at h1 h2 h3 ⊢
        have e1 : x = x' := goodKeys_unique ha x hx x' hx'
          (pyEq_trans (ha.2 x hx) h1.1 (pyEq_symm (ha.2 x' hx') h2.1))
        subst e1
        exact h3
    · refine ⟨false, ?_, ?_⟩
      · rw [catchIf_err (bind_err hf) rfl]
        rfl
      · simp only [Bool.false_eq_true, false_iff]
        rintro ⟨zs, h1, h2⟩
        obtain ⟨y, hy, hr⟩ := forall₂_left h1 x hx
        rw [hn y (h2.subset hy)] at hr
        cases hr
  · have hl' : (as.map (·.1)).length ≠ (bs.map (·.1)).length := by simpa using hl
    rw [if_pos hl']
    exact ⟨false, catchIf_ok rfl, by simp; exact fun h => hl (pairing_length h)⟩

/-- What is not iterable is not equal to any container. -/
theorem setEqual_not {a b : Val} (h : a.iter? = none ∨ b.iter? = none) :
    setEqual rec p a b ws = (.ok (.bool false), ws) := by
  unfold setEqual
  rw [catchIf_err (w' := ws) (e := { kind := .type }) ?_ rfl]
  · rfl
  · rcases h with h | h
    · rw [h]; rfl
    · rw [h]; cases a.iter? <;> rfl

theorem dictEqual_not {a b : Val} (h : a.iter? = none ∨ b.iter? = none) :
    dictEqual rec p a b ws = (.ok (.bool false), ws) := by
  unfold dictEqual
  rw [catchIf_err (w' := ws) (e := { kind := .type }) ?_ rfl]
  · rfl
  · rcases h with h | h
    · rw [h]; rfl
    · rw [h]; cases a.iter? <;> rfl

end Items

/-! ## Property equality, given equality of instances -/

theorem truth_congr {P Q : Prop} (h : P ↔ Q) : truth P = truth Q := truth_eq (truth_iff.trans h.symm)

theorem depthAll_mem : ∀ {ps : List PropSpec} {q : PropSpec}, q ∈ ps → depth q ≤ depthAll ps
  | [], _, h => by cases h
  | p :: ps, q, h => by
    unfold depthAll
    rcases List.mem_cons.1 h with rfl | h
    · exact Nat.le_max_left _ _
    · exact Nat.le_trans (depthAll_mem h) (Nat.le_max_right _ _)

section Props
variable {E : Env} {I : Prop} {P Q : Nat → Prop} {O : Nat → Nat → Prop} {B : Nat} {ws : World}

theorem scalar_run {rq : Bool} {se de : Option FnId} {df : Dflt} {ty : PropTy} {n : Nat} {a b : Val}
    (hs : ScalarTy ty) (ha : ComparableTy E P ty a) (hb : ComparableTy E Q ty b) :
    run E (n + 1) (.propEqual (.mk rq se de df ty) a b) ws =
      (.ok (.bool (truth (SameP E O (.mk rq se de df ty) a b))), ws) := by
  show propEqualBody E (run E n) (.mk rq se de df ty) a b ws = _
  obtain ⟨r, hr⟩ := scalarEqual_total hs ha hb
  have ht : truth (SameP E O (.mk rq se de df ty) a b) = r := by
    unfold SameP
    refine truth_eq ?_
    rw [same_scalar hs, hr]
    simp
  rw [ht]
  unfold propEqualBody
  cases ty <;> first | exact hs.elim | (simp only [PropSpec.ty, hr]; rfl)

mutual
theorem propEqual_run (hl : LawfulEq E) (hB : 1 ≤ B) (hsym : ∀ i j, O i j → O j i)
    (htr : I → ∀ i j k, O i j → O j k → O i k)
    (ho : ∀ n, B ≤ n → ∀ i j, P i → Q j →
      run E n (.equal (.obj i) (.obj j)) ws = (.ok (.bool (truth (O i j))), ws)) :
    ∀ (p : PropSpec) (n : Nat) (a b : Val), depth p + B ≤ n → SetsExact I p →
      Comparable E P p a → Comparable E Q p b →
      run E n (.propEqual p a b) ws = (.ok (.bool (truth (SameP E O p a b))), ws)
  | .mk rq se de df ty, 0, a, b, hn, _, _, _ => by unfold depth at hn; omega
  | .mk rq se de df (.seq .set item lo hi co), n + 1, a, b, hn, hx, ha, hb => by
    show setEqual (run E n) item a b ws = _
    unfold Comparable ComparableTy at ha hb
    unfold SetsExact SetsExactTy at hx
    unfold SameP SameTy
    rcases ha with ⟨xs, rfl, ha⟩ | ha
    · rcases hb with ⟨ys, rfl, hb⟩ | hb
      · have hrun : ∀ x ∈ xs, ∀ y ∈ ys, run E n (.propEqual item x y) ws =
            (.ok (.bool (truth (SameP E O item x y))), ws) := fun x hx' y hy =>
          propEqual_run hl hB hsym htr ho item n x y (by unfold depth depthTy at hn; omega) hx.2
            (ha x hx') (hb y hy)
        rw [setEqual_apply (R := fun x y => truth (SameP E O item x y)) xs ys hrun]
        congr 3
        refine (truth_eq ?_).symm
        rw [Bool.and_eq_true, List.isEmpty_iff, beq_iff_eq]
        have key := fun (hle : xs.length = ys.length) => leftOver_nil
          (R := fun x y => truth (SameP E O item x y)) hle
          (fun x hx1 x' hx2 y hy1 y' hy2 h1 h2 h3 => by
            rw [truth_iff] at h1 h2 h3 ⊢
            have h4 := sameP_symm hl (fun i j _ _ => hsym i j) item x' y (ha x' hx2) (hb y hy1) h2
            have h5 := sameP_trans hl (fun hI i j k _ _ _ => htr hI i j k) item x y x' hx.1 (ha x hx1)
              (hb y hy1) (ha x' hx2) h1 h4
            exact sameP_trans hl (fun hI i j k _ _ _ => htr hI i j k) item x x' y' hx.1 (ha x hx1)
              (ha x' hx2) (hb y' hy2) h5 h3)
        constructor
        · rintro ⟨h1, h2⟩
          exact ⟨xs, ys, rfl, rfl, pairing_mono (fun x _ y _ => truth_iff.1) ((key h1).1 h2)⟩
        · rintro ⟨_, _, h1, h2, h⟩
          cases h1; cases h2
          have hle := pairing_length h
          exact ⟨hle, (key hle).2 (pairing_mono (fun x _ y _ => truth_iff.2) h)⟩
      · rw [setEqual_not (.inr hb), truth_false]
        rintro ⟨_, ys, _, rfl, _⟩
        cases hb
    · rw [setEqual_not (.inl ha), truth_false]
      rintro ⟨xs, _, rfl, _, _⟩
      cases ha
  | .mk rq se de df (.seq .tup item lo hi co), n + 1, a, b, hn, hx, ha, hb => by
    show tupEqual (run E n) item a b ws = _
    unfold Comparable ComparableTy at ha hb
    unfold SetsExact SetsExactTy at hx
    unfold SameP SameTy
    obtain ⟨c, hc, hi⟩ := tupEqual_apply (R := fun x y => truth (SameP E O item x y)) (rec := run E n)
      (p := item) (ws := ws) (a := a) (b := b) fun xs ys h1 h2 x hx' y hy =>
        propEqual_run hl hB hsym htr ho item n x y (by unfold depth depthTy at hn; omega) hx
          (ha xs h1 x hx') (hb ys h2 y hy)
    rw [hc, truth_eq (b := c)]
    rw [hi]
    simp only [truth_iff]
  | .mk rq se de df (.seq .list item lo hi co), n + 1, a, b, hn, hx, ha, hb => by
    show tupEqual (run E n) item a b ws = _
    unfold Comparable ComparableTy at ha hb
    unfold SetsExact SetsExactTy at hx
    unfold SameP SameTy
    obtain ⟨c, hc, hi⟩ := tupEqual_apply (R := fun x y => truth (SameP E O item x y)) (rec := run E n)
      (p := item) (ws := ws) (a := a) (b := b) fun xs ys h1 h2 x hx' y hy =>
        propEqual_run hl hB hsym htr ho item n x y (by unfold depth depthTy at hn; omega) hx
          (ha xs h1 x hx') (hb ys h2 y hy)
    rw [hc, truth_eq (b := c)]
    rw [hi]
    simp only [truth_iff]
  | .mk rq se de df (.dict kp vp co), n + 1, a, b, hn, hx, ha, hb => by
    show dictEqual (run E n) vp a b ws = _
    unfold Comparable ComparableTy at ha hb
    unfold SetsExact SetsExactTy at hx
    unfold SameP SameTy
    rcases ha with ⟨xs, rfl, ha1, ha2, ha3⟩ | ha
    · rcases hb with ⟨ys, rfl, hb1, hb2, hb3⟩ | hb
      · obtain ⟨c, hc, hi⟩ := dictEqual_apply (R := fun x y => truth (SameP E O vp x y)) (rec := run E n)
          (p := vp) (ws := ws) (as := xs) (bs := ys) ⟨ha1, ha2⟩ ⟨hb1, hb2⟩ fun x hx' y hy =>
            propEqual_run hl hB hsym htr ho vp n x.2 y.2 (by unfold depth depthTy at hn; omega) hx
              (ha3 x hx') (hb3 y hy)
        rw [hc, truth_eq (b := c)]
        rw [hi]
        simp only [truth_iff]
        constructor
        · intro h; exact ⟨xs, ys, rfl, rfl, h⟩
        · rintro ⟨_, _, h1, h2, h⟩; cases h1; cases h2; exact h
      · rw [dictEqual_not (.inr hb), truth_false]
        rintro ⟨_, ys, _, rfl, _⟩
        cases hb
    · rw [dictEqual_not (.inl ha), truth_false]
      rintro ⟨xs, _, rfl, _, _⟩
      cases ha
  | .mk rq se de df (.inst c), n + 1, a, b, hn, _, ha, hb => by
    show run E n (.equal a b) ws = _
    have hBn : B ≤ n := by unfold depth depthTy at hn; omega
    have hother : ((∀ r, a ≠ .obj r) ∨ ∀ r, b ≠ .obj r) → run E n (.equal a b) ws =
        (.ok (.bool (truth (SameP E O (.mk rq se de df (.inst c)) a b))), ws) := by
      intro hno
      obtain ⟨m, rfl⟩ : ∃ m, n = m + 1 := ⟨n - 1, by omega⟩
      have : equalBody E (run E m) a b ws = (.ok (.bool (pyEq a b)), ws) := by
        unfold equalBody
        split
        · rcases hno with h | h
          · exact absurd rfl (h _)
          · exact absurd rfl (h _)
        · rfl
      refine (show equalBody E (run E m) a b ws = _ from this).trans ?_
      unfold SameP
      rw [truth_congr (same_inst_other hno), truth_eq Iff.rfl]
    rcases ha with ⟨i, rfl, hi⟩ | ⟨hno, _⟩
    · rcases hb with ⟨j, rfl, hj⟩ | ⟨hno, _⟩
      · rw [ho n hBn i j hi hj]
        unfold SameP SameTy
        rfl
      · exact hother (.inr hno)
    · exact hother (.inl hno)
  | .mk rq se de df (.union ps st), n + 1, a, b, hn, hx, ha, hb => by
    show unionEqual (run E n) a b ps ws = _
    unfold Comparable ComparableTy at ha hb
    unfold SetsExact SetsExactTy at hx
    unfold SameP SameTy
    exact unionEqual_run hl hB hsym htr ho ps n a b (by unfold depth depthTy at hn; omega) hx ha hb
  | .mk rq se de df .any, n + 1, a, b, _, _, ha, hb => scalar_run (P := P) (Q := Q) (by trivial) ha hb
  | .mk rq se de df (.boolean _), n + 1, a, b, _, _, ha, hb => scalar_run (P := P) (Q := Q) (by trivial) ha hb
  | .mk rq se de df (.integer ..), n + 1, a, b, _, _, ha, hb => scalar_run (P := P) (Q := Q) (by trivial) ha hb
  | .mk rq se de df (.float ..), n + 1, a, b, _, _, ha, hb => scalar_run (P := P) (Q := Q) (by trivial) ha hb
  | .mk rq se de df (.complex _), n + 1, a, b, _, _, ha, hb => scalar_run (P := P) (Q := Q) (by trivial) ha hb
  | .mk rq se de df (.string ..), n + 1, a, b, _, _, ha, hb => scalar_run (P := P) (Q := Q) (by trivial) ha hb
  | .mk rq se de df (.choice ..), n + 1, a, b, _, _, ha, hb => scalar_run (P := P) (Q := Q) (by trivial) ha hb
  | .mk rq se de df .color, n + 1, a, b, _, _, ha, hb => scalar_run (P := P) (Q := Q) (by trivial) ha hb
  | .mk rq se de df .datetime, n + 1, a, b, _, _, ha, hb => scalar_run (P := P) (Q := Q) (by trivial) ha hb
  | .mk rq se de df .uuid, n + 1, a, b, _, _, ha, hb => scalar_run (P := P) (Q := Q) (by trivial) ha hb
theorem unionEqual_run (hl : LawfulEq E) (hB : 1 ≤ B) (hsym : ∀ i j, O i j → O j i)
    (htr : I → ∀ i j k, O i j → O j k → O i k)
    (ho : ∀ n, B ≤ n → ∀ i j, P i → Q j →
      run E n (.equal (.obj i) (.obj j)) ws = (.ok (.bool (truth (O i j))), ws)) :
    ∀ (ps : List PropSpec) (n : Nat) (a b : Val), depthAll ps + B ≤ n → SetsExactAll I ps →
      ComparableAll E P ps a → ComparableAll E Q ps b →
      unionEqual (run E n) a b ps ws = (.ok (.bool (truth (SameAny E O ps a b))), ws)
  | [], n, a, b, _, _, _, _ => by
    unfold SameAny
    rw [truth_false (fun h => h)]
    rfl
  | p :: ps, n, a, b, hn, hx, ha, hb => by
    unfold ComparableAll at ha hb
    unfold SetsExactAll at hx
    unfold SameAny unionEqual
    have h1 := propEqual_run hl hB hsym htr ho p n a b (by unfold depthAll at hn; omega) hx.1 ha.1 hb.1
    have h2 := unionEqual_run hl hB hsym htr ho ps n a b (by unfold depthAll at hn; omega) hx.2 ha.2 hb.2
    rw [bind_ok h1]
    by_cases h : SameP E O p a b
    · rw [truth_true h, truth_true (.inl h)]
      rfl
    · rw [truth_false h]
      refine h2.trans ?_
      rw [truth_congr (P := SameP E O p a b ∨ SameAny E O ps a b) (or_iff_right h)]
end

end Props

/-! ## Equality of instances -/

theorem sameCore_comparing {w0 ws : World} (h : SameCore w0 ws) (r : Nat) :
    SameCore w0 (ws.setObj r (fun o => { o with te := true })) := by
  intro s
  rw [← h s]
  unfold World.setObj
  rw [List.getElem?_modify]
  cases ws.objs[s]? with
  | none => rfl
  | some o =>
    by_cases hrs : r = s
    · simp [hrs]
    · simp [hrs]

/-- The types of the properties are nested at most `D` deep. -/
def TypesWithin (E : Env) (D : Nat) : Prop :=
  ∀ c nm e, (nm, e) ∈ (E.classes c).props → ∀ p, OwnSpec e p → depth p ≤ D

/-- Reading a property of the instance gives its stored value. -/
theorem getattr_read {E : Env} {P : Nat → Prop} {ws : World} {r n : Nat} {o : Obj} {nm : PyStr}
    {e : Entry} {v : Val} (hd : DistinctNames E) (ho : ws.objs[r]? = some o)
    (hm : (nm, e) ∈ (E.classes o.cls).props) (hc : ComparableEntry E P (E.classes o.cls) v e)
    (hv : v = readAs o nm e) (hn : 2 ≤ n) : run E n (.getattr r nm) ws = (.ok v, ws) := by
  obtain ⟨m, rfl⟩ : ∃ m, n = m + 2 := ⟨n - 2, by omega⟩
  have hl : lookupS nm (E.classes o.cls).props = some e := mem_lookupS (hd _) hm
  subst hv
  show getattrBody E (run E (m + 1)) r nm ws = _
  cases e with
  | mutable p => rw [getattr_mutable ho hl]; rfl
  | gettable p => rw [getattr_gettable ho hl]; rfl
  | dynamic => exact hc.elim
  | renamed new =>
    rw [getattr_renamed ho hl]
    obtain ⟨_, e', p, hl', rfl | rfl⟩ := hc
    · show getattrBody E (run E m) r new ws = _
      rw [getattr_mutable ho hl']; rfl
    · show getattrBody E (run E m) r new ws = _
      rw [getattr_gettable ho hl']; rfl

/-- `equal` decides `Same`, and leaves the state as it was. -/
theorem equal_run {E : Env} (hl : LawfulEq E) {D : Nat} (hd : DistinctNames E) (hD : TypesWithin E D)
    (hx : AllSetsExact E) {rk : Nat → Nat} {w : World} (hw : ComparableWorld E rk w) :
    ∀ k ws i j n, rk i < k → SameCore w ws →
      (∀ s o, ws.objs[s]? = some o → rk s ≤ rk i → o.te = false) →
      (∃ o, w.objs[i]? = some o) → (∃ o, w.objs[j]? = some o) → serDepth D k ≤ n →
      run E n (.equal (.obj i) (.obj j)) ws = (.ok (.bool (truth (Spec.Same E w i j))), ws) := by
  intro k
  induction k with
  | zero => intro ws i j n hk; omega
  | succ k ih =>
    intro ws i j n hk hws hte ⟨a, ha⟩ ⟨b, hb⟩ hn
    rw [serDepth_succ] at hn
    obtain ⟨m, rfl⟩ : ∃ m, n = m + 1 := ⟨n - 1, by omega⟩
    show equalBody E (run E m) (.obj i) (.obj j) ws = _
    unfold equalBody
    have back : ∀ {r : Nat} {o : Obj}, w.objs[r]? = some o → ∃ o', ws.objs[r]? = some o' ∧
        o'.cls = o.cls ∧ o'.backend = o.backend := by
      intro r o ho
      cases h1 : ws.objs[r]? with
      | none => rw [sameCore_none hws h1] at ho; cases ho
      | some o' =>
        obtain ⟨o2, h2, h3, h4⟩ := sameCore_some hws h1
        rw [ho] at h2
        cases h2
        exact ⟨o', rfl, h3.symm, h4.symm⟩
    obtain ⟨oa, hoa, hca, hba⟩ := back ha
    obtain ⟨ob, hob, hcb, hbb⟩ := back hb
    have ht := hte i oa hoa (Nat.le_refl _)
    simp only
    rw [bind_ok (getObj_some hoa), if_neg (by rw [ht]; simp), bind_ok (modObj_apply _ _ _)]
    have hback : (ws.setObj i (fun o => { o with te := true })).setObj i
        (fun o => { o with te := false }) = ws := by
      rw [setObj_setObj]
      exact setObj_id hoa (by cases oa; cases ht; rfl)
    have hw1 := sameCore_comparing hws i
    have hte1 : ∀ s o, (ws.setObj i (fun o => { o with te := true })).objs[s]? = some o →
        rk s < rk i → o.te = false := by
      intro s o h1 h2
      unfold World.setObj at h1
      rw [List.getElem?_modify] at h1
      have hrs : ¬ i = s := fun h => by rw [h] at h2; omega
      simp only [hrs, if_false] at h1
      exact hte s o (by simpa using h1) (by omega)
    have hoa1 : (ws.setObj i (fun o => { o with te := true })).objs[i]? = some { oa with te := true } := by
      unfold World.setObj; rw [List.getElem?_modify]; simp [hoa]
    have hob1 : ∃ ob1, (ws.setObj i (fun o => { o with te := true })).objs[j]? = some ob1 ∧
        ob1.cls = b.cls ∧ ob1.backend = b.backend := by
      unfold World.setObj; rw [List.getElem?_modify, hob]
      by_cases hij : i = j
      · subst hij; exact ⟨{ ob with te := true }, by simp, hcb, hbb⟩
      · exact ⟨ob, by simp [hij], hcb, hbb⟩
    generalize (ws.setObj i (fun o => { o with te := true })) = ws1 at hback hw1 hte1 hoa1 hob1
    obtain ⟨ob1, hob1, hcb1, hbb1⟩ := hob1
    -- the body leaves the marked state alone
    suffices hbody : ((do
        if i = j then pure (.bool true)
        else do
          let ob ← getObj j
          if oa.cls = ob.cls then equalLoop (run E m) i j (E.classes oa.cls).props
          else pure (.bool false)) : M Val) ws1 = (.ok (.bool (truth (Spec.Same E w i j))), ws1) by
      rw [fin_apply, hbody, hback]
    by_cases hij : i = j
    · rw [if_pos hij, truth_true ⟨0, hij⟩]; rfl
    rw [if_neg hij, bind_ok (getObj_some hob1)]
    by_cases hcls : oa.cls = ob1.cls
    · rw [if_pos hcls]
      have hab : a.cls = b.cls := by rw [← hca, hcls, hcb1]
      have loop : ∀ ps : List (PyStr × Entry), (∀ x ∈ ps, x ∈ (E.classes a.cls).props) →
          equalLoop (run E m) i j ps ws1 = (.ok (.bool (truth (∀ nm e, (nm, e) ∈ ps →
            SameEntry E (Spec.Same E w) e (readAs a nm e) (readAs b nm e)))), ws1) := by
        intro ps
        induction ps with
        | nil =>
          intro _
          rw [truth_true (fun _ _ h => by cases h)]
          rfl
        | cons x ps ihp =>
          obtain ⟨nm, e⟩ := x
          intro hsub
          have hme := hsub (nm, e) (by simp)
          have hrest := ihp (fun x hx => hsub x (List.mem_cons_of_mem _ hx))
          have hca' := hw i a ha nm e hme
          have hcb' := hw j b hb nm e (hab ▸ hme)
          have ga : run E m (.getattr i nm) ws1 = (.ok (readAs a nm e), ws1) :=
            getattr_read hd hoa1 (by show _ ∈ (E.classes oa.cls).props; rw [hca]; exact hme)
              (by show ComparableEntry _ _ (E.classes oa.cls) _ _; rw [hca]; exact hca')
              (by cases e <;> simp only [readAs] <;> rw [hba]) (by unfold serDepth at hn; omega)
          have gb : run E m (.getattr j nm) ws1 = (.ok (readAs b nm e), ws1) :=
            getattr_read hd hob1 (by rw [hcb1, ← hab]; exact hme)
              (by rw [hcb1]; exact hcb')
              (by cases e <;> simp only [readAs] <;> rw [hbb1]) (by unfold serDepth at hn; omega)
          unfold equalLoop
          rw [bind_ok ga, bind_ok gb]
          have split : (∀ nm' e', (nm', e') ∈ (nm, e) :: ps →
                SameEntry E (Spec.Same E w) e' (readAs a nm' e') (readAs b nm' e')) ↔
              SameEntry E (Spec.Same E w) e (readAs a nm e) (readAs b nm e) ∧
              ∀ nm' e', (nm', e') ∈ ps →
                SameEntry E (Spec.Same E w) e' (readAs a nm' e') (readAs b nm' e') := by
            constructor
            · intro h
              exact ⟨h nm e (by simp), fun nm' e' h' => h nm' e' (List.mem_cons_of_mem _ h')⟩
            · rintro ⟨h1, h2⟩ nm' e' h'
              rcases List.mem_cons.1 h' with h' | h'
              · cases h'; exact h1
              · exact h2 nm' e' h'
          have isn : ∀ v : Val, v.isNone = true ↔ v = .none := by
            intro v; cases v <;> simp [Val.isNone]
          by_cases hna : readAs a nm e = .none
          · by_cases hnb : readAs b nm e = .none
            · rw [if_pos (by rw [hna, hnb]; rfl), hrest]
              have : SameEntry E (Spec.Same E w) e (readAs a nm e) (readAs b nm e) := .inl ⟨hna, hnb⟩
              rw [truth_congr split, truth_congr (and_iff_right this)]
            · have h1 : (readAs b nm e).isNone = false := by
                rw [Bool.eq_false_iff]; exact fun h => hnb ((isn _).1 h)
              rw [if_neg (by rw [h1]; simp), if_pos (by rw [hna]; rfl), truth_false]
              · rfl
              · intro h
                rcases (split.1 h).1 with h | h
                · exact hnb h.2
                · exact h.1 hna
          · have h0 : (readAs a nm e).isNone = false := by
              rw [Bool.eq_false_iff]; exact fun h => hna ((isn _).1 h)
            by_cases hnb : readAs b nm e = .none
            · rw [if_neg (by rw [h0]; simp), if_pos (by rw [hnb]; simp [Val.isNone]), truth_false]
              · rfl
              · intro h
                rcases (split.1 h).1 with h | h
                · exact hna h.1
                · exact h.2.1 hnb
            · have h1 : (readAs b nm e).isNone = false := by
                rw [Bool.eq_false_iff]; exact fun h => hnb ((isn _).1 h)
              rw [if_neg (by rw [h0]; simp), if_neg (by rw [h0, h1]; simp)]
              have own : ∀ p, OwnSpec e p →
                  Comparable E (fun s => (∃ o', w.objs[s]? = some o') ∧ rk s < rk i) p (readAs a nm e) →
                  Comparable E (fun s => (∃ o', w.objs[s]? = some o') ∧ rk s < rk j) p (readAs b nm e) →
                  run E m (.propEqual p (readAs a nm e) (readAs b nm e)) ws1 =
                    (.ok (.bool (truth (SameP E (Spec.Same E w) p (readAs a nm e) (readAs b nm e)))), ws1) :=
                fun p hp h2 h3 => propEqual_run (B := serDepth D k) (I := AllExact E)
                  (O := Spec.Same E w) hl
                  (by unfold serDepth; omega) (fun i j => same_symm hl hw)
                  (fun hI i j k => same_trans hl hI hw)
                  (fun n hn s t hs ht => ih ws1 s t n (by have := hs.2; omega) hw1
                    (fun u o hu hus => hte1 u o hu (by have := hs.2; omega)) hs.1 ht.1 hn)
                  p m _ _ (by have := hD _ nm e hme p hp; omega) (hx _ nm e hme p hp) h2 h3
              have hent : entryEqual (run E m) e (readAs a nm e) (readAs b nm e) ws1 =
                  (.ok (.bool (truth (SameEntry E (Spec.Same E w) e (readAs a nm e) (readAs b nm e)))), ws1) := by
                cases e with
                | mutable p =>
                  refine (own p (.inl rfl) (hca' hna) (hcb' hnb)).trans ?_
                  rw [truth_congr (Q := SameEntry E (Spec.Same E w) (.mutable p) _ _)
                    ⟨fun h => .inr ⟨hna, hnb, h⟩, fun h => h.elim (fun h => absurd h.1 hna) (·.2.2)⟩]
                | gettable p =>
                  refine (own p (.inr rfl) (hca' hna) (hcb' hnb)).trans ?_
                  rw [truth_congr (Q := SameEntry E (Spec.Same E w) (.gettable p) _ _)
                    ⟨fun h => .inr ⟨hna, hnb, h⟩, fun h => h.elim (fun h => absurd h.1 hna) (·.2.2)⟩]
                | dynamic => exact hca'.elim
                | renamed new =>
                  show (Except.ok (Val.bool _), ws1) = _
                  rw [truth_eq (b := pyEq _ _)
                    ⟨fun h => .inr ⟨hna, hnb, h⟩, fun h => h.elim (fun h => absurd h.1 hna) (·.2.2)⟩]
              rw [bind_ok hent]
              by_cases hs : SameEntry E (Spec.Same E w) e (readAs a nm e) (readAs b nm e)
              · rw [truth_true hs]
                refine Eq.trans (show _ = equalLoop (run E m) i j ps ws1 from rfl) ?_
                rw [hrest, truth_congr split, truth_congr (and_iff_right hs)]
              · rw [truth_false hs, truth_false (fun h => hs (split.1 h).1)]
                rfl
      rw [hca, loop _ (fun _ h => h)]
      congr 3
      refine truth_congr ?_
      rw [same_iff hw hk]
      constructor
      · intro h
        exact .inr ⟨a, b, ha, hb, hab, fun nm e hme => sameEntry_mono
          (fun s t hs h => (same_iff hw (by have := hs.2; omega)).1 h) (hw i a ha nm e hme) (h nm e hme)⟩
      · rintro (h | ⟨a', b', ha', hb', _, h⟩)
        · exact absurd h hij
        · rw [ha] at ha'; cases ha'
          rw [hb] at hb'; cases hb'
          exact fun nm e hme => sameEntry_mono (fun s t _ h => ⟨_, h⟩) (hw i a ha nm e hme) (h nm e hme)
    · rw [if_neg hcls, truth_false]
      · rfl
      · intro h
        rcases (same_iff hw hk).1 h with h | ⟨a', b', ha', hb', h, _⟩
        · exact hij h
        · rw [ha] at ha'; cases ha'
          rw [hb] at hb'; cases hb'
          exact hcls (by rw [hca, h, hcb1])

end Verif
