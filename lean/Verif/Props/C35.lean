import Mathlib.Data.List.Nodup
import Mathlib.Data.List.Perm.Subperm
import Verif.Lemmas.Classes
import Verif.Spec.Classes

/-!
# C35: inherited properties match the attributes
-/

namespace Verif.Cls
open Spec

/-- Properties, observers and validators are treated alike. -/
structure AttrKind {α : Type} (fld : Class → List (PyStr × α)) (sel : Attr → Option α) : Prop where
  hp : ∀ {T : Table} {i : ClsId} {k : Class}, Made T i k → k.hp = true →
    fld k = buildFromBases T fld k.bases k.body
      (k.body.filterMap (fun ka => (sel ka.2).map (fun x => (ka.1, x))))
  plain : ∀ {T : Table} {i : ClsId} {k : Class}, Made T i k → k.hp = false → fld k = []

def asProp : Attr → Option Entry
  | .prop e => some e
  | _ => none
def asObserver : Attr → Option ClassObserver
  | .observer e => some e
  | _ => none
def asValidator : Attr → Option FnId
  | .validator e => some e
  | _ => none

theorem sort_props : AttrKind (·.props) asProp where
  hp hm h := by
    rw [hm.props h]
    congr 1
    unfold ownProps
    refine List.filterMap_congr fun ka _ => ?_
    cases ka.2 <;> rfl
  plain hm h := (hm.plain h).1

theorem sort_observers : AttrKind (·.observers) asObserver where
  hp hm h := by
    rw [hm.observers h]
    congr 1
    unfold ownObservers
    refine List.filterMap_congr fun ka _ => ?_
    cases ka.2 <;> rfl
  plain hm h := (hm.plain h).2.1

theorem sort_validators : AttrKind (·.validators) asValidator where
  hp hm h := by
    rw [hm.validators h]
    congr 1
    unfold ownValidators
    refine List.filterMap_congr fun ka _ => ?_
    cases ka.2 <;> rfl
  plain hm h := (hm.plain h).2.2

theorem lookupS_mem' {α : Type} {n : PyStr} {a : α} : ∀ {l : List (PyStr × α)},
    (l.map Prod.fst).Nodup → (lookupS n l = some a ↔ (n, a) ∈ l)
  | [], _ => by simp [lookupS]
  | (n', b) :: l, h => by
      simp only [List.map_cons, List.nodup_cons] at h
      rw [lookupS_cons]
      split
      · rename_i hn
        subst hn
        simp only [Option.some.injEq, List.mem_cons, Prod.mk.injEq, true_and]
        constructor
        · exact fun h => .inl h.symm
        · rintro (h' | h')
          · exact h'.symm
          · exact absurd (List.mem_map.2 ⟨_, h', rfl⟩) h.1
      · rename_i hn
        rw [lookupS_mem' h.2]
        simp [Ne.symm hn]

theorem own_keys {α : Type} (sel : Attr → Option α) (body : List (PyStr × Attr)) :
    ((body.filterMap (fun ka => (sel ka.2).map (fun x => (ka.1, x)))).map Prod.fst).Sublist
      (body.map Prod.fst) := by
  induction body with
  | nil => simp
  | cons a body ih =>
    rw [List.filterMap_cons]
    cases sel a.2 with
    | none => exact ih.cons _
    | some x => exact ih.cons_cons _

theorem lookup_own {α : Type} (sel : Attr → Option α) {body : List (PyStr × Attr)}
    (h : (body.map Prod.fst).Nodup) (n : PyStr) :
    lookupS n (body.filterMap (fun ka => (sel ka.2).map (fun x => (ka.1, x)))) =
      (lookupS n body).bind sel := by
  induction body with
  | nil => rfl
  | cons a body ih =>
    obtain ⟨n', a⟩ := a
    simp only [List.map_cons, List.nodup_cons] at h
    rw [List.filterMap_cons, lookupS_cons]
    by_cases hn : n' = n
    · subst hn
      rw [if_pos rfl]
      have hnone : lookupS n' (body.filterMap (fun ka => (sel ka.2).map (fun x => (ka.1, x)))) =
          none := lookupS_none.2 fun hm => h.1 ((own_keys sel body).subset hm)
      cases hs : sel a with
      | none => simpa [hs] using hnone
      | some x => simp [lookupS_cons, hs]
    · rw [if_neg hn, ← ih h.2]
      cases hs : sel a with
      | none => rfl
      | some x => simp [lookupS_cons, hn]

variable {α : Type} {fld : Class → List (PyStr × α)} {sel : Attr → Option α} {T : Table}

theorem AttrKind.nodup (hs : AttrKind fld sel) (hI : Inv T) : ∀ k ∈ T, ((fld k).map Prod.fst).Nodup := by
  intro k hk
  obtain ⟨i, hi⟩ := List.getElem?_of_mem hk
  cases hh : k.hp with
  | true => rw [hs.hp (hI i k hi) hh]; exact nodup_build
  | false => rw [hs.plain (hI i k hi) hh]; simp

/-- The dictionary of a class, by names. -/
theorem AttrKind.lookup (hs : AttrKind fld sel) (hI : Inv T) {i : ClsId} {k : Class} (hk : T[i]? = some k)
    (hh : k.hp = true) (n : PyStr) :
    lookupS n (fld k) = match lookupS n k.body with
      | some a => sel a
      | none => (allBases T k.bases).reverse.findSome? (contrib T fld (outputKeys T fld k.bases) n) := by
  have hm := hI i k hk
  rw [hs.hp hm hh, lookup_build (hs.nodup hI) (hm.body.sublist (own_keys sel k.body)),
    lookup_own sel hm.body]
  cases lookupS n k.body with
  | none => simp
  | some a => simp

theorem mem_outputKeys {n : PyStr} : ∀ {bs : List ClsId} {acc : List PyStr},
    n ∈ bs.foldl (addKeys T fld) acc ↔
      n ∈ acc ∨ ∃ b ∈ bs, ∃ k, T[b]? = some k ∧ k.hp = true ∧ n ∈ (fld k).map Prod.fst
  | [], acc => by simp
  | b :: bs, acc => by
      rw [List.foldl_cons, mem_outputKeys]
      unfold addKeys
      cases hb : T[b]? with
      | none => simp [hb]
      | some k =>
        by_cases hh : k.hp = true
        · simp only [hh, if_true, List.mem_append]
          constructor
          · rintro ((h | h) | ⟨b', h1, k', h2⟩)
            · exact .inl h
            · exact .inr ⟨b, by simp, k, hb, hh, h⟩
            · exact .inr ⟨b', by simp [h1], k', h2⟩
          · rintro (h | ⟨b', h1, k', h2, h3, h4⟩)
            · exact .inl (.inl h)
            · rcases List.mem_cons.1 h1 with rfl | h1
              · rw [hb] at h2; cases h2; exact .inl (.inr h4)
              · exact .inr ⟨b', h1, k', h2, h3, h4⟩
        · simp only [hh, if_false]
          constructor
          · rintro (h | ⟨b', h1, k', h2⟩)
            · exact .inl h
            · exact .inr ⟨b', by simp [h1], k', h2⟩
          · rintro (h | ⟨b', h1, k', h2, h3, h4⟩)
            · exact .inl h
            · rcases List.mem_cons.1 h1 with rfl | h1
              · rw [hb] at h2; cases h2; exact absurd h3 hh
              · exact .inr ⟨b', h1, k', h2, h3, h4⟩

/-! ## MROs -/

theorem mro_of {i : ClsId} {k : Class} (hk : T[i]? = some k) : T.mro i = k.mro := by
  unfold Table.mro; rw [hk]

theorem valid_of_mem_mro {i j : ClsId} (h : j ∈ T.mro i) : ∃ k, T[i]? = some k ∧ T.mro i = k.mro := by
  unfold Table.mro at *
  cases hk : T[i]? with
  | none => rw [hk] at h; cases h
  | some k => exact ⟨k, rfl, rfl⟩

/-- The MRO of an ancestor is contained in order. -/
theorem Inv.mro_sub (hI : Inv T) : ∀ {i : ClsId} {k : Class}, T[i]? = some k →
    ∀ j ∈ k.mro, (T.mro j).Sublist k.mro := by
  intro i
  induction i using Nat.strongRecOn with
  | _ i ih =>
    intro k hk j hj
    have hm := hI i k hk
    obtain ⟨t, ht, hmro⟩ := hm.mro
    obtain ⟨h1, -, h3, -⟩ := c3_spec ht
    rw [hmro] at hj ⊢
    rcases List.mem_cons.1 hj with rfl | hj
    · rw [mro_of hk, hmro]
    · refine List.Sublist.cons _ ?_
      rcases h3 j hj with hb | ⟨b, hb, hj⟩
      · exact h1 j hb
      · obtain ⟨kb, hkb, hmb⟩ := valid_of_mem_mro hj
        have := ih b (hm.bases b hb) hkb j (hmb ▸ hj)
        rw [← hmb] at this
        exact this.trans (h1 b hb)

theorem Inv.mro_nodup (hI : Inv T) {i : ClsId} {k : Class} (hk : T[i]? = some k) : k.mro.Nodup := by
  have hm := hI i k hk
  obtain ⟨t, ht, hmro⟩ := hm.mro
  obtain ⟨h1, -, h3, h4⟩ := c3_spec ht
  rw [hmro, List.nodup_cons]
  refine ⟨fun hi => ?_, h4⟩
  rcases h3 i hi with hb | ⟨b, hb, hj⟩
  · exact Nat.lt_irrefl _ (hm.bases i hb)
  · obtain ⟨kb, hkb, hmb⟩ := valid_of_mem_mro hj
    exact Nat.lt_irrefl _ (Nat.lt_of_le_of_lt (hI.mro_lt hkb i (hmb ▸ hj)) (hm.bases b hb))

/-- All classes named in an MRO exist. -/
theorem Inv.mro_valid (hI : Inv T) {i : ClsId} {k : Class} (hk : T[i]? = some k) {j : ClsId}
    (hj : j ∈ k.mro) : ∃ kj, T[j]? = some kj ∧ ∃ t, kj.mro = j :: t := by
  have hl : j < T.length := Nat.lt_of_le_of_lt (hI.mro_lt hk j hj) (getElem?_lt hk)
  have hj := List.getElem?_eq_getElem hl
  obtain ⟨t, -, ht⟩ := (hI _ _ hj).mro
  exact ⟨_, hj, t, ht⟩

/-- A descendant of a class with the metaclass has it too. -/
theorem Inv.hp_up (hI : Inv T) : ∀ {i : ClsId} {k : Class}, T[i]? = some k → ∀ j ∈ k.mro,
    T.isHp j = true → k.hp = true := by
  intro i
  induction i using Nat.strongRecOn with
  | _ i ih =>
    intro k hk j hj hh
    have hm := hI i k hk
    obtain ⟨t, ht, hmro⟩ := hm.mro
    obtain ⟨h1, -, h3, -⟩ := c3_spec ht
    rw [hmro] at hj
    rcases List.mem_cons.1 hj with rfl | hj
    · unfold Table.isHp at hh; rw [hk] at hh; exact hh
    · rcases h3 j hj with hb | ⟨b, hb, hj⟩
      · exact hm.hp j hb hh
      · obtain ⟨kb, hkb, hmb⟩ := valid_of_mem_mro hj
        refine hm.hp b hb ?_
        unfold Table.isHp
        rw [hkb]
        exact ih b (hm.bases b hb) hkb j (hmb ▸ hj) hh

theorem isHp_iff {c : ClsId} : T.isHp c = true ↔ IsHp T c := by
  unfold Table.isHp IsHp
  cases T[c]? with
  | none => simp
  | some k => simp

/-! ## Lookup as a function -/

/-- First binding of the name along the MRO. -/
def firstDef (T : Table) (n : PyStr) (c : ClsId) : Option (ClsId × Attr) :=
  match T[c]? with
  | some k => (lookupS n k.body).map (fun a => (c, a))
  | none => none

theorem firstDef_some (hI : Inv T) {n : PyStr} {c c' : ClsId} {a : Attr} :
    firstDef T n c = some (c', a) ↔ c' = c ∧ Binds T n c a := by
  unfold firstDef Binds
  cases hk : T[c]? with
  | none => simp
  | some k =>
    simp only [Option.map_eq_some_iff, Prod.mk.injEq, Option.some.injEq, exists_eq_left']
    constructor
    · rintro ⟨a', h1, h2, rfl⟩
      exact ⟨h2.symm, (lookupS_mem' (hI c k hk).body).1 h1⟩
    · rintro ⟨rfl, h⟩
      exact ⟨a, (lookupS_mem' (hI c' k hk).body).2 h, rfl, rfl⟩

theorem firstDef_none {n : PyStr} {c : ClsId} : firstDef T n c = none ↔ ¬ Defines T n c := by
  unfold firstDef Defines Binds
  cases hk : T[c]? with
  | none => simp
  | some k =>
    simp only [Option.map_eq_none_iff, Option.some.injEq, exists_eq_left', lookupS_none, List.mem_map]
    constructor
    · rintro h ⟨a, ha⟩; exact h ⟨_, ha, rfl⟩
    · rintro h ⟨⟨n', a⟩, ha, rfl⟩; exact h ⟨a, ha⟩

theorem finds_iff (hI : Inv T) {n : PyStr} {c : ClsId} {a : Attr} : ∀ {l : List ClsId},
    Finds T n l c a ↔ l.findSome? (firstDef T n) = some (c, a)
  | [] => ⟨fun h => (by cases h), fun h => (by cases h)⟩
  | x :: l => by
      rw [List.findSome?_cons]
      cases hx : firstDef T n x with
      | none =>
        have hx := firstDef_none.1 hx
        dsimp only
        rw [← finds_iff hI]
        constructor
        · intro h
          cases h with
          | here h => exact absurd ⟨_, h⟩ hx
          | there _ h => exact h
        · exact fun h => .there hx h
      | some y =>
        obtain ⟨c', a'⟩ := y
        obtain ⟨rfl, hb⟩ := (firstDef_some hI).1 hx
        dsimp only
        constructor
        · intro h
          cases h with
          | here h => rw [← (firstDef_some hI).2 ⟨rfl, h⟩, hx]
          | there h _ => exact absurd ⟨_, hb⟩ h
        · intro h; cases h; exact .here hb

theorem lookup_body (hI : Inv T) {n : PyStr} {c : ClsId} {k : Class} (hk : T[c]? = some k) {a : Attr} :
    lookupS n k.body = some a ↔ Binds T n c a := by
  rw [lookupS_mem' (hI c k hk).body]
  unfold Binds
  rw [hk]
  simp

theorem lookup_body_none (hI : Inv T) {n : PyStr} {c : ClsId} {k : Class} (hk : T[c]? = some k) :
    lookupS n k.body = none ↔ ¬ Defines T n c := by
  cases h : lookupS n k.body with
  | none =>
    simp only [true_iff]
    rintro ⟨a, ha⟩
    rw [(lookup_body hI hk).2 ha] at h
    cases h
  | some a => simp only [reduceCtorEq, false_iff, not_not]; exact ⟨a, (lookup_body hI hk).1 h⟩

/-- A class that binds the name itself. -/
theorem AttrKind.own (hs : AttrKind fld sel) (hI : Inv T) {i : ClsId} {k : Class} (hk : T[i]? = some k)
    (hh : k.hp = true) {n : PyStr} {a : Attr} (hb : Binds T n i a) : lookupS n (fld k) = sel a := by
  rw [hs.lookup hI hk hh, (lookup_body hI hk).2 hb]

/-- A class that does not bind the name. -/
theorem AttrKind.inherit (hs : AttrKind fld sel) (hI : Inv T) {i : ClsId} {k : Class} (hk : T[i]? = some k)
    (hh : k.hp = true) {n : PyStr} (hb : ¬ Defines T n i) : lookupS n (fld k) =
      (allBases T k.bases).reverse.findSome? (contrib T fld (outputKeys T fld k.bases) n) := by
  rw [hs.lookup hI hk hh, (lookup_body_none hI hk).2 hb]

theorem contrib_none {keys : List PyStr} {n : PyStr} {c : ClsId} (hI : Inv T)
    (h : ¬ Defines T n c) : contrib T fld keys n c = none := by
  unfold contrib
  cases hk : T[c]? with
  | none => rfl
  | some k => dsimp only; rw [(lookup_body_none hI hk).2 h]; rfl

theorem contrib_own (hs : AttrKind fld sel) {keys : List PyStr} {n : PyStr} {c : ClsId} {a : Attr}
    (hI : Inv T) (hn : n ∈ keys) (hh : IsHp T c) (hb : Binds T n c a) :
    contrib T fld keys n c = sel a := by
  obtain ⟨k, hk, hh⟩ := hh
  unfold contrib
  rw [hk]
  dsimp only
  rw [(lookup_body hI hk).2 hb, if_pos (by simp [hn]), hs.own hI hk hh hb]

/-! ## Single inheritance -/

/-- The MRO under single inheritance. -/
theorem c3_single (hI : Inv T) {b : ClsId} {kb : Class} (hb : T[b]? = some kb) {t : List ClsId}
    (h : c3 T [b] = some t) : t = kb.mro := by
  obtain ⟨h1, -, h3, h4⟩ := c3_spec h
  have hs : kb.mro.Sublist t := by have := h1 b (by simp); rwa [mro_of hb] at this
  obtain ⟨u, -, hu⟩ := (hI b kb hb).mro
  have hsub : t ⊆ kb.mro := by
    intro x hx
    rcases h3 x hx with hxb | ⟨b', hb', hx⟩
    · simp only [List.mem_singleton] at hxb
      subst hxb
      rw [hu]; simp
    · simp only [List.mem_singleton] at hb'
      subst hb'
      rwa [mro_of hb] at hx
  exact (hs.eq_of_length_le (h4.subperm hsub).length_le).symm

theorem addBases_nodup {l acc : List ClsId} (h : (acc ++ l).Nodup) :
    l.foldl (addBase T) acc = acc ++ l.filter T.isHp := by
  induction l generalizing acc with
  | nil => simp
  | cons x l ih =>
    rw [List.foldl_cons]
    have hx : x ∉ acc := by
      intro hx
      rw [List.nodup_append] at h
      exact h.2.2 x hx x (by simp) rfl
    by_cases hh : T.isHp x = true
    · have : addBase T acc x = acc ++ [x] := by unfold addBase; rw [if_pos (by simp [hh, hx])]
      rw [this, ih (by simpa using h), List.filter_cons_of_pos hh]
      simp
    · have : addBase T acc x = acc := by unfold addBase; rw [if_neg (by simp [hh])]
      rw [this, List.filter_cons_of_neg hh]
      refine ih (h.sublist ?_)
      exact (List.sublist_cons_self x l).append_left acc

theorem allBases_single (hI : Inv T) {b : ClsId} {kb : Class} (hb : T[b]? = some kb) :
    (allBases T [b]).reverse = kb.mro.filter T.isHp := by
  have : allBases T [b] = (T.mro b).reverse.foldl (addBase T) [] := rfl
  rw [this, mro_of hb, addBases_nodup (by simpa using hI.mro_nodup hb), List.nil_append,
    List.filter_reverse, List.reverse_reverse]

/-- What the class records for a name is what attribute lookup finds. -/
def Matches (T : Table) (fld : Class → List (PyStr × α)) (sel : Attr → Option α) (n : PyStr)
    (k : Class) : Prop :=
  ∀ x, lookupS n (fld k) = some x ↔ ∃ c a, Finds T n k.mro c a ∧ IsHp T c ∧ sel a = some x

theorem _root_.Verif.Spec.Finds.mem {n : PyStr} {l : List ClsId} {c : ClsId} {a : Attr} (h : Finds T n l c a) :
    c ∈ l ∧ Binds T n c a := by
  induction h with
  | here h => exact ⟨by simp, h⟩
  | there _ _ ih => exact ⟨List.mem_cons_of_mem _ ih.1, ih.2⟩

theorem _root_.Verif.Spec.Finds.unique (hI : Inv T) {n : PyStr} {l : List ClsId} {c c' : ClsId} {a a' : Attr}
    (h : Finds T n l c a) (h' : Finds T n l c' a') : c = c' ∧ a = a' := by
  have h := (finds_iff hI).1 h
  rw [(finds_iff hI).1 h'] at h
  cases h
  exact ⟨rfl, rfl⟩

/-- A class that binds the name agrees with lookup. -/
theorem AttrKind.matches_own (hs : AttrKind fld sel) (hI : Inv T) {i : ClsId} {k : Class}
    (hk : T[i]? = some k) (hh : k.hp = true) {n : PyStr} (hd : Defines T n i) :
    Matches T fld sel n k := by
  obtain ⟨a, ha⟩ := hd
  obtain ⟨t, -, hm⟩ := (hI i k hk).mro
  have hf : Finds T n k.mro i a := by rw [hm]; exact .here ha
  intro x
  rw [hs.own hI hk hh ha]
  constructor
  · exact fun h => ⟨i, a, hf, ⟨k, hk, hh⟩, h⟩
  · rintro ⟨c, a', hf', _, hx⟩
    obtain ⟨rfl, rfl⟩ := hf.unique hI hf'
    exact hx

theorem findSome_contrib {keys : List PyStr} {n : PyStr} (hI : Inv T) {c : ClsId} {a : Attr}
    {l : List ClsId} (hf : Finds T n l c a) (hp : IsHp T c) (hc : (contrib T fld keys n c).isSome = true) :
    (l.filter T.isHp).findSome? (contrib T fld keys n) = contrib T fld keys n c := by
  induction hf with
  | here hb =>
    rename_i c l a
    have hh : T.isHp c = true := isHp_iff.2 hp
    rw [List.filter_cons_of_pos hh, List.findSome?_cons]
    cases h : contrib T fld keys n c with
    | none => rw [h] at hc; cases hc
    | some x => rfl
  | there hn _ ih =>
    rename_i c c' l a _
    by_cases hh : T.isHp c = true
    · rw [List.filter_cons_of_pos hh, List.findSome?_cons, contrib_none hI hn]
      exact ih hp hc
    · rw [List.filter_cons_of_neg hh]
      exact ih hp hc

theorem single_matches (hs : AttrKind fld sel) (hI : Inv T) (n : PyStr) : ∀ {i : ClsId} {k : Class},
    T[i]? = some k → SingleInheritance T k.mro → Matches T fld sel n k := by
  intro i
  induction i using Nat.strongRecOn with
  | _ i ih =>
    intro k hk hS
    have hm := hI i k hk
    obtain ⟨t, ht, hmro⟩ := hm.mro
    cases hh : k.hp with
    | false =>
      -- nothing is recorded, and all ancestors are plain
      intro x
      rw [hs.plain hm hh]
      simp only [lookupS, reduceCtorEq, false_iff]
      rintro ⟨c, a, hf, hp, -⟩
      have := hI.hp_up hk c hf.mem.1 (isHp_iff.2 hp)
      rw [hh] at this
      cases this
    | true =>
      by_cases hd : Defines T n i
      · exact hs.matches_own hI hk hh hd
      · have hlen := hS i (by rw [hmro]; simp) k hk
        have hskip : ∀ c a, Finds T n k.mro c a ↔ Finds T n t c a := by
          intro c a
          rw [hmro]
          constructor
          · intro h
            cases h with
            | here h => exact absurd ⟨_, h⟩ hd
            | there _ h => exact h
          · exact .there hd
        intro x
        simp only [hskip]
        rw [hs.inherit hI hk hh hd]
        match hbs : k.bases, hlen with
        | [], _ =>
          have : t = [] := by
            have h3 := (c3_spec ht).2.2.1
            rw [hbs] at h3
            cases t with
            | nil => rfl
            | cons y t =>
              rcases h3 y (by simp) with h | ⟨b, h, -⟩ <;> cases h
          subst this
          simp only [allBases, List.reverse_nil, List.foldl_nil, List.findSome?_nil, reduceCtorEq,
            false_iff]
          rintro ⟨c, a, hf, -⟩
          cases hf
        | [b], _ =>
          have hbi : b < i := hm.bases b (by rw [hbs]; simp)
          have hbv : b < T.length := Nat.lt_trans hbi (getElem?_lt hk)
          have hkb := List.getElem?_eq_getElem hbv
          generalize T[b] = kb at hkb
          rw [hbs] at ht
          have htm := c3_single hI hkb ht
          subst htm
          have hSb : SingleInheritance T kb.mro := fun c hc =>
            hS c (by rw [hmro]; exact List.mem_cons_of_mem _ hc)
          have ihb := ih b hbi hkb hSb
          rw [allBases_single hI hkb]
          constructor
          · intro hx
            obtain ⟨c, hc, hcx⟩ := List.exists_of_findSome?_eq_some hx
            -- the name is recorded in the base, so lookup finds it there
            have hn : n ∈ outputKeys T fld [b] := by
              unfold contrib at hcx
              split at hcx
              · split at hcx
                · rename_i h; simpa using (Bool.and_eq_true_iff.1 h).2
                · cases hcx
              · cases hcx
            have hnb : n ∈ (fld kb).map Prod.fst := by
              unfold outputKeys at hn
              rw [mem_outputKeys] at hn
              rcases hn with hn | ⟨b', hb', kb', h1, h2, h3⟩
              · cases hn
              · simp only [List.reverse_singleton, List.mem_singleton] at hb'
                subst hb'
                rw [hkb] at h1
                cases h1
                exact h3
            cases hl : lookupS n (fld kb) with
            | none => exact absurd hnb (lookupS_none.1 hl)
            | some y =>
              obtain ⟨c', a, hf, hp, hy⟩ := (ihb y).1 hl
              have hcon := contrib_own hs hI hn hp hf.mem.2
              rw [findSome_contrib hI hf hp (by rw [hcon, hy]; rfl), hcon] at hx
              exact ⟨c', a, hf, hp, hx⟩
          · rintro ⟨c, a, hf, hp, hx⟩
            have hl := (ihb x).2 ⟨c, a, hf, hp, hx⟩
            have hn : n ∈ outputKeys T fld [b] := by
              unfold outputKeys
              rw [mem_outputKeys]
              refine .inr ⟨b, by simp, kb, hkb, ?_, ?_⟩
              · exact hI.hp_up hkb c hf.mem.1 (isHp_iff.2 hp)
              · by_contra hc
                rw [lookupS_none.2 hc] at hl
                cases hl
            have hcon := contrib_own hs hI hn hp hf.mem.2
            rw [findSome_contrib hI hf hp (by rw [hcon, hx]; rfl), hcon, hx]
        | _ :: _ :: _, hlen => simp at hlen

/-! ## One line of descent -/

/-- Ancestors come before their descendants in the list of all bases. -/
def Ordered (T : Table) (acc : List ClsId) : Prop :=
  ∀ y ∈ acc, ∀ x ∈ T.mro y, T.isHp x = true → x ≠ y → [x, y].Sublist acc

theorem addBases_ordered : ∀ {l done acc : List ClsId},
    (∀ y ∈ l, ∀ pre post, l = pre ++ y :: post → ∀ x ∈ T.mro y, x ≠ y → x ∈ done ∨ x ∈ pre) →
    (∀ x ∈ done, T.isHp x = true → x ∈ acc) → Ordered T acc → acc.Nodup →
    Ordered T (l.foldl (addBase T) acc) ∧ (l.foldl (addBase T) acc).Nodup
  | [], _, _, _, _, ho, hn => ⟨ho, hn⟩
  | y :: l, done, acc, h1, h2, ho, hn => by
      rw [List.foldl_cons]
      have hkeep : ∀ x ∈ acc, x ∈ addBase T acc y := by
        intro x hx; unfold addBase; split <;> simp [hx]
      refine addBases_ordered (done := done ++ [y]) ?_ ?_ ?_ ?_
      · intro z hz pre post hl x hx hne
        rcases h1 z (List.mem_cons_of_mem _ hz) (y :: pre) post (by rw [hl]; rfl) x hx hne with h | h
        · exact .inl (by simp [h])
        · rcases List.mem_cons.1 h with rfl | h
          · exact .inl (by simp)
          · exact .inr h
      · intro x hx hh
        rcases List.mem_append.1 hx with hx | hx
        · exact hkeep x (h2 x hx hh)
        · simp only [List.mem_singleton] at hx
          subst hx
          unfold addBase
          by_cases hc : x ∈ acc
          · rw [if_neg (by simp [hc])]; exact hc
          · rw [if_pos (by simp [hc, hh])]; simp
      · unfold addBase
        split
        · intro z hz x hx hh hne
          rcases List.mem_append.1 hz with hz | hz
          · exact (ho z hz x hx hh hne).trans (List.sublist_append_left _ _)
          · simp only [List.mem_singleton] at hz
            subst hz
            rcases h1 z (by simp) [] l rfl x hx hne with h | h
            · have := (List.singleton_sublist.2 (h2 x h hh)).append (List.Sublist.refl [z])
              exact this
            · cases h
        · exact ho
      · unfold addBase
        split
        · rename_i hc
          rw [Bool.and_eq_true] at hc
          rw [List.nodup_append]
          refine ⟨hn, by simp, fun a ha b hb => ?_⟩
          simp only [List.mem_singleton] at hb
          subst hb
          intro hab
          subst hab
          simp [ha] at hc
        · exact hn

/-- In an MRO, the ancestors of a class come after it. -/
theorem after_in_mro (hI : Inv T) {i : ClsId} {k : Class} (hk : T[i]? = some k) {y : ClsId}
    {pre post : List ClsId} (hm : k.mro = pre ++ y :: post) {x : ClsId} (hx : x ∈ T.mro y)
    (hne : x ≠ y) : x ∈ post := by
  have hy : y ∈ k.mro := by rw [hm]; simp
  have hsub := hI.mro_sub hk y hy
  have hnd := hI.mro_nodup hk
  obtain ⟨ky, hky, t, ht⟩ := hI.mro_valid hk hy
  rw [mro_of hky, ht] at hsub hx
  rw [hm] at hsub hnd
  rcases List.mem_cons.1 hx with h | hxt
  · exact absurd h hne
  · -- y is not in pre, so the rest of its MRO lies in post
    have hyp : y ∉ pre := by
      intro h
      rw [List.nodup_append] at hnd
      exact hnd.2.2 y h y (by simp) rfl
    have : (y :: t).Sublist (y :: post) := by
      clear hnd hm hx
      induction pre with
      | nil => exact hsub
      | cons p pre ih =>
        refine ih ?_ (fun h => hyp (List.mem_cons_of_mem _ h))
        cases hsub with
        | cons _ h => exact h
        | cons_cons _ _ => exact absurd (by simp) hyp
    have hyn : y ∉ post := by
      rw [List.nodup_append, List.nodup_cons] at hnd
      exact hnd.2.1.1
    cases this with
    | cons _ h => exact absurd (h.subset (by simp)) hyn
    | cons_cons _ h => exact h.subset hxt

theorem allBases_ordered (hI : Inv T) {bs : List ClsId} : ∀ {acc : List ClsId},
    Ordered T acc → acc.Nodup →
    Ordered T (bs.foldl (fun acc b => (T.mro b).reverse.foldl (addBase T) acc) acc) ∧
    (bs.foldl (fun acc b => (T.mro b).reverse.foldl (addBase T) acc) acc).Nodup := by
  induction bs with
  | nil => exact fun h1 h2 => ⟨h1, h2⟩
  | cons b bs ih =>
    intro acc h1 h2
    rw [List.foldl_cons]
    have := addBases_ordered (T := T) (l := (T.mro b).reverse) (done := []) (acc := acc) (by
      intro y hy pre post hl x hx hne
      obtain ⟨kb, hkb, hmb⟩ := valid_of_mem_mro (List.mem_reverse.1 hy)
      have hmro : kb.mro = post.reverse ++ y :: pre.reverse := by
        rw [← hmb]
        have := congrArg List.reverse hl
        simpa using this
      exact .inr (List.mem_reverse.1 (after_in_mro hI hkb hmro hx hne))) (by simp) h1 h2
    exact ih this.1 this.2

/-- In a list without repetition an element before `y` is before `y`. -/
theorem before_of_sublist {x y : ClsId} : ∀ {pre post : List ClsId}, (pre ++ y :: post).Nodup →
    [x, y].Sublist (pre ++ y :: post) → x ∈ pre
  | [], post, hn, hs => by
      simp only [List.nil_append, List.nodup_cons] at hn
      cases hs with
      | cons _ h => exact absurd (h.subset (by simp)) hn.1
      | cons_cons _ h => exact absurd (h.subset (by simp)) hn.1
  | p :: pre, post, hn, hs => by
      simp only [List.cons_append, List.nodup_cons] at hn
      cases hs with
      | cons _ h => exact List.mem_cons_of_mem _ (before_of_sublist hn.2 h)
      | cons_cons _ _ => simp

theorem finds_split {n : PyStr} {l : List ClsId} {c : ClsId} {a : Attr} (h : Finds T n l c a) :
    ∃ pre post, l = pre ++ c :: post ∧ ∀ x ∈ pre, ¬ Defines T n x := by
  induction h with
  | here _ => exact ⟨[], _, rfl, by simp⟩
  | there hn _ ih =>
    obtain ⟨pre, post, rfl, h⟩ := ih
    refine ⟨_ :: pre, post, rfl, fun x hx => ?_⟩
    rcases List.mem_cons.1 hx with rfl | hx
    · exact hn
    · exact h x hx

theorem finds_exists {n : PyStr} {l : List ClsId} {c : ClsId} (hc : c ∈ l) (hd : Defines T n c) :
    ∃ c' a, Finds T n l c' a := by
  induction l with
  | nil => cases hc
  | cons x l ih =>
    by_cases hx : Defines T n x
    · obtain ⟨a, ha⟩ := hx; exact ⟨x, a, .here ha⟩
    · rcases List.mem_cons.1 hc with rfl | hc
      · exact absurd hd hx
      · obtain ⟨c', a, h⟩ := ih hc; exact ⟨c', a, .there hx h⟩

theorem findSome_first {keys : List PyStr} {n : PyStr} (hI : Inv T) {c : ClsId} {a : Attr}
    {l : List ClsId} (hf : Finds T n l c a) (hc : (contrib T fld keys n c).isSome = true) :
    l.findSome? (contrib T fld keys n) = contrib T fld keys n c := by
  induction hf with
  | here hb =>
    rename_i c l a
    rw [List.findSome?_cons]
    cases h : contrib T fld keys n c with
    | none => rw [h] at hc; cases hc
    | some x => rfl
  | there hn _ ih =>
    rw [List.findSome?_cons, contrib_none hI hn]
    exact ih hc

theorem line_matches (hs : AttrKind fld sel) (hI : Inv T) (n : PyStr) : ∀ {i : ClsId} {k : Class},
    T[i]? = some k → OneLine T sel n k.mro → Matches T fld sel n k := by
  intro i
  induction i using Nat.strongRecOn with
  | _ i ih =>
    intro k hk hL
    have hm := hI i k hk
    obtain ⟨t, ht, hmro⟩ := hm.mro
    obtain ⟨hc1, -, hc3, hnd⟩ := c3_spec ht
    cases hh : k.hp with
    | false =>
      intro x
      rw [hs.plain hm hh]
      simp only [lookupS, reduceCtorEq, false_iff]
      rintro ⟨c, a, hf, hp, -⟩
      have := hI.hp_up hk c hf.mem.1 (isHp_iff.2 hp)
      rw [hh] at this
      cases this
    | true =>
      by_cases hd : Defines T n i
      · exact hs.matches_own hI hk hh hd
      have hskip : ∀ c a, Finds T n k.mro c a ↔ Finds T n t c a := by
        intro c a
        rw [hmro]
        constructor
        · intro h
          cases h with
          | here h => exact absurd ⟨_, h⟩ hd
          | there _ h => exact h
        · exact .there hd
      have hsub : ∀ b ∈ k.bases, ∀ c ∈ T.mro b, c ∈ k.mro := fun b hb c hc => by
        rw [hmro]; exact List.mem_cons_of_mem _ ((hc1 b hb).subset hc)
      have hab : ∀ c, c ∈ (allBases T k.bases).reverse ↔ T.isHp c = true ∧ c ∈ t := by
        intro c
        rw [List.mem_reverse, mem_allBases]
        constructor
        · rintro ⟨h, b, hb, hc⟩; exact ⟨h, (hc1 b hb).subset hc⟩
        · rintro ⟨h, hc⟩
          refine ⟨h, ?_⟩
          rcases hc3 c hc with hb | h
          · refine ⟨c, hb, ?_⟩
            have hv : c < T.length := Nat.lt_trans (hm.bases c hb) (getElem?_lt hk)
            have hkc := List.getElem?_eq_getElem hv
            obtain ⟨u, -, hu⟩ := (hI _ _ hkc).mro
            rw [mro_of hkc, hu]
            simp
          · exact h
      intro x
      simp only [hskip]
      rw [hs.inherit hI hk hh hd]
      by_cases hdef : ∃ c ∈ t, Defines T n c
      swap
      · -- no class binds the name
        constructor
        · intro hx
          obtain ⟨c, hc, hcx⟩ := List.exists_of_findSome?_eq_some hx
          rw [contrib_none hI (fun hcd => hdef ⟨c, ((hab c).1 hc).2, hcd⟩)] at hcx
          cases hcx
        · rintro ⟨c, a, hf, -⟩
          exact absurd ⟨c, hf.mem.1, a, hf.mem.2⟩ hdef
      · obtain ⟨c, hct, hcd⟩ := hdef
        obtain ⟨d0, a0, hf0⟩ := finds_exists hct hcd
        obtain ⟨h0t, hb0⟩ := hf0.mem
        have tm : ∀ {c}, c ∈ t → c ∈ k.mro := fun h => by rw [hmro]; exact List.mem_cons_of_mem _ h
        obtain ⟨hp0, hs0⟩ := hL.sort d0 (tm h0t) a0 hb0
        have h0r : d0 ∈ (allBases T k.bases).reverse := (hab d0).2 ⟨isHp_iff.2 hp0, h0t⟩
        -- the name is recorded in some base
        have hn : n ∈ outputKeys T fld k.bases := by
          obtain ⟨-, b, hb, h0b⟩ := mem_allBases.1 (List.mem_reverse.1 h0r)
          obtain ⟨kb, hkb, hmb⟩ := valid_of_mem_mro h0b
          have hLb : OneLine T sel n kb.mro :=
            ⟨fun c hc d hd => hL.line c (hsub b hb c (hmb ▸ hc)) d (hsub b hb d (hmb ▸ hd)),
             fun c hc => hL.sort c (hsub b hb c (hmb ▸ hc))⟩
          rw [hmb] at h0b
          obtain ⟨c', a', hf'⟩ := finds_exists h0b ⟨a0, hb0⟩
          obtain ⟨hp', hs'⟩ := hLb.sort c' hf'.mem.1 a' hf'.mem.2
          obtain ⟨y, hy⟩ := Option.isSome_iff_exists.1 hs'
          have hl := (ih b (hm.bases b hb) hkb hLb y).2 ⟨c', a', hf', hp', hy⟩
          unfold outputKeys
          rw [mem_outputKeys]
          refine .inr ⟨b, by simpa using hb, kb, hkb, ?_, ?_⟩
          · exact hI.hp_up hkb c' hf'.mem.1 (isHp_iff.2 hp')
          · by_contra hc
            rw [lookupS_none.2 hc] at hl
            cases hl
        -- the class that wins in the loop
        obtain ⟨d1, a1, hf1⟩ := finds_exists h0r ⟨a0, hb0⟩
        obtain ⟨h1r, hb1⟩ := hf1.mem
        have h1t := ((hab d1).1 h1r).2
        obtain ⟨hp1, hs1⟩ := hL.sort d1 (tm h1t) a1 hb1
        have hcon := contrib_own hs hI hn hp1 hb1
        rw [findSome_first hI hf1 (by rw [hcon]; exact hs1), hcon]
        have hord := allBases_ordered hI (bs := k.bases.reverse) (acc := [])
          (by intro y hy; cases hy) List.nodup_nil
        have heq : d1 = d0 := by
          by_contra hne
          obtain ⟨pre1, post1, he1, hpre1⟩ := finds_split hf1
          obtain ⟨pre0, post0, he0, hpre0⟩ := finds_split hf0
          rcases hL.line d1 (tm h1t) d0 (tm h0t) ⟨a1, hb1⟩ ⟨a0, hb0⟩ with h | h
          · -- d1 is an ancestor of d0, hence before it among all bases
            have hs := hord.1 d0 (List.mem_reverse.1 h0r) d1 h (isHp_iff.2 hp1) hne
            have hs' : [d0, d1].Sublist (pre1 ++ d1 :: post1) := by
              rw [← he1]
              exact hs.reverse
            have hnd' : (pre1 ++ d1 :: post1).Nodup := by
              rw [← he1, List.nodup_reverse]; exact hord.2
            exact hpre1 d0 (before_of_sublist hnd' hs') ⟨a0, hb0⟩
          · -- d0 is an ancestor of d1, hence after it in the MRO
            obtain ⟨kd, hkd, u, hu⟩ := hI.mro_valid hk (tm h1t)
            have hsm := hI.mro_sub hk d1 (tm h1t)
            rw [mro_of hkd, hu, hmro] at hsm
            rw [mro_of hkd, hu] at h
            have h' : d0 ∈ u := by
              rcases List.mem_cons.1 h with h | h
              · exact absurd h.symm hne
              · exact h
            have hi1 : i ≠ d1 := by
              rintro rfl
              have := hI.mro_nodup hk
              rw [hmro, List.nodup_cons] at this
              exact this.1 h1t
            have hsm' : (d1 :: u).Sublist t := by
              cases hsm with
              | cons _ h => exact h
              | cons_cons _ _ => exact absurd rfl hi1
            have hs2 : [d1, d0].Sublist (pre0 ++ d0 :: post0) := by
              rw [← he0]
              exact ((List.singleton_sublist.2 h').cons_cons d1).trans hsm'
            exact hpre0 d1 (before_of_sublist (he0 ▸ hnd) hs2) ⟨a1, hb1⟩
        subst heq
        have ha : a1 = a0 := by
          obtain ⟨k1, e1, m1⟩ := hb1
          obtain ⟨k2, e2, m2⟩ := hb0
          rw [e1] at e2
          cases e2
          have h1 := (lookupS_mem' (hI _ _ e1).body).2 m1
          rw [(lookupS_mem' (hI _ _ e1).body).2 m2] at h1
          cases h1
          rfl
        subst ha
        constructor
        · exact fun h => ⟨d1, a1, hf0, hp1, h⟩
        · rintro ⟨c, a, hf, _, hx⟩
          obtain ⟨rfl, rfl⟩ := hf0.unique hI hf
          exact hx

/-! ## The claim -/

/-- Single inheritance, for all histories of class statements: for every name
the property a class records is the one that attribute lookup finds, and it
records none when lookup finds no property.  The same for observers and class
validators. -/
theorem C35_single_inheritance {chk : PyStr → Entry → Dflt → Option ErrKind} {S : State}
    (hS : Reachable chk S) {i : ClsId} {k : Class} (hk : S.classes[i]? = some k)
    (h1 : SingleInheritance S.classes k.mro) (n : PyStr) :
    (∀ e, lookupS n k.props = some e ↔
      ∃ c, Finds S.classes n k.mro c (.prop e) ∧ IsHp S.classes c) ∧
    (∀ o, lookupS n k.observers = some o ↔
      ∃ c, Finds S.classes n k.mro c (.observer o) ∧ IsHp S.classes c) ∧
    (∀ f, lookupS n k.validators = some f ↔
      ∃ c, Finds S.classes n k.mro c (.validator f) ∧ IsHp S.classes c) := by
  have hI := reachable_inv hS
  refine ⟨fun e => ?_, fun e => ?_, fun e => ?_⟩
  · rw [single_matches sort_props hI n hk h1 e]
    constructor
    · rintro ⟨c, a, hf, hp, ha⟩
      cases a <;> cases ha
      exact ⟨c, hf, hp⟩
    · rintro ⟨c, hf, hp⟩; exact ⟨c, _, hf, hp, rfl⟩
  · rw [single_matches sort_observers hI n hk h1 e]
    constructor
    · rintro ⟨c, a, hf, hp, ha⟩
      cases a <;> cases ha
      exact ⟨c, hf, hp⟩
    · rintro ⟨c, hf, hp⟩; exact ⟨c, _, hf, hp, rfl⟩
  · rw [single_matches sort_validators hI n hk h1 e]
    constructor
    · rintro ⟨c, a, hf, hp, ha⟩
      cases a <;> cases ha
      exact ⟨c, hf, hp⟩
    · rintro ⟨c, hf, hp⟩; exact ⟨c, _, hf, hp, rfl⟩

/-- Multiple inheritance: the same for every name whose definitions lie in one
line of descent and are all properties. -/
theorem C35_one_line {chk : PyStr → Entry → Dflt → Option ErrKind} {S : State}
    (hS : Reachable chk S) {i : ClsId} {k : Class} (hk : S.classes[i]? = some k) (n : PyStr)
    (h1 : OneLine S.classes asProp n k.mro) (e : Entry) :
    lookupS n k.props = some e ↔ ∃ c, Finds S.classes n k.mro c (.prop e) := by
  have hI := reachable_inv hS
  rw [line_matches sort_props hI n hk h1 e]
  constructor
  · rintro ⟨c, a, hf, hp, ha⟩
    cases a <;> cases ha
    exact ⟨c, hf⟩
  · rintro ⟨c, hf⟩; exact ⟨c, _, hf, (h1.sort c hf.mem.1 _ hf.mem.2).1, rfl⟩

/-- The bases of a class precede it, its MRO starts with the class, contains
the MRO of every ancestor in order and nothing twice. -/
theorem C35_mro {chk : PyStr → Entry → Dflt → Option ErrKind} {S : State}
    (hS : Reachable chk S) {i : ClsId} {k : Class} (hk : S.classes[i]? = some k) :
    (∃ t, k.mro = i :: t) ∧ k.mro.Nodup ∧ ∀ j ∈ k.mro, (S.classes.mro j).Sublist k.mro :=
  have hI := reachable_inv hS
  ⟨(hI i k hk).mro.imp fun _ h => h.2, hI.mro_nodup hk, hI.mro_sub hk⟩

/-! ## Where the claim is false -/

def c35Text : Attr := .prop (.mutable (.mk true none none .undef (.string [] .keep none)))
def c35Bool : Attr := .prop (.mutable (.mk true none none .undef (.boolean false)))

def c35Root : Decl := { name := s% "HasProperties", explicitMeta := true, registry := true }
def c35Class (name : PyStr) (bases : List ClsId) (body : List (PyStr × Attr) := []) : Decl :=
  { name, bases, body }

/-- Run class statements. -/
def runDecls (ds : List Decl) : Option State :=
  ds.foldlM (fun S d => match create (fun _ _ _ => none) S d with
    | .ok S' => some S'
    | .error _ => none) {}

/-- Statements that refer to existing classes and bind names once. -/
def wfDecls : Nat → List Decl → Bool
  | _, [] => true
  | n, d :: ds => d.bases.all (· < n) && decide ((d.body.map Prod.fst).Nodup) &&
      decide (((d.defaults.getD []).map Prod.fst).Nodup) && wfDecls (n + 1) ds

theorem reachable_foldlM : ∀ {ds : List Decl} {S S' : State},
    Reachable (fun _ _ _ => none) S → wfDecls S.classes.length ds = true →
    ds.foldlM (fun S d => match create (fun _ _ _ => none) S d with
      | .ok S' => some S'
      | .error _ => none) S = some S' → Reachable (fun _ _ _ => none) S'
  | [], S, S', hS, _, h => by cases h; exact hS
  | d :: ds, S, S', hS, hw, h => by
      rw [List.foldlM_cons] at h
      unfold wfDecls at hw
      simp only [Bool.and_eq_true, List.all_eq_true, decide_eq_true_eq] at hw
      cases hc : create (fun _ _ _ => none) S d with
      | error e => rw [hc] at h; cases h
      | ok S1 =>
        rw [hc] at h
        have hS1 : Reachable (fun _ _ _ => none) S1 := .create d hS hw.1.1.1 hw.1.1.2 hw.1.2 hc
        obtain ⟨k, mro, hk, -⟩ := create_ok hc
        refine reachable_foldlM hS1 ?_ h
        rw [hk, List.length_append, List.length_singleton]
        exact hw.2

theorem reachable_runDecls {ds : List Decl} {S : State} (hw : wfDecls 0 ds = true)
    (h : runDecls ds = some S) : Reachable (fun _ _ _ => none) S :=
  reachable_foldlM .empty hw h

/-- The property recorded under `x` is a Boolean. -/
def recordsBool (k : Class) : Bool :=
  match lookupS (s% "x") k.props with
  | some (.mutable p) => match p.ty with
      | .boolean _ => true
      | _ => false
  | _ => false

/-- What attribute lookup finds for `x`. -/
def lookupX (S : State) (k : Class) : Nat :=
  match k.mro.findSome? (firstDef S.classes (s% "x")) with
  | some (_, .prop (.mutable p)) => match p.ty with
      | .boolean _ => 1
      | _ => 2
  | some _ => 3
  | none => 0

/-- Two text definitions in one branch and a Boolean in another: D(B1, B2) with
B1(A, M) and B2(A).  The MRO of D has A before M, the metaclass lets M win. -/
def c35Diamond : List Decl :=
  [c35Root, c35Class (s% "A") [0] [(s% "x", c35Text)], c35Class (s% "M") [0] [(s% "x", c35Bool)],
   c35Class (s% "B1") [1, 2], c35Class (s% "B2") [1], c35Class (s% "D") [3, 4]]

/-- A property removed by one base and still present in the other: D(B, C) with
B(A) setting `x = None` and C(A).  Lookup finds None, yet `x` is recorded. -/
def c35Removed : List Decl :=
  [c35Root, c35Class (s% "A") [0] [(s% "x", c35Bool)], c35Class (s% "B") [1] [(s% "x", .other)],
   c35Class (s% "C") [1], c35Class (s% "D") [2, 3]]

/-- A plain class that binds the name comes first: D(P, A). -/
def c35Plain : List Decl :=
  [c35Root, c35Class (s% "P") [] [(s% "x", .other)], c35Class (s% "A") [0] [(s% "x", c35Bool)],
   c35Class (s% "D") [1, 2]]

/-- The last class created records a Boolean under `x`, and lookup finds the
given sort of thing. -/
def lastRecordsBool (ds : List Decl) (found : Nat) : Bool :=
  match runDecls ds with
  | some S => match S.classes.getLast? with
      | some k => recordsBool k && lookupX S k == found
      | none => false
  | none => false

/-- The claim does not hold for multiple inheritance in general: the recorded
property is not the one that attribute lookup finds. -/
theorem C35_false_for_diamonds :
    lastRecordsBool c35Diamond 2 = true ∧ lastRecordsBool c35Removed 3 = true ∧
    lastRecordsBool c35Plain 3 = true := by
  decide +kernel

/-- A chain with an overridden and a removed property, and a diamond that is
handled correctly. -/
def c35Good : List Decl :=
  [c35Root, c35Class (s% "A") [0] [(s% "x", c35Text), (s% "y", c35Text)],
   c35Class (s% "B") [1] [(s% "x", c35Bool), (s% "y", .other)], c35Class (s% "C") [1],
   c35Class (s% "D") [2, 3]]

theorem C35_example : (runDecls c35Good).map (fun S => (S.classes.map Class.mro,
      S.classes.map (fun k => k.props.map (·.1)), S.classes.map recordsBool)) =
    some ([[0], [1, 0], [2, 1, 0], [3, 1, 0], [4, 2, 3, 1, 0]],
      [[], [s% "x", s% "y"], [s% "x"], [s% "x", s% "y"], [s% "x", s% "y"]],
      [false, false, true, false, true]) := by
  decide +kernel

/-- The statements of the example are accepted, so the theorems apply to the
state they lead to. -/
example : ∃ S, Reachable (fun _ _ _ => none) S ∧ S.classes.length = 5 := by
  have h : ((runDecls c35Good).map (·.classes.length)) = some 5 := by decide +kernel
  obtain ⟨S, hS, hl⟩ := Option.map_eq_some_iff.1 h
  exact ⟨S, reachable_runDecls (by decide +kernel) hS, hl⟩

end Verif.Cls
