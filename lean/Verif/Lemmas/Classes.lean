import Verif.Lemmas.Notify
import Verif.Models.Classes

/-!
# Class creation: what the table contains
-/

namespace Verif.Cls

/-! ## Dictionaries keyed by names -/

theorem lookupS_cons {α : Type} (k k' : PyStr) (v : α) (l : List (PyStr × α)) :
    lookupS k ((k', v) :: l) = if k' = k then some v else lookupS k l := by
  conv => lhs; unfold lookupS

theorem lookupS_none {α : Type} {k : PyStr} {l : List (PyStr × α)} :
    lookupS k l = none ↔ k ∉ l.map Prod.fst := by
  induction l with
  | nil => simp [lookupS]
  | cons a l ih =>
    obtain ⟨k', v⟩ := a
    unfold lookupS
    split
    · rename_i h; simp [h]
    · rename_i h; rw [ih]; simp [Ne.symm h]

theorem lookupS_setS' {α : Type} (k k' : PyStr) (v : α) (l : List (PyStr × α)) :
    lookupS k (setS k' v l) = if k' = k then some v else lookupS k l := by
  split
  · rename_i h; subst h; exact lookupS_setS _ _ _
  · rename_i h; exact lookupS_setS_ne (Ne.symm h) _ _

theorem lookupS_update {α : Type} (k : PyStr) {new : List (PyStr × α)}
    (hn : (new.map Prod.fst).Nodup) (p : PyStr → Bool) (out : List (PyStr × α)) :
    lookupS k (new.foldl (fun out kv => if p kv.1 then setS kv.1 kv.2 out else out) out) =
      (if p k then lookupS k new else none).or (lookupS k out) := by
  induction new generalizing out with
  | nil => simp [lookupS]
  | cons a new ih =>
    obtain ⟨k', v⟩ := a
    simp only [List.map_cons, List.nodup_cons] at hn
    rw [List.foldl_cons, ih hn.2]
    rw [lookupS_cons]
    by_cases hk : k' = k
    · subst hk
      rw [if_pos rfl, lookupS_none.2 hn.1]
      cases p k' <;> simp [lookupS_setS]
    · rw [if_neg hk]
      cases p k'
      · rfl
      · simp only [if_true]
        rw [lookupS_setS', if_neg hk]

theorem lookupS_filter {α : Type} (k : PyStr) (p : PyStr → Bool) (l : List (PyStr × α)) :
    lookupS k (l.filter (fun kv => p kv.1)) = if p k then lookupS k l else none := by
  induction l with
  | nil => simp [lookupS]
  | cons a l ih =>
    obtain ⟨k', v⟩ := a
    by_cases hp : p k' = true
    · rw [List.filter_cons_of_pos (by simpa using hp)]
      unfold lookupS
      rw [ih]
      by_cases hk : k' = k
      · subst hk; simp [hp]
      · simp [hk]
    · rw [List.filter_cons_of_neg (by simpa using hp), ih]
      conv => rhs; unfold lookupS
      by_cases hk : k' = k
      · subst hk; simp [hp]
      · simp [hk]

theorem nodup_setS {α : Type} {k : PyStr} {v : α} {l : List (PyStr × α)}
    (h : (l.map Prod.fst).Nodup) : ((setS k v l).map Prod.fst).Nodup := by
  have keys : ∀ l : List (PyStr × α), (setS k v l).map Prod.fst =
      if k ∈ l.map Prod.fst then l.map Prod.fst else l.map Prod.fst ++ [k] := by
    intro l
    induction l with
    | nil => rfl
    | cons a l ih =>
      obtain ⟨k', v'⟩ := a
      unfold setS
      split
      · rename_i h; subst h; simp
      · rename_i h
        rw [List.map_cons, ih]
        have : k ≠ k' := Ne.symm h
        simp only [List.map_cons, List.mem_cons, this, false_or]
        split <;> rfl
  rw [keys]
  split
  · exact h
  · rename_i hk
    rw [List.nodup_append]
    refine ⟨h, by simp, ?_⟩
    intro a ha b hb
    simp only [List.mem_singleton] at hb
    subst hb
    exact fun hab => hk (hab ▸ ha)

theorem nodup_update {α : Type} (p : PyStr × α → Bool) {new : List (PyStr × α)}
    {out : List (PyStr × α)} (h : (out.map Prod.fst).Nodup) :
    ((new.foldl (fun out kv => if p kv then setS kv.1 kv.2 out else out) out).map Prod.fst).Nodup := by
  induction new generalizing out with
  | nil => exact h
  | cons a new ih =>
    refine ih ?_
    dsimp only
    split
    · exact nodup_setS h
    · exact h

/-! ## `build_from_bases` -/

/-- What a class contributes for a name. -/
def contrib {α : Type} (T : Table) (fld : Class → List (PyStr × α)) (keys : List PyStr) (n : PyStr)
    (c : ClsId) : Option α :=
  match T[c]? with
  | some k => if (lookupS n k.body).isSome && keys.contains n then lookupS n (fld k) else none
  | none => none

theorem lookup_bases {α : Type} {T : Table} {fld : Class → List (PyStr × α)} {keys : List PyStr}
    {n : PyStr} (hn : ∀ k ∈ T, ((fld k).map Prod.fst).Nodup) (bs : List ClsId)
    (out : List (PyStr × α)) :
    lookupS n (bs.foldl (updateBase T fld keys) out) = (bs.reverse.findSome? (contrib T fld keys n)).or (lookupS n out) := by
  induction bs generalizing out with
  | nil => rfl
  | cons b bs ih =>
    rw [List.foldl_cons, ih, List.reverse_cons, List.findSome?_append, Option.or_assoc]
    congr 1
    rw [List.findSome?_singleton]
    unfold contrib updateBase
    cases hb : T[b]? with
    | none => rfl
    | some k =>
      dsimp only
      unfold updateFrom
      exact lookupS_update n (hn k (List.mem_of_getElem? hb))
        (fun x => (lookupS x k.body).isSome && keys.contains x) out

theorem lookup_build {α : Type} {T : Table} {fld : Class → List (PyStr × α)} {bases : List ClsId}
    {body : List (PyStr × Attr)} {own : List (PyStr × α)} {n : PyStr}
    (hn : ∀ k ∈ T, ((fld k).map Prod.fst).Nodup) (ho : (own.map Prod.fst).Nodup) :
    lookupS n (buildFromBases T fld bases body own) =
      (lookupS n own).or (if (lookupS n body).isSome then none else
        (allBases T bases).reverse.findSome? (contrib T fld (outputKeys T fld bases) n)) := by
  unfold buildFromBases
  have := lookupS_update n ho (fun _ => true) ((List.foldl
    (updateBase T fld (outputKeys T fld bases)) [] (allBases T bases)).filter (fun kv => !(lookupS kv.1 body).isSome))
  simp only [if_true] at this
  dsimp only
  rw [this, lookupS_filter n (fun x => !(lookupS x body).isSome), lookup_bases hn]
  congr 1
  cases (lookupS n body).isSome <;> simp [lookupS]

theorem nodup_build {α : Type} {T : Table} {fld : Class → List (PyStr × α)} {bases : List ClsId}
    {body : List (PyStr × Attr)} {own : List (PyStr × α)} :
    ((buildFromBases T fld bases body own).map Prod.fst).Nodup := by
  unfold buildFromBases
  dsimp only
  have h1 : ∀ (bs : List ClsId) (out : List (PyStr × α)), (out.map Prod.fst).Nodup →
      ((bs.foldl (updateBase T fld (outputKeys T fld bases)) out).map Prod.fst).Nodup := by
    intro bs
    induction bs with
    | nil => exact fun _ h => h
    | cons b bs ih =>
      intro out h
      refine ih _ ?_
      unfold updateBase
      split
      · exact nodup_update (fun kv => _) h
      · exact h
  have h2 := (h1 (allBases T bases) [] (by simp)).sublist
    ((List.filter_sublist (p := fun kv => !(lookupS kv.1 body).isSome)).map Prod.fst)
  have := nodup_update (fun _ => true) (new := own) h2
  simpa only [if_true] using this

/-! ## The C3 merge -/

theorem goodHead_some {ls : List (List ClsId)} {h : ClsId} (hg : goodHead ls = some h) :
    (∀ l ∈ ls, h ∉ l.tail) ∧ ∃ t, h :: t ∈ ls := by
  unfold goodHead at hg
  obtain ⟨l, hl, hf⟩ := List.exists_of_findSome?_eq_some hg
  cases l with
  | nil => cases hf
  | cons x t =>
    dsimp only at hf
    split at hf
    · rename_i ha
      cases hf
      refine ⟨fun l hl => ?_, t, hl⟩
      have := List.all_eq_true.1 ha l hl
      simpa using this
    · cases hf

theorem sublist_dropHead (h : ClsId) (l out : List ClsId) (hs : (dropHead h l).Sublist out) :
    l.Sublist (h :: out) := by
  cases l with
  | nil => simp
  | cons x t =>
    unfold dropHead at hs
    dsimp only at hs
    split at hs
    · rename_i hx; subst hx; exact hs.cons_cons _
    · exact hs.cons _

theorem c3Merge_spec : ∀ {n : Nat} {ls : List (List ClsId)} {out : List ClsId},
    c3Merge n ls = some out → (∀ l ∈ ls, l.Sublist out) ∧ (∀ x ∈ out, ∃ l ∈ ls, x ∈ l) ∧ out.Nodup
  | 0, _, _, h => by cases h
  | n + 1, ls, out, h => by
      unfold c3Merge at h
      split at h
      · rename_i he
        cases h
        refine ⟨fun l hl => ?_, by simp, by simp⟩
        have := List.all_eq_true.1 he l hl
        simp only [List.isEmpty_iff] at this
        subst this
        simp
      · split at h
        · cases h
        · rename_i hd hg
          obtain ⟨out', h', rfl⟩ := Option.map_eq_some_iff.1 h
          obtain ⟨ih1, ih2, ih3⟩ := c3Merge_spec h'
          obtain ⟨hg1, t, ht⟩ := goodHead_some hg
          refine ⟨fun l hl => sublist_dropHead _ _ _ (ih1 _ (List.mem_map_of_mem hl)), ?_, ?_⟩
          · intro x hx
            rcases List.mem_cons.1 hx with rfl | hx
            · exact ⟨_, ht, by simp⟩
            · obtain ⟨l, hl, hxl⟩ := ih2 x hx
              obtain ⟨l0, hl0, rfl⟩ := List.mem_map.1 hl
              refine ⟨l0, hl0, ?_⟩
              unfold dropHead at hxl
              cases l0 with
              | nil => exact hxl
              | cons y t =>
                dsimp only at hxl
                split at hxl
                · exact List.mem_cons_of_mem _ hxl
                · exact hxl
          · rw [List.nodup_cons]
            refine ⟨fun hx => ?_, ih3⟩
            obtain ⟨l, hl, hxl⟩ := ih2 hd hx
            obtain ⟨l0, hl0, rfl⟩ := List.mem_map.1 hl
            have := hg1 l0 hl0
            unfold dropHead at hxl
            cases l0 with
            | nil => cases hxl
            | cons y t =>
              dsimp only at hxl
              split at hxl
              · exact this hxl
              · rename_i hne
                rcases List.mem_cons.1 hxl with h | h
                · exact hne h.symm
                · exact this h

theorem c3_spec {T : Table} {bases out : List ClsId} (h : c3 T bases = some out) :
    (∀ b ∈ bases, (T.mro b).Sublist out) ∧ bases.Sublist out ∧
    (∀ x ∈ out, x ∈ bases ∨ ∃ b ∈ bases, x ∈ T.mro b) ∧ out.Nodup := by
  unfold c3 at h
  obtain ⟨h1, h2, h3⟩ := c3Merge_spec h
  refine ⟨fun b hb => h1 _ ?_, h1 _ (by simp), fun x hx => ?_, h3⟩
  · exact List.mem_append_left _ (List.mem_map_of_mem hb)
  · obtain ⟨l, hl, hxl⟩ := h2 x hx
    rcases List.mem_append.1 hl with hl | hl
    · obtain ⟨b, hb, rfl⟩ := List.mem_map.1 hl
      exact .inr ⟨b, hb, hxl⟩
    · simp only [List.mem_singleton] at hl
      subst hl
      exact .inl hxl

/-! ## Invariants of the table -/

/-- How a class at index `i` comes about. -/
structure Made (T : Table) (i : ClsId) (k : Class) : Prop where
  bases : ∀ b ∈ k.bases, b < i
  mro : ∃ t, c3 T k.bases = some t ∧ k.mro = i :: t
  body : (k.body.map Prod.fst).Nodup
  hp : ∀ b ∈ k.bases, T.isHp b = true → k.hp = true
  props : k.hp = true →
    k.props = buildFromBases T (·.props) k.bases k.body (ownProps k.body)
  observers : k.hp = true →
    k.observers = buildFromBases T (·.observers) k.bases k.body (ownObservers k.body)
  validators : k.hp = true →
    k.validators = buildFromBases T (·.validators) k.bases k.body (ownValidators k.body)
  plain : k.hp = false → k.props = [] ∧ k.observers = [] ∧ k.validators = []

def Inv (T : Table) : Prop := ∀ i k, T[i]? = some k → Made T i k

theorem getElem?_lt {T : Table} {i : ClsId} {k : Class} (h : T[i]? = some k) : i < T.length :=
  (List.getElem?_eq_some_iff.1 h).1

/-- The classes of an MRO are the class itself and older ones. -/
theorem Inv.mro_lt {T : Table} (hI : Inv T) : ∀ {i : ClsId} {k : Class}, T[i]? = some k →
    ∀ j ∈ k.mro, j ≤ i := by
  intro i
  induction i using Nat.strongRecOn with
  | _ i ih =>
    intro k hk j hj
    obtain ⟨t, ht, hm⟩ := (hI i k hk).mro
    rw [hm] at hj
    rcases List.mem_cons.1 hj with rfl | hj
    · exact Nat.le_refl _
    · rcases (c3_spec ht).2.2.1 j hj with hb | ⟨b, hb, hj⟩
      · exact Nat.le_of_lt ((hI i k hk).bases j hb)
      · have hlt := (hI i k hk).bases b hb
        unfold Table.mro at hj
        cases hTb : T[b]? with
        | none => rw [hTb] at hj; cases hj
        | some kb =>
          rw [hTb] at hj
          exact Nat.le_of_lt (Nat.lt_of_le_of_lt (ih b hlt hTb j hj) hlt)

/-! ## The bases in order -/

theorem foldl_ext' {α β : Type} {f g : α → β → α} : ∀ {l : List β} {a : α},
    (∀ a, ∀ b ∈ l, f a b = g a b) → l.foldl f a = l.foldl g a
  | [], _, _ => rfl
  | b :: l, a, h => by
      rw [List.foldl_cons, List.foldl_cons, h a b (by simp)]
      exact foldl_ext' fun a b hb => h a b (List.mem_cons_of_mem _ hb)

theorem mem_addBases {T : Table} {x : ClsId} : ∀ {l acc : List ClsId},
    x ∈ l.foldl (addBase T) acc ↔ x ∈ acc ∨ T.isHp x = true ∧ x ∈ l
  | [], acc => by simp
  | y :: l, acc => by
      rw [List.foldl_cons, mem_addBases]
      unfold addBase
      by_cases hy : T.isHp y = true
      · by_cases hc : y ∈ acc
        · simp only [hy, hc, List.contains_iff_mem, Bool.true_and, Bool.not_true,
            Bool.false_eq_true, if_false, List.mem_cons, decide_true, List.contains_eq_mem]
          constructor
          · rintro (h | h)
            · exact .inl h
            · exact .inr ⟨h.1, .inr h.2⟩
          · rintro (h | ⟨h1, rfl | h2⟩)
            · exact .inl h
            · exact .inl hc
            · exact .inr ⟨h1, h2⟩
        · simp only [hy, hc, Bool.true_and, List.mem_cons, List.contains_eq_mem, decide_false,
            Bool.not_false, if_true, List.mem_append, List.mem_singleton, List.not_mem_nil, or_false]
          constructor
          · rintro ((h | rfl) | h)
            · exact .inl h
            · exact .inr ⟨hy, .inl rfl⟩
            · exact .inr ⟨h.1, .inr h.2⟩
          · rintro (h | ⟨h1, rfl | h2⟩)
            · exact .inl (.inl h)
            · exact .inl (.inr rfl)
            · exact .inr ⟨h1, h2⟩
      · simp only [hy, Bool.false_and, Bool.false_eq_true, if_false, List.mem_cons]
        constructor
        · rintro (h | h)
          · exact .inl h
          · exact .inr ⟨h.1, .inr h.2⟩
        · rintro (h | ⟨h1, rfl | h2⟩)
          · exact .inl h
          · exact absurd h1 hy
          · exact .inr ⟨h1, h2⟩

theorem mem_allBases_acc {T : Table} {x : ClsId} : ∀ {bs acc : List ClsId},
    x ∈ bs.foldl (fun acc b => (T.mro b).reverse.foldl (addBase T) acc) acc ↔
      x ∈ acc ∨ T.isHp x = true ∧ ∃ b ∈ bs, x ∈ T.mro b
  | [], acc => by simp
  | b :: bs, acc => by
      rw [List.foldl_cons, mem_allBases_acc, mem_addBases, List.mem_reverse]
      constructor
      · rintro ((h | h) | ⟨h1, b', h2, h3⟩)
        · exact .inl h
        · exact .inr ⟨h.1, b, by simp, h.2⟩
        · exact .inr ⟨h1, b', by simp [h2], h3⟩
      · rintro (h | ⟨h1, b', h2, h3⟩)
        · exact .inl (.inl h)
        · rcases List.mem_cons.1 h2 with rfl | h2
          · exact .inl (.inr ⟨h1, h3⟩)
          · exact .inr ⟨h1, b', h2, h3⟩

theorem mem_allBases {T : Table} {bases : List ClsId} {x : ClsId} :
    x ∈ allBases T bases ↔ T.isHp x = true ∧ ∃ b ∈ bases, x ∈ T.mro b := by
  unfold allBases
  rw [mem_allBases_acc]
  simp

/-! ## A table with one more class -/

/-- Classes of the bases, all their ancestors included, are those of the
smaller table. -/
def SameBelow (T T' : Table) (bases : List ClsId) : Prop :=
  (∀ b ∈ bases, T[b]? = T'[b]?) ∧ ∀ b ∈ bases, ∀ j ∈ T.mro b, T[j]? = T'[j]?

theorem SameBelow.mro {T T' : Table} {bases : List ClsId} (h : SameBelow T T' bases) {b : ClsId}
    (hb : b ∈ bases) : T.mro b = T'.mro b := by
  unfold Table.mro
  rw [h.1 b hb]

theorem SameBelow.c3 {T T' : Table} {bases : List ClsId} (h : SameBelow T T' bases) :
    c3 T bases = c3 T' bases := by
  unfold Cls.c3
  rw [List.map_congr_left fun b hb => h.mro hb]

theorem SameBelow.allBases {T T' : Table} {bases : List ClsId} (h : SameBelow T T' bases) :
    allBases T bases = allBases T' bases := by
  unfold Cls.allBases
  refine foldl_ext' fun acc b hb => ?_
  have hb := List.mem_reverse.1 hb
  rw [← h.mro hb]
  refine foldl_ext' fun acc j hj => ?_
  unfold addBase Table.isHp
  rw [h.2 b hb j (List.mem_reverse.1 hj)]

theorem SameBelow.build {α : Type} {fld : Class → List (PyStr × α)} {T T' : Table}
    {bases : List ClsId} (h : SameBelow T T' bases) (body : List (PyStr × Attr))
    (own : List (PyStr × α)) :
    buildFromBases T fld bases body own = buildFromBases T' fld bases body own := by
  have hk : outputKeys T fld bases = outputKeys T' fld bases := by
    unfold outputKeys
    refine foldl_ext' fun acc b hb => ?_
    unfold addKeys
    rw [h.1 b (List.mem_reverse.1 hb)]
  unfold buildFromBases
  dsimp only
  rw [← hk, ← h.allBases]
  have : ∀ out : List (PyStr × α), (Cls.allBases T bases).foldl (updateBase T fld (outputKeys T fld bases)) out =
      (Cls.allBases T bases).foldl (updateBase T' fld (outputKeys T fld bases)) out := fun out =>
    foldl_ext' fun acc j hj => by
      obtain ⟨_, b, hb, hj⟩ := mem_allBases.1 hj
      unfold updateBase
      rw [h.2 b hb j hj]
  rw [this]

theorem sameBelow_append {T : Table} (hI : Inv T) (x : Class) {bases : List ClsId}
    (hb : ∀ b ∈ bases, b < T.length) : SameBelow T (T ++ [x]) bases := by
  have h0 : ∀ j, j < T.length → T[j]? = (T ++ [x])[j]? := fun j hj =>
    (List.getElem?_append_left hj).symm
  refine ⟨fun b h => h0 b (hb b h), fun b h j hj => h0 j ?_⟩
  unfold Table.mro at hj
  cases hTb : T[b]? with
  | none => rw [hTb] at hj; cases hj
  | some k =>
    rw [hTb] at hj
    exact Nat.lt_of_le_of_lt (hI.mro_lt hTb j hj) (hb b h)

theorem SameBelow.made {T T' : Table} {i : ClsId} {k : Class} (h : SameBelow T T' k.bases)
    (hm : Made T i k) : Made T' i k where
  bases := hm.bases
  mro := by rw [← h.c3]; exact hm.mro
  body := hm.body
  hp b hb hh := by
    refine hm.hp b hb ?_
    unfold Table.isHp at hh ⊢
    rw [h.1 b hb]
    exact hh
  props hh := by rw [← h.build]; exact hm.props hh
  observers hh := by rw [← h.build]; exact hm.observers hh
  validators hh := by rw [← h.build]; exact hm.validators hh
  plain := hm.plain

theorem Inv.append {T : Table} (hI : Inv T) {x : Class} (hx : Made T T.length x) :
    Inv (T ++ [x]) := by
  intro i k hk
  by_cases hi : i < T.length
  · rw [List.getElem?_append_left hi] at hk
    refine (sameBelow_append hI x fun b hb => ?_).made (hI i k hk)
    exact Nat.lt_trans ((hI i k hk).bases b hb) hi
  · have : i = T.length := by
      have := getElem?_lt hk
      rw [List.length_append, List.length_singleton] at this
      exact Nat.le_antisymm (Nat.le_of_lt_succ this) (Nat.le_of_not_lt hi)
    subst this
    have hk : x = k := by simpa using hk
    subst hk
    exact (sameBelow_append hI x hx.bases).made hx

/-! ## Class statements -/

/-- Everything a successful `buildClass` tells about the class. -/
theorem buildClass_ok {T : Table} {d : Decl} {mro : List ClsId} {k : Class}
    (h : buildClass T d mro = .ok k) :
    k.name = d.name ∧ k.bases = d.bases ∧ k.mro = T.length :: mro ∧ k.hp = true ∧ k.body = d.body ∧
    k.props = buildFromBases T (·.props) d.bases d.body (ownProps d.body) ∧
    k.observers = buildFromBases T (·.observers) d.bases d.body (ownObservers d.body) ∧
    k.validators = buildFromBases T (·.validators) d.bases d.body (ownValidators d.body) ∧
    k.ownRegistry = d.registry ∧
    renamedOk k.props (ownProps d.body) = true ∧
    observersOk k.props (ownObservers d.body) = true ∧
    (∀ kv ∈ k.props, kv.1 ≠ []) ∧
    ∃ priv, docPrivateOf T d = .flag priv ∧
      docOrderOf T (sorted (if priv then k.props.map (·.1)
        else (k.props.map (·.1)).filter (fun p => !isPrivate p))) d = .ok k.order ∧
    k.secReq = k.order.filter
      (fun n => !isPrivate n && (required? (lookupS n k.props)).getD false) ∧
    k.secOpt = k.order.filter
      (fun n => !isPrivate n && !(required? (lookupS n k.props)).getD true) ∧
    k.secImm = k.order.filter (fun n => !isPrivate n && (required? (lookupS n k.props)).isNone) ∧
    k.secPriv = k.order.filter isPrivate := by
  unfold buildClass at h
  dsimp only at h
  split at h
  · cases h
  rename_i h1
  split at h
  · cases h
  rename_i h2
  split at h
  · cases h
  rename_i priv h3
  split at h
  · cases h
  rename_i h4
  split at h
  · cases h
  rename_i order h5
  cases h
  refine ⟨rfl, rfl, rfl, rfl, rfl, rfl, rfl, rfl, rfl, by simpa using h1, by simpa using h2, ?_,
    priv, h3, h5, rfl, rfl, rfl, rfl⟩
  intro kv hkv he
  exact h4 (List.any_eq_true.2 ⟨kv, hkv, by simp [he]⟩)

/-- A class statement that succeeds adds one class. -/
theorem create_ok {chk : PyStr → Entry → Dflt → Option ErrKind} {S S' : State} {d : Decl}
    (h : create chk S d = .ok S') : ∃ k mro, S'.classes = S.classes ++ [k] ∧
      c3 S.classes d.bases = some mro ∧
      ((d.explicitMeta || d.bases.any S.classes.isHp) = true ∧
        (∃ k0, buildClass S.classes d mro = .ok k0 ∧
          k = { k0 with defaults := some (mergedDefaults S.classes mro d.defaults) }) ∧
        checkDefaults chk k.props (mergedDefaults S.classes mro d.defaults) = .ok () ∧
        (∃ owner, registryOwner S'.classes k.mro = some owner ∧
          S'.regs = fun o => if o = owner then setS d.name S.classes.length (S.regs o)
            else S.regs o)
      ∨ (d.explicitMeta || d.bases.any S.classes.isHp) = false ∧
        k.hp = false ∧ k.name = d.name ∧ k.bases = d.bases ∧ k.mro = S.classes.length :: mro ∧
        k.body = d.body ∧ k.props = [] ∧ k.observers = [] ∧ k.validators = [] ∧
        k.ownRegistry = d.registry ∧ k.ownDefaults = d.defaults ∧ k.defaults = d.defaults ∧
        S'.regs = S.regs) := by
  unfold create at h
  dsimp only at h
  split at h
  · rename_i hm
    split at h
    · split at h <;> cases h
    rename_i mro hc
    split at h
    · cases h
    rename_i k0 hk
    split at h
    · cases h
    rename_i hd
    split at h
    · cases h
    rename_i owner ho
    cases h
    exact ⟨_, mro, rfl, hc, .inl ⟨hm, ⟨k0, hk, rfl⟩, hd, owner, ho, rfl⟩⟩
  · rename_i hm
    split at h
    · cases h
    rename_i mro hc
    cases h
    exact ⟨_, mro, rfl, hc, .inr ⟨by simpa using hm, rfl, rfl, rfl, rfl, rfl, rfl, rfl, rfl, rfl, rfl, rfl, rfl⟩⟩

theorem reachable_inv {chk : PyStr → Entry → Dflt → Option ErrKind} {S : State}
    (h : Reachable chk S) : Inv S.classes := by
  induction h with
  | empty => intro i k hk; simp at hk
  | create d _ hb hn _ hc ih =>
    rename_i S S'
    obtain ⟨k, mro, hS', hc3, hk | hk⟩ := create_ok hc
    · rw [hS']
      refine ih.append ?_
      obtain ⟨hm, ⟨k0, hk0, rfl⟩, -⟩ := hk
      obtain ⟨h1, h2, h3, h4, h5, h6, h7, h8, -⟩ := buildClass_ok hk0
      exact ⟨by dsimp only; rw [h2]; exact hb, ⟨mro, by dsimp only; rw [h2]; exact hc3, h3⟩,
        by dsimp only; rw [h5]; exact hn, fun _ _ _ => h4,
        fun _ => by dsimp only; rw [h2, h5]; exact h6,
        fun _ => by dsimp only; rw [h2, h5]; exact h7,
        fun _ => by dsimp only; rw [h2, h5]; exact h8,
        (fun h => by dsimp only at h; rw [h4] at h; cases h)⟩
    · rw [hS']
      refine ih.append ?_
      obtain ⟨hm, h1, h2, h3, h4, h5, h6, h7, h8, -⟩ := hk
      rw [Bool.or_eq_false_iff, List.any_eq_false] at hm
      exact ⟨by rw [h3]; exact hb, ⟨mro, by rw [h3]; exact hc3, h4⟩, by rw [h5]; exact hn,
        fun b hb hp => absurd hp (hm.2 b (h3 ▸ hb)), (fun h => by rw [h1] at h; cases h),
        (fun h => by rw [h1] at h; cases h), (fun h => by rw [h1] at h; cases h),
        fun _ => ⟨h6, h7, h8⟩⟩

end Verif.Cls
