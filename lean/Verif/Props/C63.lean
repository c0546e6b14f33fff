import Verif.Spec.Alias

/-!
# C63: assigning a container stores a copy nobody else holds

Assigning to a Tuple, List, Set or Dictionary property whose item properties are
declared at every level stores new objects at every level.  Until the property
is read, assigned or deleted, nothing client code does changes what is stored.
-/

namespace Verif.Alias

open Spec

mutual
/-- All references directly in the value satisfy `Q`. -/
def PV.All (Q : Nat → Prop) : PV → Prop
  | .atom _ => True
  | .tup xs => PV.AllL Q xs
  | .ref l => Q l
def PV.AllL (Q : Nat → Prop) : List PV → Prop
  | [] => True
  | x :: xs => x.All Q ∧ PV.AllL Q xs
end

theorem allL_iff (Q : Nat → Prop) (xs : List PV) : PV.AllL Q xs ↔ ∀ x ∈ xs, x.All Q := by
  induction xs with
  | nil => simp [PV.AllL]
  | cons x xs ih => simp [PV.AllL, ih]

mutual
theorem PV.All.mono {Q R : Nat → Prop} (hqr : ∀ l, Q l → R l) : ∀ {v : PV}, v.All Q → v.All R
  | .atom _, _ => by simp [PV.All]
  | .tup xs, h => by
      simp only [PV.All] at h ⊢
      exact PV.AllL.mono hqr h
  | .ref l, h => by
      simp only [PV.All] at h ⊢
      exact hqr l h
theorem PV.AllL.mono {Q R : Nat → Prop} (hqr : ∀ l, Q l → R l) :
    ∀ {xs : List PV}, PV.AllL Q xs → PV.AllL R xs
  | [], _ => by simp [PV.AllL]
  | x :: xs, h => by
      simp only [PV.AllL] at h ⊢
      exact ⟨PV.All.mono hqr h.1, PV.AllL.mono hqr h.2⟩
end

/-- All references in the object satisfy `Q`. -/
def Cell.All (Q : Nat → Prop) (c : Cell) : Prop := ∀ x ∈ c.items, x.All Q

/-- Objects satisfying `Q` refer only to objects satisfying `Q`. -/
def Closed (Q : Nat → Prop) (h : Heap) : Prop := ∀ l c, h[l]? = some c → Q l → c.All Q

theorem dedup_mem {x : PV} : ∀ {xs acc : List PV}, x ∈ dedup acc xs → x ∈ acc ∨ x ∈ xs := by
  intro xs
  induction xs with
  | nil => intro acc h; exact Or.inl h
  | cons y ys ih =>
    intro acc h
    simp only [dedup] at h
    split at h
    · rcases ih h with h | h
      · exact Or.inl h
      · exact Or.inr (List.mem_cons_of_mem _ h)
    · rcases ih h with h | h
      · rcases List.mem_append.1 h with h | h
        · exact Or.inl h
        · simp at h
          exact Or.inr (by simp [h])
      · exact Or.inr (List.mem_cons_of_mem _ h)

theorem dictSet_mem {kv : PV × PV} : ∀ {d : List (PV × PV)} {k v : PV}, kv ∈ dictSet d k v →
    (kv.1 = k ∨ ∃ kv' ∈ d, kv'.1 = kv.1) ∧ (kv.2 = v ∨ ∃ kv' ∈ d, kv'.2 = kv.2) := by
  intro d
  induction d with
  | nil =>
    intro k v h
    simp [dictSet] at h
    simp [h]
  | cons a d ih =>
    obtain ⟨k', v'⟩ := a
    intro k v h
    simp only [dictSet] at h
    split at h
    · rcases List.mem_cons.1 h with h | h
      · subst h
        exact ⟨Or.inr ⟨(k', v'), by simp, rfl⟩, Or.inl rfl⟩
      · exact ⟨Or.inr ⟨kv, List.mem_cons_of_mem _ h, rfl⟩, Or.inr ⟨kv, List.mem_cons_of_mem _ h, rfl⟩⟩
    · rcases List.mem_cons.1 h with h | h
      · subst h
        exact ⟨Or.inr ⟨(k', v'), by simp, rfl⟩, Or.inr ⟨(k', v'), by simp, rfl⟩⟩
      · obtain ⟨h1, h2⟩ := ih h
        refine ⟨h1.imp_right ?_, h2.imp_right ?_⟩
        · rintro ⟨a, ha, e⟩; exact ⟨a, List.mem_cons_of_mem _ ha, e⟩
        · rintro ⟨a, ha, e⟩; exact ⟨a, List.mem_cons_of_mem _ ha, e⟩

theorem foldl_dictSet_mem {kv : PV × PV} : ∀ {ps d : List (PV × PV)},
    kv ∈ ps.foldl (fun d kv => dictSet d kv.1 kv.2) d →
    (∃ a ∈ d ++ ps, a.1 = kv.1) ∧ (∃ a ∈ d ++ ps, a.2 = kv.2) := by
  intro ps
  induction ps with
  | nil => intro d h; simp at h; exact ⟨⟨kv, by simpa using h, rfl⟩, ⟨kv, by simpa using h, rfl⟩⟩
  | cons p ps ih =>
    intro d h
    obtain ⟨⟨a, ha, ea⟩, ⟨b, hb, eb⟩⟩ := ih h
    constructor
    · rcases List.mem_append.1 ha with ha | ha
      · rcases (dictSet_mem ha).1 with e | ⟨c, hc, e⟩
        · exact ⟨p, by simp, by rw [← e, ea]⟩
        · exact ⟨c, by simp [hc], by rw [e, ea]⟩
      · exact ⟨a, by simp [ha], ea⟩
    · rcases List.mem_append.1 hb with hb | hb
      · rcases (dictSet_mem hb).2 with e | ⟨c, hc, e⟩
        · exact ⟨p, by simp, by rw [← e, eb]⟩
        · exact ⟨c, by simp [hc], by rw [e, eb]⟩
      · exact ⟨b, by simp [hb], eb⟩

/-- Keys and values of a dict built from pairs are among those of the pairs. -/
theorem dictOf_mem {kv : PV × PV} {ps : List (PV × PV)} (h : kv ∈ dictOf ps) :
    (∃ a ∈ ps, a.1 = kv.1) ∧ (∃ a ∈ ps, a.2 = kv.2) := by
  simpa using foldl_dictSet_mem h

/-- All references in the pairs satisfy `Q`. -/
def AllKV (Q : Nat → Prop) (kvs : List (PV × PV)) : Prop := ∀ kv ∈ kvs, kv.1.All Q ∧ kv.2.All Q

theorem AllKV.dictOf {Q : Nat → Prop} {ps : List (PV × PV)} (h : AllKV Q ps) : AllKV Q (dictOf ps) := by
  intro kv hkv
  obtain ⟨⟨a, ha, ea⟩, ⟨b, hb, eb⟩⟩ := dictOf_mem hkv
  exact ⟨ea ▸ (h a ha).1, eb ▸ (h b hb).2⟩

theorem cellAll_dict {Q : Nat → Prop} {kvs : List (PV × PV)} :
    Cell.All Q (.dict kvs) ↔ AllKV Q kvs := by
  simp only [Cell.All, Cell.items, List.mem_flatMap, AllKV]
  constructor
  · intro h kv hkv
    exact ⟨h _ ⟨kv, hkv, by simp⟩, h _ ⟨kv, hkv, by simp⟩⟩
  · rintro h x ⟨kv, hkv, hx⟩
    simp at hx
    rcases hx with rfl | rfl
    · exact (h kv hkv).1
    · exact (h kv hkv).2

/-! ### Existing objects stay as they are -/

/-- The heap grew. -/
def Ext (h h' : Heap) : Prop := ∃ e, h' = h ++ e

theorem Ext.refl (h : Heap) : Ext h h := ⟨[], by simp⟩
theorem Ext.trans {a b c : Heap} : Ext a b → Ext b c → Ext a c := by
  rintro ⟨e, rfl⟩ ⟨f, rfl⟩
  exact ⟨e ++ f, by simp⟩
theorem Ext.get {h h' : Heap} (he : Ext h h') {l : Nat} {c : Cell} (hc : h[l]? = some c) :
    h'[l]? = some c := by
  obtain ⟨e, rfl⟩ := he
  rw [List.getElem?_append_left (List.getElem?_eq_some_iff.1 hc).1]
  exact hc
theorem Ext.len {h h' : Heap} (he : Ext h h') : h.length ≤ h'.length := by
  obtain ⟨e, rfl⟩ := he
  simp
theorem Ext.back {h h' : Heap} (he : Ext h h') {l : Nat} {c : Cell} (hc : h'[l]? = some c) :
    h[l]? = some c ∨ h.length ≤ l := by
  obtain ⟨e, rfl⟩ := he
  by_cases hl : l < h.length
  · rw [List.getElem?_append_left hl] at hc
    exact Or.inl hc
  · exact Or.inr (by omega)

theorem alloc_ext (c : Cell) (h : Heap) : Ext h (alloc c h).2 := ⟨[c], rfl⟩
theorem allocObs_ext (obs : Bool) (c : Cell) (h : Heap) : Ext h (allocObs obs c h).2 := by
  unfold allocObs
  split
  · exact (alloc_ext c h).trans (alloc_ext c _)
  · exact alloc_ext c h

theorem build_ext {k : SK} {obs : Bool} {ys : List PV} {h h' : Heap} {v : PV}
    (hb : build k obs ys h = some (v, h')) : Ext h h' := by
  cases k with
  | tuple => simp [build] at hb; rw [← hb.2]; exact Ext.refl _
  | list =>
    simp only [build, Option.some.injEq] at hb
    have := allocObs_ext obs (.list ys) h
    rw [hb] at this
    exact this
  | set =>
    simp only [build] at hb
    split at hb
    · simp only [Option.some.injEq] at hb
      have := allocObs_ext obs (.set (dedup [] ys)) h
      rw [hb] at this
      exact this
    · cases hb

theorem mapV_ext {f : PV → Heap → Option (PV × Heap)}
    (hf : ∀ v h v' h', f v h = some (v', h') → Ext h h') :
    ∀ {xs : List PV} {h h' : Heap} {ys : List PV}, mapV f xs h = some (ys, h') → Ext h h' := by
  intro xs
  induction xs with
  | nil => intro h h' ys hm; simp [mapV] at hm; rw [← hm.2]; exact Ext.refl _
  | cons x xs ih =>
    intro h h' ys hm
    simp only [mapV] at hm
    cases h1 : f x h with
    | none => simp [h1] at hm
    | some r =>
      obtain ⟨y, g⟩ := r
      simp only [h1] at hm
      cases h2 : mapV f xs g with
      | none => simp [h2] at hm
      | some r =>
        obtain ⟨ys', g'⟩ := r
        simp [h2] at hm
        rw [← hm.2]
        exact (hf _ _ _ _ h1).trans (ih h2)

/-- The parts of a successful `mapKV` on a non-empty list. -/
theorem mapKV_cons {f g : PV → Heap → Option (PV × Heap)} {k v : PV} {rest : List (PV × PV)}
    {h h' : Heap} {out : List (PV × PV)} (hm : mapKV f g ((k, v) :: rest) h = some (out, h')) :
    ∃ k' h1 v' h2 out', f k h = some (k', h1) ∧ g v h1 = some (v', h2) ∧ hashable h2 k' = true ∧
      mapKV f g rest h2 = some (out', h') ∧ out = (k', v') :: out' := by
  simp only [mapKV] at hm
  cases h1 : f k h with
  | none => simp [h1] at hm
  | some r =>
    obtain ⟨k', g1⟩ := r
    simp only [h1] at hm
    cases h2 : g v g1 with
    | none => simp [h2] at hm
    | some r =>
      obtain ⟨v', g2⟩ := r
      simp only [h2] at hm
      split at hm
      · rename_i hh
        cases h3 : mapKV f g rest g2 with
        | none => simp [h3] at hm
        | some r =>
          obtain ⟨out', g3⟩ := r
          simp [h3] at hm
          exact ⟨k', g1, v', g2, out', rfl, h2, hh, by rw [h3, hm.2], hm.1.symm⟩
      · cases hm

/-- The parts of a successful `mapV` on a non-empty list. -/
theorem mapV_cons {f : PV → Heap → Option (PV × Heap)} {x : PV} {xs : List PV}
    {h h' : Heap} {out : List PV} (hm : mapV f (x :: xs) h = some (out, h')) :
    ∃ y h1 out', f x h = some (y, h1) ∧ mapV f xs h1 = some (out', h') ∧ out = y :: out' := by
  simp only [mapV] at hm
  cases h1 : f x h with
  | none => simp [h1] at hm
  | some r =>
    obtain ⟨y, g⟩ := r
    simp only [h1] at hm
    cases h2 : mapV f xs g with
    | none => simp [h2] at hm
    | some r =>
      obtain ⟨out', g'⟩ := r
      simp [h2] at hm
      exact ⟨y, g, out', rfl, by rw [h2, hm.2], hm.1.symm⟩

theorem mapKV_ext {f g : PV → Heap → Option (PV × Heap)}
    (hf : ∀ v h v' h', f v h = some (v', h') → Ext h h')
    (hg : ∀ v h v' h', g v h = some (v', h') → Ext h h') :
    ∀ {kvs : List (PV × PV)} {h h' : Heap} {out : List (PV × PV)},
      mapKV f g kvs h = some (out, h') → Ext h h' := by
  intro kvs
  induction kvs with
  | nil => intro h h' ys hm; simp [mapKV] at hm; rw [← hm.2]; exact Ext.refl _
  | cons kv kvs ih =>
    obtain ⟨k, v⟩ := kv
    intro h h' ys hm
    obtain ⟨k', h1, v', h2, out', e1, e2, _, e3, _⟩ := mapKV_cons hm
    exact (hf _ _ _ _ e1).trans ((hg _ _ _ _ e2).trans (ih e3))

/-- The parts of a successful `validate` of a sequence property. -/
theorem validate_seq_inv {k : SK} {item : P} {co obs : Bool} {v v' : PV} {h h' : Heap}
    (hv : validate (.seq k item co obs) v h = some (v', h')) :
    ∃ xs ys h1, openSeq h k co v = some xs ∧ mapV (validate item) xs h = some (ys, h1) ∧
      build k obs ys h1 = some (v', h') := by
  simp only [validate] at hv
  cases h1 : openSeq h k co v with
  | none => simp [h1] at hv
  | some xs =>
    simp only [h1] at hv
    cases h2 : mapV (validate item) xs h with
    | none => simp [h2] at hv
    | some r =>
      obtain ⟨ys, g⟩ := r
      simp only [h2] at hv
      exact ⟨xs, ys, g, rfl, h2, hv⟩

/-- The parts of a successful `validate` of a Dictionary property. -/
theorem validate_dict_inv {kp vp : P} {co obs : Bool} {v v' : PV} {h h' : Heap}
    (hv : validate (.dict kp vp co obs) v h = some (v', h')) :
    ∃ kvs out h1, openDict h co v = some kvs ∧
      mapKV (validate kp) (validate vp) kvs h = some (out, h1) ∧
      allocObs obs (.dict (dictOf out)) h1 = (v', h') := by
  simp only [validate] at hv
  cases h1 : openDict h co v with
  | none => simp [h1] at hv
  | some xs =>
    simp only [h1] at hv
    cases h2 : mapKV (validate kp) (validate vp) xs h with
    | none => simp [h2] at hv
    | some r =>
      obtain ⟨ys, g⟩ := r
      simp only [h2, Option.some.injEq] at hv
      exact ⟨xs, ys, g, rfl, h2, hv⟩

theorem validate_scalar_inv {f : Nat → Option Nat} {v v' : PV} {h h' : Heap}
    (hv : validate (.scalar f) v h = some (v', h')) :
    ∃ n m, v = .atom n ∧ f n = some m ∧ v' = .atom m ∧ h' = h := by
  cases v with
  | atom n =>
    simp only [validate] at hv
    cases hf : f n with
    | none => simp [hf] at hv
    | some m =>
      simp [hf] at hv
      exact ⟨n, m, rfl, hf, hv.1.symm, hv.2.symm⟩
  | tup xs => simp [validate] at hv
  | ref l => simp [validate] at hv

theorem validate_inst_inv {v v' : PV} {h h' : Heap}
    (hv : validate .inst v h = some (v', h')) :
    ∃ l, v = .ref l ∧ h[l]? = some .inst ∧ v' = .ref l ∧ h' = h := by
  cases v with
  | atom n => simp [validate] at hv
  | tup xs => simp [validate] at hv
  | ref l =>
    simp only [validate] at hv
    split at hv
    · rename_i hl
      simp at hv
      exact ⟨l, rfl, hl, hv.1.symm, hv.2.symm⟩
    · cases hv

/-- `validate` only adds objects. -/
theorem validate_ext : ∀ (p : P) {v : PV} {h : Heap} {v' : PV} {h' : Heap},
    validate p v h = some (v', h') → Ext h h'
  | .any, v, h, v', h', hv => by simp [validate] at hv; rw [← hv.2]; exact Ext.refl _
  | .scalar f, v, h, v', h', hv => by
      obtain ⟨_, _, _, _, _, rfl⟩ := validate_scalar_inv hv
      exact Ext.refl _
  | .inst, v, h, v', h', hv => by
      obtain ⟨_, _, _, _, rfl⟩ := validate_inst_inv hv
      exact Ext.refl _
  | .seq k item co obs, v, h, v', h', hv => by
      obtain ⟨xs, ys, h1, _, e2, e3⟩ := validate_seq_inv hv
      exact (mapV_ext (fun _ _ _ _ => validate_ext item) e2).trans (build_ext e3)
  | .dict kp vp co obs, v, h, v', h', hv => by
      obtain ⟨xs, ys, h1, _, e2, e3⟩ := validate_dict_inv hv
      refine (mapKV_ext (fun _ _ _ _ => validate_ext kp) (fun _ _ _ _ => validate_ext vp) e2).trans ?_
      have := allocObs_ext obs (.dict (dictOf ys)) h1
      rw [e3] at this
      exact this

/-! ### What the result can refer to -/

/-- A heap grew by objects whose references satisfy `Q`. -/
def Grow (Q : Nat → Prop) (h h' : Heap) : Prop := ∀ l c, h'[l]? = some c → h.length ≤ l → c.All Q

theorem Grow.refl (Q : Nat → Prop) (h : Heap) : Grow Q h h := by
  intro l c hc hl
  have := (List.getElem?_eq_some_iff.1 hc).1
  omega

theorem Grow.trans {Q : Nat → Prop} {a b c : Heap} (hbc : Ext b c) (h1 : Grow Q a b)
    (h2 : Grow Q b c) : Grow Q a c := by
  intro l x hx hl
  rcases hbc.back hx with h | h
  · exact h1 l x h hl
  · exact h2 l x hx h

theorem Closed.grow {Q : Nat → Prop} {h h' : Heap} (hc : Closed Q h) (he : Ext h h')
    (hg : Grow Q h h') : Closed Q h' := by
  intro l c hl hq
  rcases he.back hl with h1 | h1
  · exact hc l c h1 hq
  · exact hg l c hl h1

theorem alloc_grow {Q : Nat → Prop} {c : Cell} (hc : c.All Q) (h : Heap) : Grow Q h (alloc c h).2 := by
  intro l x hx hl
  simp only [alloc] at hx
  rw [List.getElem?_append_right hl] at hx
  rcases hd : l - h.length with _ | n
  · rw [hd] at hx
    simp at hx
    subst hx
    exact hc
  · rw [hd] at hx
    simp at hx

theorem allocObs_spec {Q : Nat → Prop} {c : Cell} (hc : c.All Q) (obs : Bool) {h h' : Heap} {v : PV}
    (ha : allocObs obs c h = (v, h')) : Grow Q h h' ∧ ∃ l, v = .ref l ∧ h.length ≤ l ∧ h'[l]? = some c := by
  unfold allocObs at ha
  split at ha
  · have hg := (alloc_grow hc h).trans (alloc_ext c _) (alloc_grow hc (alloc c h).2)
    rw [ha] at hg
    refine ⟨hg, (alloc c h).2.length, ?_, ?_, ?_⟩
    · have := congrArg Prod.fst ha
      exact this.symm
    · simp [alloc]
    · have := congrArg Prod.snd ha
      simp only [alloc] at this ⊢
      rw [← this]
      simp
  · have hg := alloc_grow hc h
    rw [ha] at hg
    refine ⟨hg, h.length, ?_, ?_, ?_⟩
    · have := congrArg Prod.fst ha
      exact this.symm
    · simp
    · have := congrArg Prod.snd ha
      simp only [alloc] at this
      rw [← this]
      simp

theorem build_spec {Q : Nat → Prop} {k : SK} {obs : Bool} {ys : List PV} {h h' : Heap} {v : PV}
    (hb : build k obs ys h = some (v, h')) (hy : ∀ y ∈ ys, y.All Q)
    (hq : ∀ l, h.length ≤ l → l < h'.length → Q l) : v.All Q ∧ Grow Q h h' := by
  cases k with
  | tuple =>
    simp [build] at hb
    rw [← hb.1, ← hb.2]
    exact ⟨by simpa [PV.All, allL_iff] using hy, Grow.refl _ _⟩
  | list =>
    simp only [build, Option.some.injEq] at hb
    obtain ⟨hg, l, rfl, hl, hc⟩ := allocObs_spec (Q := Q) (c := .list ys) hy obs hb
    exact ⟨hq l hl (List.getElem?_eq_some_iff.1 hc).1, hg⟩
  | set =>
    simp only [build] at hb
    split at hb
    · simp only [Option.some.injEq] at hb
      have hc : Cell.All Q (.set (dedup [] ys)) := by
        intro x hx
        rcases dedup_mem hx with h | h
        · cases h
        · exact hy x h
      obtain ⟨hg, l, rfl, hl, hc⟩ := allocObs_spec hc obs hb
      exact ⟨hq l hl (List.getElem?_eq_some_iff.1 hc).1, hg⟩
    · cases hb

theorem container_all {Q : Nat → Prop} {h : Heap} {v : PV} {k : SK} {xs : List PV}
    (hc : container h v = some (k, xs)) (hv : v.All Q) (hcl : Closed Q h) : ∀ x ∈ xs, x.All Q := by
  cases v with
  | atom n => simp [container] at hc
  | tup ys =>
    simp [container] at hc
    rw [← hc.2]
    simpa [PV.All, allL_iff] using hv
  | ref l =>
    simp only [container] at hc
    split at hc
    · rename_i ys hl
      simp at hc
      rw [← hc.2]
      exact hcl l _ hl hv
    · rename_i ys hl
      simp at hc
      rw [← hc.2]
      exact hcl l _ hl hv
    · cases hc

theorem openSeq_all {Q : Nat → Prop} {h : Heap} {v : PV} {k : SK} {co : Bool} {xs : List PV}
    (ho : openSeq h k co v = some xs) (hv : v.All Q) (hcl : Closed Q h) : ∀ x ∈ xs, x.All Q := by
  unfold openSeq at ho
  cases hc : container h v with
  | none =>
    simp only [hc] at ho
    split at ho
    · simp at ho
      subst ho
      simpa using hv
    · cases ho
  | some r =>
    obtain ⟨k', ys⟩ := r
    simp only [hc] at ho
    split at ho
    · simp at ho
      subst ho
      exact container_all hc hv hcl
    · cases ho

theorem pairOf_all {Q : Nat → Prop} {h : Heap} {v : PV} {kv : PV × PV}
    (hp : pairOf h v = some kv) (hv : v.All Q) (hcl : Closed Q h) : kv.1.All Q ∧ kv.2.All Q := by
  unfold pairOf at hp
  split at hp
  · rename_i k a b hc
    split at hp
    · simp at hp
      subst hp
      have := container_all hc hv hcl
      exact ⟨this a (by simp), this b (by simp)⟩
    · cases hp
  · cases hp

theorem pairsOf_all {Q : Nat → Prop} {h : Heap} (hcl : Closed Q h) :
    ∀ {xs : List PV} {kvs : List (PV × PV)}, pairsOf h xs = some kvs → (∀ x ∈ xs, x.All Q) →
      AllKV Q kvs := by
  intro xs
  induction xs with
  | nil =>
    intro kvs hp _
    simp [pairsOf] at hp
    subst hp
    intro kv hkv
    cases hkv
  | cons x xs ih =>
    intro kvs hp hx
    simp only [pairsOf] at hp
    cases h1 : pairOf h x with
    | none => simp [h1] at hp
    | some kv =>
      simp only [h1] at hp
      cases h2 : pairsOf h xs with
      | none => simp [h2] at hp
      | some kvs' =>
        simp [h2] at hp
        subst hp
        intro a ha
        rcases List.mem_cons.1 ha with rfl | ha
        · exact pairOf_all h1 (hx x (by simp)) hcl
        · exact ih h2 (fun y hy => hx y (List.mem_cons_of_mem _ hy)) a ha

theorem coerced_all {Q : Nat → Prop} {h : Heap} (hcl : Closed Q h) {xs : List PV} {co : Bool}
    {kvs : List (PV × PV)} (ho : (if co then (pairsOf h xs).map dictOf else none) = some kvs)
    (hx : ∀ x ∈ xs, x.All Q) : AllKV Q kvs := by
  split at ho
  · cases hp : pairsOf h xs with
    | none => simp [hp] at ho
    | some ps =>
      simp [hp] at ho
      subst ho
      exact (pairsOf_all hcl hp hx).dictOf
  · cases ho

theorem openDict_all {Q : Nat → Prop} {h : Heap} {v : PV} {co : Bool} {kvs : List (PV × PV)}
    (ho : openDict h co v = some kvs) (hv : v.All Q) (hcl : Closed Q h) : AllKV Q kvs := by
  cases v with
  | atom n => simp [openDict] at ho
  | tup xs =>
    simp only [openDict] at ho
    exact coerced_all hcl ho (by simpa [PV.All, allL_iff] using hv)
  | ref l =>
    simp only [openDict] at ho
    split at ho
    · rename_i ps hl
      simp at ho
      subst ho
      exact cellAll_dict.1 (hcl l _ hl hv)
    · rename_i xs hl
      exact coerced_all hcl ho (hcl l _ hl hv)
    · rename_i xs hl
      exact coerced_all hcl ho (hcl l _ hl hv)
    · cases ho

theorem mapV_sep {Q : Nat → Prop} {f : PV → Heap → Option (PV × Heap)}
    (hx : ∀ v h v' h', f v h = some (v', h') → Ext h h')
    (hf : ∀ v h v' h', f v h = some (v', h') → v.All Q → Closed Q h →
      (∀ l, h.length ≤ l → l < h'.length → Q l) → v'.All Q ∧ Grow Q h h') :
    ∀ {xs : List PV} {h h' : Heap} {ys : List PV}, mapV f xs h = some (ys, h') →
      (∀ x ∈ xs, x.All Q) → Closed Q h → (∀ l, h.length ≤ l → l < h'.length → Q l) →
      (∀ y ∈ ys, y.All Q) ∧ Grow Q h h' := by
  intro xs
  induction xs with
  | nil =>
    intro h h' ys hm _ _ _
    simp [mapV] at hm
    rw [hm.1, ← hm.2]
    exact ⟨by simp, Grow.refl _ _⟩
  | cons x xs ih =>
    intro h h' ys hm hxs hcl hq
    obtain ⟨y, h1, out, e1, e2, rfl⟩ := mapV_cons hm
    have x1 := hx _ _ _ _ e1
    have x2 := mapV_ext hx e2
    obtain ⟨a1, g1⟩ := hf _ _ _ _ e1 (hxs x (by simp)) hcl
      (fun l hl hl' => hq l hl (by have := x2.len; omega))
    obtain ⟨a2, g2⟩ := ih e2 (fun y hy => hxs y (List.mem_cons_of_mem _ hy)) (hcl.grow x1 g1)
      (fun l hl hl' => hq l (by have := x1.len; omega) hl')
    refine ⟨?_, g1.trans x2 g2⟩
    intro z hz
    rcases List.mem_cons.1 hz with rfl | hz
    · exact a1
    · exact a2 z hz

theorem mapKV_sep {Q : Nat → Prop} {f g : PV → Heap → Option (PV × Heap)}
    (hx : ∀ v h v' h', f v h = some (v', h') → Ext h h')
    (hx' : ∀ v h v' h', g v h = some (v', h') → Ext h h')
    (hf : ∀ v h v' h', f v h = some (v', h') → v.All Q → Closed Q h →
      (∀ l, h.length ≤ l → l < h'.length → Q l) → v'.All Q ∧ Grow Q h h')
    (hf' : ∀ v h v' h', g v h = some (v', h') → v.All Q → Closed Q h →
      (∀ l, h.length ≤ l → l < h'.length → Q l) → v'.All Q ∧ Grow Q h h') :
    ∀ {kvs : List (PV × PV)} {h h' : Heap} {out : List (PV × PV)},
      mapKV f g kvs h = some (out, h') → AllKV Q kvs → Closed Q h →
      (∀ l, h.length ≤ l → l < h'.length → Q l) → AllKV Q out ∧ Grow Q h h' := by
  intro kvs
  induction kvs with
  | nil =>
    intro h h' ys hm _ _ _
    simp [mapKV] at hm
    rw [hm.1, ← hm.2]
    exact ⟨(by intro kv hkv; cases hkv), Grow.refl _ _⟩
  | cons kv kvs ih =>
    obtain ⟨k, v⟩ := kv
    intro h h' ys hm hkv hcl hq
    obtain ⟨k', h1, v', h2, out, e1, e2, _, e3, rfl⟩ := mapKV_cons hm
    have x1 := hx _ _ _ _ e1
    have x2 := hx' _ _ _ _ e2
    have x3 := mapKV_ext hx hx' e3
    have l1 := x1.len
    have l2 := x2.len
    have l3 := x3.len
    obtain ⟨a1, g1⟩ := hf _ _ _ _ e1 (hkv (k, v) (by simp)).1 hcl
      (fun l hl hl' => hq l hl (by omega))
    have c1 := hcl.grow x1 g1
    obtain ⟨a2, g2⟩ := hf' _ _ _ _ e2 (hkv (k, v) (by simp)).2 c1
      (fun l hl hl' => hq l (by omega) (by omega))
    have c2 := c1.grow x2 g2
    obtain ⟨a3, g3⟩ := ih e3 (fun y hy => hkv y (List.mem_cons_of_mem _ hy)) c2
      (fun l hl hl' => hq l (by omega) hl')
    refine ⟨?_, (g1.trans x2 g2).trans x3 g3⟩
    intro z hz
    rcases List.mem_cons.1 hz with rfl | hz
    · exact ⟨a1, a2⟩
    · exact a3 z hz

/-- If everything the value leads to satisfies `Q`, and new objects do, then so
does everything in the result. -/
theorem validate_sep {Q : Nat → Prop} : ∀ (p : P) {v : PV} {h : Heap} {v' : PV} {h' : Heap},
    validate p v h = some (v', h') → v.All Q → Closed Q h →
    (∀ l, h.length ≤ l → l < h'.length → Q l) → v'.All Q ∧ Grow Q h h'
  | .any, v, h, v', h', hv, ha, _, _ => by
      simp [validate] at hv
      rw [← hv.1, ← hv.2]
      exact ⟨ha, Grow.refl _ _⟩
  | .scalar f, v, h, v', h', hv, _, _, _ => by
      obtain ⟨_, _, _, _, rfl, rfl⟩ := validate_scalar_inv hv
      exact ⟨trivial, Grow.refl _ _⟩
  | .inst, v, h, v', h', hv, ha, _, _ => by
      obtain ⟨_, rfl, _, rfl, rfl⟩ := validate_inst_inv hv
      exact ⟨ha, Grow.refl _ _⟩
  | .seq k item co obs, v, h, v', h', hv, ha, hcl, hq => by
      obtain ⟨xs, ys, h1, e1, e2, e3⟩ := validate_seq_inv hv
      have x1 := mapV_ext (fun _ _ _ _ => validate_ext item) e2
      have x2 := build_ext e3
      have l1 := x1.len
      have l2 := x2.len
      obtain ⟨a1, g1⟩ := mapV_sep (fun _ _ _ _ => validate_ext item)
        (fun _ _ _ _ => validate_sep item) e2 (openSeq_all e1 ha hcl) hcl
        (fun l hl hl' => hq l hl (by omega))
      obtain ⟨a2, g2⟩ := build_spec e3 a1 (fun l hl hl' => hq l (by omega) hl')
      exact ⟨a2, g1.trans x2 g2⟩
  | .dict kp vp co obs, v, h, v', h', hv, ha, hcl, hq => by
      obtain ⟨kvs, out, h1, e1, e2, e3⟩ := validate_dict_inv hv
      have x1 := mapKV_ext (fun _ _ _ _ => validate_ext kp) (fun _ _ _ _ => validate_ext vp) e2
      have x2 : Ext h1 h' := by
        have := allocObs_ext obs (.dict (dictOf out)) h1
        rw [e3] at this
        exact this
      have l1 := x1.len
      have l2 := x2.len
      obtain ⟨a1, g1⟩ := mapKV_sep (fun _ _ _ _ => validate_ext kp) (fun _ _ _ _ => validate_ext vp)
        (fun _ _ _ _ => validate_sep kp) (fun _ _ _ _ => validate_sep vp) e2
        (openDict_all e1 ha hcl) hcl (fun l hl hl' => hq l hl (by omega))
      obtain ⟨g2, l, rfl, hl, hc⟩ := allocObs_spec (Q := Q) (c := .dict (dictOf out))
        (cellAll_dict.2 a1.dictOf) obs e3
      exact ⟨hq l (by omega) (List.getElem?_eq_some_iff.1 hc).1, g1.trans x2 g2⟩

/-- New, or an instance. -/
def Own (h : Heap) (l : Nat) : Prop := h.length ≤ l ∨ h[l]? = some .inst

theorem Own.mono {h h' : Heap} (he : Ext h h') {l : Nat} (ho : Own h' l) : Own h l := by
  rcases ho with ho | ho
  · exact Or.inl (by have := he.len; omega)
  · rcases he.back ho with h1 | h1
    · exact Or.inr h1
    · exact Or.inl h1

theorem Grow.mono {Q R : Nat → Prop} (hqr : ∀ l, Q l → R l) {h h' : Heap} (hg : Grow Q h h') :
    Grow R h h' := fun l c hc hl x hx => (hg l c hc hl x hx).mono hqr

theorem mapV_own {f : PV → Heap → Option (PV × Heap)}
    (hx : ∀ v h v' h', f v h = some (v', h') → Ext h h')
    (hf : ∀ v h v' h', f v h = some (v', h') → v'.All (Own h) ∧ Grow (Own h) h h') :
    ∀ {xs : List PV} {h h' : Heap} {ys : List PV}, mapV f xs h = some (ys, h') →
      (∀ y ∈ ys, y.All (Own h)) ∧ Grow (Own h) h h' := by
  intro xs
  induction xs with
  | nil =>
    intro h h' ys hm
    simp [mapV] at hm
    rw [hm.1, ← hm.2]
    exact ⟨by simp, Grow.refl _ _⟩
  | cons x xs ih =>
    intro h h' ys hm
    obtain ⟨y, h1, out, e1, e2, rfl⟩ := mapV_cons hm
    have x1 := hx _ _ _ _ e1
    obtain ⟨a1, g1⟩ := hf _ _ _ _ e1
    obtain ⟨a2, g2⟩ := ih e2
    refine ⟨?_, g1.trans (mapV_ext hx e2) (g2.mono fun _ => Own.mono x1)⟩
    intro z hz
    rcases List.mem_cons.1 hz with rfl | hz
    · exact a1
    · exact (a2 z hz).mono fun _ => Own.mono x1

theorem mapKV_own {f g : PV → Heap → Option (PV × Heap)}
    (hx : ∀ v h v' h', f v h = some (v', h') → Ext h h')
    (hx' : ∀ v h v' h', g v h = some (v', h') → Ext h h')
    (hf : ∀ v h v' h', f v h = some (v', h') → v'.All (Own h) ∧ Grow (Own h) h h')
    (hf' : ∀ v h v' h', g v h = some (v', h') → v'.All (Own h) ∧ Grow (Own h) h h') :
    ∀ {kvs : List (PV × PV)} {h h' : Heap} {out : List (PV × PV)},
      mapKV f g kvs h = some (out, h') → AllKV (Own h) out ∧ Grow (Own h) h h' := by
  intro kvs
  induction kvs with
  | nil =>
    intro h h' ys hm
    simp [mapKV] at hm
    rw [hm.1, ← hm.2]
    exact ⟨(by intro kv hkv; cases hkv), Grow.refl _ _⟩
  | cons kv kvs ih =>
    obtain ⟨k, v⟩ := kv
    intro h h' ys hm
    obtain ⟨k', h1, v', h2, out, e1, e2, _, e3, rfl⟩ := mapKV_cons hm
    have x1 := hx _ _ _ _ e1
    have x2 := hx' _ _ _ _ e2
    have x3 := mapKV_ext hx hx' e3
    obtain ⟨a1, g1⟩ := hf _ _ _ _ e1
    obtain ⟨a2, g2⟩ := hf' _ _ _ _ e2
    obtain ⟨a3, g3⟩ := ih e3
    have m1 : ∀ l, Own h1 l → Own h l := fun _ => Own.mono x1
    have m2 : ∀ l, Own h2 l → Own h l := fun _ => Own.mono (x1.trans x2)
    refine ⟨?_, (g1.trans x2 (g2.mono m1)).trans x3 (g3.mono m2)⟩
    intro z hz
    rcases List.mem_cons.1 hz with rfl | hz
    · exact ⟨a1, a2.mono m1⟩
    · exact ⟨(a3 z hz).1.mono m2, (a3 z hz).2.mono m2⟩

/-- At a property declared at every level, the result refers only to new
objects and instances, and so do the new objects. -/
theorem validate_own : ∀ (p : P), Declared p → ∀ {v : PV} {h : Heap} {v' : PV} {h' : Heap},
    validate p v h = some (v', h') → v'.All (Own h) ∧ Grow (Own h) h h'
  | .any, hd, _, _, _, _, _ => hd.elim
  | .scalar f, _, v, h, v', h', hv => by
      obtain ⟨_, _, _, _, rfl, rfl⟩ := validate_scalar_inv hv
      exact ⟨trivial, Grow.refl _ _⟩
  | .inst, _, v, h, v', h', hv => by
      obtain ⟨_, rfl, hl, rfl, rfl⟩ := validate_inst_inv hv
      exact ⟨Or.inr hl, Grow.refl _ _⟩
  | .seq k item co obs, hd, v, h, v', h', hv => by
      obtain ⟨xs, ys, h1, e1, e2, e3⟩ := validate_seq_inv hv
      have x1 := mapV_ext (fun _ _ _ _ => validate_ext item) e2
      obtain ⟨a1, g1⟩ := mapV_own (fun _ _ _ _ => validate_ext item)
        (fun _ _ _ _ => validate_own item hd) e2
      obtain ⟨a2, g2⟩ := build_spec e3 a1 (fun l hl _ => Or.inl (by have := x1.len; omega))
      exact ⟨a2, g1.trans (build_ext e3) g2⟩
  | .dict kp vp co obs, hd, v, h, v', h', hv => by
      obtain ⟨kvs, out, h1, e1, e2, e3⟩ := validate_dict_inv hv
      have x1 := mapKV_ext (fun _ _ _ _ => validate_ext kp) (fun _ _ _ _ => validate_ext vp) e2
      obtain ⟨a1, g1⟩ := mapKV_own (fun _ _ _ _ => validate_ext kp) (fun _ _ _ _ => validate_ext vp)
        (fun _ _ _ _ => validate_own kp hd.1) (fun _ _ _ _ => validate_own vp hd.2) e2
      obtain ⟨g2, l, rfl, hl, hc⟩ := allocObs_spec (Q := Own h) (c := .dict (dictOf out))
        (cellAll_dict.2 a1.dictOf) obs e3
      have x2 := allocObs_ext obs (.dict (dictOf out)) h1
      rw [e3] at x2
      exact ⟨Or.inl (by have := x1.len; omega), g1.trans x2 g2⟩

/-! ### Content -/

mutual
/-- The content depends only on the objects the value leads to. -/
theorem shows_agree {h h2 : Heap} {G : Nat → Prop} (hcl : Closed G h)
    (hk : ∀ l c, h[l]? = some c → G l → h2[l]? = some c) :
    ∀ {v : PV} {t : Tree}, Shows h v t → v.All G → Shows h2 v t
  | _, _, .atom n, _ => .atom n
  | _, _, .tup hs, ha => .tup (showsL_agree hcl hk hs (by simpa only [PV.All] using ha))
  | _, _, .list hl hs, ha => .list (hk _ _ hl ha)
      (showsL_agree hcl hk hs ((allL_iff _ _).2 (hcl _ _ hl ha)))
  | _, _, .set hl hs, ha => .set (hk _ _ hl ha)
      (showsL_agree hcl hk hs ((allL_iff _ _).2 (hcl _ _ hl ha)))
  | _, _, .dict hl hs, ha => .dict (hk _ _ hl ha)
      (showsKV_agree hcl hk hs (cellAll_dict.1 (hcl _ _ hl ha)))
  | _, _, .inst hl, ha => .inst (hk _ _ hl ha)
theorem showsL_agree {h h2 : Heap} {G : Nat → Prop} (hcl : Closed G h)
    (hk : ∀ l c, h[l]? = some c → G l → h2[l]? = some c) :
    ∀ {xs : List PV} {ts : List Tree}, ShowsL h xs ts → PV.AllL G xs → ShowsL h2 xs ts
  | _, _, .nil, _ => .nil
  | _, _, .cons h1 h2', ha => by
      simp only [PV.AllL] at ha
      exact .cons (shows_agree hcl hk h1 ha.1) (showsL_agree hcl hk h2' ha.2)
theorem showsKV_agree {h h2 : Heap} {G : Nat → Prop} (hcl : Closed G h)
    (hk : ∀ l c, h[l]? = some c → G l → h2[l]? = some c) :
    ∀ {kvs : List (PV × PV)} {kts : List (Tree × Tree)}, ShowsKV h kvs kts → AllKV G kvs →
      ShowsKV h2 kvs kts
  | _, _, .nil, _ => .nil
  | _, _, .cons h1 h2' h3, ha =>
      .cons (shows_agree hcl hk h1 (ha _ (List.mem_cons_self ..)).1)
        (shows_agree hcl hk h2' (ha _ (List.mem_cons_self ..)).2)
        (showsKV_agree hcl hk h3 (fun kv hkv => ha kv (List.mem_cons_of_mem _ hkv)))
end

mutual
/-- A value has at most one content. -/
theorem shows_det {h : Heap} : ∀ {v : PV} {t t' : Tree}, Shows h v t → Shows h v t' → t = t'
  | _, _, _, .atom _, .atom _ => rfl
  | _, _, _, .tup a, .tup b => congrArg _ (showsL_det a b)
  | _, _, _, .list e a, .list e' b => by
      rw [e] at e'; cases e'; exact congrArg _ (showsL_det a b)
  | _, _, _, .list e _, .set e' _ => by rw [e] at e'; cases e'
  | _, _, _, .list e _, .dict e' _ => by rw [e] at e'; cases e'
  | _, _, _, .list e _, .inst e' => by rw [e] at e'; cases e'
  | _, _, _, .set e a, .set e' b => by
      rw [e] at e'; cases e'; exact congrArg _ (showsL_det a b)
  | _, _, _, .set e _, .list e' _ => by rw [e] at e'; cases e'
  | _, _, _, .set e _, .dict e' _ => by rw [e] at e'; cases e'
  | _, _, _, .set e _, .inst e' => by rw [e] at e'; cases e'
  | _, _, _, .dict e a, .dict e' b => by
      rw [e] at e'; cases e'; exact congrArg _ (showsKV_det a b)
  | _, _, _, .dict e _, .list e' _ => by rw [e] at e'; cases e'
  | _, _, _, .dict e _, .set e' _ => by rw [e] at e'; cases e'
  | _, _, _, .dict e _, .inst e' => by rw [e] at e'; cases e'
  | _, _, _, .inst _, .inst _ => rfl
  | _, _, _, .inst e, .list e' _ => by rw [e] at e'; cases e'
  | _, _, _, .inst e, .set e' _ => by rw [e] at e'; cases e'
  | _, _, _, .inst e, .dict e' _ => by rw [e] at e'; cases e'
theorem showsL_det {h : Heap} : ∀ {xs : List PV} {ts ts' : List Tree}, ShowsL h xs ts →
    ShowsL h xs ts' → ts = ts'
  | _, _, _, .nil, .nil => rfl
  | _, _, _, .cons a b, .cons a' b' => by rw [shows_det a a', showsL_det b b']
theorem showsKV_det {h : Heap} : ∀ {kvs : List (PV × PV)} {ts ts' : List (Tree × Tree)},
    ShowsKV h kvs ts → ShowsKV h kvs ts' → ts = ts'
  | _, _, _, .nil, .nil => rfl
  | _, _, _, .cons a b c, .cons a' b' c' => by
      rw [shows_det a a', shows_det b b', showsKV_det c c']
end

theorem shows_ext {h h' : Heap} (he : Ext h h') {v : PV} {t : Tree} (hs : Shows h v t) :
    Shows h' v t :=
  shows_agree (G := fun l => h[l]?.isSome ∨ True) (fun _ c _ _ x _ => by
    have : ∀ v : PV, v.All (fun l => h[l]?.isSome ∨ True) := fun v => by
      have := PV.All.mono (Q := fun _ => True) (R := fun l => h[l]?.isSome ∨ True)
        (fun l _ => Or.inr trivial) (v := v)
      apply this
      exact all_true v
    exact this x) (fun l c hc _ => he.get hc) hs
    (PV.All.mono (fun l _ => Or.inr trivial) (all_true v))
where
  all_true (v : PV) : v.All (fun _ => True) := PV.rec (motive_1 := fun v => v.All (fun _ => True))
    (motive_2 := fun xs => PV.AllL (fun _ => True) xs)
    (fun _ => trivial) (fun _ ih => ih) (fun _ => trivial) trivial (fun _ _ a b => ⟨a, b⟩) v

theorem showsL_of {h : Heap} : ∀ {xs : List PV}, (∀ x ∈ xs, ∃ t, Shows h x t) → ∃ ts, ShowsL h xs ts := by
  intro xs
  induction xs with
  | nil => intro _; exact ⟨[], .nil⟩
  | cons x xs ih =>
    intro hx
    obtain ⟨t, ht⟩ := hx x (by simp)
    obtain ⟨ts, hts⟩ := ih (fun y hy => hx y (List.mem_cons_of_mem _ hy))
    exact ⟨t :: ts, .cons ht hts⟩

theorem showsKV_of {h : Heap} : ∀ {kvs : List (PV × PV)},
    (∀ kv ∈ kvs, (∃ t, Shows h kv.1 t) ∧ ∃ t, Shows h kv.2 t) → ∃ ts, ShowsKV h kvs ts := by
  intro xs
  induction xs with
  | nil => intro _; exact ⟨[], .nil⟩
  | cons x xs ih =>
    intro hx
    obtain ⟨⟨t, ht⟩, t', ht'⟩ := hx x (by simp)
    obtain ⟨ts, hts⟩ := ih (fun y hy => hx y (List.mem_cons_of_mem _ hy))
    exact ⟨(t, t') :: ts, .cons ht ht' hts⟩

theorem allocObs_get (obs : Bool) (c : Cell) (h : Heap) {v : PV} {h' : Heap}
    (ha : allocObs obs c h = (v, h')) : ∃ l, v = .ref l ∧ h'[l]? = some c := by
  have hc : c.All (fun _ => True) := fun x _ => shows_ext.all_true x
  obtain ⟨_, l, e, _, hl⟩ := allocObs_spec hc obs ha
  exact ⟨l, e, hl⟩

/-- A stored value has a content: it is finite. -/
theorem validate_shows : ∀ (p : P), Declared p → ∀ {v : PV} {h : Heap} {v' : PV} {h' : Heap},
    validate p v h = some (v', h') → ∃ t, Shows h' v' t
  | .any, hd, _, _, _, _, _ => hd.elim
  | .scalar f, _, v, h, v', h', hv => by
      obtain ⟨_, _, _, _, rfl, rfl⟩ := validate_scalar_inv hv
      exact ⟨_, .atom _⟩
  | .inst, _, v, h, v', h', hv => by
      obtain ⟨_, rfl, hl, rfl, rfl⟩ := validate_inst_inv hv
      exact ⟨_, .inst hl⟩
  | .seq k item co obs, hd, v, h, v', h', hv => by
      obtain ⟨xs, ys, h1, e1, e2, e3⟩ := validate_seq_inv hv
      have hm : ∀ {xs : List PV} {h h' : Heap} {ys : List PV},
          mapV (validate item) xs h = some (ys, h') → ∀ y ∈ ys, ∃ t, Shows h' y t := by
        intro xs
        induction xs with
        | nil => intro h h' ys hm; simp [mapV] at hm; rw [hm.1]; simp
        | cons x xs ih =>
          intro h h' ys hm z hz
          obtain ⟨y, h1, out, e1, e2, rfl⟩ := mapV_cons hm
          rcases List.mem_cons.1 hz with rfl | hz
          · obtain ⟨t, ht⟩ := validate_shows item hd e1
            exact ⟨t, shows_ext (mapV_ext (fun _ _ _ _ => validate_ext item) e2) ht⟩
          · exact ih e2 z hz
      have hys := fun y hy => hm e2 y hy
      have x2 := build_ext e3
      have hys' : ∀ y ∈ ys, ∃ t, Shows h' y t := fun y hy =>
        (hys y hy).imp fun t ht => shows_ext x2 ht
      cases k with
      | tuple =>
        simp [build] at e3
        obtain ⟨ts, hts⟩ := showsL_of hys'
        rw [← e3.1]
        exact ⟨_, .tup hts⟩
      | list =>
        simp only [build, Option.some.injEq] at e3
        obtain ⟨l, rfl, hl⟩ := allocObs_get _ _ _ e3
        obtain ⟨ts, hts⟩ := showsL_of hys'
        exact ⟨_, .list hl hts⟩
      | set =>
        simp only [build] at e3
        split at e3
        · simp only [Option.some.injEq] at e3
          obtain ⟨l, rfl, hl⟩ := allocObs_get _ _ _ e3
          obtain ⟨ts, hts⟩ := showsL_of (xs := dedup [] ys) (fun x hx => by
            rcases dedup_mem hx with h | h
            · cases h
            · exact hys' x h)
          exact ⟨_, .set hl hts⟩
        · cases e3
  | .dict kp vp co obs, hd, v, h, v', h', hv => by
      obtain ⟨kvs, out, h1, e1, e2, e3⟩ := validate_dict_inv hv
      have hm : ∀ {xs : List (PV × PV)} {h h' : Heap} {ys : List (PV × PV)},
          mapKV (validate kp) (validate vp) xs h = some (ys, h') →
          ∀ y ∈ ys, (∃ t, Shows h' y.1 t) ∧ ∃ t, Shows h' y.2 t := by
        intro xs
        induction xs with
        | nil => intro h h' ys hm; simp [mapKV] at hm; rw [hm.1]; simp
        | cons x xs ih =>
          obtain ⟨a, b⟩ := x
          intro h h' ys hm z hz
          obtain ⟨k', h1, v', h2, out, e1, e2, _, e3, rfl⟩ := mapKV_cons hm
          have x3 := mapKV_ext (fun _ _ _ _ => validate_ext kp) (fun _ _ _ _ => validate_ext vp) e3
          rcases List.mem_cons.1 hz with rfl | hz
          · obtain ⟨t, ht⟩ := validate_shows kp hd.1 e1
            obtain ⟨t', ht'⟩ := validate_shows vp hd.2 e2
            exact ⟨⟨t, shows_ext ((validate_ext vp e2).trans x3) ht⟩, t', shows_ext x3 ht'⟩
          · exact ih e3 z hz
      have hys := fun y hy => hm e2 y hy
      have x2 := allocObs_ext obs (.dict (dictOf out)) h1
      rw [e3] at x2
      obtain ⟨l, rfl, hl⟩ := allocObs_get _ _ _ e3
      obtain ⟨ts, hts⟩ := showsKV_of (h := h') (kvs := dictOf out) (fun kv hkv => by
        obtain ⟨⟨a, ha, ea⟩, ⟨b, hb, eb⟩⟩ := dictOf_mem hkv
        exact ⟨ea ▸ (hys a ha).1.imp fun t ht => shows_ext x2 ht,
          eb ▸ (hys b hb).2.imp fun t ht => shows_ext x2 ht⟩)
      exact ⟨_, .dict hl hts⟩

/-! ### Histories -/

theorem pick_all {Q : Nat → Prop} {known : List PV} (hk : ∀ v ∈ known, v.All Q) (is : List Nat) :
    ∀ x ∈ pick known is, x.All Q := by
  intro x hx
  simp only [pick, List.mem_filterMap] at hx
  obtain ⟨i, _, hi⟩ := hx
  exact hk x (List.mem_of_getElem? hi)

theorem pickKV_all {Q : Nat → Prop} {known : List PV} (hk : ∀ v ∈ known, v.All Q)
    (kis : List (Nat × Nat)) : AllKV Q (pickKV known kis) := by
  intro x hx
  simp only [pickKV, List.mem_filterMap] at hx
  obtain ⟨i, _, hi⟩ := hx
  split at hi
  · rename_i a b ha hb
    simp at hi
    subst hi
    exact ⟨hk _ (List.mem_of_getElem? ha), hk _ (List.mem_of_getElem? hb)⟩
  · cases hi

theorem dedup_all {Q : Nat → Prop} {xs : List PV} (hx : ∀ x ∈ xs, x.All Q) :
    ∀ x ∈ dedup [] xs, x.All Q := by
  intro x h
  rcases dedup_mem h with h | h
  · cases h
  · exact hx x h

theorem items_all {Q : Nat → Prop} {h : Heap} (hcl : Closed Q h) {v : PV} (hv : v.All Q) :
    ∀ x ∈ v.items h, x.All Q := by
  cases v with
  | atom n => simp [PV.items]
  | tup xs => simpa [PV.items, PV.All, allL_iff] using hv
  | ref l =>
    simp only [PV.items]
    cases hc : h[l]? with
    | none => simp
    | some c => exact hcl l c hc hv

theorem closed_set {Q : Nat → Prop} {h : Heap} (hcl : Closed Q h) (l : Nat) {c : Cell}
    (hc : c.All Q) : Closed Q (h.set l c) := by
  intro m x hx hq
  rw [List.getElem?_set] at hx
  split at hx
  · split at hx
    · simp at hx
      subst hx
      exact hc
    · cases hx
  · exact hcl m x hx hq

/-- Everything client code can do keeps apart what it does not hold: `Q` says
which objects the client may come across, `K` the slots it does not use.  The
other objects, and instances, stay. -/
structure Apart (Q : Nat → Prop) (K : Nat → Prop) (s : State) : Prop where
  known : ∀ v ∈ s.known, v.All Q
  slots : ∀ j v, ¬ K j → s.slots j = some v → v.All Q
  cells : Closed Q s.heap

/-- What one operation leaves alone. -/
structure Left (Q : Nat → Prop) (K : Nat → Prop) (s s' : State) : Prop where
  slot : ∀ k, K k → s'.slots k = s.slots k
  keep : ∀ l c, s.heap[l]? = some c → ¬ Q l ∨ c = .inst → s'.heap[l]? = some c
  len : s.heap.length ≤ s'.heap.length

theorem Left.of_heap {Q : Nat → Prop} {K : Nat → Prop} {s s' : State} (hs : ∀ k, K k → s'.slots k = s.slots k)
    (hx : Ext s.heap s'.heap) : Left Q K s s' :=
  ⟨hs, fun _ _ hc _ => hx.get hc, hx.len⟩

theorem give_apart {Q : Nat → Prop} {K : Nat → Prop} {s : State} (ha : Apart Q K s) {c : Cell}
    (hc : c.All Q) (hq : ∀ l, s.heap.length ≤ l → l < s.heap.length + 1 → Q l) :
    Apart Q K (s.give c) ∧ Left Q K s (s.give c) := by
  refine ⟨⟨?_, ha.slots, ?_⟩, Left.of_heap (fun _ _ => rfl) (alloc_ext c s.heap)⟩
  · intro v hv
    rcases List.mem_append.1 hv with hv | hv
    · exact ha.known v hv
    · simp at hv
      subst hv
      exact hq _ (Nat.le_refl _) (by omega)
  · exact ha.cells.grow (alloc_ext c s.heap) (alloc_grow hc s.heap)

theorem mutate_apart {Q : Nat → Prop} {K : Nat → Prop} {s : State} (ha : Apart Q K s) {i l : Nat}
    (hi : s.known[i]? = some (.ref l)) {c c' : Cell} (hc : c.All Q) (hl : s.heap[l]? = some c')
    (hn : c' ≠ .inst) :
    Apart Q K { s with heap := s.heap.set l c } ∧ Left Q K s { s with heap := s.heap.set l c } := by
  have hq : Q l := ha.known _ (List.mem_of_getElem? hi)
  refine ⟨⟨ha.known, ha.slots, closed_set ha.cells l hc⟩, fun _ _ => rfl, ?_, by simp⟩
  intro m x hx hor
  have hne : l ≠ m := by
    rintro rfl
    rcases hor with h | h
    · exact h hq
    · rw [hl] at hx
      cases hx
      exact hn h
  simp only
  rw [List.getElem?_set_ne hne]
  exact hx

/-- One operation. -/
theorem exec_apart {Q : Nat → Prop} {K : Nat → Prop} (props : Nat → P) {s : State} (ha : Apart Q K s)
    (op : Op) (hu : ∀ k, K k → ¬ Uses k op)
    (hq : ∀ l, s.heap.length ≤ l → l < (exec props s op).heap.length → Q l) :
    Apart Q K (exec props s op) ∧ Left Q K s (exec props s op) := by
  have same : Apart Q K s ∧ Left Q K s s := ⟨ha, Left.of_heap (fun _ _ => rfl) (Ext.refl _)⟩
  cases op with
  | atom n =>
    refine ⟨⟨?_, ha.slots, ha.cells⟩, Left.of_heap (fun _ _ => rfl) (Ext.refl _)⟩
    intro v hv
    rcases List.mem_append.1 hv with hv | hv
    · exact ha.known v hv
    · simp at hv
      subst hv
      trivial
  | tup is =>
    refine ⟨⟨?_, ha.slots, ha.cells⟩, Left.of_heap (fun _ _ => rfl) (Ext.refl _)⟩
    intro v hv
    rcases List.mem_append.1 hv with hv | hv
    · exact ha.known v hv
    · simp at hv
      subst hv
      exact (allL_iff _ _).2 (pick_all ha.known is)
  | list is => exact give_apart ha (pick_all ha.known is) (by simpa [exec, State.give] using hq)
  | set is =>
    simp only [exec] at hq ⊢
    split
    · rename_i hh
      simp only [hh, if_true] at hq
      exact give_apart ha (dedup_all (pick_all ha.known is)) (by simpa [State.give] using hq)
    · exact same
  | dict kis =>
    simp only [exec] at hq ⊢
    split
    · rename_i hh
      simp only [hh, if_true] at hq
      exact give_apart ha (cellAll_dict.2 (pickKV_all ha.known kis).dictOf)
        (by simpa [State.give] using hq)
    · exact same
  | inst => exact give_apart ha (by intro x hx; cases hx) (by simpa [exec, State.give] using hq)
  | mutate i is =>
    simp only [exec]
    split
    · rename_i l hi
      split
      · rename_i xs hl
        exact mutate_apart ha hi (pick_all ha.known is) hl (by simp)
      · rename_i xs hl
        split
        · exact mutate_apart ha hi (dedup_all (pick_all ha.known is)) hl (by simp)
        · exact same
      · exact same
    · exact same
  | mutateDict i kis =>
    simp only [exec]
    split
    · rename_i l hi
      split
      · rename_i xs hl
        split
        · exact mutate_apart ha hi (cellAll_dict.2 (pickKV_all ha.known kis).dictOf) hl (by simp)
        · exact same
      · exact same
    · exact same
  | look i =>
    simp only [exec]
    split
    · rename_i v hi
      refine ⟨⟨?_, ha.slots, ha.cells⟩, Left.of_heap (fun _ _ => rfl) (Ext.refl _)⟩
      intro x hx
      rcases List.mem_append.1 hx with hx | hx
      · exact ha.known x hx
      · exact items_all ha.cells (ha.known v (List.mem_of_getElem? hi)) x hx
    · exact same
  | assign j i =>
    simp only [exec] at hq ⊢
    cases hi : s.known[i]? with
    | none => exact same
    | some v =>
      simp only [hi] at hq ⊢
      cases hv : validate (props j) v s.heap with
      | none => exact same
      | some r =>
        obtain ⟨v', h'⟩ := r
        simp only [hv] at hq ⊢
        obtain ⟨a, g⟩ := validate_sep (props j) hv (ha.known v (List.mem_of_getElem? hi)) ha.cells hq
        have hx := validate_ext (props j) hv
        refine ⟨⟨ha.known, ?_, ha.cells.grow hx g⟩, Left.of_heap ?_ hx⟩
        · intro m x hm hsm
          simp only at hsm
          split at hsm
          · simp at hsm
            subst hsm
            exact a
          · exact ha.slots m x hm hsm
        · intro k hk
          have hjk : ¬ k = j := fun e => hu k hk e.symm
          simp [hjk]
  | read j =>
    simp only [exec]
    split
    · rename_i v hv
      refine ⟨⟨?_, ha.slots, ha.cells⟩, Left.of_heap (fun _ _ => rfl) (Ext.refl _)⟩
      intro x hx
      rcases List.mem_append.1 hx with hx | hx
      · exact ha.known x hx
      · simp at hx
        subst hx
        exact ha.slots j x (fun hk => hu j hk rfl) hv
    · exact same
  | delete j =>
    refine ⟨⟨ha.known, ?_, ha.cells⟩, Left.of_heap (fun k hk => ?_) (Ext.refl _)⟩
    rotate_left
    · have hjk : ¬ k = j := fun e => hu k hk e.symm
      simp [exec, hjk]
    intro m x hm hsm
    simp only [exec] at hsm
    split at hsm
    · cases hsm
    · exact ha.slots m x hm hsm

/-- A history of operations. -/
theorem execAll_apart {Q : Nat → Prop} {K : Nat → Prop} (props : Nat → P) : ∀ (ops : List Op) {s : State},
    Apart Q K s → (∀ op ∈ ops, ∀ k, K k → ¬ Uses k op) → (∀ l, s.heap.length ≤ l → Q l) →
    Left Q K s (execAll props s ops) := by
  intro ops
  induction ops with
  | nil => intro s _ _ _; exact Left.of_heap (fun _ _ => rfl) (Ext.refl _)
  | cons op ops ih =>
    intro s ha hu hq
    obtain ⟨a1, l1⟩ := exec_apart props ha op (hu op (by simp)) (fun l hl _ => hq l hl)
    have l2 := ih a1 (fun o ho => hu o (List.mem_cons_of_mem _ ho))
      (fun l hl => hq l (by have := l1.len; omega))
    exact ⟨fun k hk => (l2.slot k hk).trans (l1.slot k hk), fun l c hc hor => l2.keep l c (l1.keep l c hc hor) hor,
      by have := l1.len; have := l2.len; simp only [execAll, List.foldl_cons] at *; omega⟩

/-- All references are to existing objects. -/
def Sound (s : State) : Prop := Apart (· < s.heap.length) (fun _ => False) s

theorem Closed.mono_len {m n : Nat} {h : Heap} (hmn : m ≤ n) (hl : h.length ≤ m)
    (hc : Closed (· < m) h) : Closed (· < n) h := by
  intro l c hlc _ x hx
  have := (List.getElem?_eq_some_iff.1 hlc).1
  exact (hc l c hlc (by omega) x hx).mono fun _ h => by omega

theorem exec_len (props : Nat → P) (s : State) (op : Op) :
    s.heap.length ≤ (exec props s op).heap.length := by
  have ha : Apart (fun _ => True) (fun _ => False) s :=
    ⟨fun v _ => shows_ext.all_true v, fun _ v _ _ => shows_ext.all_true v,
      fun _ _ _ _ x _ => shows_ext.all_true x⟩
  exact (exec_apart props ha op (fun _ h => h.elim) (fun _ _ _ => trivial)).2.len

theorem sound_exec (props : Nat → P) {s : State} (hs : Sound s) (op : Op) :
    Sound (exec props s op) := by
  have hl := exec_len props s op
  have ha : Apart (· < (exec props s op).heap.length) (fun _ => False) s :=
    ⟨fun v hv => (hs.known v hv).mono fun _ h => by omega,
      fun j v hj hv => (hs.slots j v hj hv).mono fun _ h => by omega,
      hs.cells.mono_len hl (Nat.le_refl _)⟩
  exact (exec_apart props ha op (fun _ h => h.elim) (fun _ _ h => h)).1

theorem sound_all (props : Nat → P) : ∀ (ops : List Op) {s : State}, Sound s →
    Sound (execAll props s ops) := by
  intro ops
  induction ops with
  | nil => intro s h; exact h
  | cons op ops ih => intro s h; exact ih (sound_exec props h op)

theorem sound_init : Sound State.init :=
  ⟨fun _ h => (by cases h), fun _ _ _ h => (by cases h), fun l c h => (by simp [State.init] at h)⟩

/-- C63, storing: the object assigned, and every other object there is, stays as
it was; what is stored refers to none of them but instances. -/
theorem C63_new {p : P} {v v' : PV} {h h' : Heap} (hv : validate p v h = some (v', h')) :
    (∀ (l : Nat) (c : Cell), h[l]? = some c → h'[l]? = some c) ∧
    (Declared p → v'.All (fun (l : Nat) => h.length ≤ l ∨ h[l]? = some .inst)) :=
  ⟨fun _ _ hc => (validate_ext p hv).get hc, fun hd => (validate_own p hd hv).1⟩

/-- C63: after any history, a value is assigned to a property whose item
properties are declared at every level.  Whatever client code does then without
using that property — changing in place what it assigned, what it was built of,
or anything else it can get hold of, assigning the same objects to other
properties, reading those — the property still holds the same value, with the
same content. -/
theorem C63_property (props : Nat → P) (before after : List Op) (k i : Nat) (v v' : PV) (h' : Heap)
    (hd : Declared (props k))
    (hi : (execAll props State.init before).known[i]? = some v)
    (hv : validate (props k) v (execAll props State.init before).heap = some (v', h'))
    (hu : ∀ op ∈ after, ¬ Uses k op) :
    ∃ s1 s2 t, s1 = execAll props State.init (before ++ [.assign k i]) ∧
      s2 = execAll props State.init (before ++ [.assign k i] ++ after) ∧
      s1.slots k = some v' ∧ Shows s1.heap v' t ∧
      s2.slots k = some v' ∧ (∀ t', Shows s2.heap v' t' ↔ t' = t) := by
  generalize hs : execAll props State.init before = s at hi hv
  have hsound : Sound s := hs ▸ sound_all props before sound_init
  have e1 : execAll props State.init (before ++ [.assign k i]) = exec props s (.assign k i) := by
    simp only [execAll, List.foldl_append] at hs ⊢
    rw [hs]
    rfl
  have e2 : execAll props State.init (before ++ [.assign k i] ++ after) =
      execAll props (exec props s (.assign k i)) after := by
    rw [← e1]
    simp only [execAll, List.foldl_append]
  obtain ⟨t, ht⟩ := validate_shows (props k) hd hv
  obtain ⟨hown, hgrow⟩ := validate_own (props k) hd hv
  have hx := validate_ext (props k) hv
  have es : exec props s (.assign k i) =
      { s with heap := h', slots := fun j => if j = k then some v' else s.slots j } := by
    simp only [exec, hi, hv]
  -- what the client may come across: everything but the objects made by the assignment
  let Q : Nat → Prop := fun l => ¬ (s.heap.length ≤ l ∧ l < h'.length)
  have hlt : ∀ l, l < s.heap.length → Q l := fun l hl h => by omega
  have ha : Apart Q (· = k) (exec props s (.assign k i)) := by
    rw [es]
    refine ⟨fun x hx => (hsound.known x hx).mono hlt, ?_, ?_⟩
    · intro j x hj hjx
      simp only [hj, if_false] at hjx
      exact (hsound.slots j x (fun h => h) hjx).mono hlt
    · intro l c hl hq
      rcases hx.back hl with h1 | h1
      · have := (List.getElem?_eq_some_iff.1 h1).1
        exact fun x hx => (hsound.cells l c h1 this x hx).mono hlt
      · have := (List.getElem?_eq_some_iff.1 hl).1
        exact absurd ⟨h1, this⟩ hq
  have hleft := execAll_apart props after ha (fun op ho j hj => hj ▸ hu op ho)
    (fun l hl h => by rw [es] at hl; simp only at hl; omega)
  rw [es] at hleft
  have hslot : (execAll props { s with heap := h', slots := fun j => if j = k then some v' else s.slots j }
      after).slots k = some v' := by
    rw [hleft.slot k rfl]
    simp
  have hcl : Closed (Own s.heap) h' := by
    intro l c hl ho
    rcases hx.back hl with h1 | h1
    · rcases ho with ho | ho
      · have := (List.getElem?_eq_some_iff.1 h1).1
        omega
      · rw [ho] at h1
        cases h1
        intro x hx
        cases hx
    · exact hgrow l c hl h1
  have hshow := shows_agree (h2 := (execAll props
      { s with heap := h', slots := fun j => if j = k then some v' else s.slots j } after).heap) hcl (fun l c hl ho => hleft.keep l c hl (by
    rcases hx.back hl with h1 | h1
    · rcases ho with ho | ho
      · have := (List.getElem?_eq_some_iff.1 h1).1
        omega
      · rw [ho] at h1
        cases h1
        exact Or.inr rfl
    · have := (List.getElem?_eq_some_iff.1 hl).1
      exact Or.inl (fun h => h ⟨h1, this⟩))) ht hown
  refine ⟨_, _, t, e1.symm, e2.symm, ?_, ?_, ?_, ?_⟩
  · rw [es]; simp
  · rw [es]; exact ht
  · rw [es]; exact hslot
  · rw [es]
    intro t'
    exact ⟨fun h => shows_det h hshow, fun h => h ▸ hshow⟩

/-! ### Containers as values -/

mutual
theorem shows_hashable {h : Heap} : ∀ {v : PV} {t : Tree}, Shows h v t → hashable h v = t.hashable
  | _, _, .atom _ => by simp [hashable, Tree.hashable]
  | _, _, .tup hs => by simp only [hashable, Tree.hashable]; exact showsL_hashable hs
  | _, _, .list hl _ => by simp [hashable, Tree.hashable, hl]
  | _, _, .set hl _ => by simp [hashable, Tree.hashable, hl]
  | _, _, .dict hl _ => by simp [hashable, Tree.hashable, hl]
  | _, _, .inst hl => by simp [hashable, Tree.hashable, hl]
theorem showsL_hashable {h : Heap} : ∀ {xs : List PV} {ts : List Tree}, ShowsL h xs ts →
    hashableL h xs = Tree.hashableL ts
  | _, _, .nil => rfl
  | _, _, .cons a b => by simp only [hashableL, Tree.hashableL, shows_hashable a, showsL_hashable b]
end

mutual
theorem shows_beq {h : Heap} : ∀ {v w : PV} {t u : Tree}, Shows h v t → Shows h w u →
    t.hashable = true → u.hashable = true → PV.beq v w = Tree.beq t u
  | _, _, _, _, .atom _, .atom _, _, _ => by simp [PV.beq, Tree.beq]
  | _, _, _, _, .atom _, .tup _, _, _ => by simp [PV.beq, Tree.beq]
  | _, _, _, _, .atom _, .inst _, _, _ => by simp [PV.beq, Tree.beq]
  | _, _, _, _, .tup _, .atom _, _, _ => by simp [PV.beq, Tree.beq]
  | _, _, _, _, .tup a, .tup b, ha, hb => by
      simp only [PV.beq, Tree.beq]
      simp only [Tree.hashable] at ha hb
      exact showsL_beq a b ha hb
  | _, _, _, _, .tup _, .inst _, _, _ => by simp [PV.beq, Tree.beq]
  | _, _, _, _, .inst _, .atom _, _, _ => by simp [PV.beq, Tree.beq]
  | _, _, _, _, .inst _, .tup _, _, _ => by simp [PV.beq, Tree.beq]
  | _, _, _, _, .inst _, .inst _, _, _ => by simp [PV.beq, Tree.beq]
  | _, _, _, _, .list _ _, _, ha, _ => by simp [Tree.hashable] at ha
  | _, _, _, _, .set _ _, _, ha, _ => by simp [Tree.hashable] at ha
  | _, _, _, _, .dict _ _, _, ha, _ => by simp [Tree.hashable] at ha
  | _, _, _, _, _, .list _ _, _, ha => by simp [Tree.hashable] at ha
  | _, _, _, _, _, .set _ _, _, ha => by simp [Tree.hashable] at ha
  | _, _, _, _, _, .dict _ _, _, ha => by simp [Tree.hashable] at ha
theorem showsL_beq {h : Heap} : ∀ {xs ys : List PV} {ts us : List Tree}, ShowsL h xs ts →
    ShowsL h ys us → Tree.hashableL ts = true → Tree.hashableL us = true →
    PV.beqL xs ys = Tree.beqL ts us
  | _, _, _, _, .nil, .nil, _, _ => by simp [PV.beqL, Tree.beqL]
  | _, _, _, _, .nil, .cons _ _, _, _ => by simp [PV.beqL, Tree.beqL]
  | _, _, _, _, .cons _ _, .nil, _, _ => by simp [PV.beqL, Tree.beqL]
  | _, _, _, _, .cons a b, .cons c d, ha, hb => by
      simp only [Tree.hashableL, Bool.and_eq_true] at ha hb
      simp only [PV.beqL, Tree.beqL, shows_beq a c ha.1 hb.1, showsL_beq b d ha.2 hb.2]
end

theorem showsL_append {h : Heap} : ∀ {xs ys : List PV} {ts us : List Tree}, ShowsL h xs ts →
    ShowsL h ys us → ShowsL h (xs ++ ys) (ts ++ us)
  | _, _, _, _, .nil, b => b
  | _, _, _, _, .cons a b, c => .cons a (showsL_append b c)

theorem hashableL_append : ∀ (ts us : List Tree), Tree.hashableL (ts ++ us) =
    (Tree.hashableL ts && Tree.hashableL us) := by
  intro ts us
  induction ts with
  | nil => simp [Tree.hashableL]
  | cons t ts ih => simp [Tree.hashableL, ih, Bool.and_assoc]

theorem showsL_any {h : Heap} {v : PV} {t : Tree} (hv : Shows h v t) (ht : t.hashable = true) :
    ∀ {xs : List PV} {ts : List Tree}, ShowsL h xs ts → Tree.hashableL ts = true →
      xs.any (PV.beq v) = ts.any (Tree.beq t)
  | _, _, .nil, _ => rfl
  | _, _, .cons a b, hb => by
      simp only [Tree.hashableL, Bool.and_eq_true] at hb
      simp only [List.any_cons, shows_beq hv a ht hb.1, showsL_any hv ht b hb.2]

theorem showsL_dedup {h : Heap} : ∀ {xs acc : List PV} {ts us : List Tree}, ShowsL h xs ts →
    ShowsL h acc us → Tree.hashableL ts = true → Tree.hashableL us = true →
    ShowsL h (dedup acc xs) (uniq us ts)
  | _, _, _, _, .nil, a, _, _ => a
  | _, _, _, _, .cons a b, c, ht, hu => by
      simp only [Tree.hashableL, Bool.and_eq_true] at ht
      simp only [dedup, uniq, showsL_any a ht.1 c hu]
      split
      · exact showsL_dedup b c ht.2 hu
      · exact showsL_dedup b (showsL_append c (.cons a .nil)) ht.2
          (by simp [hashableL_append, hu, Tree.hashableL, ht.1])

/-- All keys are hashable. -/
def KeysOk (kts : List (Tree × Tree)) : Prop := ∀ kt ∈ kts, kt.1.hashable = true

theorem showsKV_set {h : Heap} {k v : PV} {s t : Tree} (hk : Shows h k s) (hv : Shows h v t)
    (hs : s.hashable = true) : ∀ {d : List (PV × PV)} {e : List (Tree × Tree)}, ShowsKV h d e →
      KeysOk e → ShowsKV h (dictSet d k v) (entry e s t) ∧ KeysOk (entry e s t)
  | _, _, .nil, _ => ⟨.cons hk hv .nil, by intro kt hkt; simp [entry] at hkt; rw [hkt]; exact hs⟩
  | _, _, .cons a b c, ho => by
      have h0 := ho _ (List.mem_cons_self ..)
      have ho' : KeysOk _ := fun kt hkt => ho kt (List.mem_cons_of_mem _ hkt)
      obtain ⟨i1, i2⟩ := showsKV_set hk hv hs c ho'
      simp only [dictSet, entry, shows_beq hk a hs h0]
      split
      · exact ⟨.cons a hv c, fun kt hkt => by
          rcases List.mem_cons.1 hkt with rfl | hkt
          · exact h0
          · exact ho' kt hkt⟩
      · exact ⟨.cons a b i1, fun kt hkt => by
          rcases List.mem_cons.1 hkt with rfl | hkt
          · exact h0
          · exact i2 kt hkt⟩

theorem showsKV_fold {h : Heap} : ∀ {ps : List (PV × PV)} {us : List (Tree × Tree)},
    ShowsKV h ps us → KeysOk us → ∀ {d : List (PV × PV)} {e : List (Tree × Tree)}, ShowsKV h d e →
      KeysOk e → ShowsKV h (ps.foldl (fun d kv => dictSet d kv.1 kv.2) d)
        (us.foldl (fun d kv => entry d kv.1 kv.2) e)
  | _, _, .nil, _, _, _, a, _ => a
  | _, _, .cons a b c, ho, _, _, d, he => by
      obtain ⟨i1, i2⟩ := showsKV_set a b (ho _ (List.mem_cons_self ..)) d he
      exact showsKV_fold c (fun kt hkt => ho kt (List.mem_cons_of_mem _ hkt)) i1 i2

theorem showsKV_dictOf {h : Heap} {ps : List (PV × PV)} {us : List (Tree × Tree)}
    (hp : ShowsKV h ps us) (ho : KeysOk us) : ShowsKV h (dictOf ps) (entries us) :=
  showsKV_fold hp ho .nil (fun _ h => by cases h)

/-- The two computations both fail, or both give results related by `R`. -/
def Match {α β : Type} (R : α → β → Prop) : Option α → Option β → Prop
  | some a, some b => R a b
  | none, none => True
  | _, _ => False

theorem shows_container {h : Heap} {v : PV} {t : Tree} (hs : Shows h v t) :
    Match (fun a b => a.1 = b.1 ∧ ShowsL h a.2 b.2) (container h v) (parts t) := by
  cases hs with
  | atom n => simp [container, parts, Match]
  | tup hs => exact ⟨rfl, hs⟩
  | list hl hs => simp only [container, hl, parts]; exact ⟨rfl, hs⟩
  | set hl hs => simp only [container, hl, parts]; exact ⟨rfl, hs⟩
  | dict hl hs => simp [container, hl, parts, Match]
  | inst hl => simp [container, hl, parts, Match]

theorem shows_openSeq {h : Heap} {v : PV} {t : Tree} (hs : Shows h v t) (k : SK) (co : Bool) :
    Match (ShowsL h) (openSeq h k co v) (seqItems k co t) := by
  have hc := shows_container hs
  unfold openSeq seqItems
  cases h1 : container h v with
  | none =>
    cases h2 : parts t with
    | some r => simp [h1, h2, Match] at hc
    | none =>
      simp only
      split
      · exact .cons hs .nil
      · trivial
  | some r =>
    obtain ⟨k1, xs⟩ := r
    cases h2 : parts t with
    | none => simp [h1, h2, Match] at hc
    | some r' =>
      obtain ⟨k2, ts⟩ := r'
      simp only [h1, h2, Match] at hc
      obtain ⟨e, hc⟩ := hc
      subst e
      simp only
      split
      · exact hc
      · trivial

theorem shows_pairOf {h : Heap} {v : PV} {t : Tree} (hs : Shows h v t) :
    Match (fun a b => Shows h a.1 b.1 ∧ Shows h a.2 b.2 ∧ b.1.hashable = true)
      (pairOf h v) (asPair t) := by
  have hc := shows_container hs
  unfold pairOf asPair
  cases h1 : container h v with
  | none =>
    cases h2 : parts t with
    | some r => simp [h1, h2, Match] at hc
    | none => trivial
  | some r =>
    obtain ⟨k1, xs⟩ := r
    cases h2 : parts t with
    | none => simp [h1, h2, Match] at hc
    | some r' =>
      obtain ⟨k2, ts⟩ := r'
      simp only [h1, h2, Match] at hc
      obtain ⟨_, hc⟩ := hc
      cases hc with
      | nil => trivial
      | cons a hc =>
        cases hc with
        | nil => trivial
        | cons b hc =>
          cases hc with
          | nil =>
            simp only [shows_hashable a]
            split
            · rename_i hh; exact ⟨a, b, hh⟩
            · trivial
          | cons c hc => trivial

theorem shows_pairsOf {h : Heap} : ∀ {xs : List PV} {ts : List Tree}, ShowsL h xs ts →
    Match (fun a b => ShowsKV h a b ∧ KeysOk b) (pairsOf h xs) (asPairs ts)
  | _, _, .nil => ⟨.nil, fun _ h => by cases h⟩
  | _, _, .cons (x := x) (xs := xs) (t := t) (ts := ts) a b => by
      have h1 := shows_pairOf a
      have h2 := shows_pairsOf b
      simp only [pairsOf, asPairs]
      cases e1 : pairOf h x with
      | none =>
        cases e2 : asPair t with
        | none => trivial
        | some r => simp [e1, e2, Match] at h1
      | some r =>
        cases e2 : asPair t with
        | none => simp [e1, e2, Match] at h1
        | some r' =>
          simp only [e1, e2, Match] at h1
          cases e3 : pairsOf h xs with
          | none =>
            cases e4 : asPairs ts with
            | none => trivial
            | some q => simp [e3, e4, Match] at h2
          | some q =>
            cases e4 : asPairs ts with
            | none => simp [e3, e4, Match] at h2
            | some q' =>
              simp only [e3, e4, Match] at h2
              refine ⟨.cons h1.1 h1.2.1 h2.1, ?_⟩
              intro kt hkt
              rcases List.mem_cons.1 hkt with rfl | hkt
              · exact h1.2.2
              · exact h2.2 kt hkt

theorem shows_coerced {h : Heap} {xs : List PV} {ts : List Tree} (hs : ShowsL h xs ts) (co : Bool) :
    Match (ShowsKV h) (if co then (pairsOf h xs).map dictOf else none)
      (if co then (asPairs ts).map entries else none) := by
  split
  · have h1 := shows_pairsOf hs
    cases e1 : pairsOf h xs with
    | none =>
      cases e2 : asPairs ts with
      | none => trivial
      | some r => simp [e1, e2, Match] at h1
    | some r =>
      cases e2 : asPairs ts with
      | none => simp [e1, e2, Match] at h1
      | some r' =>
        simp only [e1, e2, Match] at h1
        exact showsKV_dictOf h1.1 h1.2
  · trivial

theorem shows_openDict {h : Heap} {v : PV} {t : Tree} (hs : Shows h v t) (co : Bool) :
    Match (ShowsKV h) (openDict h co v) (dictItems co t) := by
  cases hs with
  | atom n => trivial
  | tup hs => exact shows_coerced hs co
  | list hl hs => simp only [openDict, hl, dictItems]; exact shows_coerced hs co
  | set hl hs => simp only [openDict, hl, dictItems]; exact shows_coerced hs co
  | dict hl hs => simp only [openDict, hl, dictItems]; exact hs
  | inst hl => simp [openDict, hl, dictItems, Match]

/-- What is to be shown of each property. -/
def Refines (p : P) : Prop := ∀ (h : Heap) (v : PV) (t : Tree), Shows h v t →
  Match (fun a b => Shows a.2 a.1 b) (validate p v h) (check p t)

theorem showsL_ext {h h' : Heap} (he : Ext h h') : ∀ {xs : List PV} {ts : List Tree},
    ShowsL h xs ts → ShowsL h' xs ts
  | _, _, .nil => .nil
  | _, _, .cons a b => .cons (shows_ext he a) (showsL_ext he b)

theorem showsKV_ext {h h' : Heap} (he : Ext h h') : ∀ {xs : List (PV × PV)} {ts : List (Tree × Tree)},
    ShowsKV h xs ts → ShowsKV h' xs ts
  | _, _, .nil => .nil
  | _, _, .cons a b c => .cons (shows_ext he a) (shows_ext he b) (showsKV_ext he c)

theorem refines_mapV {p : P} (hp : Refines p) : ∀ {xs : List PV} {ts : List Tree} {h : Heap},
    ShowsL h xs ts →
    Match (fun a b => ShowsL a.2 a.1 b) (mapV (validate p) xs h) (checkL (check p) ts) := by
  intro xs
  induction xs with
  | nil => intro ts h hs; cases hs; exact .nil
  | cons x xs ih =>
    intro ts h hs
    cases hs with
    | @cons _ _ t ts a b =>
      have h1 := hp _ _ _ a
      simp only [mapV, checkL]
      cases e1 : validate p x h with
      | none =>
        cases e2 : check p t with
        | none => trivial
        | some r => simp [e1, e2, Match] at h1
      | some r =>
        obtain ⟨y, g⟩ := r
        cases e2 : check p t with
        | none => simp [e1, e2, Match] at h1
        | some u =>
          simp only [e1, e2, Match] at h1
          have h2 := ih (showsL_ext (validate_ext p e1) b)
          simp only
          cases e3 : mapV (validate p) xs g with
          | none =>
            cases e4 : checkL (check p) ts with
            | none => trivial
            | some q => simp [e3, e4, Match] at h2
          | some q =>
            obtain ⟨ys, g'⟩ := q
            cases e4 : checkL (check p) ts with
            | none => simp [e3, e4, Match] at h2
            | some us =>
              simp only [e3, e4, Match] at h2
              exact .cons (shows_ext (mapV_ext (fun _ _ _ _ => validate_ext p) e3) h1) h2

theorem refines_mapKV {p q : P} (hp : Refines p) (hq : Refines q) :
    ∀ {xs : List (PV × PV)} {ts : List (Tree × Tree)} {h : Heap}, ShowsKV h xs ts →
    Match (fun a b => ShowsKV a.2 a.1 b ∧ KeysOk b) (mapKV (validate p) (validate q) xs h)
      (checkKV (check p) (check q) ts) := by
  intro xs
  induction xs with
  | nil => intro ts h hs; cases hs; exact ⟨.nil, fun _ h => by cases h⟩
  | cons x xs ih =>
    intro ts h hs
    cases hs with
    | @cons k v _ s t ts a b c =>
      have h1 := hp _ _ _ a
      simp only [mapKV, checkKV]
      cases e1 : validate p k h with
      | none =>
        cases e2 : check p s with
        | none => trivial
        | some r => simp [e1, e2, Match] at h1
      | some r =>
        obtain ⟨y, g⟩ := r
        cases e2 : check p s with
        | none => simp [e1, e2, Match] at h1
        | some u =>
          simp only [e1, e2, Match] at h1
          have x1 := validate_ext p e1
          have h2 := hq _ _ _ (shows_ext x1 b)
          simp only
          cases e3 : validate q v g with
          | none =>
            cases e4 : check q t with
            | none => trivial
            | some r => simp [e3, e4, Match] at h2
          | some r =>
            obtain ⟨z, g2⟩ := r
            cases e4 : check q t with
            | none => simp [e3, e4, Match] at h2
            | some u2 =>
              simp only [e3, e4, Match] at h2
              have x2 := validate_ext q e3
              simp only [shows_hashable (shows_ext x2 h1)]
              split
              · rename_i hh
                have h3 := ih (showsKV_ext (x1.trans x2) c)
                cases e5 : mapKV (validate p) (validate q) xs g2 with
                | none =>
                  cases e6 : checkKV (check p) (check q) ts with
                  | none => trivial
                  | some r => simp [e5, e6, Match] at h3
                | some r =>
                  obtain ⟨out, g3⟩ := r
                  cases e6 : checkKV (check p) (check q) ts with
                  | none => simp [e5, e6, Match] at h3
                  | some us =>
                    simp only [e5, e6, Match] at h3
                    have x3 := mapKV_ext (fun _ _ _ _ => validate_ext p)
                      (fun _ _ _ _ => validate_ext q) e5
                    refine ⟨.cons (shows_ext (x2.trans x3) h1) (shows_ext x3 h2) h3.1, ?_⟩
                    intro kt hkt
                    rcases List.mem_cons.1 hkt with rfl | hkt
                    · exact hh
                    · exact h3.2 kt hkt
              · trivial

theorem refines_build {k : SK} {obs : Bool} {ys : List PV} {us : List Tree} {h : Heap}
    (hs : ShowsL h ys us) : Match (fun a b => Shows a.2 a.1 b) (build k obs ys h) (make k us) := by
  cases k with
  | tuple => exact .tup hs
  | list =>
    obtain ⟨l, e, hl⟩ := allocObs_get (v := (allocObs obs (.list ys) h).1)
        (h' := (allocObs obs (.list ys) h).2) obs (.list ys) h rfl
    show Shows (allocObs obs (.list ys) h).2 (allocObs obs (.list ys) h).1 _
    rw [e]
    exact .list hl (showsL_ext (allocObs_ext ..) hs)
  | set =>
    simp only [build, make, showsL_hashable hs]
    split
    · rename_i hh
      obtain ⟨l, e, hl⟩ := allocObs_get (v := (allocObs obs (.set (dedup [] ys)) h).1)
        (h' := (allocObs obs (.set (dedup [] ys)) h).2) obs (.set (dedup [] ys)) h rfl
      show Shows (allocObs obs (.set (dedup [] ys)) h).2 (allocObs obs (.set (dedup [] ys)) h).1 _
      rw [e]
      exact .set hl (showsL_ext (allocObs_ext ..) (showsL_dedup hs .nil hh rfl))
    · trivial

/-- C63, values: on a value with a content, validation succeeds exactly if the
content is accepted, and stores a value whose content is the one validation of
contents gives.  So properties may be understood with containers as values. -/
theorem C63_contents : ∀ (p : P) (h : Heap) (v : PV) (t : Tree), Shows h v t →
    Match (fun a b => Shows a.2 a.1 b) (validate p v h) (check p t)
  | .any, _, _, _, hs => hs
  | .scalar f, h, v, t, hs => by
      cases hs with
      | atom n =>
        simp only [validate, check]
        cases f n with
        | none => trivial
        | some m => exact .atom m
      | tup _ => trivial
      | list _ _ => trivial
      | set _ _ => trivial
      | dict _ _ => trivial
      | inst _ => trivial
  | .inst, h, v, t, hs => by
      cases hs with
      | atom n => trivial
      | tup _ => trivial
      | list hl _ => simp [validate, check, hl, Match]
      | set hl _ => simp [validate, check, hl, Match]
      | dict hl _ => simp [validate, check, hl, Match]
      | inst hl =>
        simp only [validate, check, hl]
        exact .inst hl
  | .seq k item co obs, h, v, t, hs => by
      have h1 := shows_openSeq hs k co
      simp only [validate, check]
      cases e1 : openSeq h k co v with
      | none =>
        cases e2 : seqItems k co t with
        | none => trivial
        | some r => simp [e1, e2, Match] at h1
      | some xs =>
        cases e2 : seqItems k co t with
        | none => simp [e1, e2, Match] at h1
        | some ts =>
          simp only [e1, e2, Match] at h1
          have h2 := refines_mapV (C63_contents item) h1
          simp only
          cases e3 : mapV (validate item) xs h with
          | none =>
            cases e4 : checkL (check item) ts with
            | none => trivial
            | some r => simp [e3, e4, Match] at h2
          | some r =>
            obtain ⟨ys, g⟩ := r
            cases e4 : checkL (check item) ts with
            | none => simp [e3, e4, Match] at h2
            | some us =>
              simp only [e3, e4, Match] at h2
              exact refines_build h2
  | .dict kp vp co obs, h, v, t, hs => by
      have h1 := shows_openDict hs co
      simp only [validate, check]
      cases e1 : openDict h co v with
      | none =>
        cases e2 : dictItems co t with
        | none => trivial
        | some r => simp [e1, e2, Match] at h1
      | some xs =>
        cases e2 : dictItems co t with
        | none => simp [e1, e2, Match] at h1
        | some ts =>
          simp only [e1, e2, Match] at h1
          have h2 := refines_mapKV (C63_contents kp) (C63_contents vp) h1
          simp only
          cases e3 : mapKV (validate kp) (validate vp) xs h with
          | none =>
            cases e4 : checkKV (check kp) (check vp) ts with
            | none => trivial
            | some r => simp [e3, e4, Match] at h2
          | some r =>
            obtain ⟨ys, g⟩ := r
            cases e4 : checkKV (check kp) (check vp) ts with
            | none => simp [e3, e4, Match] at h2
            | some us =>
              simp only [e3, e4, Match] at h2
              obtain ⟨l, e, hl⟩ := allocObs_get (v := (allocObs obs (.dict (dictOf ys)) g).1)
                (h' := (allocObs obs (.dict (dictOf ys)) g).2) obs (.dict (dictOf ys)) g rfl
              show Shows (allocObs obs (.dict (dictOf ys)) g).2
                (allocObs obs (.dict (dictOf ys)) g).1 _
              rw [e]
              exact .dict hl (showsKV_ext (allocObs_ext ..) (showsKV_dictOf h2.1 h2.2))

/-! ### Example -/

/-- A list of lists of numbers, and a list of anything. -/
def demoProps : Nat → P
  | 0 => .seq .list (.seq .list (.scalar some) false false) false true
  | _ => .seq .list .any false false

/-- `inner = [7]; outer = [inner]; a.x = outer; b.x = outer` for a slot of each
declaration, then `inner.append(8)` and `outer.clear()`. -/
def demoBefore : List Op := [.atom 7, .list [0], .list [1]]
def demoAfter : List Op := [.assign 1 2, .atom 8, .mutate 1 [0, 3], .mutate 2 []]

/-- The assignment to the declared property is unaffected. -/
theorem C63_example :
    ∃ t, Shows (execAll demoProps State.init (demoBefore ++ [.assign 0 2] ++ demoAfter)).heap
      (.ref 4) t ∧ t = .list [.list [.atom 7]] ∧
    (execAll demoProps State.init (demoBefore ++ [.assign 0 2] ++ demoAfter)).slots 0 =
      some (.ref 4) := by
  refine ⟨_, ?_, rfl, rfl⟩
  exact .list (xs := [.ref 2]) rfl (.cons (.list (xs := [.atom 7]) rfl (.cons (.atom 7) .nil)) .nil)

/-- Items of undeclared type are kept as they are given: the list stored in the
other slot is new, the list inside it is the client's, and now holds 8. -/
theorem C63_undeclared_shared :
    ¬ Declared (demoProps 1) ∧
    (execAll demoProps State.init (demoBefore ++ [.assign 0 2] ++ demoAfter)).slots 1 =
      some (.ref 5) ∧
    Shows (execAll demoProps State.init (demoBefore ++ [.assign 0 2] ++ demoAfter)).heap
      (.ref 5) (.list [.list [.atom 7, .atom 8]]) :=
  ⟨fun h => h, rfl, .list (xs := [.ref 0]) rfl
    (.cons (.list (xs := [.atom 7, .atom 8]) rfl (.cons (.atom 7) (.cons (.atom 8) .nil))) .nil)⟩

end Verif.Alias
