import Verif.Spec.Arrays

/-!
# C53, C54: arrays and vectors
-/

namespace Verif.Arr
open Spec

/-! ## Shape and kind -/

theorem dimsOk_iff : ∀ (s : List Dim) (ns : List Nat), s.length = ns.length →
    (dimsOk s ns = true ↔ List.Forall₂ Fits s ns)
  | [], [], _ => by simp [dimsOk]
  | [], _ :: _, h => by simp at h
  | _ :: _, [], h => by simp at h
  | d :: ds, n :: ns, h => by
    have ih := dimsOk_iff ds ns (by simpa using h)
    rw [List.forall₂_cons]
    cases d with
    | any => simp only [dimsOk]; rw [ih]; exact ⟨fun h => ⟨.any n, h⟩, fun h => h.2⟩
    | exactly m =>
      simp only [dimsOk]
      by_cases hm : m = (n : Int)
      · subst hm
        rw [if_pos rfl, ih]
        exact ⟨fun h => ⟨.exactly n, h⟩, fun h => h.2⟩
      · rw [if_neg hm]
        constructor
        · intro h; cases h
        · rintro ⟨h, _⟩
          cases h
          exact absurd rfl hm

theorem someShape_iff (a : NArr) : ∀ shapes : List (List Dim), someShape shapes a = true ↔ HasShape shapes a
  | [] => by simp [someShape, HasShape]
  | s :: rest => by
    have ih := someShape_iff a rest
    unfold HasShape at ih ⊢
    simp only [someShape, List.mem_cons, exists_eq_or_imp]
    by_cases hl : s.length = a.shape.length
    · rw [if_neg (by simpa using hl)]
      have hd := dimsOk_iff s a.shape hl
      by_cases hk : dimsOk s a.shape = true
      · rw [if_pos hk]
        exact ⟨fun _ => .inl (hd.1 hk), fun _ => rfl⟩
      · rw [if_neg hk, ih]
        exact ⟨.inr, fun h => h.resolve_left fun h' => hk (hd.2 h')⟩
    · rw [if_pos hl, ih]
      exact ⟨.inr, fun h => h.resolve_left fun h' => hl h'.length_eq⟩

theorem kinds_iff (d : List DType) (k : Kind) : (d.flatMap kindsOf).contains k = true ↔ ∃ t ∈ d, KindFor t k := by
  have h1 : ∀ t, k ∈ kindsOf t ↔ KindFor t k := by
    intro t
    constructor
    · cases t <;> simp only [kindsOf, List.mem_cons, List.not_mem_nil, or_false] <;> intro h
      · rcases h with rfl | rfl
        exacts [.unsigned, .signed]
      · subst h; exact .float
      · subst h; exact .bool
      · subst h; exact .complex
    · intro h; cases h <;> simp [kindsOf]
  simp only [List.contains_iff_mem, List.mem_flatMap, h1]

theorem checkArray_iff (E : AEnv) (p : AProp) (a b : NArr) : checkArray E p a = .ok b ↔
    b = a ∧ E.sub a.cls p.cls = true ∧ (∃ t ∈ p.dtype, KindFor t a.kind) ∧
      (p.shape = none ∨ ∃ s, p.shape = some s ∧ HasShape s a) := by
  unfold checkArray
  rw [← kinds_iff]
  generalize (p.dtype.flatMap kindsOf).contains a.kind = K
  by_cases h1 : E.sub a.cls p.cls = true
  · rw [if_pos h1]
    cases K with
    | true =>
      simp only [if_true]
      cases hs : p.shape with
      | none => simp [h1, eq_comm]
      | some s =>
        simp only
        by_cases h3 : someShape s a = true
        · rw [if_pos h3]
          have := (someShape_iff a s).1 h3
          simp [h1, eq_comm, this]
        · rw [if_neg h3]
          have : ¬ HasShape s a := fun h => h3 ((someShape_iff a s).2 h)
          simp [this]
    | false => simp
  · rw [if_neg h1]
    simp [h1]

/-- C53: a value is accepted exactly if the array made of it is of the class of
the property, its kind is one of the declared kinds, and one of the declared
shapes, if there are any, matches its shape dimension by dimension; the result is
that array. -/
theorem C53_accepts (E : AEnv) (p : AProp) (v : Input) (a : NArr) : validateArray E p v = .ok a ↔
    Made E p v a ∧ E.sub a.cls p.cls = true ∧ (∃ t ∈ p.dtype, KindFor t a.kind) ∧
      (p.shape = none ∨ ∃ s, p.shape = some s ∧ HasShape s a) := by
  have wrapped : ∀ v, (∀ b, Made E p v b ↔ E.wrap p.cls v = .ok b) →
      ((match E.wrap p.cls v with
        | .error e => .error e
        | .ok a => checkArray E p a) = Except.ok a ↔ Made E p v a ∧ E.sub a.cls p.cls = true ∧
          (∃ t ∈ p.dtype, KindFor t a.kind) ∧ (p.shape = none ∨ ∃ s, p.shape = some s ∧ HasShape s a)) := by
    intro v hv
    rw [hv]
    cases hw : E.wrap p.cls v with
    | error e => simp
    | ok b =>
      simp only [Except.ok.injEq]
      rw [checkArray_iff]
      constructor
      · rintro ⟨rfl, h⟩; exact ⟨rfl, h⟩
      · rintro ⟨rfl, h⟩; exact ⟨rfl, h⟩
  cases hc : p.coerce with
  | true =>
    cases v with
    | list l =>
      simp only [validateArray, hc, if_true]
      exact wrapped _ fun b => ⟨fun h => by cases h; assumption, fun h => .list hc h⟩
    | tuple l =>
      simp only [validateArray, hc, if_true]
      exact wrapped _ fun b => ⟨fun h => by cases h; assumption, fun h => .tuple hc h⟩
    | array x =>
      simp only [validateArray, hc, if_true]
      refine wrapped _ fun b => ⟨fun h => ?_, fun h => .array hc h⟩
      cases h with
      | array _ h => exact h
      | same h => rw [hc] at h; cases h
    | text s => exact ⟨fun h => (by cases h), fun h => (by cases h.1)⟩
    | other => exact ⟨fun h => (by cases h), fun h => (by cases h.1)⟩
  | false =>
    cases v with
    | list l =>
      simp only [validateArray, hc, Bool.false_eq_true, if_false]
      exact ⟨fun h => (by cases h), fun h => by cases h.1; rename_i h _; rw [hc] at h; cases h⟩
    | tuple l =>
      simp only [validateArray, hc, Bool.false_eq_true, if_false]
      exact ⟨fun h => (by cases h), fun h => by cases h.1; rename_i h _; rw [hc] at h; cases h⟩
    | array x =>
      simp only [validateArray, hc, Bool.false_eq_true, if_false]
      rw [checkArray_iff]
      constructor
      · rintro ⟨rfl, h⟩; exact ⟨.same hc, h⟩
      · rintro ⟨h1, h⟩
        cases h1 with
        | array h' _ => rw [hc] at h'; cases h'
        | same _ => exact ⟨rfl, h⟩
    | text s => exact ⟨fun h => (by cases h), fun h => (by cases h.1)⟩
    | other => exact ⟨fun h => (by cases h), fun h => (by cases h.1)⟩

/-- C53: everything else raises the property's error, except that an error of the
constructor comes through. -/
theorem C53_rejects (E : AEnv) (p : AProp) (v : Input) (e : AErr) (h : validateArray E p v = .error e) :
    e = .validation ∨ E.wrap p.cls v = .error e := by
  have chk : ∀ a, checkArray E p a = .error e → e = .validation := by
    intro a h
    unfold checkArray at h
    split at h
    · split at h
      · split at h
        · cases h
        · split at h
          · cases h
          · cases h; rfl
      · cases h; rfl
    · cases h; rfl
  have wrapped : (match E.wrap p.cls v with
      | .error e => .error e
      | .ok a => checkArray E p a) = Except.error e → e = .validation ∨ E.wrap p.cls v = .error e := by
    intro h
    cases hw : E.wrap p.cls v with
    | error e' => rw [hw] at h; cases h; exact .inr rfl
    | ok a => rw [hw] at h; exact .inl (chk a h)
  cases hc : p.coerce with
  | true =>
    cases v with
    | list l => simp only [validateArray, hc, if_true] at h; exact wrapped h
    | tuple l => simp only [validateArray, hc, if_true] at h; exact wrapped h
    | array a => simp only [validateArray, hc, if_true] at h; exact wrapped h
    | text s => cases h; exact .inl rfl
    | other => cases h; exact .inl rfl
  | false =>
    cases v with
    | list l => simp only [validateArray, hc, Bool.false_eq_true, if_false] at h; cases h; exact .inl rfl
    | tuple l => simp only [validateArray, hc, Bool.false_eq_true, if_false] at h; cases h; exact .inl rfl
    | array a => simp only [validateArray, hc, Bool.false_eq_true, if_false] at h; exact .inl (chk a h)
    | text s => cases h; exact .inl rfl
    | other => cases h; exact .inl rfl

/-! ## Lengths -/

theorem norm_sq (v : List ℝ) : norm v = Real.sqrt (lenSq v) := by
  unfold norm
  congr 1
  induction v with
  | nil => rfl
  | cons x v ih => simp [lenSq, ih]

theorem sq_nonneg' (v : List ℝ) : 0 ≤ lenSq v := by
  induction v with
  | nil => exact le_refl _
  | cons x v ih => exact add_nonneg (mul_self_nonneg x) ih

theorem sq_scale (c : ℝ) (v : List ℝ) : lenSq (v.map fun x => c * x) = c * c * lenSq v := by
  induction v with
  | nil => simp [lenSq]
  | cons x v ih => simp only [List.map_cons, lenSq, ih]; ring

theorem norm_nonneg' (v : List ℝ) : 0 ≤ norm v := Real.sqrt_nonneg _

theorem sq_zero_iff (v : List ℝ) : lenSq v = 0 ↔ ∀ x ∈ v, x = 0 := by
  induction v with
  | nil => simp [lenSq]
  | cons x v ih =>
    simp only [lenSq, List.mem_cons, forall_eq_or_imp]
    constructor
    · intro h
      have h1 := mul_self_nonneg x
      have h2 := sq_nonneg' v
      exact ⟨mul_self_eq_zero.1 (by linarith), ih.1 (by linarith)⟩
    · rintro ⟨h1, h2⟩
      rw [h1, ih.2 h2]; simp

theorem norm_zero_iff (v : List ℝ) : norm v = 0 ↔ ∀ x ∈ v, x = 0 := by
  rw [norm_sq, Real.sqrt_eq_zero (sq_nonneg' v), sq_zero_iff]

theorem sq_scaled {len : ℝ} (v : List ℝ) (hv : norm v ≠ 0) : lenSq (v.map fun x => len / norm v * x) = len * len := by
  rw [sq_scale]
  have h : norm v * norm v = lenSq v := by rw [norm_sq]; exact Real.mul_self_sqrt (sq_nonneg' v)
  rw [← h]
  field_simp

theorem rows_flat {n : Nat} : ∀ (k : Nat) (vs : List (List ℝ)), vs.length = k → (∀ v ∈ vs, v.length = n) → ∀ rest,
    rows n k (vs.flatten ++ rest) = vs
  | 0, [], _, _, _ => rfl
  | k + 1, v :: vs, hk, hv, rest => by
    have h1 : v.length = n := hv v (by simp)
    simp only [rows, List.flatten_cons, List.append_assoc]
    rw [List.take_left' h1, List.drop_left' h1, rows_flat k vs (by simpa using hk) (fun w hw => hv w (by simp [hw]))]

theorem rows_shape {n : Nat} : ∀ (k : Nat) (l : List ℝ), l.length = k * n →
    (rows n k l).length = k ∧ ∀ v ∈ rows n k l, v.length = n
  | 0, l, _ => ⟨rfl, fun v hv => (by cases hv)⟩
  | k + 1, l, h => by
    have hl : n ≤ l.length := by rw [h, Nat.add_mul]; omega
    obtain ⟨a, b⟩ := rows_shape (n := n) k (l.drop n) (by rw [List.length_drop, h, Nat.add_mul]; omega)
    refine ⟨by simp [rows, a], fun v hv => ?_⟩
    simp only [rows, List.mem_cons] at hv
    rcases hv with rfl | hv
    · rw [List.length_take]; omega
    · exact b v hv

/-- Vectors of arrays with the shape of vectors. -/
theorem vectors_scale {a : NArr} (hf : Full a) (hs : (∃ n, a.shape = [n]) ∨ ∃ k n, a.shape = [k, n])
    (f : List ℝ → List ℝ) (hl : ∀ v, (f v).length = v.length) :
    vectors { a with data := (vectors a).flatMap f } = (vectors a).map f := by
  have key : ∀ n k, a.data.length = k * n → rows n k ((rows n k a.data).flatMap f) = (rows n k a.data).map f := by
    intro n k h
    obtain ⟨h1, h2⟩ := rows_shape k a.data h
    have := rows_flat (n := n) k ((rows n k a.data).map f) (by simpa using h1) (by
      intro v hv
      obtain ⟨u, hu, rfl⟩ := List.mem_map.1 hv
      rw [hl, h2 u hu]) []
    rw [List.append_nil] at this
    rw [List.flatMap_def]
    exact this
  unfold Full at hf
  unfold vectors
  rcases hs with ⟨n, hs⟩ | ⟨k, n, hs⟩
  · rw [hs] at hf ⊢
    simp only [List.foldr] at hf ⊢
    exact key n 1 (by omega)
  · rw [hs] at hf ⊢
    simp only [List.foldr] at hf ⊢
    exact key n k (by simpa using hf)

/-- C54, lengths: with a length, the result of validating an array of vectors has
the same shape, and each of its vectors has exactly that length and is a positive
multiple of the vector given; this happens exactly if the array is acceptable and
no vector is zero, otherwise ZeroDivValidationError is raised. -/
theorem C54_length (E : AEnv) (p : AProp) (len : ℝ) (hlen : 0 < len) (v : Input) (a : NArr)
    (ha : validateArray E p v = .ok a) (hf : Full a) (hs : (∃ n, a.shape = [n]) ∨ ∃ k n, a.shape = [k, n]) :
    ((∀ x ∈ vectors a, ∃ c ∈ x, c ≠ 0) → ∃ b, validateVector E p (some len) v = .ok b ∧ b.shape = a.shape ∧
      b.kind = a.kind ∧ b.cls = a.cls ∧
      List.Forall₂ (fun x y => lenSq y = len * len ∧ ∃ c > 0, y = x.map fun t => c * t) (vectors a) (vectors b)) ∧
    ((∃ x ∈ vectors a, ∀ c ∈ x, c = 0) → validateVector E p (some len) v = .error .zeroDiv) := by
  have hnz : ∀ x : List ℝ, norm x ≠ 0 ↔ ∃ c ∈ x, c ≠ 0 := by
    intro x
    rw [Ne, norm_zero_iff]
    push Not
    rfl
  simp only [validateVector, ha, setLength]
  constructor
  · intro h
    rw [if_pos (fun x hx => (hnz x).2 (h x hx))]
    refine ⟨_, rfl, rfl, rfl, rfl, ?_⟩
    rw [vectors_scale hf hs (fun v => v.map fun x => len / norm v * x) (fun v => by simp)]
    rw [List.forall₂_map_right_iff, List.forall₂_same]
    intro x hx
    have h0 := (hnz x).2 (h x hx)
    have hpos : 0 < norm x := lt_of_le_of_ne (norm_nonneg' x) (Ne.symm h0)
    exact ⟨sq_scaled x h0, len / norm x, div_pos hlen hpos, rfl⟩
  · rintro ⟨x, hx, h0⟩
    rw [if_neg]
    intro h
    exact h x hx ((norm_zero_iff x).2 h0)

/-- C54: without a length vectors are not changed. -/
theorem C54_no_length (E : AEnv) (p : AProp) (v : Input) : validateVector E p none v = validateArray E p v := by
  unfold validateVector
  cases validateArray E p v <;> rfl

/-! ## Names -/

theorem lookup_mem {l : List (PyStr × List Int)} {s : PyStr} {d : List Int} (h : l.lookup s = some d) : (s, d) ∈ l := by
  induction l with
  | nil => cases h
  | cons x l ih =>
    obtain ⟨k, v⟩ := x
    simp only [List.lookup] at h
    split at h
    · rename_i he
      have : s = k := by simpa using he
      cases h
      subst this
      simp
    · exact List.mem_cons_of_mem _ (ih h)

theorem direction3 {E : AEnv} {s : PyStr} {x y z : ℝ} (h : Names (E.upper s) x y z) :
    ∃ d, direction E 3 s = some d ∧ d.map (fun t : Int => (t : ℝ)) = [x, y, z] := by
  unfold direction
  rw [if_neg (by simp)]
  generalize E.upper s = u at h
  cases h <;> exact ⟨_, rfl, by simp⟩

theorem direction2 {E : AEnv} {s : PyStr} {x y z : ℝ} (h : Names (E.upper s) x y z) (hz : z = 0) :
    ∃ d, direction E 2 s = some d ∧ d.map (fun t : Int => (t : ℝ)) = [x, y] := by
  unfold direction
  generalize E.upper s = u at h
  cases h <;> first
    | exact ⟨_, rfl, by simp⟩
    | norm_num at hz

theorem direction_some {E : AEnv} {dim : Nat} {s : PyStr} {d : List Int} (h : direction E dim s = some d) :
    ∃ x y z, Names (E.upper s) x y z ∧ (dim = 2 → z = 0) := by
  unfold direction at h
  split at h
  · cases h
  · rename_i hv
    cases hl : directions.lookup (E.upper s) with
    | none => rw [hl] at h; cases h
    | some d' =>
      have hm := lookup_mem hl
      generalize E.upper s = u at hm hv
      simp only [directions, List.mem_cons, List.not_mem_nil, or_false, Prod.mk.injEq] at hm
      rcases hm with ⟨rfl, _⟩ | ⟨rfl, _⟩ | ⟨rfl, _⟩ | ⟨rfl, _⟩ | ⟨rfl, _⟩ | ⟨rfl, _⟩ | ⟨rfl, _⟩ | ⟨rfl, _⟩ | ⟨rfl, _⟩ |
        ⟨rfl, _⟩ | ⟨rfl, _⟩ | ⟨rfl, _⟩ | ⟨rfl, _⟩
      exacts [⟨_, _, _, .zero, fun _ => rfl⟩, ⟨_, _, _, .x, fun _ => rfl⟩, ⟨_, _, _, .y, fun _ => rfl⟩,
        ⟨_, _, _, .z, fun h => absurd ⟨h, by decide⟩ hv⟩, ⟨_, _, _, .mx, fun _ => rfl⟩, ⟨_, _, _, .my, fun _ => rfl⟩,
        ⟨_, _, _, .mz, fun h => absurd ⟨h, by decide⟩ hv⟩, ⟨_, _, _, .east, fun _ => rfl⟩, ⟨_, _, _, .west, fun _ => rfl⟩,
        ⟨_, _, _, .north, fun _ => rfl⟩, ⟨_, _, _, .south, fun _ => rfl⟩,
        ⟨_, _, _, .up, fun h => absurd ⟨h, by decide⟩ hv⟩, ⟨_, _, _, .down, fun h => absurd ⟨h, by decide⟩ hv⟩]

/-- Vector properties: one dimension of the given size, floats. -/
structure VecProp (E : AEnv) (p : AProp) (dim : Nat) : Prop where
  coerce : p.coerce = true
  dtype : p.dtype = [.float]
  shape : p.shape = some [[.exactly dim]]
  sub : E.sub p.cls p.cls = true

theorem accept_vec {E : AEnv} {p : AProp} {dim : Nat} (hp : VecProp E p dim) {l : List Item} {data : List ℝ}
    (h : E.wrap p.cls (.list l) = .ok ⟨p.cls, .f, [dim], data⟩) :
    validateArray E p (.list l) = .ok ⟨p.cls, .f, [dim], data⟩ :=
  (C53_accepts E p _ _).2 ⟨.list hp.coerce h, hp.sub, ⟨.float, by rw [hp.dtype]; simp, .float⟩,
    .inr ⟨_, hp.shape, [.exactly dim], by simp, .cons (.exactly dim) .nil⟩⟩

/-- C54, names: a Vector3 property gives each direction name, in any case, its
vector; a Vector2 property the names without a vertical component.  With a length,
the named vector has that length, and `zero` is refused. -/
theorem C54_names3 (E : AEnv) (p : AProp) (hp : VecProp E p 3) (hk : Keeps3 E p) (s : PyStr) (x y z : ℝ)
    (h : Names (E.upper s) x y z) :
    validateVec E 3 p none (.text s) = .ok ⟨p.cls, .f, [3], [x, y, z]⟩ ∧
    ∀ len : ℝ, 0 < len → validateVec E 3 p (some len) (.text s) =
      if x = 0 ∧ y = 0 ∧ z = 0 then .error .zeroDiv else .ok ⟨p.cls, .f, [3], [len * x, len * y, len * z]⟩ := by
  obtain ⟨d, h1, h2⟩ := direction3 h
  have hd : d.map (fun t : Int => Item.num t) = [.num x, .num y, .num z] := by
    have : d.map (fun t : Int => Item.num t) = (d.map fun t : Int => (t : ℝ)).map Item.num := by simp
    rw [this, h2]
    rfl
  have hv := accept_vec hp (hk x y z)
  constructor
  · simp only [validateVec, h1, hd]
    rw [C54_no_length]
    exact hv
  · intro len hlen
    simp only [validateVec, h1, hd, validateVector, hv, setLength]
    have hvec : vectors ⟨p.cls, .f, [3], [x, y, z]⟩ = [[x, y, z]] := rfl
    rw [hvec]
    have hn : lenSq [x, y, z] = 0 ∨ lenSq [x, y, z] = 1 := by
      clear h1
      generalize E.upper s = u at h
      cases h <;> simp [lenSq]
    have h0 : (∀ t ∈ [x, y, z], t = 0) ↔ x = 0 ∧ y = 0 ∧ z = 0 := by simp
    by_cases hz : x = 0 ∧ y = 0 ∧ z = 0
    · rw [if_pos hz, if_neg]
      intro hh
      exact hh [x, y, z] (by simp) ((norm_zero_iff _).2 (h0.2 hz))
    · have hne : norm [x, y, z] ≠ 0 := fun hh => hz (h0.1 ((norm_zero_iff _).1 hh))
      have h1' : norm [x, y, z] = 1 := by
        rw [norm_sq]
        rcases hn with hn | hn
        · exact absurd (by rw [norm_sq, hn, Real.sqrt_zero]) hne
        · rw [hn, Real.sqrt_one]
      rw [if_neg hz, if_pos (by simpa using hne)]
      simp [h1']

/-- C54, names for Vector2. -/
theorem C54_names2 (E : AEnv) (p : AProp) (hp : VecProp E p 2) (hk : Keeps2 E p) (s : PyStr) (x y z : ℝ)
    (h : Names (E.upper s) x y z) (hz : z = 0) :
    validateVec E 2 p none (.text s) = .ok ⟨p.cls, .f, [2], [x, y]⟩ := by
  obtain ⟨d, h1, h2⟩ := direction2 h hz
  have hd : d.map (fun t : Int => Item.num t) = [.num x, .num y] := by
    have : d.map (fun t : Int => Item.num t) = (d.map fun t : Int => (t : ℝ)).map Item.num := by simp
    rw [this, h2]
    rfl
  simp only [validateVec, h1, hd]
  rw [C54_no_length]
  exact accept_vec hp (hk x y)

/-- C54: any other text is refused, also the vertical names for Vector2. -/
theorem C54_other_names (E : AEnv) (dim : Nat) (p : AProp) (length : Option ℝ) (s : PyStr)
    (h : ∀ x y z, Names (E.upper s) x y z → dim = 2 ∧ z ≠ 0) :
    validateVec E dim p length (.text s) = .error .validation := by
  cases hd : direction E dim s with
  | none => simp only [validateVec, hd]
  | some d =>
    obtain ⟨x, y, z, h1, h2⟩ := direction_some hd
    obtain ⟨h3, h4⟩ := h x y z h1
    exact absurd (h2 h3) h4

/-! ## Lists of names -/

/-- An item with its name replaced. -/
inductive Replaced (E : AEnv) (dim : Nat) : Item → Item → Prop
  | name {s : PyStr} {x y z : ℝ} : Names (E.upper s) x y z → Replaced E dim (.name s) (.nums ([x, y, z].take dim))
  | num (x : ℝ) : Replaced E dim (.num x) (.num x)
  | nums (l : List ℝ) : Replaced E dim (.nums l) (.nums l)
  | other : Replaced E dim .other .other

/-- A name that is not a direction. -/
def Unknown (E : AEnv) (dim : Nat) (s : PyStr) : Prop :=
  ∀ x y z, Names (E.upper s) x y z → dim = 2 ∧ z ≠ 0

theorem unknown_of_none {E : AEnv} {dim : Nat} (hdim : dim = 2 ∨ dim = 3) {s : PyStr} (h : direction E dim s = none) :
    Unknown E dim s := by
  intro x y z hn
  rcases hdim with rfl | rfl
  · refine ⟨rfl, fun hz => ?_⟩
    obtain ⟨d, h1, _⟩ := direction2 hn hz
    rw [h] at h1
    cases h1
  · obtain ⟨d, h1, _⟩ := direction3 hn
    rw [h] at h1
    cases h1

theorem replaceNames_spec (E : AEnv) {dim : Nat} (hdim : dim = 2 ∨ dim = 3) : ∀ (l : List Item),
    (∃ l', replaceNames E dim l = (none, l') ∧ List.Forall₂ (Replaced E dim) l l' ∧ ∀ s, .name s ∈ l → ¬ Unknown E dim s) ∨
    (∃ l' s, replaceNames E dim l = (some .validation, l') ∧ .name s ∈ l ∧ Unknown E dim s)
  | [] => .inl ⟨[], rfl, .nil, fun _ h => by cases h⟩
  | i :: rest => by
    have ih := replaceNames_spec E hdim rest
    have plain : ∀ j : Item, (∀ s, j ≠ .name s) → Replaced E dim j j →
        (∃ l', replaceNames E dim (j :: rest) = (none, l') ∧ List.Forall₂ (Replaced E dim) (j :: rest) l' ∧
          ∀ s, .name s ∈ j :: rest → ¬ Unknown E dim s) ∨
        (∃ l' s, replaceNames E dim (j :: rest) = (some .validation, l') ∧ .name s ∈ j :: rest ∧ Unknown E dim s) := by
      intro j hj hr
      have he : replaceNames E dim (j :: rest) = ((replaceNames E dim rest).1, j :: (replaceNames E dim rest).2) := by
        cases j with
        | name s => exact absurd rfl (hj s)
        | _ => rfl
      rcases ih with ⟨l', a, b, c⟩ | ⟨l', s, a, b, c⟩
      · refine .inl ⟨j :: l', by rw [he, a], .cons hr b, fun s hs => ?_⟩
        rcases List.mem_cons.1 hs with hs | hs
        · exact absurd hs.symm (hj s)
        · exact c s hs
      · exact .inr ⟨j :: l', s, by rw [he, a], List.mem_cons_of_mem _ b, c⟩
    cases i with
    | name s =>
      cases hd : direction E dim s with
      | none =>
        exact .inr ⟨.name s :: rest, s, by simp only [replaceNames, hd], by simp, unknown_of_none hdim hd⟩
      | some d =>
        obtain ⟨x, y, z, h1, h2⟩ := direction_some hd
        have hv : d.map (fun t : Int => (t : ℝ)) = [x, y, z].take dim := by
          rcases hdim with rfl | rfl
          · obtain ⟨d', h3, h4⟩ := direction2 h1 (h2 rfl)
            rw [hd] at h3; cases h3
            exact h4
          · obtain ⟨d', h3, h4⟩ := direction3 h1
            rw [hd] at h3; cases h3
            exact h4
        have he : replaceNames E dim (.name s :: rest) =
            ((replaceNames E dim rest).1, .nums ([x, y, z].take dim) :: (replaceNames E dim rest).2) := by
          simp only [replaceNames, hd, hv]
        rcases ih with ⟨l', a, b, c⟩ | ⟨l', t, a, b, c⟩
        · refine .inl ⟨_, by rw [he, a], .cons (.name h1) b, fun t ht => ?_⟩
          rcases List.mem_cons.1 ht with ht | ht
          · cases ht
            exact fun hu => (hu x y z h1).2 (h2 (hu x y z h1).1)
          · exact c t ht
        · exact .inr ⟨_, t, by rw [he, a], List.mem_cons_of_mem _ b, c⟩
    | num x => exact plain _ (fun _ h => by cases h) (.num x)
    | nums x => exact plain _ (fun _ h => by cases h) (.nums x)
    | other => exact plain _ (fun _ h => by cases h) .other

/-- C54, arrays of vectors: a list whose names are all directions is validated with
each name replaced by its vector; a list with any other name is refused. -/
theorem C54_list_names (E : AEnv) {dim : Nat} (hdim : dim = 2 ∨ dim = 3) (p : AProp) (length : Option ℝ) (l : List Item) :
    ((∀ s, .name s ∈ l → ¬ Unknown E dim s) → ∃ l', List.Forall₂ (Replaced E dim) l l' ∧
      (validateVecArray E dim p length (.list l)).1 = validateVector E p length (.list l')) ∧
    ((∃ s, .name s ∈ l ∧ Unknown E dim s) → (validateVecArray E dim p length (.list l)).1 = .error .validation) := by
  simp only [validateVecArray]
  rcases replaceNames_spec E hdim l with ⟨l', a, b, c⟩ | ⟨l', s, a, b, c⟩
  · exact ⟨fun _ => ⟨l', b, by simp only [a]⟩, fun ⟨s, h1, h2⟩ => absurd h2 (c s h1)⟩
  · exact ⟨fun h => absurd c (h s b), fun _ => by simp only [a]⟩

/-- Validation writes the vectors into the caller's list. -/
theorem C54_list_changed (E : AEnv) (p : AProp) (length : Option ℝ) (h : E.upper (s% "x") = s% "X") :
    (validateVecArray E 3 p length (.list [.name (s% "x")])).2 = .list [.nums [1, 0, 0]] := by
  have hd : direction E 3 (s% "x") = some [1, 0, 0] := by
    unfold direction
    rw [if_neg (by simp), h]
    rfl
  simp [validateVecArray, replaceNames, hd]

/-- Names in a tuple, which the documentation allows, raise TypeError. -/
theorem C54_tuple_names (E : AEnv) (p : AProp) (length : Option ℝ) (h : E.upper (s% "x") = s% "X") :
    (validateVecArray E 3 p length (.tuple [.name (s% "x")])).1 = .error .type := by
  have hd : direction E 3 (s% "x") = some [1, 0, 0] := by
    unfold direction
    rw [if_neg (by simp), h]
    rfl
  simp [validateVecArray, tupleNames, hd]

/-! ## Concrete cases -/

/-- A constructor that takes arrays as they are, and lists of numbers. -/
noncomputable def demoEnv : AEnv where
  wrap := fun c v => match v with
    | .array a => .ok { a with cls := c }
    | .list [.num x, .num y, .num z] => .ok ⟨c, .f, [3], [x, y, z]⟩
    | .list [.num x, .num y] => .ok ⟨c, .f, [2], [x, y]⟩
    | _ => .error .wrapper
  sub := fun a b => a == b || b == 0
  upper := fun s => s.map fun c => if 97 ≤ c.toNat ∧ c.toNat ≤ 122 then Char.ofNat (c.toNat - 32) else c

/-- A property for arrays of shape `('*', 3)` or `(2, 2)` of ints. -/
def gridProp : AProp := ⟨0, true, [.int], some [[.any, .exactly 3], [.exactly 2, .exactly 2]]⟩

/-- A 5 by 3 array fits; a 3 by 2 array and an array of floats do not. -/
theorem C53_example (d : List ℝ) :
    (∃ a, validateArray demoEnv gridProp (.array ⟨1, .i, [5, 3], d⟩) = .ok a ∧ a.shape = [5, 3]) ∧
    validateArray demoEnv gridProp (.array ⟨1, .u, [3, 2], d⟩) = .error .validation ∧
    validateArray demoEnv gridProp (.array ⟨1, .f, [5, 3], d⟩) = .error .validation :=
  ⟨⟨_, rfl, rfl⟩, rfl, rfl⟩

/-- A Vector3 property. -/
def vec3Prop : AProp := ⟨3, true, [.float], some [[.exactly (3 : Nat)]]⟩

/-- `'West'` with length 5, and a vector of numbers. -/
theorem C54_example :
    validateVec demoEnv 3 vec3Prop (some 5) (.text (s% "West")) = .ok ⟨3, .f, [3], [-5, 0, 0]⟩ ∧
    validateVec demoEnv 3 vec3Prop (some 5) (.text (s% "zero")) = .error .zeroDiv ∧
    validateVec demoEnv 3 vec3Prop none (.text (s% "zero")) = .ok ⟨3, .f, [3], [0, 0, 0]⟩ ∧
    ∃ b, validateVector demoEnv vec3Prop (some 10) (.list [.num 3, .num 4, .num 0]) = .ok b ∧
      vectors b = [[6, 8, 0]] := by
  have hp : VecProp demoEnv vec3Prop 3 := ⟨rfl, rfl, rfl, rfl⟩
  have hk : Keeps3 demoEnv vec3Prop := fun _ _ _ => rfl
  have hw : Names (demoEnv.upper (s% "West")) (-1) 0 0 := Names.west
  have h0 : Names (demoEnv.upper (s% "zero")) 0 0 0 := Names.zero
  refine ⟨?_, ?_, ?_, ?_⟩
  · rw [(C54_names3 demoEnv vec3Prop hp hk _ _ _ _ hw).2 5 (by norm_num)]
    norm_num
    rfl
  · rw [(C54_names3 demoEnv vec3Prop hp hk _ _ _ _ h0).2 5 (by norm_num)]
    norm_num
  · exact (C54_names3 demoEnv vec3Prop hp hk _ _ _ _ h0).1
  · have hv := accept_vec hp (hk 3 4 0)
    have hn : norm [3, 4, 0] = 5 := by
      rw [norm_sq, show lenSq [3, 4, 0] = 5 * 5 by norm_num [lenSq]]
      exact Real.sqrt_mul_self (by norm_num)
    simp only [validateVector, hv, setLength]
    have hvec : vectors ⟨vec3Prop.cls, .f, [3], [3, 4, 0]⟩ = [[3, 4, 0]] := rfl
    rw [hvec, if_pos (by simp [hn])]
    refine ⟨_, rfl, ?_⟩
    simp only [List.flatMap_cons, List.flatMap_nil, List.append_nil, List.map_cons, List.map_nil, hn]
    norm_num [vectors, rows]

end Verif.Arr
