import Verif.Spec.ArrayJson

/-!
# C64: arrays survive JSON

`deserialize(serialize(array))` of an Array property is the array: same shape, same
elements, NaN and infinities included.
-/

namespace Verif.ArrJson

open Spec

theorem size_eq (s : List Nat) : size s = s.foldr (· * ·) 1 := by
  induction s with
  | nil => rfl
  | cons n s ih => simp [size, ih]

theorem slices_length {α : Type} : ∀ (n k : Nat) (xs : List α), (slices n k xs).length = n
  | 0, _, _ => rfl
  | n + 1, k, xs => by simp [slices, slices_length n k]

theorem slices_mem {α : Type} : ∀ (n k : Nat) (xs : List α), xs.length = n * k →
    ∀ ys ∈ slices n k xs, ys.length = k
  | 0, _, _, _, _, h => by cases h
  | n + 1, k, xs, hl, ys, h => by
      have e : (n + 1) * k = n * k + k := Nat.succ_mul n k
      simp only [slices, List.mem_cons] at h
      rcases h with rfl | h
      · simp
        omega
      · exact slices_mem n k (xs.drop k) (by simp; omega) ys h

theorem slices_map {α β : Type} (f : α → β) : ∀ (n k : Nat) (xs : List α),
    slices n k (xs.map f) = (slices n k xs).map (List.map f)
  | 0, _, _ => rfl
  | n + 1, k, xs => by
      simp [slices, ← slices_map f n k, List.map_take, List.map_drop]

theorem slices_flatten {α : Type} : ∀ (n k : Nat) (xs : List α), xs.length = n * k →
    (slices n k xs).flatten = xs
  | 0, k, xs, h => by
      have : xs = [] := by
        apply List.length_eq_zero_iff.1
        omega
      subst this
      rfl
  | n + 1, k, xs, h => by
      have e : (n + 1) * k = n * k + k := Nat.succ_mul n k
      simp only [slices, List.flatten_cons]
      rw [slices_flatten n k (xs.drop k) (by simp; omega)]
      exact List.take_append_drop k xs

/-! ### `tolist`, then shape discovery -/

theorem shapesOf_const {α : Type} {s : List Nat} : ∀ {ns : List (Nest α)},
    (∀ n ∈ ns, shapeOf n = some s) → shapesOf ns = some (List.replicate ns.length s)
  | [], _ => rfl
  | n :: ns, h => by
      simp only [shapesOf, h n (by simp), shapesOf_const (fun m hm => h m (List.mem_cons_of_mem _ hm))]
      rfl

theorem flatL_eq {α : Type} : ∀ (ns : List (Nest α)), flatL ns = (ns.map flat).flatten
  | [] => rfl
  | n :: ns => by simp [flatL, flatL_eq ns]

theorem flat_nest {α : Type} : ∀ (s : List Nat) (xs : List α), xs.length = size s →
    flat (nest s xs) = xs
  | [], xs, h => by
      match xs, h with
      | [x], _ => rfl
  | n :: s, xs, h => by
      simp only [nest, flat, flatL_eq, List.map_map]
      have : (slices n (size s) xs).map (flat ∘ nest s) = slices n (size s) xs := by
        conv => rhs; rw [← List.map_id (slices n (size s) xs)]
        apply List.map_congr_left
        intro ys hys
        exact flat_nest s ys (slices_mem n (size s) xs h ys hys)
      rw [this]
      exact slices_flatten n (size s) xs h

theorem shapeOf_node {α : Type} {s : List Nat} {ns : List (Nest α)} (hn : ns ≠ [])
    (h : ∀ n ∈ ns, shapeOf n = some s) : shapeOf (.node ns) = some (ns.length :: s) := by
  simp only [shapeOf, shapesOf_const h]
  cases ns with
  | nil => exact absurd rfl hn
  | cons n ns =>
    simp only [List.length_cons, List.replicate_succ]
    have : (List.replicate ns.length s).all (· == s) = true := by
      simp
    simp [this]

theorem shapeOf_nest {α : Type} : ∀ (s : List Nat) (xs : List α), Regular s → xs.length = size s →
    shapeOf (nest s xs) = some s
  | [], _, h, _ => h.elim
  | [n], xs, _, h => by
      simp only [nest]
      cases n with
      | zero => rfl
      | succ n =>
        have hl := slices_length (n + 1) (size []) xs
        rw [shapeOf_node (s := [])]
        · simp [slices_length]
        · intro e
          have := congrArg List.length e
          simp [slices_length] at this
        · intro m hm
          obtain ⟨ys, hys, rfl⟩ := List.mem_map.1 hm
          have := slices_mem _ _ xs h ys hys
          match ys, this with
          | [y], _ => rfl
  | n :: m :: s, xs, hr, h => by
      simp only [nest]
      have hl := slices_length n (size (m :: s)) xs
      rw [shapeOf_node (s := m :: s)]
      · simp [slices_length]
      · intro e
        have := congrArg List.length e
        simp [slices_length] at this
        have := hr.1
        omega
      · intro k hk
        obtain ⟨ys, hys, rfl⟩ := List.mem_map.1 hk
        exact shapeOf_nest (m :: s) ys hr.2 (slices_mem _ _ xs h ys hys)

/-! ### `_recurse_list` -/

theorem convEach_leaves : ∀ (xss : List (List El)), (∀ xs ∈ xss, xs.length = 1) →
    convEach (xss.map (nest [])) = some (xss.map fun xs => nest [] (xs.map conv))
  | [], _ => rfl
  | xs :: xss, h => by
      match xs, h xs (by simp) with
      | [x], _ =>
        simp only [List.map_cons, nest, convEach,
          convEach_leaves xss (fun ys hys => h ys (List.mem_cons_of_mem _ hys))]
        rfl

theorem recurseEach_some {α : Type} {f g : α → Nest El} : ∀ (l : List α),
    (∀ a ∈ l, recurseList (f a) = some (g a)) → recurseEach (l.map f) = some (l.map g)
  | [], _ => rfl
  | a :: l, h => by
      simp only [List.map_cons, recurseEach, h a (by simp),
        recurseEach_some l (fun b hb => h b (List.mem_cons_of_mem _ hb))]

/-- Only the elements change. -/
theorem recurse_nest : ∀ (s : List Nat) (xs : List El), s ≠ [] → xs.length = size s →
    recurseList (nest s xs) = some (nest s (xs.map conv))
  | [], _, h, _ => absurd rfl h
  | [n], xs, _, h => by
      have hm := slices_mem n (size []) xs h
      simp only [nest, recurseList]
      have hh : headIsList ((slices n (size []) xs).map (nest [])) = false := by
        cases hs : slices n (size []) xs with
        | nil => rfl
        | cons ys rest =>
          match ys, hm ys (by rw [hs]; simp) with
          | [y], _ => rfl
      rw [hh, if_neg (by simp), convEach_leaves _ hm, slices_map, List.map_map]
      rfl
  | n :: m :: s, xs, _, h => by
      have hm := slices_mem n (size (m :: s)) xs h
      simp only [nest, recurseList]
      cases hs : slices n (size (m :: s)) xs with
      | nil =>
        rw [slices_map, hs]
        rfl
      | cons ys rest =>
        have hh : headIsList ((ys :: rest).map (nest (m :: s))) = true := rfl
        have he := recurseEach_some (f := nest (m :: s)) (g := fun xs => nest (m :: s) (xs.map conv))
          (ys :: rest) (fun zs hz => recurse_nest (m :: s) zs (by simp) (hm zs (by rw [hs]; exact hz)))
        simp only [nest] at hh he ⊢
        rw [hh, if_pos rfl, he, slices_map, hs, List.map_map]
        rfl

/-! ### Types -/

theorem parse_conv {E : JEnv} (L : TextLaws E) (f : PyFloat) :
    E.parse (El.asTxt E (conv (.flt f))) = some f := by
  cases f with
  | fin q => exact L.fin q
  | nan => exact L.nan
  | pinf => exact L.pinf
  | ninf => exact L.ninf

theorem parseAll_conv {E : JEnv} (L : TextLaws E) : ∀ (l : List PyFloat),
    parseAll E.parse ((l.map fun f => conv (.flt f)).map (El.asTxt E)) = some l
  | [] => rfl
  | f :: l => by
      simp only [List.map_cons, parseAll, parse_conv L f, parseAll_conv L l]

theorem conv_flt_cases (f : PyFloat) : (conv (.flt f)).isTxt = true ∨ conv (.flt f) = .flt f := by
  cases f <;> simp [conv, El.isTxt]

/-- Floats come back as they were, whether they went as numbers or as text. -/
theorem astype_floats {E : JEnv} (L : TextLaws E) (l : List PyFloat) :
    astype E .float (common E ((l.map El.flt).map conv)) = some (.floats l) := by
  rw [List.map_map]
  unfold common
  split
  · have := parseAll_conv L l
    simp only [astype, Function.comp_def]
    rw [this]
    rfl
  · rename_i h
    have hk : ∀ f ∈ l, conv (.flt f) = .flt f := by
      intro f hf
      rcases conv_flt_cases f with h1 | h1
      · exact absurd (List.any_eq_true.2 ⟨conv (.flt f), List.mem_map.2 ⟨f, hf, rfl⟩, h1⟩) h
      · exact h1
    have he : l.map (conv ∘ El.flt) = l.map El.flt :=
      List.map_congr_left fun f hf => hk f hf
    rw [he]
    cases l with
    | nil => rfl
    | cons f l =>
      have : ((f :: l).map El.flt).any El.isFlt = true := by simp [El.isFlt]
      rw [if_pos this]
      simp [astype, List.map_map, Function.comp_def, El.asFlt]

theorem any_map_false {α : Type} (p : El → Bool) (f : α → El) (hp : ∀ a, p (f a) = false) :
    ∀ (l : List α), (l.map f).any p = false
  | [] => rfl
  | a :: l => by simp only [List.map_cons, List.any_cons, hp a, any_map_false p f hp l, Bool.or_false]

theorem common_ints (E : JEnv) (l : List Int) : common E ((l.map El.int).map conv) =
    if l = [] then .floats [] else .ints l := by
  rw [List.map_map]
  have he : (conv ∘ El.int) = El.int := rfl
  rw [he]
  unfold common
  rw [any_map_false El.isTxt El.int (fun _ => rfl), any_map_false El.isFlt El.int (fun _ => rfl)]
  cases l with
  | nil => rfl
  | cons i l =>
    have : ((i :: l).map El.int).any El.isInt = true := by simp [El.isInt]
    simp [El.isInt, El.asInt, List.map_map, Function.comp_def]

theorem common_bools (E : JEnv) (l : List Bool) : common E ((l.map El.bool).map conv) =
    if l = [] then .floats [] else .bools l := by
  rw [List.map_map]
  have he : (conv ∘ El.bool) = El.bool := rfl
  rw [he]
  unfold common
  rw [any_map_false El.isTxt El.bool (fun _ => rfl), any_map_false El.isFlt El.bool (fun _ => rfl),
    any_map_false El.isInt El.bool (fun _ => rfl)]
  cases l with
  | nil => rfl
  | cons i l => simp [El.isBool, El.asBool, List.map_map, Function.comp_def]

theorem els_length (d : Data) : d.els.length = count d := by
  cases d <;> simp [Data.els, count]

theorem deserialize_toJson {E : JEnv} {a : NArr} {t : DType} {d : Data} (hr : Regular a.shape)
    (hf : Filled a) (hd : astype E t (common E (a.data.els.map conv)) = some d) :
    ∃ j, toJson a = some j ∧ deserialize E t j = some ⟨a.shape, d⟩ := by
  have hne : a.shape ≠ [] := by
    intro e
    rw [e] at hr
    exact hr
  have hl : a.data.els.length = size a.shape := by
    rw [els_length, size_eq]
    exact hf
  refine ⟨_, recurse_nest a.shape a.data.els hne hl, ?_⟩
  have hl' : (a.data.els.map conv).length = size a.shape := by simpa using hl
  unfold deserialize npArray
  rw [shapeOf_nest a.shape _ hr hl', flat_nest a.shape _ hl']
  simp only [hd]
  rfl

/-- C64: an array whose type is the first one declared, with at least one dimension
and no dimension but the last of length zero, is turned into JSON data and back
without loss: shape, type and every element, NaN and infinities included. -/
theorem C64_round_trip {E : JEnv} (L : TextLaws E) (a : NArr) (t : DType) (hr : Regular a.shape)
    (hf : Filled a) (ht : OfType t a.data) :
    ∃ j, toJson a = some j ∧ deserialize E t j = some a := by
  obtain ⟨s, d⟩ := a
  cases d with
  | bools l =>
    cases t <;> try exact ht.elim
    refine deserialize_toJson hr hf ?_
    simp only [Data.els, common_bools]
    split
    · rename_i h; subst h; rfl
    · rfl
  | ints l =>
    cases t <;> try exact ht.elim
    refine deserialize_toJson hr hf ?_
    simp only [Data.els, common_ints]
    split
    · rename_i h; subst h; rfl
    · rfl
  | floats l =>
    cases t <;> try exact ht.elim
    exact deserialize_toJson hr hf (astype_floats L l)
  | texts l => cases t <;> exact ht.elim

/-- C64: integers at a property whose first type is float (the default) come back as
floats, in the same shape. -/
theorem C64_ints_to_floats {E : JEnv} (s : List Nat) (l : List Int) (hr : Regular s)
    (hf : Filled ⟨s, .ints l⟩) :
    ∃ j, toJson ⟨s, .ints l⟩ = some j ∧ deserialize E .float j = some ⟨s, .floats (l.map E.rnd)⟩ := by
  refine deserialize_toJson hr hf ?_
  simp only [Data.els, common_ints]
  split
  · rename_i h; subst h; rfl
  · rfl

theorem elem_flat {α : Type} {n : Nest α} {is : List Nat} {a : α} (h : Elem n is a) : a ∈ flat n := by
  induction h with
  | leaf a => simp [flat]
  | @node ns i n is a hi _ ih =>
    simp only [flat, flatL_eq, List.mem_flatten, List.mem_map]
    exact ⟨flat n, ⟨n, List.mem_of_getElem? hi, rfl⟩, ih⟩

theorem conv_plain (e : El) : Plain (conv e) := by
  cases e with
  | flt f => cases f <;> trivial
  | _ => trivial

/-- C64: whatever the array, JSON can represent every element of the output: NaN and
infinities are text. -/
theorem C64_plain {a : NArr} {j : Nest El} (hf : Filled a) (hj : toJson a = some j)
    {is : List Nat} {e : El} (he : Elem j is e) : Plain e := by
  by_cases hne : a.shape = []
  · have hl : a.data.els.length = size a.shape := by
      rw [els_length, size_eq]
      exact hf
    unfold toJson tolist at hj
    rw [hne] at hj hl
    match hd : a.data.els, hl with
    | [x], _ =>
      rw [hd] at hj
      cases hj
  · have hl : a.data.els.length = size a.shape := by
      rw [els_length, size_eq]
      exact hf
    have := recurse_nest a.shape a.data.els hne hl
    unfold toJson tolist at hj
    rw [this] at hj
    cases hj
    have hm := elem_flat he
    rw [flat_nest a.shape _ (by simpa using hl)] at hm
    obtain ⟨x, _, rfl⟩ := List.mem_map.1 hm
    exact conv_plain x

theorem isClose_refl {tol : Rat} (ht : 0 ≤ tol) (f : PyFloat) (hn : f ≠ .nan) :
    isClose tol f f = true := by
  cases f with
  | nan => exact absurd rfl hn
  | pinf => rfl
  | ninf => rfl
  | fin q =>
    simp only [isClose, decide_eq_true_eq]
    split <;> split <;> grind

theorem allClose_refl {tol : Rat} (ht : 0 ≤ tol) : ∀ (l : List PyFloat) (m : List Bool),
    (∀ (i : Nat) (f : PyFloat), l[i]? = some f → m[i]? = some false → f ≠ .nan) → allClose tol m l l = true
  | [], m, _ => by cases m with
      | nil => rfl
      | cons b m => cases b <;> rfl
  | f :: l, [], _ => rfl
  | f :: l, b :: m, h => by
      have ih := allClose_refl ht l m (fun i g hg hm => h (i + 1) g (by simpa using hg) (by simpa using hm))
      cases b with
      | true => exact ih
      | false =>
        simp only [allClose, isClose_refl ht f (h 0 f rfl rfl), ih, Bool.and_true]

/-- An array equals itself, even with NaN in it. -/
theorem equal_refl {E : JEnv} {tol : Rat} (ht : 0 ≤ tol) (hrnd : ∀ i, E.rnd i ≠ .nan) (a : NArr)
    (hx : ∀ l, a.data ≠ .texts l) : equal E tol a a = true := by
  obtain ⟨s, d⟩ := a
  cases d with
  | texts l => exact absurd rfl (hx l)
  | bools l =>
    simp only [equal, nanMask, and_self, if_true]
    apply allClose_refl ht
    intro i f hf _
    simp only [Data.asFlts, List.getElem?_map, Option.map_eq_some_iff] at hf
    obtain ⟨b, _, rfl⟩ := hf
    split <;> simp
  | ints l =>
    simp only [equal, nanMask, and_self, if_true]
    apply allClose_refl ht
    intro i f hf _
    simp only [Data.asFlts, List.getElem?_map, Option.map_eq_some_iff] at hf
    obtain ⟨b, _, rfl⟩ := hf
    exact hrnd b
  | floats l =>
    simp only [equal, nanMask, and_self, if_true]
    apply allClose_refl ht
    intro i f hf hm
    simp only [List.getElem?_map, Option.map_eq_some_iff] at hm
    obtain ⟨g, hg, e⟩ := hm
    simp only [Data.asFlts] at hf
    rw [hf] at hg
    cases hg
    simpa using e

/-- C64: the array that comes back is equal to the one that went, as the property
compares them. -/
theorem C64_equal {E : JEnv} (L : TextLaws E) (hrnd : ∀ i, E.rnd i ≠ .nan) {tol : Rat} (htol : 0 ≤ tol)
    (a : NArr) (t : DType) (hr : Regular a.shape) (hf : Filled a) (ht : OfType t a.data) :
    ∃ j b, toJson a = some j ∧ deserialize E t j = some b ∧ equal E tol a b = true := by
  obtain ⟨j, h1, h2⟩ := C64_round_trip L a t hr hf ht
  refine ⟨j, a, h1, h2, equal_refl htol hrnd a ?_⟩
  intro l e
  rw [e] at ht
  cases t <;> exact ht

mutual
theorem shapeOf_has {α : Type} : ∀ (v : Nest α) (s : List Nat), shapeOf v = some s → HasShape v s
  | .leaf a, s, h => by
      simp only [shapeOf, Option.some.injEq] at h
      subst h
      exact .leaf a
  | .node ns, s, h => by
      cases hs : shapesOf ns with
      | none =>
        simp only [shapeOf, hs] at h
        cases h
      | some ss =>
        obtain ⟨hl, hm⟩ := shapesOf_has ns ss hs
        cases ss with
        | nil =>
          simp only [shapeOf, hs, Option.some.injEq] at h
          subst h
          have : ns = [] := by simpa using hl.symm
          subst this
          exact .empty
        | cons t rest =>
          simp only [shapeOf, hs] at h
          split at h
          · rename_i ha
            simp only [Option.some.injEq] at h
            subst h
            have he : rest.length + 1 = ns.length := by simpa using hl
            rw [he]
            refine .node (by intro e; rw [e] at he; simp at he) ?_
            intro n hn
            obtain ⟨u, hu, hh⟩ := hm n hn
            rcases List.mem_cons.1 hu with e | e
            · rw [← e]; exact hh
            · have := List.all_eq_true.1 ha u e
              simp only [beq_iff_eq] at this
              rw [← this]; exact hh
          · cases h
theorem shapesOf_has {α : Type} : ∀ (ns : List (Nest α)) (ss : List (List Nat)),
    shapesOf ns = some ss → ss.length = ns.length ∧ ∀ n ∈ ns, ∃ s ∈ ss, HasShape n s
  | [], ss, h => by
      simp only [shapesOf, Option.some.injEq] at h
      subst h
      exact ⟨rfl, fun n hn => by cases hn⟩
  | n :: ns, ss, h => by
      cases h1 : shapeOf n with
      | none => simp only [shapesOf, h1] at h; cases h
      | some s =>
        cases h2 : shapesOf ns with
        | none => simp only [shapesOf, h1, h2] at h; cases h
        | some tt =>
          simp only [shapesOf, h1, h2, Option.some.injEq] at h
          subst h
          obtain ⟨hl, hm⟩ := shapesOf_has ns tt h2
          have h0 := shapeOf_has n s h1
          refine ⟨by simp [hl], ?_⟩
          intro m hmm
          rcases List.mem_cons.1 hmm with e | e
          · subst e
            exact ⟨s, by simp, h0⟩
          · obtain ⟨u, hu, hh⟩ := hm m e
            exact ⟨u, List.mem_cons_of_mem _ hu, hh⟩
end

theorem has_shapeOf {α : Type} {v : Nest α} {s : List Nat} (h : HasShape v s) : shapeOf v = some s := by
  induction h with
  | leaf a => rfl
  | empty => rfl
  | node hn _ ih => exact shapeOf_node hn ih

theorem has_length {α : Type} {v : Nest α} {s : List Nat} (h : HasShape v s) :
    (flat v).length = size s := by
  induction h with
  | leaf a => rfl
  | empty => rfl
  | @node ns s _ _ ih =>
    simp only [flat, flatL_eq, List.length_flatten, List.map_map, size]
    have : ns.map (List.length ∘ flat) = List.replicate ns.length (size s) :=
      List.eq_replicate_iff.2 ⟨by simp, fun k hk => by
        obtain ⟨n, hn, rfl⟩ := List.mem_map.1 hk
        exact ih n hn⟩
    rw [this]
    simp

theorem common_count (E : JEnv) (els : List El) : count (common E els) = els.length := by
  unfold common
  split
  · simp [count]
  · split
    · simp [count]
    · split
      · simp [count]
      · split
        · simp [count]
        · rename_i h1 h2 h3 h4
          cases els with
          | nil => rfl
          | cons e es => cases e <;> simp [El.isTxt, El.isFlt, El.isInt, El.isBool] at h1 h2 h3 h4

theorem parseAll_length {β : Type} (f : PyStr → Option β) : ∀ (l : List PyStr) (r : List β),
    parseAll f l = some r → r.length = l.length
  | [], r, h => by
      simp only [parseAll, Option.some.injEq] at h
      subst h
      rfl
  | s :: l, r, h => by
      cases h1 : f s with
      | none => simp only [parseAll, h1] at h; cases h
      | some x =>
        cases h2 : parseAll f l with
        | none => simp only [parseAll, h1, h2] at h; cases h
        | some xs =>
          simp only [parseAll, h1, h2, Option.some.injEq] at h
          subst h
          simp [parseAll_length f l xs h2]

theorem astype_count {E : JEnv} {t : DType} {d e : Data} (h : astype E t d = some e) :
    count e = count d ∧ OfType t e := by
  cases t <;> cases d <;> simp only [astype, Option.some.injEq, Option.map_eq_some_iff] at h <;>
    first
    | (subst h; exact ⟨by simp [count], trivial⟩)
    | (obtain ⟨l, hl, rfl⟩ := h; exact ⟨parseAll_length _ _ _ hl, trivial⟩)
    | cases h

/-- C64: whatever nested lists are read, the array that comes out has their shape,
an element for each of its positions, and the type declared first. -/
theorem C64_shape {E : JEnv} {t : DType} {v : Nest El} {a : NArr} (h : deserialize E t v = some a) :
    HasShape v a.shape ∧ Filled a ∧ OfType t a.data := by
  unfold deserialize npArray at h
  cases hs : shapeOf v with
  | none => simp only [hs] at h; cases h
  | some s =>
    simp only [hs, Option.map_eq_some_iff] at h
    obtain ⟨d, hd, rfl⟩ := h
    have hv := shapeOf_has v s hs
    obtain ⟨hc, ho⟩ := astype_count hd
    refine ⟨hv, ?_, ho⟩
    show count d = _
    rw [hc, common_count, has_length hv, size_eq]

/-- C64: lists of unequal lengths on one level are refused. -/
theorem C64_ragged (E : JEnv) (t : DType) {v : Nest El} (h : ∀ s, ¬ HasShape v s) :
    deserialize E t v = none := by
  cases hd : deserialize E t v with
  | none => rfl
  | some a => exact absurd (C64_shape hd).1 (h _)

mutual
theorem flat_elem {α : Type} : ∀ (v : Nest α) (a : α), a ∈ flat v → ∃ is, Elem v is a
  | .leaf b, a, h => by
      simp only [flat, List.mem_singleton] at h
      subst h
      exact ⟨[], .leaf a⟩
  | .node ns, a, h => by
      obtain ⟨i, n, is, hi, he⟩ := flatL_elem ns a (by simpa only [flat] using h)
      exact ⟨i :: is, .node hi he⟩
theorem flatL_elem {α : Type} : ∀ (ns : List (Nest α)) (a : α), a ∈ flatL ns →
    ∃ (i : Nat) (n : Nest α) (is : List Nat), ns[i]? = some n ∧ Elem n is a
  | [], a, h => by simp [flatL] at h
  | n :: ns, a, h => by
      simp only [flatL, List.mem_append] at h
      rcases h with h | h
      · obtain ⟨is, he⟩ := flat_elem n a h
        exact ⟨0, n, is, rfl, he⟩
      · obtain ⟨i, m, is, hi, he⟩ := flatL_elem ns a h
        exact ⟨i + 1, m, is, by simpa using hi, he⟩
end

theorem common_numbers (E : JEnv) {els : List El} (h : ∀ e ∈ els, e.isTxt = false) (l : List PyStr) :
    common E els ≠ .texts l := by
  have : els.any El.isTxt = false := by
    rw [List.any_eq_false]
    intro e he
    simp [h e he]
  unfold common
  rw [this]
  simp only [Bool.false_eq_true, if_false]
  split
  · simp
  · split
    · simp
    · split <;> simp

/-- C64: lists of numbers in one shape are always read. -/
theorem C64_reads (E : JEnv) (t : DType) {v : Nest El} {s : List Nat} (h : HasShape v s)
    (hx : ∀ is e, Elem v is e → e.isTxt = false) : ∃ d, deserialize E t v = some ⟨s, d⟩ := by
  have hn : ∀ e ∈ flat v, e.isTxt = false := fun e he =>
    let ⟨is, hi⟩ := flat_elem v e he
    hx is e hi
  have hc := common_numbers E hn
  unfold deserialize npArray
  simp only [has_shapeOf h, Option.map_eq_some_iff]
  cases hd : common E (flat v) with
  | texts l => exact absurd hd (hc l)
  | bools l => cases t <;> exact ⟨_, _, rfl, rfl⟩
  | ints l => cases t <;> exact ⟨_, _, rfl, rfl⟩
  | floats l => cases t <;> exact ⟨_, _, rfl, rfl⟩

theorem slices_lists {α : Type} {k : Nat} : ∀ (xss : List (List α)), (∀ xs ∈ xss, xs.length = k) →
    slices xss.length k xss.flatten = xss
  | [], _ => rfl
  | xs :: xss, h => by
      have h1 : xs.length = k := h xs (by simp)
      show ((xs :: xss).flatten.take k) :: slices xss.length k ((xs :: xss).flatten.drop k) = _
      rw [List.flatten_cons, ← h1, List.take_left, List.drop_left, h1,
        slices_lists xss fun ys hy => h ys (List.mem_cons_of_mem _ hy)]

/-- Nested lists of one shape are what the array of their elements gives. -/
theorem nest_flat {α : Type} {v : Nest α} {s : List Nat} (h : HasShape v s) : nest s (flat v) = v := by
  induction h with
  | leaf a => rfl
  | empty => rfl
  | @node ns s hne hs ih =>
    show Nest.node ((slices ns.length (size s) (flatL ns)).map (nest s)) = _
    have e : slices ns.length (size s) (flatL ns) = ns.map flat := by
      rw [flatL_eq]
      have := slices_lists (k := size s) (ns.map flat) (fun xs hx => by
        obtain ⟨n, hn, rfl⟩ := List.mem_map.1 hx
        exact has_length (hs n hn))
      rwa [List.length_map] at this
    rw [e, List.map_map]
    congr 1
    conv => rhs; rw [← List.map_id ns]
    exact List.map_congr_left fun n hn => ih n hn

theorem elem_map {α β : Type} (f : α → β) : ∀ (s : List Nat) (l : List α) (is : List Nat) (e : α),
    l.length = size s → Elem (nest s l) is e → Elem (nest s (l.map f)) is (f e)
  | [], l, is, e, hl, h => by
      match l, hl with
      | [x], _ =>
        cases h
        exact .leaf _
  | n :: s, l, is, e, hl, h => by
      cases h with
      | @node ns i m is a hi hm =>
        rw [List.getElem?_map, Option.map_eq_some_iff] at hi
        obtain ⟨xs, hx, rfl⟩ := hi
        have hlen := slices_mem n (size s) l hl xs (List.mem_of_getElem? hx)
        refine .node (n := nest s (xs.map f)) ?_ (elem_map f s xs is e hlen hm)
        rw [slices_map, List.map_map, List.getElem?_map, hx]
        rfl

theorem parse_showF {E : JEnv} (L : TextLaws E) (f : PyFloat) : E.parse (showF E f) = some f := by
  cases f with
  | fin q => exact L.fin q
  | nan => exact L.nan
  | pinf => exact L.pinf
  | ninf => exact L.ninf

theorem parseAll_map {α β : Type} (p : PyStr → Option β) (t : α → PyStr) (g : α → β) : ∀ (l : List α),
    (∀ a ∈ l, p (t a) = some (g a)) → parseAll p (l.map t) = some (l.map g)
  | [], _ => rfl
  | a :: l, h => by
      simp only [List.map_cons, parseAll]
      rw [h a (by simp), parseAll_map p t g l fun b hb => h b (List.mem_cons_of_mem _ hb)]

/-- The elements converted to floats. -/
theorem common_floats {E : JEnv} (L : TextLaws E) (I : IntLaws E) (els : List El) (g : El → PyFloat)
    (hg : ∀ e ∈ els, number E e = some (g e))
    (hb : (∃ t, El.txt t ∈ els) → ∀ b, El.bool b ∉ els) :
    astype E .float (common E els) = some (.floats (els.map g)) := by
  unfold common
  split
  · rename_i ht
    obtain ⟨e, he, h1⟩ := List.any_eq_true.1 ht
    have hnb := hb (by cases e <;> cases h1; exact ⟨_, he⟩)
    show (parseAll E.parse (els.map (El.asTxt E))).map Data.floats = _
    rw [parseAll_map E.parse (El.asTxt E) g els ?_]
    · rfl
    · intro a ha
      have := hg a ha
      cases a with
      | bool b => exact absurd ha (hnb b)
      | int i => exact (I.text i).trans this
      | flt f => exact (parse_showF L f).trans this
      | txt t => exact this
  · rename_i ht
    have nt : ∀ a ∈ els, a.isTxt = false := by
      intro a ha
      cases h : a.isTxt with
      | false => rfl
      | true => exact absurd (List.any_eq_true.2 ⟨a, ha, h⟩) ht
    split
    · show some (Data.floats (els.map (El.asFlt E))) = _
      congr 2
      refine List.map_congr_left fun a ha => ?_
      have h1 := hg a ha
      have h2 := nt a ha
      cases a with
      | bool b => cases b <;> exact Option.some.inj h1
      | int i => exact Option.some.inj h1
      | flt f => exact Option.some.inj h1
      | txt t => cases h2
    · rename_i hf
      have nf : ∀ a ∈ els, a.isFlt = false := by
        intro a ha
        cases h : a.isFlt with
        | false => rfl
        | true => exact absurd (List.any_eq_true.2 ⟨a, ha, h⟩) hf
      split
      · show some (Data.floats ((els.map El.asInt).map E.rnd)) = _
        rw [List.map_map]
        congr 2
        refine List.map_congr_left fun a ha => ?_
        have h1 := hg a ha
        have h2 := nt a ha
        have h3 := nf a ha
        cases a with
        | bool b =>
          cases b with
          | true => exact I.one.trans (Option.some.inj h1)
          | false => exact I.zero.trans (Option.some.inj h1)
        | int i => exact Option.some.inj h1
        | flt f => cases h3
        | txt t => cases h2
      · rename_i hi
        have ni : ∀ a ∈ els, a.isInt = false := by
          intro a ha
          cases h : a.isInt with
          | false => rfl
          | true => exact absurd (List.any_eq_true.2 ⟨a, ha, h⟩) hi
        split
        · show some (Data.floats ((els.map El.asBool).map fun b => if b then .fin 1 else .fin 0)) = _
          rw [List.map_map]
          congr 2
          refine List.map_congr_left fun a ha => ?_
          have h1 := hg a ha
          have h2 := nt a ha
          have h3 := nf a ha
          have h4 := ni a ha
          cases a with
          | bool b => cases b <;> exact Option.some.inj h1
          | int i => cases h4
          | flt f => cases h3
          | txt t => cases h2
        · rename_i hbo
          have : els = [] := by
            cases els with
            | nil => rfl
            | cons a els =>
              have h2 := nt a (by simp)
              have h3 := nf a (by simp)
              have h4 := ni a (by simp)
              cases a with
              | bool b => exact absurd (List.any_eq_true.2 ⟨.bool b, by simp, rfl⟩) hbo
              | int i => cases h4
              | flt f => cases h3
              | txt t => cases h2
          subst this
          rfl

/-- C64: a float array read from nested lists of numbers has at each place the number that stands
there, be it written as a bool, an integer, a float or text (bools do not mix with text). -/
theorem C64_values {E : JEnv} (L : TextLaws E) (I : IntLaws E) {v : Nest El} {s : List Nat} (hs : HasShape v s)
    (hx : ∀ is e, Elem v is e → ∃ x, number E e = some x)
    (hb : (∃ is t, Elem v is (.txt t)) → ∀ is b, ¬ Elem v is (.bool b)) :
    ∃ a, deserialize E .float v = some a ∧ a.shape = s ∧
      ∀ is e x, Elem v is e → number E e = some x → Elem (tolist a) is (.flt x) := by
  have hg : ∀ e ∈ flat v, number E e = some ((number E e).getD .nan) := by
    intro e he
    obtain ⟨is, hi⟩ := flat_elem v e he
    obtain ⟨x, hx⟩ := hx is e hi
    rw [hx]
    rfl
  have hc := common_floats L I (flat v) (fun e => (number E e).getD .nan) hg (by
    rintro ⟨t, ht⟩ b hbm
    obtain ⟨is, hi⟩ := flat_elem v _ ht
    obtain ⟨js, hj⟩ := flat_elem v _ hbm
    exact hb ⟨is, t, hi⟩ js b hj)
  refine ⟨⟨s, .floats ((flat v).map fun e => (number E e).getD .nan)⟩, ?_, rfl, ?_⟩
  · unfold deserialize npArray
    simp only [has_shapeOf hs]
    rw [hc]
    rfl
  · intro is e x he hn
    have h1 : Elem (nest s (flat v)) is e := by rw [nest_flat hs]; exact he
    have h2 := elem_map (fun e => El.flt ((number E e).getD .nan)) s (flat v) is e (has_length hs) h1
    have h3 : El.flt ((number E e).getD .nan) = .flt x := by rw [hn]; rfl
    rw [h3] at h2
    unfold tolist
    show Elem (nest s (((flat v).map fun e => (number E e).getD .nan).map El.flt)) is (.flt x)
    rw [List.map_map]
    exact h2

theorem parseAll_none {β : Type} (p : PyStr → Option β) : ∀ (l : List PyStr) (t : PyStr), t ∈ l → p t = none →
    parseAll p l = none
  | s :: l, t, h, hp => by
      unfold parseAll
      rcases List.mem_cons.1 h with rfl | h
      · rw [hp]
      · rw [parseAll_none p l t h hp]
        cases p s <;> rfl

/-- C64: text that is not a number is refused. -/
theorem C64_no_number {E : JEnv} {v : Nest El} {is : List Nat} {t : PyStr} (h : Elem v is (.txt t))
    (hp : E.parse t = none) : deserialize E .float v = none := by
  unfold deserialize npArray
  cases shapeOf v with
  | none => rfl
  | some s =>
    have hm := elem_flat h
    have ha : (flat v).any El.isTxt = true := List.any_eq_true.2 ⟨_, hm, rfl⟩
    have : common E (flat v) = .texts ((flat v).map (El.asTxt E)) := by
      unfold common
      rw [if_pos ha]
    simp only [this]
    show ((parseAll E.parse _).map Data.floats).map _ = none
    rw [parseAll_none E.parse _ t (List.mem_map.2 ⟨_, hm, rfl⟩) hp]
    rfl

/-! ### Examples -/

/-- Two rows, of two elements and of one. -/
theorem C64_ragged_example : ∀ s, ¬ HasShape
    (.node [.node [.leaf (El.int 1), .leaf (.int 2)], .node [.leaf (.int 3)]]) s := by
  intro s h
  have := has_shapeOf h
  simp [shapeOf, shapesOf] at this

/-- Two rows of two. -/
theorem C64_shape_example : HasShape
    (.node [.node [.leaf (El.int 1), .leaf (.int 2)], .node [.leaf (.int 3), .leaf (.int 4)]]) [2, 2] :=
  shapeOf_has _ _ (by decide +kernel)

/-- Numbers are written as a sign and digits of numerator and denominator. -/
def digits (n : Nat) : PyStr := List.replicate n 'I'

def signOf : PyStr → Int
  | '-' :: _ => -1
  | _ => 1

def demoEnv : JEnv where
  rnd i := .fin i
  show_ q := (if q.num < 0 then ['-'] else ['+']) ++ digits q.num.natAbs ++ ['/'] ++ digits q.den
  showI _ := []
  showB _ := []
  parse s :=
    if s = s% "nan" then some .nan
    else if s = s% "inf" then some .pinf
    else if s = s% "-inf" then some .ninf
    else
      let n := (s.takeWhile (· != '/')).length - 1
      let d := s.length - n - 2
      some (.fin (mkRat (signOf s * n) d))
  parseI _ := none
  trunc _ := 0

theorem digits_len (n : Nat) : (digits n).length = n := by simp [digits]

/-- The laws can be met. -/
theorem demo_laws : TextLaws demoEnv where
  nan := by decide
  pinf := by decide
  ninf := by decide
  fin q := by
    have key : ∀ (c : Char), c ≠ '/' → ∀ a b : Nat,
        ((c :: (digits a ++ '/' :: digits b)).takeWhile (· != '/')).length - 1 = a := by
      intro c hc a b
      have h1 : ∀ a, ((digits a ++ '/' :: digits b).takeWhile (· != '/')).length = a := by
        intro a
        induction a with
        | zero => rfl
        | succ a ih => simpa [digits, List.replicate_succ] using ih
      have : (c != '/') = true := by simp [hc]
      simp [this, h1 a]
    have hrat : mkRat q.num q.den = q := Rat.mkRat_self q
    simp only [demoEnv]
    by_cases hq : q.num < 0
    · simp only [hq, if_true]
      have e : (['-'] ++ digits q.num.natAbs ++ ['/'] ++ digits q.den : PyStr) =
          '-' :: (digits q.num.natAbs ++ '/' :: digits q.den) := by simp
      rw [e]
      have n1 : ¬ ('-' :: (digits q.num.natAbs ++ '/' :: digits q.den) : PyStr) = s% "nan" := by
        intro h; simp at h
      have n2 : ¬ ('-' :: (digits q.num.natAbs ++ '/' :: digits q.den) : PyStr) = s% "inf" := by
        intro h; simp at h
      have n3 : ¬ ('-' :: (digits q.num.natAbs ++ '/' :: digits q.den) : PyStr) = s% "-inf" := by
        intro h
        simp only [List.cons.injEq, true_and] at h
        cases hk : q.num.natAbs with
        | zero => rw [hk] at h; simp [digits] at h
        | succ k => rw [hk] at h; simp [digits, List.replicate_succ] at h
      rw [if_neg n1, if_neg n2, if_neg n3, key '-' (by decide)]
      have hs : signOf ('-' :: (digits q.num.natAbs ++ '/' :: digits q.den)) = -1 := rfl
      simp only [hs, List.length_cons, List.length_append, digits_len]
      have h2 : q.num.natAbs + (q.den + 1) + 1 - q.num.natAbs - 2 = q.den := by omega
      have h3 : (-1 : Int) * (q.num.natAbs : Int) = q.num := by omega
      rw [h2, h3, hrat]
    · simp only [hq, if_false]
      have e : (['+'] ++ digits q.num.natAbs ++ ['/'] ++ digits q.den : PyStr) =
          '+' :: (digits q.num.natAbs ++ '/' :: digits q.den) := by simp
      rw [e]
      have n1 : ¬ ('+' :: (digits q.num.natAbs ++ '/' :: digits q.den) : PyStr) = s% "nan" := by
        intro h; simp at h
      have n2 : ¬ ('+' :: (digits q.num.natAbs ++ '/' :: digits q.den) : PyStr) = s% "inf" := by
        intro h; simp at h
      have n3 : ¬ ('+' :: (digits q.num.natAbs ++ '/' :: digits q.den) : PyStr) = s% "-inf" := by
        intro h; simp at h
      rw [if_neg n1, if_neg n2, if_neg n3, key '+' (by decide)]
      have hs : signOf ('+' :: (digits q.num.natAbs ++ '/' :: digits q.den)) = 1 := by simp [signOf]
      simp only [hs, List.length_cons, List.length_append, digits_len]
      have h2 : q.num.natAbs + (q.den + 1) + 1 - q.num.natAbs - 2 = q.den := by omega
      have h3 : (1 : Int) * (q.num.natAbs : Int) = q.num := by omega
      rw [h2, h3, hrat]

/-- Whole numbers are written as the floats. -/
def demoEnv2 : JEnv := { demoEnv with showI := fun i => demoEnv.show_ i }

theorem demo_laws2 : TextLaws demoEnv2 ∧ IntLaws demoEnv2 :=
  ⟨⟨demo_laws.fin, demo_laws.nan, demo_laws.pinf, demo_laws.ninf⟩,
    ⟨fun i => demo_laws.fin i, rfl, rfl⟩⟩

/-- `[[1, "nan"], [-inf, 0.5]]` and `[[True, 2], [False, 0.5]]` meet the hypotheses. -/
theorem C64_values_example :
    (deserialize demoEnv2 .float (.node [.node [.leaf (.int 1), .leaf (.txt (s% "nan"))],
        .node [.leaf (.flt .ninf), .leaf (.flt (.fin (1 / 2)))]])).map NArr.data =
      some (.floats [.fin 1, .nan, .ninf, .fin (1 / 2)]) ∧
    (deserialize demoEnv2 .float (.node [.node [.leaf (.bool true), .leaf (.int 2)],
        .node [.leaf (.bool false), .leaf (.flt (.fin (1 / 2)))]])).map NArr.data =
      some (.floats [.fin 1, .fin 2, .fin 0, .fin (1 / 2)]) := by
  constructor <;> decide +kernel

/-- A 2 x 2 array with NaN and infinity. -/
def demoArr : NArr := ⟨[2, 2], .floats [.fin 1, .nan, .ninf, .fin (1 / 2)]⟩

theorem C64_example : Regular demoArr.shape ∧ Filled demoArr ∧ OfType .float demoArr.data ∧
    toJson demoArr = some (.node [.node [.leaf (.flt (.fin 1)), .leaf (.txt (s% "nan"))],
      .node [.leaf (.txt (s% "-inf")), .leaf (.flt (.fin (1 / 2)))]]) :=
  ⟨⟨by decide, trivial⟩, rfl, trivial, rfl⟩

/-- An array of no rows of three comes back without the three. -/
theorem C64_no_rows : Filled ⟨[0, 3], .floats []⟩ ∧
    toJson ⟨[0, 3], .floats []⟩ = some (.node []) ∧
    deserialize demoEnv .float (.node []) = some ⟨[0], .floats []⟩ :=
  ⟨rfl, rfl, rfl⟩

end Verif.ArrJson
