import Verif.Spec.ArrayMessages
import Verif.Props.C53
import Verif.Props.C79
import Verif.Props.C90

/-!
# C97: what descriptions and error messages of arrays say
-/

namespace Verif.ArrMsg
open Verif.Arr Verif.ArrDecl Verif.ArrDecl.Spec Verif.Spec.ArrMsg

/-! ## Joined texts -/

/-- Non-empty texts without the first character of the separator can be told apart after joining. -/
theorem join_inj {c : Char} {sep : PyStr} : ∀ {xs ys : List PyStr}, (∀ x ∈ xs, x ≠ [] ∧ ∀ d ∈ x, d ≠ c) →
    (∀ y ∈ ys, y ≠ [] ∧ ∀ d ∈ y, d ≠ c) → Msg.join (c :: sep) xs = Msg.join (c :: sep) ys → xs = ys
  | [], [], _, _, _ => rfl
  | [], [y], _, hy, h => absurd h.symm (hy y (by simp)).1
  | [], y :: z :: ys, _, hy, h => by
      simp only [Msg.join] at h
      cases y with
      | nil => exact absurd rfl (hy [] (by simp)).1
      | cons d y => cases h
  | [x], [], hx, _, h => absurd h (hx x (by simp)).1
  | [x], [y], _, _, h => by simp only [Msg.join] at h; rw [h]
  | [x], y :: z :: ys, hx, _, h => by
      simp only [Msg.join] at h
      exact absurd rfl ((hx x (by simp)).2 c (by rw [h]; simp))
  | x :: z :: xs, [], hx, _, h => by
      simp only [Msg.join] at h
      cases x with
      | nil => exact absurd rfl (hx [] (by simp)).1
      | cons d x => cases h
  | x :: z :: xs, [y], _, hy, h => by
      simp only [Msg.join] at h
      exact absurd rfl ((hy y (by simp)).2 c (by rw [← h]; simp))
  | x :: z :: xs, y :: z' :: ys, hx, hy, h => by
      simp only [Msg.join, List.append_assoc, List.cons_append] at h
      obtain ⟨h1, h2⟩ := Msg.split_first (hx x (by simp)).2 (hy y (by simp)).2 h
      have h3 := join_inj (xs := z :: xs) (ys := z' :: ys) (fun x hx' => hx x (List.mem_cons_of_mem _ hx'))
        (fun y hy' => hy y (List.mem_cons_of_mem _ hy')) (List.append_cancel_left h2)
      rw [h1, h3]

theorem join_chars {P : Char → Prop} {sep : PyStr} (hs : ∀ d ∈ sep, P d) : ∀ {xs : List PyStr},
    (∀ x ∈ xs, ∀ d ∈ x, P d) → ∀ d ∈ Msg.join sep xs, P d
  | [], _, d, hd => by cases hd
  | [x], h, d, hd => h x (by simp) d hd
  | x :: z :: xs, h, d, hd => by
      simp only [Msg.join, List.mem_append] at hd
      rcases hd with (hd | hd) | hd
      · exact h x (by simp) d hd
      · exact hs d hd
      · exact join_chars hs (fun y hy => h y (List.mem_cons_of_mem _ hy)) d hd

theorem map_inj {α β : Type} {f : α → β} (hf : ∀ a b, f a = f b → a = b) : ∀ {xs ys : List α},
    xs.map f = ys.map f → xs = ys
  | [], [], _ => rfl
  | [], _ :: _, h => by cases h
  | _ :: _, [], h => by cases h
  | x :: xs, y :: ys, h => by
      simp only [List.map_cons, List.cons.injEq] at h
      rw [hf _ _ h.1, map_inj hf h.2]

/-! ## Shapes -/

theorem dim_inj {T : ATexts} (hT : Readable T) : ∀ a b, dimText T a = dimText T b → a = b
  | .any, .any, _ => rfl
  | .any, .exactly i, h => absurd rfl ((hT.chars i '\\' (by
      have h : s% "\\*" = T.int i := h
      rw [← h]; simp)).2.2)
  | .exactly i, .any, h => absurd rfl ((hT.chars i '\\' (by
      have h : T.int i = s% "\\*" := h
      rw [h]; simp)).2.2)
  | .exactly i, .exactly j, h => by rw [hT.inj i j h]

theorem dim_chars {T : ATexts} (hT : Readable T) (a : Dim) : dimText T a ≠ [] ∧ ∀ d ∈ dimText T a, d ≠ ',' ∧ d ≠ ')' := by
  cases a with
  | any => exact ⟨by simp [dimText], by simp [dimText]⟩
  | exactly i => exact ⟨hT.some i, fun d hd => ⟨(hT.chars i d hd).1, (hT.chars i d hd).2.1⟩⟩

theorem dims_inj {T : ATexts} (hT : Readable T) {s t : List Dim}
    (h : Msg.join (s% ", ") (s.map (dimText T)) = Msg.join (s% ", ") (t.map (dimText T))) : s = t := by
  have hx : ∀ s : List Dim, ∀ x ∈ s.map (dimText T), x ≠ [] ∧ ∀ d ∈ x, d ≠ ',' := by
    intro s x hx
    obtain ⟨a, _, rfl⟩ := List.mem_map.1 hx
    exact ⟨(dim_chars hT a).1, fun d hd => ((dim_chars hT a).2 d hd).1⟩
  exact map_inj (dim_inj hT) (join_inj (hx s) (hx t) h)

theorem dims_chars {T : ATexts} (hT : Readable T) (s : List Dim) :
    ∀ d ∈ Msg.join (s% ", ") (s.map (dimText T)), d ≠ ')' := by
  refine join_chars (P := fun d => d ≠ ')') (by decide) ?_
  intro x hx
  obtain ⟨a, _, rfl⟩ := List.mem_map.1 hx
  exact fun d hd => ((dim_chars hT a).2 d hd).2

theorem tuple_cut {T : ATexts} (hT : Readable T) {s t : List Dim} {x y : PyStr}
    (h : tupleText T s ++ x = tupleText T t ++ y) : s = t ∧ x = y := by
  unfold tupleText at h
  simp only [List.append_assoc] at h
  have h := List.append_cancel_left h
  obtain ⟨h1, h2⟩ := Msg.split_first (c := ')') (dims_chars hT s) (dims_chars hT t) h
  exact ⟨dims_inj hT h1, h2⟩

theorem tuples_inj {T : ATexts} (hT : Readable T) : ∀ {s t : List (List Dim)},
    Msg.join (s% " or ") (s.map (tupleText T)) = Msg.join (s% " or ") (t.map (tupleText T)) → s = t
  | [], [], _ => rfl
  | [], [b], h => by cases h
  | [], b :: b' :: t, h => by cases h
  | [a], [], h => by cases h
  | a :: a' :: s, [], h => by cases h
  | [a], [b], h => by
      have h' : tupleText T a ++ [] = tupleText T b ++ [] := by simpa [Msg.join] using h
      rw [(tuple_cut hT h').1]
  | [a], b :: b' :: t, h => by
      have h' : tupleText T a ++ [] = tupleText T b ++ (s% " or " ++ Msg.join (s% " or ") ((b' :: t).map (tupleText T))) := by
        simpa [Msg.join] using h
      cases (tuple_cut hT h').2
  | a :: a' :: s, [b], h => by
      have h' : tupleText T a ++ (s% " or " ++ Msg.join (s% " or ") ((a' :: s).map (tupleText T))) = tupleText T b ++ [] := by
        simpa [Msg.join] using h
      cases (tuple_cut hT h').2
  | a :: a' :: s, b :: b' :: t, h => by
      have h' : tupleText T a ++ (s% " or " ++ Msg.join (s% " or ") ((a' :: s).map (tupleText T))) =
          tupleText T b ++ (s% " or " ++ Msg.join (s% " or ") ((b' :: t).map (tupleText T))) := by
        simpa [Msg.join] using h
      obtain ⟨h1, h2⟩ := tuple_cut hT h'
      rw [h1, tuples_inj hT (s := a' :: s) (t := b' :: t) (List.append_cancel_left h2)]

theorem shapes_inj {T : ATexts} (hT : Readable T) {s t : Option (List (List Dim))}
    (h : shapesText T s = shapesText T t) : s = t := by
  cases s with
  | none =>
    cases t with
    | none => rfl
    | some t => simp [shapesText] at h
  | some s =>
    cases t with
    | none => simp [shapesText] at h
    | some t => rw [tuples_inj hT (List.append_cancel_left h)]

/-! ## Descriptions -/

theorem type_inj : ∀ a b, typeText a = typeText b → a = b := by
  intro a b
  cases a <;> cases b <;> decide

theorem type_chars (a : DType) : typeText a ≠ [] ∧ ∀ d ∈ typeText a, d ≠ ',' ∧ d ≠ 'w' := by
  cases a <;> decide

theorem types_inj {s t : List DType}
    (h : Msg.join (s% ", ") (s.map typeText) = Msg.join (s% ", ") (t.map typeText)) : s = t := by
  have hx : ∀ s : List DType, ∀ x ∈ s.map typeText, x ≠ [] ∧ ∀ d ∈ x, d ≠ ',' := by
    intro s x hx
    obtain ⟨a, _, rfl⟩ := List.mem_map.1 hx
    exact ⟨(type_chars a).1, fun d hd => ((type_chars a).2 d hd).1⟩
  exact map_inj type_inj (join_inj (hx s) (hx t) h)

theorem types_chars (s : List DType) : ∀ d ∈ Msg.join (s% ", ") (s.map typeText) ++ s% " ", d ≠ 'w' := by
  intro d hd
  rcases List.mem_append.1 hd with hd | hd
  · refine join_chars (P := fun d => d ≠ 'w') (sep := s% ", ") (by decide) ?_ d hd
    intro x hx
    obtain ⟨a, _, rfl⟩ := List.mem_map.1 hx
    exact fun d hd => ((type_chars a).2 d hd).2
  · simp at hd; subst hd; decide

theorem class_cut {a b : Cls} {x y : PyStr} (h : classText a ++ s% " of " ++ x = classText b ++ s% " of " ++ y) :
    a = b ∧ x = y := by
  cases a <;> cases b <;> simp [classText] at h <;> exact ⟨rfl, h⟩

theorem info_inj {T : ATexts} (hT : Readable T) {c d : Cfg} (h : info T c = info T d) :
    c.cls = d.cls ∧ c.dtypes = d.dtypes ∧ c.shapes = d.shapes := by
  unfold info at h
  simp only [List.append_assoc] at h
  simp only [← List.append_assoc (classText _)] at h
  obtain ⟨h1, h2⟩ := class_cut h
  have e : ∀ (t : List DType) (z : PyStr), Msg.join (s% ", ") (t.map typeText) ++ (s% " with " ++ z) =
      (Msg.join (s% ", ") (t.map typeText) ++ s% " ") ++ 'w' :: (s% "ith " ++ z) := fun t z => by simp
  rw [e, e] at h2
  obtain ⟨h3, h4⟩ := Msg.split_first (c := 'w') (types_chars _) (types_chars _) h2
  exact ⟨h1, types_inj (List.append_cancel_right h3), shapes_inj hT (List.append_cancel_left h4)⟩

/-- **C97**.  The description of an array or vector property says which class, types and shapes it was declared
with: two declarations, by whatever settings, with the same description and the same coercion accept the same
values, with the same results and errors. -/
theorem C97_described {T : ATexts} (hT : Readable T) (rnd rnd' : Rat → PyFloat) (k k' : Cls) (l l' : List Setting)
    (h : info T (assignAll rnd l { cls := k }) = info T (assignAll rnd' l' { cls := k' })) :
    k = k' ∧
    (∀ ns, ShapeOk rnd k l ns ↔ ShapeOk rnd' k' l' ns) ∧ (∀ e, KindOk rnd k l e ↔ KindOk rnd' k' l' e) ∧
    ((∀ b, Coerces rnd k l b ↔ Coerces rnd' k' l' b) → ∀ (E : AEnv) (v : Input),
      validateArray E (assignAll rnd l { cls := k }).prop v = validateArray E (assignAll rnd' l' { cls := k' }).prop v) := by
  obtain ⟨h1, h2, h3⟩ := info_inj hT h
  have hk : k = k' := by rw [assignAll_cls, assignAll_cls] at h1; exact h1
  refine ⟨hk, fun ns => ?_, fun e => ?_, fun hc E v => ?_⟩
  · rw [← C79_shape, ← C79_shape, h3]
  · rw [← C79_dtype, ← C79_dtype, h2]
  · have h4 : (assignAll rnd l { cls := k }).coerce.getD true = (assignAll rnd' l' { cls := k' }).coerce.getD true :=
      ((C79_coerce rnd' k' l' _).2 ((hc _).1 ((C79_coerce rnd k l _).1 rfl))).symm
    unfold Cfg.prop
    rw [h1, h2, h3, h4]

/-! ## Refusals -/

theorem check_agrees (E : AEnv) (p : AProp) (a : NArr) :
    (checkSays E p (.array a)).mapError Refusal.err = checkArray E p a := by
  unfold checkSays checkArray
  dsimp only
  split
  · split
    · cases p.shape with
      | none => rfl
      | some ss => dsimp only; split <;> rfl
    · rfl
  · rfl

/-- The checks with messages accept and refuse what `validate` does, with the same errors. -/
theorem array_agrees (E : AEnv) (p : AProp) (v : Input) :
    (arraySays E p v).mapError Refusal.err = validateArray E p v := by
  have wrapped : ∀ v, (match E.wrap p.cls v with
      | .error e => Except.error (Refusal.raised e)
      | .ok a => checkSays E p (.array a)).mapError Refusal.err =
      match E.wrap p.cls v with
      | .error e => .error e
      | .ok a => checkArray E p a := by
    intro v
    cases E.wrap p.cls v with
    | error e => rfl
    | ok a => exact check_agrees E p a
  unfold arraySays validateArray
  cases v with
  | text s => rfl
  | other => rfl
  | list l =>
    simp only [listLike, if_true]
    split
    · exact wrapped _
    · rfl
  | tuple l =>
    simp only [listLike, if_true]
    split
    · exact wrapped _
    · rfl
  | array a =>
    simp only [listLike, if_true]
    split
    · exact wrapped _
    · exact check_agrees E p a

/-- The checks with messages accept and refuse what `BaseVector.validate` does, with the same errors. -/
theorem C97_agrees (E : AEnv) (p : AProp) (length : Option ℝ) (v : Input) :
    (arraySays E p v).mapError Refusal.err = validateArray E p v ∧
    (vectorSays E p length v).mapError Refusal.err = validateVector E p length v := by
  refine ⟨array_agrees E p v, ?_⟩
  have h := array_agrees E p v
  unfold vectorSays validateVector
  rw [← h]
  cases arraySays E p v with
  | error e => rfl
  | ok a =>
    simp only [Except.mapError]
    cases length with
    | none => rfl
    | some len =>
      dsimp only
      cases Arr.setLength a len <;> rfl

theorem check_reason (E : AEnv) (p : AProp) (v u : Input) (e : AErr) (x : PyStr) (hl : Arraylike v) :
    checkSays E p v = .error (.says u e x) ↔ u = v ∧ e = .validation ∧ Reason E p v x := by
  cases hl with
  | list l =>
    simp only [checkSays, Except.error.injEq, Refusal.says.injEq]
    constructor
    · rintro ⟨rfl, rfl, rfl⟩; exact ⟨rfl, rfl, .list l⟩
    · rintro ⟨rfl, rfl, h⟩; cases h; exact ⟨rfl, rfl, rfl⟩
  | tuple l =>
    simp only [checkSays, Except.error.injEq, Refusal.says.injEq]
    constructor
    · rintro ⟨rfl, rfl, rfl⟩; exact ⟨rfl, rfl, .tuple l⟩
    · rintro ⟨rfl, rfl, h⟩; cases h; exact ⟨rfl, rfl, rfl⟩
  | array a =>
    have hk := kinds_iff p.dtype a.kind
    unfold checkSays
    dsimp only
    by_cases h1 : E.sub a.cls p.cls = true
    · rw [if_pos h1]
      by_cases h2 : (p.dtype.flatMap kindsOf).contains a.kind = true
      · rw [if_pos h2]
        cases hs : p.shape with
        | none =>
          dsimp only
          constructor
          · intro h; cases h
          · rintro ⟨rfl, rfl, h⟩
            cases h with
            | cls _ h => rw [h1] at h; cases h
            | dtype _ _ h => obtain ⟨t, ht, h'⟩ := hk.1 h2; exact absurd h' (h t ht)
            | shape _ ss _ _ h => rw [hs] at h; cases h
        | some ss =>
          dsimp only
          by_cases h3 : someShape ss a = true
          · rw [if_pos h3]
            constructor
            · intro h; cases h
            · rintro ⟨rfl, rfl, h⟩
              cases h with
              | cls _ h => rw [h1] at h; cases h
              | dtype _ _ h => obtain ⟨t, ht, h'⟩ := hk.1 h2; exact absurd h' (h t ht)
              | shape _ ss' _ _ h h' =>
                rw [hs] at h; cases h
                exact absurd ((someShape_iff a ss).1 h3) h'
          · rw [if_neg h3]
            simp only [Except.error.injEq, Refusal.says.injEq]
            constructor
            · rintro ⟨rfl, rfl, rfl⟩
              exact ⟨rfl, rfl, .shape a ss h1 (hk.1 h2) hs fun h => h3 ((someShape_iff a ss).2 h)⟩
            · rintro ⟨rfl, rfl, h⟩
              refine ⟨rfl, rfl, ?_⟩
              cases h with
              | cls _ h => rw [h1] at h; cases h
              | dtype _ _ h => obtain ⟨t, ht, h'⟩ := hk.1 h2; exact absurd h' (h t ht)
              | shape => rfl
      · rw [if_neg h2]
        simp only [Except.error.injEq, Refusal.says.injEq]
        constructor
        · rintro ⟨rfl, rfl, rfl⟩
          exact ⟨rfl, rfl, .dtype a h1 fun t ht h => h2 (hk.2 ⟨t, ht, h⟩)⟩
        · rintro ⟨rfl, rfl, h⟩
          refine ⟨rfl, rfl, ?_⟩
          cases h with
          | cls _ h => rw [h1] at h; cases h
          | dtype => rfl
          | shape _ ss _ h => exact absurd (hk.2 h) h2
    · rw [if_neg h1]
      simp only [Except.error.injEq, Refusal.says.injEq]
      constructor
      · rintro ⟨rfl, rfl, rfl⟩
        exact ⟨rfl, rfl, .cls a (by simpa using h1)⟩
      · rintro ⟨rfl, rfl, h⟩
        refine ⟨rfl, rfl, ?_⟩
        cases h with
        | cls => rfl
        | dtype _ h => exact absurd h h1
        | shape _ ss h => exact absurd h h1

/-- **C97**.  A refusal names the check that failed: `Invalid dtype.` exactly if the checked array is of the right
class and of none of the declared types, `Invalid shape.` exactly if the types are right and no declared shape
fits, and nothing more for other values.  The value the message is about is the given one only if it is no list,
tuple or array or if nothing is coerced; otherwise it is the array that the constructor made. -/
theorem C97_reason (E : AEnv) (p : AProp) (v u : Input) (e : AErr) (x : PyStr) :
    arraySays E p v = .error (.says u e x) ↔
      e = .validation ∧ ((¬ Arraylike v ∧ u = v ∧ x = []) ∨ (Arraylike v ∧ Checked E p v u ∧ Reason E p u x)) := by
  have notlike : listLike v = false → ¬ Arraylike v := fun h h' => by cases h' <;> cases h
  have like : listLike v = true → Arraylike v := fun h => by
    cases v with
    | list l => exact .list l
    | tuple l => exact .tuple l
    | array a => exact .array a
    | text s => cases h
    | other => cases h
  unfold arraySays
  cases hl : listLike v with
  | false =>
    rw [if_neg (by simp)]
    simp only [Except.error.injEq, Refusal.says.injEq]
    constructor
    · rintro ⟨rfl, rfl, rfl⟩
      exact ⟨rfl, .inl ⟨notlike hl, rfl, rfl⟩⟩
    · rintro ⟨rfl, ⟨_, rfl, rfl⟩ | ⟨h, _⟩⟩
      · exact ⟨rfl, rfl, rfl⟩
      · exact absurd h (notlike hl)
  | true =>
    rw [if_pos rfl]
    cases hc : p.coerce with
    | false =>
      rw [if_neg (by simp), check_reason E p v u e x (like hl)]
      constructor
      · rintro ⟨rfl, rfl, h⟩
        exact ⟨rfl, .inr ⟨like hl, .inr ⟨hc, rfl⟩, h⟩⟩
      · rintro ⟨rfl, ⟨h, _⟩ | ⟨_, ⟨h, _⟩ | ⟨_, rfl⟩, h'⟩⟩
        · exact absurd (like hl) h
        · rw [hc] at h; cases h
        · exact ⟨rfl, rfl, h'⟩
    | true =>
      rw [if_pos rfl]
      cases hw : E.wrap p.cls v with
      | error e' =>
        dsimp only
        constructor
        · intro h; cases h
        · rintro ⟨rfl, ⟨h, _⟩ | ⟨_, ⟨_, a, h, _⟩ | ⟨h, _⟩, h'⟩⟩
          · exact absurd (like hl) h
          · rw [hw] at h; cases h
          · rw [hc] at h; cases h
      | ok a =>
        dsimp only
        rw [check_reason E p (.array a) u e x (.array a)]
        constructor
        · rintro ⟨rfl, rfl, h⟩
          exact ⟨rfl, .inr ⟨like hl, .inl ⟨hc, a, hw, rfl⟩, h⟩⟩
        · rintro ⟨rfl, ⟨h, _⟩ | ⟨_, ⟨_, a', h, rfl⟩ | ⟨h, _⟩, h'⟩⟩
          · exact absurd (like hl) h
          · rw [hw] at h; cases h
            exact ⟨rfl, rfl, h'⟩
          · rw [hc] at h; cases h

/-- **C97**.  A vector that passes the checks of arrays is refused with a message exactly if it is to be scaled and
has length zero; the message is about the vector made and says that it needs a length. -/
theorem C97_no_length (E : AEnv) (p : AProp) (length : Option ℝ) (v : Input) (a : NArr)
    (h : validateArray E p v = .ok a) (u : Input) (e : AErr) (x : PyStr) :
    vectorSays E p length v = .error (.says u e x) ↔
      (∃ len, length = some len) ∧ (∃ w ∈ vectors a, norm w = 0) ∧ u = .array a ∧ e = .zeroDiv ∧
      x = s% "The vector must have a length specified." := by
  have h0 : arraySays E p v = .ok a := by
    have := array_agrees E p v
    rw [h] at this
    cases hs : arraySays E p v with
    | error e => rw [hs] at this; cases this
    | ok b => rw [hs] at this; cases this; rfl
  unfold vectorSays
  rw [h0]
  dsimp only
  cases length with
  | none => simp
  | some len =>
    dsimp only
    unfold Arr.setLength
    by_cases hz : ∀ w ∈ vectors a, norm w ≠ 0
    · rw [if_pos hz]
      dsimp only
      constructor
      · intro h; cases h
      · rintro ⟨_, ⟨w, hw, h⟩, _⟩
        exact absurd h (hz w hw)
    · rw [if_neg hz]
      simp only [Except.error.injEq, Refusal.says.injEq]
      constructor
      · rintro ⟨rfl, rfl, rfl⟩
        refine ⟨⟨len, rfl⟩, ?_, rfl, rfl, rfl⟩
        simpa using hz
      · rintro ⟨_, _, rfl, rfl, rfl⟩
        exact ⟨rfl, rfl, rfl⟩

/-! ## What a message is about -/

/-- **C97**.  A message about a list, tuple or array assigned to an instance tells the name of the property and the
class of the instance. -/
theorem C97_subject {T T' : ATexts} {c c' : Cfg} {name name' k k' : PyStr} {v v' : Input} {r r' t t' x x' : PyStr}
    (hv : Arraylike v) (hv' : Arraylike v') (hn : Spec.Msg.Name name) (hn' : Spec.Msg.Name name')
    (hk : Spec.Msg.Name k) (hk' : Spec.Msg.Name k')
    (h : errorText T c name (some k) v r t x = errorText T' c' name' (some k') v' r' t' x') :
    name = name' ∧ k = k' := by
  have e : ∀ (T : ATexts) (c : Cfg) (name k : PyStr) (v : Input) (r t x : PyStr), Arraylike v →
      ∃ z, errorText T c name (some k) v r t x = s% "The '" ++ (name ++ '\'' :: (s% " property of a " ++ (k ++ ' ' :: z))) := by
    intro T c name k v r t x hv
    have : ∃ d, describe T v = some d := by cases hv <;> exact ⟨_, rfl⟩
    obtain ⟨d, hd⟩ := this
    unfold errorText
    rw [hd]
    exact ⟨_, by simp [about]; rfl⟩
  obtain ⟨z, hz⟩ := e T c name k v r t x hv
  obtain ⟨z', hz'⟩ := e T' c' name' k' v' r' t' x' hv'
  rw [hz, hz'] at h
  obtain ⟨h1, h2⟩ := Msg.split_first (fun d hd => (hn d hd).2) (fun d hd => (hn' d hd).2) (List.append_cancel_left h)
  exact ⟨h1, (Msg.split_first (fun d hd => (hk d hd).1) (fun d hd => (hk' d hd).1) (List.append_cancel_left h2)).1⟩

/-- **C97**.  Every message, about whatever value, contains the description of the property and ends with the
reason. -/
theorem C97_contains (T : ATexts) (c : Cfg) (name : PyStr) (inst : Option PyStr) (v : Input) (r t x : PyStr) :
    (s% " must be " ++ info T c ++ s% ". ") <:+: errorText T c name inst v r t x ∧
    x <:+ errorText T c name inst v r t x := by
  have hi : (info T c).isEmpty = false := by
    unfold info
    cases c.cls <;> rfl
  unfold errorText
  cases describe T v with
  | none =>
    simp only [Msg.message, hi, Bool.false_eq_true, if_false]
    refine ⟨⟨Msg.subject (className c.cls) name inst, s% "An invalid value of " ++ Msg.shown r ++ s% " " ++ t ++
      s% " was specified." ++ (if x.isEmpty then [] else s% " " ++ x), by simp⟩, ?_⟩
    cases x with
    | nil => exact List.nil_suffix
    | cons d x => 
      refine ⟨Msg.subject (className c.cls) name inst ++ (s% " must be " ++ info T c ++ s% ". An invalid value of " ++
        Msg.shown r ++ s% " " ++ t ++ s% " was specified. "), by simp⟩
  | some d =>
    dsimp only
    refine ⟨⟨about (className c.cls) name inst, d ++ s% " was specified. " ++ x, by simp⟩, ?_⟩
    exact List.suffix_append _ _

/-! ## Examples -/

/-- Integers written by repetition. -/
def exTexts : ATexts where
  int i := (if i < 0 then s% "-" else []) ++ Msg.ticks i.natAbs
  shape _ := s% "(2,)"
  type _ := s% "float64"

theorem ex_readable : Readable exTexts where
  inj := by
    intro a b h
    simp only [exTexts] at h
    have head : ∀ n r, Msg.ticks n ≠ '-' :: r := by
      intro n r e
      have := Msg.ticks_chars '-' (by rw [e]; simp)
      revert this
      decide
    split at h <;> split at h
    · have := Msg.ticks_inj (List.append_cancel_left h); omega
    · exact absurd h.symm (head _ _)
    · exact absurd h (head _ _)
    · have := Msg.ticks_inj h; omega
  some := by
    intro a h
    simp only [exTexts, List.append_eq_nil_iff, Msg.ticks] at h
    obtain ⟨_, h⟩ := h
    split at h
    · cases h
    · rename_i h0
      simp at h
      exact h0 (by simp [h])
  chars := by
    intro a c hc
    simp only [exTexts, List.mem_append] at hc
    rcases hc with hc | hc
    · split at hc
      · simp at hc; subst hc; decide
      · cases hc
    · rcases Msg.ticks_chars c hc with rfl | rfl <;> decide

/-- An Array of points, and a message about a list of the wrong shape. -/
theorem C97_example (d : List ℝ) : Readable exTexts ∧
    info exTexts { cls := .array, shape := some (some [[.any, .exactly 2], [.exactly 1]]) } =
      s% "a list or numpy array of <class 'float'>, <class 'int'> with shape (\\*, 11) or (1)" ∧
    (∃ u e x, arraySays demoEnv gridProp (.array ⟨1, .i, [2], d⟩) = .error (.says u e x) ∧ x = s% "Invalid shape." ∧
      errorText exTexts { cls := .vec3 } (s% "pt") (some (s% "Line")) u [] [] x =
        s% "The 'pt' property of a Line instance must be a 3D Vector of <class 'float'> with shape (111). An array of shape (2,) and dtype float64 was specified. Invalid shape.") ∧
    ∃ u e x, arraySays demoEnv gridProp (.array ⟨1, .f, [2], d⟩) = .error (.says u e x) ∧ x = s% "Invalid dtype." :=
  ⟨ex_readable, by decide +kernel, ⟨_, _, _, rfl, rfl, by with_unfolding_all rfl⟩, ⟨_, _, _, rfl, rfl⟩⟩

/-- Without an instance the name of the property is not in a message about a list. -/
theorem C97_nameless (T : ATexts) (c : Cfg) (name name' : PyStr) (v : Input) (hv : Arraylike v) (r t x : PyStr) :
    errorText T c name none v r t x = errorText T c name' none v r t x := by
  cases hv <;> rfl

/-- Coercion is not part of a description. -/
theorem C97_coerce (T : ATexts) (c : Cfg) (b : Option Bool) : info T { c with coerce := b } = info T c := by
  cases hc : c.cls <;> simp [info, Cfg.dtypes, Cfg.shapes, hc]

/-- **C97**.  A message about a list, tuple or array is made of the property, its description, what was given and
the reason.  Without an instance the property is named by its class. -/
theorem C97_given (T : ATexts) (c : Cfg) (name : PyStr) (inst : Option PyStr) {v : Input} {given cls : PyStr}
    (hv : Spoken T v given) (hc : Called c.cls cls) (r t x : PyStr) :
    errorText T c name inst v r t x =
      (match inst with
        | none => cls ++ s% " property"
        | some k => s% "The '" ++ name ++ s% "' property of a " ++ k ++ s% " instance") ++
      s% " must be " ++ info T c ++ s% ". " ++ given ++ s% " was specified. " ++ x := by
  have hn : className c.cls = cls := by
    generalize c.cls = k at hc
    cases hc <;> rfl
  cases hv <;> cases inst <;> simp [errorText, describe, about, hn]

end Verif.ArrMsg
