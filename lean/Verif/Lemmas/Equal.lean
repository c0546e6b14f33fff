import Verif.Lemmas.Matching
import Verif.Lemmas.PyEq
import Verif.Lemmas.Monad

/-!
# The relation `Same` is an equivalence
-/

namespace Verif
open Spec

/-! ## Scalars -/

theorem isSame_symm {E : Env} (hl : LawfulEq E) {a b : Val} (h : isSame E a b = true) :
    isSame E b a = true := by
  cases a <;> cases b <;> unfold isSame at h ⊢ <;>
    first | exact hl.symm _ _ h | (cases h; done) | rfl | (simp only [beq_iff_eq] at h ⊢; exact h.symm)

theorem isSame_trans {E : Env} (hl : LawfulEq E) {a b c : Val} (h : isSame E a b = true)
    (k : isSame E b c = true) : isSame E a c = true := by
  cases a <;> cases b <;> (first | (cases h; done) | skip) <;> cases c <;> (first | (cases k; done) | skip) <;>
    unfold isSame at h k ⊢ <;>
    first | exact hl.trans _ _ _ h k | rfl | (simp only [beq_iff_eq] at h k ⊢; exact h.trans k)

theorem ratAbs_neg (q : Rat) : ratAbs (-q) = ratAbs q := by
  unfold ratAbs
  split <;> split <;> grind

theorem sub_small_comm {E : Env} (hl : LawfulEq E) (x y : PyFloat) :
    (PyFloat.sub E x y).small = (PyFloat.sub E y x).small := by
  cases x <;> cases y <;> try rfl
  rename_i a b
  show (E.rnd (a - b)).small = (E.rnd (b - a)).small
  rw [← hl.round (b - a)]
  congr 2
  grind

theorem realClose_comm {E : Env} (hl : LawfulEq E) {a b : RealNum} (ha : ∃ f, a.toFloat E = .ok f)
    (hb : ∃ f, b.toFloat E = .ok f) : realClose E a b = realClose E b a := by
  obtain ⟨f, hf⟩ := ha
  obtain ⟨g, hg⟩ := hb
  unfold realClose
  cases a <;> cases b <;> simp only [hf, hg]
  · rename_i i j
    rw [← ratAbs_neg ((i : Rat) - j)]
    congr 4
    grind
  all_goals rw [sub_small_comm hl]

theorem realClose_total {E : Env} {a b : RealNum} (ha : ∃ f, a.toFloat E = .ok f)
    (hb : ∃ f, b.toFloat E = .ok f) : ∃ r, realClose E a b = .ok r := by
  obtain ⟨f, hf⟩ := ha
  obtain ⟨g, hg⟩ := hb
  unfold realClose
  cases a <;> cases b <;> simp only [hf, hg] <;> exact ⟨_, rfl⟩

theorem floatEqual_comm {E : Env} (hl : LawfulEq E) {a b : Val} (ha : Narrow E a.realNum?)
    (hb : Narrow E b.realNum?) : floatEqual E a b = floatEqual E b a := by
  unfold floatEqual
  cases h1 : a.realNum? with
  | some x =>
    cases h2 : b.realNum? with
    | some y => exact realClose_comm hl (ha x h1) (hb y h2)
    | none =>
      dsimp only
      cases a.num? with
      | none => cases b.num? with
        | none => rfl
        | some q => obtain ⟨q1, q2⟩ := q; cases q1 <;> cases q2 <;> rfl
      | some p =>
        obtain ⟨p1, p2⟩ := p
        cases b.num? with
        | none => cases p1 <;> cases p2 <;> rfl
        | some q =>
          obtain ⟨q1, q2⟩ := q
          cases p1 <;> cases p2 <;> cases q1 <;> cases q2 <;> try rfl
          dsimp only
          congr 3
          grind
  | none =>
    cases h2 : b.realNum? <;> dsimp only <;>
    · cases a.num? with
      | none => cases b.num? with
        | none => rfl
        | some q => obtain ⟨q1, q2⟩ := q; cases q1 <;> cases q2 <;> rfl
      | some p =>
        obtain ⟨p1, p2⟩ := p
        cases b.num? with
        | none => cases p1 <;> cases p2 <;> rfl
        | some q =>
          obtain ⟨q1, q2⟩ := q
          cases p1 <;> cases p2 <;> cases q1 <;> cases q2 <;> try rfl
          dsimp only
          congr 3
          grind

theorem floatEqual_total {E : Env} {a b : Val} (ha : Narrow E a.realNum?)
    (hb : Narrow E b.realNum?) : ∃ r, floatEqual E a b = .ok r := by
  unfold floatEqual
  split
  · rename_i x y h1 h2
    exact realClose_total (ha x h1) (hb y h2)
  · split <;> exact ⟨_, rfl⟩

theorem complexEqual_total {E : Env} {a b : Val} (ha : Narrow E a.realPart? ∧ Narrow E a.imagPart?)
    (hb : Narrow E b.realPart? ∧ Narrow E b.imagPart?) : ∃ r, complexEqual E a b = .ok r := by
  unfold complexEqual
  split
  · rename_i x y z u h1 h2 h3 h4
    obtain ⟨r, hr⟩ := realClose_total (ha.1 x h1) (hb.1 y h2)
    obtain ⟨s, hs⟩ := realClose_total (ha.2 z h3) (hb.2 u h4)
    simp only [hr, hs]
    exact ⟨_, rfl⟩
  · exact ⟨_, rfl⟩

theorem complexEqual_comm {E : Env} (hl : LawfulEq E) {a b : Val}
    (ha : Narrow E a.realPart? ∧ Narrow E a.imagPart?)
    (hb : Narrow E b.realPart? ∧ Narrow E b.imagPart?) : complexEqual E a b = complexEqual E b a := by
  unfold complexEqual
  cases h1 : a.realPart? <;> cases h2 : b.realPart? <;> cases h3 : a.imagPart? <;>
    cases h4 : b.imagPart? <;> try rfl
  dsimp only
  rw [realClose_comm hl (ha.1 _ h1) (hb.1 _ h2), realClose_comm hl (ha.2 _ h3) (hb.2 _ h4)]

/-- Scalar types compare without errors. -/
theorem scalarEqual_total {E : Env} {P Q : Nat → Prop} {ty : PropTy} {a b : Val} (hs : ScalarTy ty)
    (ha : ComparableTy E P ty a) (hb : ComparableTy E Q ty b) :
    ∃ r, scalarEqual E ty a b = some (.ok r) := by
  cases ty <;> first | exact hs.elim | exact ⟨_, rfl⟩ | skip
  · obtain ⟨r, hr⟩ := floatEqual_total (E := E) ha hb
    exact ⟨r, congrArg some hr⟩
  · obtain ⟨r, hr⟩ := complexEqual_total (E := E) ha hb
    exact ⟨r, congrArg some hr⟩

theorem scalarEqual_symm {E : Env} (hl : LawfulEq E) {P Q : Nat → Prop} {ty : PropTy} {a b : Val}
    (hs : ScalarTy ty) (ha : ComparableTy E P ty a) (hb : ComparableTy E Q ty b)
    (h : scalarEqual E ty a b = some (.ok true)) : scalarEqual E ty b a = some (.ok true) := by
  cases ty <;> first | exact hs.elim | skip
  case boolean =>
    have h := Except.ok.inj (Option.some.inj h)
    exact congrArg some (congrArg Except.ok (isSame_symm hl h))
  case float => exact (congrArg some (floatEqual_comm (E := E) hl hb ha)).trans h
  case complex => exact (congrArg some (complexEqual_comm (E := E) hl hb ha)).trans h
  all_goals
    have h := Except.ok.inj (Option.some.inj h)
    exact congrArg some (congrArg Except.ok (pyEq_symm ha h))

theorem scalarEqual_trans {E : Env} (hl : LawfulEq E) {I : Prop} {P : Nat → Prop} {ty : PropTy}
    {a b c : Val} (hs : ScalarTy ty) (hx : ExactTy I ty) (ha : ComparableTy E P ty a)
    (h : scalarEqual E ty a b = some (.ok true)) (k : scalarEqual E ty b c = some (.ok true)) :
    scalarEqual E ty a c = some (.ok true) := by
  cases ty <;> first | exact hs.elim | exact hx.elim | skip
  case boolean =>
    have h := Except.ok.inj (Option.some.inj h)
    have k := Except.ok.inj (Option.some.inj k)
    exact congrArg some (congrArg Except.ok (isSame_trans hl h k))
  all_goals
    have h := Except.ok.inj (Option.some.inj h)
    have k := Except.ok.inj (Option.some.inj k)
    exact congrArg some (congrArg Except.ok (pyEq_trans ha h k))

/-- For scalar types `SameTy` is `scalarEqual`. -/
theorem same_scalar {E : Env} {O : Nat → Nat → Prop} {ty : PropTy} {a b : Val} (hs : ScalarTy ty) :
    SameTy E O ty a b ↔ scalarEqual E ty a b = some (.ok true) := by
  cases ty <;> first | exact hs.elim | (unfold SameTy; exact Iff.rfl)

theorem same_scalar_symm {E : Env} (hl : LawfulEq E) {P Q : Nat → Prop} {O : Nat → Nat → Prop}
    {ty : PropTy} {a b : Val} (hs : ScalarTy ty) (ha : ComparableTy E P ty a)
    (hb : ComparableTy E Q ty b) (h : SameTy E O ty a b) : SameTy E O ty b a :=
  (same_scalar hs).2 (scalarEqual_symm hl hs ha hb ((same_scalar hs).1 h))

theorem same_scalar_trans {E : Env} (hl : LawfulEq E) {I : Prop} {P : Nat → Prop}
    {O : Nat → Nat → Prop} {ty : PropTy} {a b c : Val} (hs : ScalarTy ty) (hx : ExactTy I ty)
    (ha : ComparableTy E P ty a) (h : SameTy E O ty a b) (k : SameTy E O ty b c) :
    SameTy E O ty a c :=
  (same_scalar hs).2 (scalarEqual_trans hl hs hx ha ((same_scalar hs).1 h) ((same_scalar hs).1 k))

theorem same_scalar_mono {E : Env} {O O' : Nat → Nat → Prop} {ty : PropTy} {a b : Val}
    (hs : ScalarTy ty) (h : SameTy E O ty a b) : SameTy E O' ty a b :=
  (same_scalar hs).2 ((same_scalar hs).1 h)

/-! ## Instances that are not instances -/

theorem same_inst_other {E : Env} {O : Nat → Nat → Prop} {c : ClsId} {a b : Val}
    (h : (∀ r, a ≠ .obj r) ∨ ∀ r, b ≠ .obj r) : SameTy E O (.inst c) a b ↔ pyEq a b = true := by
  cases a <;> cases b <;> first | (unfold SameTy; exact Iff.rfl) | skip
  rename_i i j
  rcases h with h | h
  · exact absurd rfl (h i)
  · exact absurd rfl (h j)

theorem pyEq_obj_left {i : Nat} {b : Val} (h : pyEq (.obj i) b = true) : b = .obj i := by
  cases b <;> unfold pyEq at h <;> simp at h
  rw [h]

theorem pyEq_obj_right {j : Nat} {a : Val} (h : pyEq a (.obj j) = true) : a = .obj j := by
  cases a <;> unfold pyEq at h <;> simp [Val.num?] at h
  rw [h]

/-! ## Symmetry, transitivity, monotonicity -/

mutual
theorem sameP_symm {E : Env} (hl : LawfulEq E) {P Q : Nat → Prop} {O : Nat → Nat → Prop}
    (ho : ∀ i j, P i → Q j → O i j → O j i) :
    ∀ (p : PropSpec) (a b : Val), Comparable E P p a → Comparable E Q p b →
      SameP E O p a b → SameP E O p b a
  | .mk _ _ _ _ ty, a, b, ha, hb, h => sameTy_symm hl ho ty a b ha hb h
theorem sameTy_symm {E : Env} (hl : LawfulEq E) {P Q : Nat → Prop} {O : Nat → Nat → Prop}
    (ho : ∀ i j, P i → Q j → O i j → O j i) :
    ∀ (ty : PropTy) (a b : Val), ComparableTy E P ty a → ComparableTy E Q ty b →
      SameTy E O ty a b → SameTy E O ty b a
  | .seq .set item _ _ _, a, b, ha, hb, h => by
    unfold SameTy at h ⊢
    unfold ComparableTy at ha hb
    obtain ⟨xs, ys, rfl, rfl, h⟩ := h
    obtain ⟨xs', hx, ha⟩ := ha.resolve_right (by simp [Val.iter?])
    obtain ⟨ys', hy, hb⟩ := hb.resolve_right (by simp [Val.iter?])
    cases hx; cases hy
    exact ⟨ys, xs, rfl, rfl, pairing_symm (fun x hx y hy => sameP_symm hl ho item x y (ha x hx) (hb y hy)) h⟩
  | .seq .tup item _ _ _, a, b, ha, hb, h => by
    unfold SameTy at h ⊢
    unfold ComparableTy at ha hb
    obtain ⟨xs, ys, h1, h2, h⟩ := h
    exact ⟨ys, xs, h2, h1, forall₂_symm
      (fun x hx y hy => sameP_symm hl ho item x y (ha xs h1 x hx) (hb ys h2 y hy)) h⟩
  | .seq .list item _ _ _, a, b, ha, hb, h => by
    unfold SameTy at h ⊢
    unfold ComparableTy at ha hb
    obtain ⟨xs, ys, h1, h2, h⟩ := h
    exact ⟨ys, xs, h2, h1, forall₂_symm
      (fun x hx y hy => sameP_symm hl ho item x y (ha xs h1 x hx) (hb ys h2 y hy)) h⟩
  | .dict _ vp _, a, b, ha, hb, h => by
    unfold SameTy at h ⊢
    unfold ComparableTy at ha hb
    obtain ⟨xs, ys, rfl, rfl, h⟩ := h
    obtain ⟨xs', hx, _, ha1, ha2⟩ := ha.resolve_right (by simp [Val.iter?])
    obtain ⟨ys', hy, _, hb1, hb2⟩ := hb.resolve_right (by simp [Val.iter?])
    cases hx; cases hy
    exact ⟨ys, xs, rfl, rfl, pairing_symm (fun x hx y hy h => ⟨pyEq_symm (ha1 x hx) h.1,
      sameP_symm hl ho vp x.2 y.2 (ha2 x hx) (hb2 y hy) h.2⟩) h⟩
  | .inst c, a, b, ha, hb, h => by
    rcases ha with ⟨i, rfl, hi⟩ | ⟨hno, hh⟩
    · rcases hb with ⟨j, rfl, hj⟩ | ⟨hno, hh⟩
      · unfold SameTy at h ⊢
        exact ho i j hi hj h
      · rw [same_inst_other (.inr hno)] at h
        exact absurd (pyEq_obj_left h) (hno i)
    · rw [same_inst_other (.inl hno)] at h
      rw [same_inst_other (.inr hno)]
      exact pyEq_symm hh h
  | .union ps _, a, b, ha, hb, h => by
    unfold SameTy at h ⊢
    unfold ComparableTy at ha hb
    exact sameAny_symm hl ho ps a b ha hb h
  | .any, _, _, ha, hb, h => same_scalar_symm hl (by trivial) ha hb h
  | .boolean _, _, _, ha, hb, h => same_scalar_symm hl (by trivial) ha hb h
  | .integer .., _, _, ha, hb, h => same_scalar_symm hl (by trivial) ha hb h
  | .float .., _, _, ha, hb, h => same_scalar_symm hl (by trivial) ha hb h
  | .complex _, _, _, ha, hb, h => same_scalar_symm hl (by trivial) ha hb h
  | .string .., _, _, ha, hb, h => same_scalar_symm hl (by trivial) ha hb h
  | .choice .., _, _, ha, hb, h => same_scalar_symm hl (by trivial) ha hb h
  | .color, _, _, ha, hb, h => same_scalar_symm hl (by trivial) ha hb h
  | .datetime, _, _, ha, hb, h => same_scalar_symm hl (by trivial) ha hb h
  | .uuid, _, _, ha, hb, h => same_scalar_symm hl (by trivial) ha hb h
theorem sameAny_symm {E : Env} (hl : LawfulEq E) {P Q : Nat → Prop} {O : Nat → Nat → Prop}
    (ho : ∀ i j, P i → Q j → O i j → O j i) :
    ∀ (ps : List PropSpec) (a b : Val), ComparableAll E P ps a → ComparableAll E Q ps b →
      SameAny E O ps a b → SameAny E O ps b a
  | [], _, _, _, _, h => h
  | p :: ps, a, b, ha, hb, h => by
    unfold SameAny at h ⊢
    unfold ComparableAll at ha hb
    exact h.imp (sameP_symm hl ho p a b ha.1 hb.1) (sameAny_symm hl ho ps a b ha.2 hb.2)
end

mutual
theorem sameP_trans {E : Env} (hl : LawfulEq E) {I : Prop} {P Q S : Nat → Prop} {O : Nat → Nat → Prop}
    (ho : I → ∀ i j k, P i → Q j → S k → O i j → O j k → O i k) :
    ∀ (p : PropSpec) (a b c : Val), Exact I p → Comparable E P p a → Comparable E Q p b →
      Comparable E S p c → SameP E O p a b → SameP E O p b c → SameP E O p a c
  | .mk _ _ _ _ ty, a, b, c, hx, ha, hb, hc, h, k => sameTy_trans hl ho ty a b c hx ha hb hc h k
theorem sameTy_trans {E : Env} (hl : LawfulEq E) {I : Prop} {P Q S : Nat → Prop} {O : Nat → Nat → Prop}
    (ho : I → ∀ i j k, P i → Q j → S k → O i j → O j k → O i k) :
    ∀ (ty : PropTy) (a b c : Val), ExactTy I ty → ComparableTy E P ty a → ComparableTy E Q ty b →
      ComparableTy E S ty c → SameTy E O ty a b → SameTy E O ty b c → SameTy E O ty a c
  | .seq .set item _ _ _, a, b, c, hx, ha, hb, hc, h, k => by
    unfold SameTy at h k ⊢
    unfold ComparableTy at ha hb hc
    unfold ExactTy at hx
    obtain ⟨xs, ys, rfl, rfl, h⟩ := h
    obtain ⟨ys', zs, hy, rfl, k⟩ := k
    cases hy
    obtain ⟨xs', hx', ha⟩ := ha.resolve_right (by simp [Val.iter?])
    obtain ⟨ys', hy', hb⟩ := hb.resolve_right (by simp [Val.iter?])
    obtain ⟨zs', hz', hc⟩ := hc.resolve_right (by simp [Val.iter?])
    cases hx'; cases hy'; cases hz'
    exact ⟨xs, zs, rfl, rfl, pairing_trans (fun x hx' y hy z hz =>
      sameP_trans hl ho item x y z hx (ha x hx') (hb y hy) (hc z hz)) h k⟩
  | .seq .tup item _ _ _, a, b, c, hx, ha, hb, hc, h, k => by
    unfold SameTy at h k ⊢
    unfold ComparableTy at ha hb hc
    unfold ExactTy at hx
    obtain ⟨xs, ys, h1, h2, h⟩ := h
    obtain ⟨ys', zs, k1, k2, k⟩ := k
    rw [h2] at k1; cases k1
    exact ⟨xs, zs, h1, k2, forall₂_trans (fun x hx' y hy z hz =>
      sameP_trans hl ho item x y z hx (ha xs h1 x hx') (hb ys h2 y hy) (hc zs k2 z hz)) h k⟩
  | .seq .list item _ _ _, a, b, c, hx, ha, hb, hc, h, k => by
    unfold SameTy at h k ⊢
    unfold ComparableTy at ha hb hc
    unfold ExactTy at hx
    obtain ⟨xs, ys, h1, h2, h⟩ := h
    obtain ⟨ys', zs, k1, k2, k⟩ := k
    rw [h2] at k1; cases k1
    exact ⟨xs, zs, h1, k2, forall₂_trans (fun x hx' y hy z hz =>
      sameP_trans hl ho item x y z hx (ha xs h1 x hx') (hb ys h2 y hy) (hc zs k2 z hz)) h k⟩
  | .dict _ vp _, a, b, c, hx, ha, hb, hc, h, k => by
    unfold SameTy at h k ⊢
    unfold ComparableTy at ha hb hc
    unfold ExactTy at hx
    obtain ⟨xs, ys, rfl, rfl, h⟩ := h
    obtain ⟨ys', zs, hy, rfl, k⟩ := k
    cases hy
    obtain ⟨xs', hx', _, ha1, ha2⟩ := ha.resolve_right (by simp [Val.iter?])
    obtain ⟨ys', hy', _, hb1, hb2⟩ := hb.resolve_right (by simp [Val.iter?])
    obtain ⟨zs', hz', _, hc1, hc2⟩ := hc.resolve_right (by simp [Val.iter?])
    cases hx'; cases hy'; cases hz'
    exact ⟨xs, zs, rfl, rfl, pairing_trans (fun x hx' y hy z hz h k =>
      ⟨pyEq_trans (ha1 x hx') h.1 k.1,
        sameP_trans hl ho vp x.2 y.2 z.2 hx (ha2 x hx') (hb2 y hy) (hc2 z hz) h.2 k.2⟩) h k⟩
  | .inst cc, a, b, c, hx, ha, hb, hc, h, k => by
    rcases ha with ⟨i, rfl, hi⟩ | ⟨hno, hh⟩
    · rcases hb with ⟨j, rfl, hj⟩ | ⟨hno, hh⟩
      · rcases hc with ⟨l, rfl, hl⟩ | ⟨hno, hh⟩
        · unfold SameTy at h k ⊢
          exact ho hx i j l hi hj hl h k
        · rw [same_inst_other (.inr hno)] at k
          exact absurd (pyEq_obj_left k) (hno j)
      · rw [same_inst_other (.inr hno)] at h
        exact absurd (pyEq_obj_left h) (hno i)
    · rw [same_inst_other (.inl hno)] at h ⊢
      rcases hb with ⟨j, rfl, hj⟩ | ⟨hno', hh'⟩
      · exact absurd (pyEq_obj_right h) (hno j)
      · rw [same_inst_other (.inl hno')] at k
        exact pyEq_trans hh h k
  | .union ps _, a, b, c, hx, ha, hb, hc, h, k => hx.elim
  | .any, _, _, _, hx, ha, _, _, h, k => same_scalar_trans hl (by trivial) hx ha h k
  | .boolean _, _, _, _, hx, ha, _, _, h, k => same_scalar_trans hl (by trivial) hx ha h k
  | .integer .., _, _, _, hx, ha, _, _, h, k => same_scalar_trans hl (by trivial) hx ha h k
  | .float .., _, _, _, hx, ha, _, _, h, k => hx.elim
  | .complex _, _, _, _, hx, ha, _, _, h, k => hx.elim
  | .string .., _, _, _, hx, ha, _, _, h, k => same_scalar_trans hl (by trivial) hx ha h k
  | .choice .., _, _, _, hx, ha, _, _, h, k => same_scalar_trans hl (by trivial) hx ha h k
  | .color, _, _, _, hx, ha, _, _, h, k => same_scalar_trans hl (by trivial) hx ha h k
  | .datetime, _, _, _, hx, ha, _, _, h, k => same_scalar_trans hl (by trivial) hx ha h k
  | .uuid, _, _, _, hx, ha, _, _, h, k => same_scalar_trans hl (by trivial) hx ha h k
end

mutual
theorem sameP_mono {E : Env} {P : Nat → Prop} {O O' : Nat → Nat → Prop}
    (ho : ∀ i j, P i → O i j → O' i j) :
    ∀ (p : PropSpec) (a b : Val), Comparable E P p a → SameP E O p a b → SameP E O' p a b
  | .mk _ _ _ _ ty, a, b, ha, h => sameTy_mono ho ty a b ha h
theorem sameTy_mono {E : Env} {P : Nat → Prop} {O O' : Nat → Nat → Prop}
    (ho : ∀ i j, P i → O i j → O' i j) :
    ∀ (ty : PropTy) (a b : Val), ComparableTy E P ty a → SameTy E O ty a b → SameTy E O' ty a b
  | .seq .set item _ _ _, a, b, ha, h => by
    unfold SameTy at h ⊢
    unfold ComparableTy at ha
    obtain ⟨xs, ys, rfl, rfl, h⟩ := h
    obtain ⟨xs', hx, ha⟩ := ha.resolve_right (by simp [Val.iter?])
    cases hx
    exact ⟨xs, ys, rfl, rfl, pairing_mono (fun x hx y _ => sameP_mono ho item x y (ha x hx)) h⟩
  | .seq .tup item _ _ _, a, b, ha, h => by
    unfold SameTy at h ⊢
    unfold ComparableTy at ha
    obtain ⟨xs, ys, h1, h2, h⟩ := h
    exact ⟨xs, ys, h1, h2, (forall₂_mem h).imp fun x y h => sameP_mono ho item x y (ha xs h1 x h.2.1) h.1⟩
  | .seq .list item _ _ _, a, b, ha, h => by
    unfold SameTy at h ⊢
    unfold ComparableTy at ha
    obtain ⟨xs, ys, h1, h2, h⟩ := h
    exact ⟨xs, ys, h1, h2, (forall₂_mem h).imp fun x y h => sameP_mono ho item x y (ha xs h1 x h.2.1) h.1⟩
  | .dict _ vp _, a, b, ha, h => by
    unfold SameTy at h ⊢
    unfold ComparableTy at ha
    obtain ⟨xs, ys, rfl, rfl, h⟩ := h
    obtain ⟨xs', hx, _, ha1, ha2⟩ := ha.resolve_right (by simp [Val.iter?])
    cases hx
    exact ⟨xs, ys, rfl, rfl, pairing_mono (fun x hx y _ h =>
      ⟨h.1, sameP_mono ho vp x.2 y.2 (ha2 x hx) h.2⟩) h⟩
  | .inst c, a, b, ha, h => by
    rcases ha with ⟨i, rfl, hi⟩ | ⟨hno, hh⟩
    · cases b <;> unfold SameTy at h ⊢ <;> first | exact ho i _ hi h | exact h
    · rw [same_inst_other (.inl hno)] at h ⊢
      exact h
  | .union ps _, a, b, ha, h => by
    unfold SameTy at h ⊢
    unfold ComparableTy at ha
    exact sameAny_mono ho ps a b ha h
  | .any, _, _, _, h => same_scalar_mono (by trivial) h
  | .boolean _, _, _, _, h => same_scalar_mono (by trivial) h
  | .integer .., _, _, _, h => same_scalar_mono (by trivial) h
  | .float .., _, _, _, h => same_scalar_mono (by trivial) h
  | .complex _, _, _, _, h => same_scalar_mono (by trivial) h
  | .string .., _, _, _, h => same_scalar_mono (by trivial) h
  | .choice .., _, _, _, h => same_scalar_mono (by trivial) h
  | .color, _, _, _, h => same_scalar_mono (by trivial) h
  | .datetime, _, _, _, h => same_scalar_mono (by trivial) h
  | .uuid, _, _, _, h => same_scalar_mono (by trivial) h
theorem sameAny_mono {E : Env} {P : Nat → Prop} {O O' : Nat → Nat → Prop}
    (ho : ∀ i j, P i → O i j → O' i j) :
    ∀ (ps : List PropSpec) (a b : Val), ComparableAll E P ps a → SameAny E O ps a b →
      SameAny E O' ps a b
  | [], _, _, _, h => h
  | p :: ps, a, b, ha, h => by
    unfold SameAny at h ⊢
    unfold ComparableAll at ha
    exact h.imp (sameP_mono ho p a b ha.1) (sameAny_mono ho ps a b ha.2)
end

/-! ## Instances -/

theorem own_unique {e : Entry} {p q : PropSpec} (h : OwnSpec e p) (k : OwnSpec e q) : p = q := by
  rcases h with rfl | rfl <;> rcases k with k | k <;> cases k <;> rfl

theorem sameEntry_mono {E : Env} {P : Nat → Prop} {O O' : Nat → Nat → Prop}
    (ho : ∀ i j, P i → O i j → O' i j) {c : ClassDef} {e : Entry} {x y : Val}
    (hx : ComparableEntry E P c x e) (h : SameEntry E O e x y) : SameEntry E O' e x y := by
  rcases h with h | ⟨h1, h2, h⟩
  · exact .inl h
  · refine .inr ⟨h1, h2, ?_⟩
    cases e with
    | mutable p => exact sameP_mono ho p x y (hx h1) h
    | gettable p => exact sameP_mono ho p x y (hx h1) h
    | dynamic => exact hx.elim
    | renamed => exact h

theorem sameAt_succ {E : Env} {rk : Nat → Nat} {w : World} (hw : ComparableWorld E rk w) :
    ∀ {k i j}, SameAt E w k i j → SameAt E w (k + 1) i j
  | 0, _, _, h => .inl h
  | k + 1, i, j, h => by
    rcases h with h | ⟨a, b, h1, h2, h3, h4⟩
    · exact .inl h
    · exact .inr ⟨a, b, h1, h2, h3, fun nm e hm =>
        sameEntry_mono (fun _ _ _ h => sameAt_succ hw h) (hw i a h1 nm e hm) (h4 nm e hm)⟩

theorem sameAt_le {E : Env} {rk : Nat → Nat} {w : World} (hw : ComparableWorld E rk w)
    {k k' i j : Nat} (hk : k ≤ k') (h : SameAt E w k i j) : SameAt E w k' i j := by
  induction hk with
  | refl => exact h
  | step _ ih => exact sameAt_succ hw ih

/-- Nesting deeper than the rank changes nothing. -/
theorem sameAt_stable {E : Env} {rk : Nat → Nat} {w : World} (hw : ComparableWorld E rk w) :
    ∀ {k' k i j}, rk i < k → SameAt E w k' i j → SameAt E w k i j
  | 0, k, i, j, _, h => sameAt_le hw (Nat.zero_le k) h
  | k' + 1, k, i, j, hk, h => by
    obtain ⟨m, rfl⟩ : ∃ m, k = m + 1 := ⟨k - 1, by omega⟩
    rcases h with h | ⟨a, b, h1, h2, h3, h4⟩
    · exact .inl h
    · exact .inr ⟨a, b, h1, h2, h3, fun nm e hm =>
        sameEntry_mono (fun s t hs h => sameAt_stable hw (by have := hs.2; omega) h)
          (hw i a h1 nm e hm) (h4 nm e hm)⟩

theorem same_iff {E : Env} {rk : Nat → Nat} {w : World} (hw : ComparableWorld E rk w)
    {k i j : Nat} (hk : rk i < k) : Same E w i j ↔ SameAt E w k i j :=
  ⟨fun ⟨_, h⟩ => sameAt_stable hw hk h, fun h => ⟨k, h⟩⟩

theorem sameAt_symm {E : Env} (hl : LawfulEq E) {rk : Nat → Nat} {w : World}
    (hw : ComparableWorld E rk w) : ∀ {k i j}, SameAt E w k i j → SameAt E w k j i
  | 0, _, _, h => Eq.symm h
  | k + 1, i, j, h => by
    rcases h with h | ⟨a, b, h1, h2, h3, h4⟩
    · exact .inl h.symm
    · refine .inr ⟨b, a, h2, h1, h3.symm, fun nm e hm => ?_⟩
      rw [← h3] at hm
      have hb := hw j b h2 nm e (by rw [← h3]; exact hm)
      have ha := hw i a h1 nm e hm
      rcases h4 nm e hm with ⟨hx, hy⟩ | ⟨hx, hy, h⟩
      · exact .inl ⟨hy, hx⟩
      · refine .inr ⟨hy, hx, ?_⟩
        cases e with
        | mutable p => exact sameP_symm hl (fun _ _ _ _ h => sameAt_symm hl hw h) p _ _ (ha hx) (hb hy) h
        | gettable p => exact sameP_symm hl (fun _ _ _ _ h => sameAt_symm hl hw h) p _ _ (ha hx) (hb hy) h
        | dynamic => exact ha.elim
        | renamed => exact pyEq_symm ha.1 h

theorem same_symm {E : Env} (hl : LawfulEq E) {rk : Nat → Nat} {w : World}
    (hw : ComparableWorld E rk w) {i j : Nat} (h : Same E w i j) : Same E w j i :=
  ⟨h.choose, sameAt_symm hl hw h.choose_spec⟩

theorem sameAt_trans {E : Env} (hl : LawfulEq E) (hx : AllExact E) {rk : Nat → Nat} {w : World}
    (hw : ComparableWorld E rk w) :
    ∀ {k i j l}, SameAt E w k i j → SameAt E w k j l → SameAt E w k i l
  | 0, _, _, _, h, h' => Eq.trans h h'
  | k + 1, i, j, l, h, h' => by
    rcases h with rfl | ⟨a, b, h1, h2, h3, h4⟩
    · exact h'
    · rcases h' with rfl | ⟨b', c, k1, k2, k3, k4⟩
      · exact .inr ⟨a, b, h1, h2, h3, h4⟩
      · rw [h2] at k1; cases k1
        refine .inr ⟨a, c, h1, k2, h3.trans k3, fun nm e hm => ?_⟩
        have ha := hw i a h1 nm e hm
        have hb := hw j b h2 nm e (by rw [← h3]; exact hm)
        have hc := hw l c k2 nm e (by rw [← k3, ← h3]; exact hm)
        have k4 := k4 nm e (by rw [← h3]; exact hm)
        rcases h4 nm e hm with ⟨hx', hy⟩ | ⟨hx', hy, h⟩
        · rcases k4 with ⟨_, hz⟩ | ⟨hy', _⟩
          · exact .inl ⟨hx', hz⟩
          · exact absurd hy hy'
        · rcases k4 with ⟨hy', _⟩ | ⟨_, hz, h'⟩
          · exact absurd hy' hy
          · refine .inr ⟨hx', hz, ?_⟩
            cases e with
            | mutable p =>
              exact sameP_trans (I := True) (O := SameAt E w k) hl (fun _ _ _ _ _ _ _ h h' => sameAt_trans hl hx hw h h') p _ _ _
                (hx _ _ _ hm p (.inl rfl)) (ha hx') (hb hy) (hc hz) h h'
            | gettable p =>
              exact sameP_trans (I := True) (O := SameAt E w k) hl (fun _ _ _ _ _ _ _ h h' => sameAt_trans hl hx hw h h') p _ _ _
                (hx _ _ _ hm p (.inr rfl)) (ha hx') (hb hy) (hc hz) h h'
            | dynamic => exact ha.elim
            | renamed => exact pyEq_trans ha.1 h h'

theorem same_trans {E : Env} (hl : LawfulEq E) (hx : AllExact E) {rk : Nat → Nat} {w : World}
    (hw : ComparableWorld E rk w) {i j l : Nat} (h : Same E w i j) (k : Same E w j l) :
    Same E w i l := by
  obtain ⟨a, h⟩ := h
  obtain ⟨b, k⟩ := k
  exact ⟨max a b, sameAt_trans hl hx hw (sameAt_le hw (Nat.le_max_left a b) h)
    (sameAt_le hw (Nat.le_max_right a b) k)⟩

end Verif
