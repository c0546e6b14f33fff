import Verif.Spec.Compose
import Verif.Lemmas.Monad
import Verif.Props.C15
import Verif.Lemmas.Constructs

/-!
# C75: what a declaration of a composed property declares
-/

namespace Verif
open Compose Spec

variable {E : Env} {rec : Rec}

/-! ## Accepted declarations -/

theorem boolKw_ok {d : Bool} {v : Option Val} {b : Bool} {w w' : World} (h : boolKw d v w = (.ok b, w')) :
    w' = w ∧ BoolSetting d v b := by
  unfold boolKw at h
  split at h
  · cases h; exact ⟨rfl, .inl ⟨rfl, rfl⟩⟩
  · cases h; exact ⟨rfl, .inr rfl⟩
  · cases h

theorem boolKw_runs {d : Bool} {v : Option Val} {b : Bool} (h : BoolSetting d v b) (w : World) :
    boolKw d v w = (.ok b, w) := by
  rcases h with ⟨rfl, rfl⟩ | rfl <;> rfl

theorem lengthKw_ok {v : Option Val} {n : Option Nat} {w w' : World} (h : lengthKw v w = (.ok n, w')) :
    w' = w ∧ LengthSetting v n := by
  unfold lengthKw at h
  split at h
  · cases h; exact ⟨rfl, .inl ⟨rfl, rfl⟩⟩
  · rename_i v
    cases hv : lengthOf v with
    | none => rw [hv] at h; cases h
    | some m =>
      rw [hv] at h
      cases h
      refine ⟨rfl, ?_⟩
      unfold lengthOf at hv
      split at hv
      · rename_i i
        split at hv
        · cases hv
        · cases hv
          exact .inr (.inl ⟨i.toNat, by rw [Int.toNat_of_nonneg (by omega)], rfl⟩)
      · rename_i b
        cases hv
        cases b
        · exact .inr (.inr (.inl ⟨rfl, rfl⟩))
        · exact .inr (.inr (.inr ⟨rfl, rfl⟩))
      · cases hv

theorem lengthKw_runs {v : Option Val} {n : Option Nat} (h : LengthSetting v n) (w : World) :
    lengthKw v w = (.ok n, w) := by
  rcases h with ⟨rfl, rfl⟩ | ⟨m, rfl, rfl⟩ | ⟨rfl, rfl⟩ | ⟨rfl, rfl⟩
  · rfl
  · have : lengthOf (.int m) = some m := by
      show (if (m : Int) < 0 then none else some (m : Int).toNat) = some m
      rw [if_neg (by omega), Int.toNat_natCast]
    unfold lengthKw
    simp only [this]
    rfl
  · rfl
  · rfl

theorem lengthsKw_ok {a b : Option Nat} {u : Unit} {w w' : World} (h : lengthsKw a b w = (.ok u, w')) :
    w' = w ∧ LimitsOrdered a b := by
  unfold lengthsKw at h
  split at h
  · split at h
    · cases h
    · cases h
      refine ⟨rfl, fun x y hx hy => ?_⟩
      cases hx; cases hy; omega
  · rename_i hn
    cases h
    exact ⟨rfl, fun x y hx hy => absurd hy (hn x y hx)⟩

theorem lengthsKw_runs {a b : Option Nat} (h : LimitsOrdered a b) (w : World) : lengthsKw a b w = (.ok (), w) := by
  unfold lengthsKw
  split
  · rename_i x y
    rw [if_neg (by have := h x y rfl rfl; omega)]
    rfl
  · rfl

theorem finish_ok {req : Bool} {kw : Kw} {ty : PropTy} {a : Dflt} {p : PropSpec} {w w' : World}
    (h : finish E rec req kw ty a w = (.ok p, w')) : p = withKw kw req (kw.dflt.getD a) ty := by
  unfold finish at h
  cases hd : kw.dflt with
  | none => rw [hd] at h; cases h; rfl
  | some d =>
    rw [hd] at h
    obtain ⟨u, w1, _, h2⟩ := bind_ok_inv h
    cases h2
    rfl

theorem finishUnion_ok {req st : Bool} {kw : Kw} {ps : List PropSpec} {p : PropSpec} {w w' : World}
    (h : finishUnion E rec req kw ps st w = (.ok p, w')) :
    p = withKw kw req (kw.dflt.getD .undef) (.union ps st) := by
  unfold finishUnion at h
  cases hd : kw.dflt with
  | none => rw [hd] at h; cases h; rfl
  | some d =>
    rw [hd] at h
    obtain ⟨u, w1, _, h2⟩ := bind_ok_inv h
    cases h2
    rfl

theorem isProperty_iff (d : Decl) : Decl.isProperty d = true ↔ IsProperty d := by
  unfold IsProperty
  cases d with
  | gettable kw => simp [Decl.isProperty]
  | leaf kw ty =>
    obtain ⟨ty, h⟩ := ty
    cases ty <;> simp [Decl.isProperty, h]
  | _ => simp [Decl.isProperty]

/-- What an argument is after evaluation. -/
def Stands : Arg → Built → Prop
  | .prop d, .prop f p => f = Decl.isProperty d ∧ Declares d p
  | .cls c, .cls c' => c' = c
  | .other, .other => True
  | _, _ => False

theorem validateProp_ok {a : Arg} {b : Built} (hs : Stands a b) {p : PropSpec} {w w' : World}
    (h : validateProp b w = (.ok p, w')) : w' = w ∧ DeclaresElem a p := by
  unfold validateProp at h
  split at h
  · cases h
    cases a with
    | cls c => cases hs; exact ⟨rfl, .cls _⟩
    | _ => exact absurd hs (by simp [Stands])
  · cases h
    cases a with
    | prop d => exact ⟨rfl, .prop d _ ((isProperty_iff d).1 hs.1.symm) hs.2⟩
    | _ => exact absurd hs (by simp [Stands])
  · cases h
  · cases h

theorem requiredKw_ok {f : Bool} {v : Option Val} {b : Bool} {w w' : World} (h : requiredKw f v w = (.ok b, w')) :
    w' = w ∧ (f = true → BoolSetting true v b) ∧ (f = false → v = none ∧ b = true) := by
  unfold requiredKw at h
  cases f with
  | true =>
    obtain ⟨h1, h2⟩ := boolKw_ok h
    exact ⟨h1, fun _ => h2, nofun⟩
  | false =>
    rw [if_neg (by simp)] at h
    cases v with
    | none => cases h; exact ⟨rfl, nofun, fun _ => ⟨rfl, rfl⟩⟩
    | some v => cases h

theorem settable_ok {ty : PropTy} {d : Option Dflt} {u : Unit} {w w' : World}
    (h : settableDefault ty d w = (.ok u, w')) : w' = w ∧ (ty = .uuid → d = none) := by
  unfold settableDefault at h
  split at h
  · cases h
  · rename_i hn
    cases h
    refine ⟨rfl, fun ht => ?_⟩
    subst ht
    cases d with
    | none => rfl
    | some x => exact (hn x rfl rfl).elim

/-- Arguments one by one. -/
def StandAll : List Arg → List Built → Prop
  | [], [] => True
  | a :: as, b :: bs => Stands a b ∧ StandAll as bs
  | _, _ => False

theorem validateProps_ok : ∀ {as : List Arg} {bs : List Built}, StandAll as bs → ∀ {ps : List PropSpec} {w w' : World},
    mapML validateProp bs w = (.ok ps, w') → w' = w ∧ DeclaresAll as ps
  | [], [], _, ps, w, w', h => by
    cases h
    exact ⟨rfl, .nil⟩
  | a :: as, b :: bs, hs, ps, w, w', h => by
    unfold mapML at h
    obtain ⟨p, w1, h1, h3⟩ := bind_ok_inv h
    obtain ⟨qs, w2, h2, h4⟩ := bind_ok_inv h3
    obtain ⟨rfl, e1⟩ := validateProp_ok hs.1 h1
    obtain ⟨rfl, e2⟩ := validateProps_ok hs.2 h2
    cases h4
    exact ⟨rfl, .cons _ _ _ _ e1 e2⟩
  | [], _ :: _, hs, _, _, _, _ => hs.elim
  | _ :: _, [], hs, _, _, _, _ => hs.elim

/-- An argument that may be missing. -/
def StandOpt : Option Arg → Option Built → Prop
  | none, none => True
  | some a, some b => Stands a b
  | _, _ => False

theorem innerOf_ok {a : Option Arg} {b : Option Built} (hs : StandOpt a b) {p : PropSpec} {w w' : World}
    (h : innerOf b w = (.ok p, w')) : w' = w ∧ DeclaresInner a p := by
  cases b with
  | none =>
    cases a with
    | none => simp only [innerOf] at h; cases h; exact ⟨rfl, .absent⟩
    | some a => exact hs.elim
  | some b =>
    cases a with
    | none => exact hs.elim
    | some a =>
      simp only [innerOf] at h
      obtain ⟨h1, h2⟩ := validateProp_ok hs h
      exact ⟨h1, .given _ _ h2⟩

mutual
theorem declares_ok : ∀ (d : Decl) {p : PropSpec} {w w' : World}, declare E rec d w = (.ok p, w') → Declares d p
  | .gettable kw, p, w, w', h => by
    simp only [declare] at h
    obtain ⟨req, w1, h1, h2⟩ := bind_ok_inv h
    obtain ⟨_, _, hf⟩ := requiredKw_ok h1
    obtain ⟨hr, rfl⟩ := hf rfl
    cases finish_ok h2
    exact .gettable kw hr
  | .leaf kw ty, p, w, w', h => by
    simp only [declare] at h
    obtain ⟨req, w1, h1, h3⟩ := bind_ok_inv h
    obtain ⟨u, w2, h2, h4⟩ := bind_ok_inv h3
    obtain ⟨_, ht, hf⟩ := requiredKw_ok h1
    obtain ⟨_, hs⟩ := settable_ok h2
    cases finish_ok h4
    by_cases hu : ty.1 = .uuid
    · obtain ⟨ty, h0⟩ := ty
      subst hu
      obtain ⟨hr, rfl⟩ := hf rfl
      rw [hs rfl]
      exact .uuid kw h0 hr (hs rfl)
    · refine .leaf kw ty req hu (ht ?_)
      obtain ⟨ty, h0⟩ := ty
      cases ty <;> first | rfl | exact absurd rfl hu
  | .seq kw k item minL maxL coerce, p, w, w', h => by
    simp only [declare] at h
    obtain ⟨b, w1', h1, h⟩ := bind_ok_inv h
    obtain ⟨it, w1, h1', h⟩ := bind_ok_inv h
    obtain ⟨_, hi⟩ := innerOf_ok (buildOpt_ok item h1) h1'
    obtain ⟨req, w2, h2, h⟩ := bind_ok_inv h
    obtain ⟨lo, w3, h3, h⟩ := bind_ok_inv h
    obtain ⟨hi', w4, h4, h⟩ := bind_ok_inv h
    obtain ⟨u, w5, h5, h⟩ := bind_ok_inv h
    obtain ⟨co, w6, h6, h⟩ := bind_ok_inv h
    cases finish_ok h
    exact .seq kw k item minL maxL coerce it req co lo hi' hi ((requiredKw_ok h2).2.1 rfl) (lengthKw_ok h3).2
      (lengthKw_ok h4).2 (lengthsKw_ok h5).2 (boolKw_ok h6).2
  | .dict kw key val coerce, p, w, w', h => by
    simp only [declare] at h
    obtain ⟨kb, w1, h1, h⟩ := bind_ok_inv h
    obtain ⟨vb, w2, h2, h⟩ := bind_ok_inv h
    obtain ⟨kp, w3, h3, h⟩ := bind_ok_inv h
    obtain ⟨vp, w4, h4, h⟩ := bind_ok_inv h
    obtain ⟨req, w5, h5, h⟩ := bind_ok_inv h
    obtain ⟨co, w6, h6, h⟩ := bind_ok_inv h
    cases finish_ok h
    exact .dict kw key val coerce kp vp req co (innerOf_ok (buildOpt_ok key h1) h3).2
      (innerOf_ok (buildOpt_ok val h2) h4).2 ((requiredKw_ok h5).2.1 rfl) (boolKw_ok h6).2
  | .inst kw c auto, p, w, w', h => by
    cases c with
    | none => simp only [declare] at h; cases h
    | some c =>
      simp only [declare] at h
      obtain ⟨req, w1, h1, h⟩ := bind_ok_inv h
      obtain ⟨au, w2, h2, h⟩ := bind_ok_inv h
      cases finish_ok h
      exact .inst kw c auto req au ((requiredKw_ok h1).2.1 rfl) (boolKw_ok h2).2
  | .union kw none strict, p, w, w', h => by
    simp only [declare] at h
    cases h
  | .union kw (some as) strict, p, w, w', h => by
    simp only [declare] at h
    obtain ⟨bs, w1, h1, h⟩ := bind_ok_inv h
    obtain ⟨ps, w2, h2, h⟩ := bind_ok_inv h
    obtain ⟨req, w3, h3, h⟩ := bind_ok_inv h
    obtain ⟨st, w4, h4, h⟩ := bind_ok_inv h
    cases finishUnion_ok h
    exact .union kw as strict ps req st (validateProps_ok (buildAll_ok as h1) h2).2
      ((requiredKw_ok h3).2.1 rfl) (boolKw_ok h4).2
theorem build_ok : ∀ (a : Arg) {b : Built} {w w' : World}, build E rec a w = (.ok b, w') → Stands a b
  | .prop d, b, w, w', h => by
    simp only [build] at h
    obtain ⟨p, w1, h1, h⟩ := bind_ok_inv h
    cases h
    exact ⟨rfl, declares_ok d h1⟩
  | .cls c, b, w, w', h => by
    simp only [build] at h
    cases h
    rfl
  | .other, b, w, w', h => by
    simp only [build] at h
    cases h
    trivial
theorem buildAll_ok : ∀ (as : List Arg) {bs : List Built} {w w' : World}, buildAll E rec as w = (.ok bs, w') →
    StandAll as bs
  | [], bs, w, w', h => by
    simp only [buildAll] at h
    cases h
    trivial
  | a :: as, bs, w, w', h => by
    simp only [buildAll] at h
    obtain ⟨b, w1, h1, h⟩ := bind_ok_inv h
    obtain ⟨cs, w2, h2, h⟩ := bind_ok_inv h
    cases h
    exact ⟨build_ok a h1, buildAll_ok as h2⟩
theorem buildOpt_ok : ∀ (a : Option Arg) {b : Option Built} {w w' : World}, buildOpt E rec a w = (.ok b, w') →
    StandOpt a b
  | none, b, w, w', h => by
    simp only [buildOpt] at h
    cases h
    trivial
  | some a, b, w, w', h => by
    simp only [buildOpt] at h
    obtain ⟨c, w1, h1, h⟩ := bind_ok_inv h
    cases h
    exact build_ok a h1
end

/-- C75: a declaration that is accepted is well-formed, and the property is the one it
describes. -/
theorem C75_declared {n : Nat} {d : Decl} {p : PropSpec} {w w' : World}
    (h : declare E (run E n) d w = (.ok p, w')) : Declares d p := declares_ok d h

/-! ## Declarations without defaults -/

/-- A computation that leaves the state alone and does not depend on it, and raises only
TypeError and AttributeError. -/
def Static {α : Type} (m : M α) : Prop :=
  (∃ a, ∀ w, m w = (.ok a, w)) ∨ ∃ e : PyErr, (e.kind = .type ∨ e.kind = .attr) ∧ ∀ w, m w = (.error e, w)

theorem static_pure {α : Type} (a : α) : Static (pure a : M α) := .inl ⟨a, fun _ => rfl⟩

theorem static_type {α : Type} : Static (raiseK .type : M α) := .inr ⟨_, .inl rfl, fun _ => rfl⟩

theorem static_attr {α : Type} : Static (raiseK .attr : M α) := .inr ⟨_, .inr rfl, fun _ => rfl⟩

theorem static_bind {α β : Type} {m : M α} {f : α → M β} (hm : Static m) (hf : ∀ a, Static (f a)) :
    Static (m >>= f) := by
  rcases hm with ⟨a, ha⟩ | ⟨e, he, hk⟩
  · rcases hf a with ⟨b, hb⟩ | ⟨e, he, hk⟩
    · exact .inl ⟨b, fun w => by rw [bind_ok (ha w), hb]⟩
    · exact .inr ⟨e, he, fun w => by rw [bind_ok (ha w), hk]⟩
  · exact .inr ⟨e, he, fun w => by rw [bind_err (hk w)]⟩

theorem static_boolKw (d : Bool) (v : Option Val) : Static (boolKw d v) := by
  unfold boolKw
  split
  · exact static_pure _
  · exact static_pure _
  · exact static_type

theorem static_requiredKw (f : Bool) (v : Option Val) : Static (requiredKw f v) := by
  unfold requiredKw
  split
  · exact static_boolKw _ _
  · split
    · exact static_pure _
    · exact static_attr

theorem static_lengthKw (v : Option Val) : Static (lengthKw v) := by
  unfold lengthKw
  split
  · exact static_pure _
  · split
    · exact static_pure _
    · exact static_type

theorem static_lengthsKw (a b : Option Nat) : Static (lengthsKw a b) := by
  unfold lengthsKw
  split
  · split
    · exact static_type
    · exact static_pure _
  · exact static_pure _

theorem static_validateProp (b : Built) : Static (validateProp b) := by
  unfold validateProp
  split
  · exact static_pure _
  · exact static_pure _
  · exact static_type
  · exact static_type

theorem static_innerOf (b : Option Built) : Static (innerOf b) := by
  cases b with
  | none => simp only [innerOf]; exact static_pure _
  | some b => simp only [innerOf]; exact static_validateProp b

theorem static_settable (ty : PropTy) (d : Option Dflt) : Static (settableDefault ty d) := by
  unfold settableDefault
  split
  · exact static_attr
  · exact static_pure _

theorem static_mapML {α β : Type} {f : α → M β} (hf : ∀ a, Static (f a)) : ∀ l, Static (mapML f l)
  | [] => static_pure _
  | a :: l => static_bind (hf a) fun _ => static_bind (static_mapML hf l) fun _ => static_pure _

theorem static_finish {req : Bool} {kw : Kw} {ty : PropTy} {a : Dflt} (h : kw.dflt = none ∨ kw.dflt = some .undef) :
    Static (finish E rec req kw ty a) := by
  unfold finish
  rcases h with h | h <;> rw [h]
  · exact static_pure _
  · exact static_bind (static_pure _) fun _ => static_pure _

theorem static_finishUnion {req st : Bool} {kw : Kw} {ps : List PropSpec}
    (h : kw.dflt = none ∨ kw.dflt = some .undef) : Static (finishUnion E rec req kw ps st) := by
  unfold finishUnion
  rcases h with h | h <;> rw [h]
  · exact static_pure _
  · exact static_bind (static_pure _) fun _ => static_pure _

theorem noDefaults_self {d : Decl} (h : NoDefaults d) :
    (keywords d).dflt = none ∨ (keywords d).dflt = some .undef := h d (.self d)

theorem noDefaults_inner {d e : Decl} (h : NoDefaults d) (he : .prop e ∈ arguments d) : NoDefaults e :=
  fun d' hd => h d' (.inner d' e d hd he)

mutual
theorem static_declare : ∀ (d : Decl), NoDefaults d → Static (declare E rec d)
  | .gettable kw, h => by
    simp only [declare]
    exact static_bind (static_requiredKw _ _) fun _ => static_finish (noDefaults_self h)
  | .leaf kw ty, h => by
    simp only [declare]
    exact static_bind (static_requiredKw _ _) fun _ => static_bind (static_settable _ _) fun _ =>
      static_finish (noDefaults_self h)
  | .seq kw k item minL maxL coerce, h => by
    simp only [declare]
    exact static_bind (static_buildOpt item fun d hd => noDefaults_inner h (by
        simp [arguments, hd])) fun _ => static_bind (static_innerOf _) fun _ =>
      static_bind (static_requiredKw _ _) fun _ => static_bind (static_lengthKw _) fun _ =>
      static_bind (static_lengthKw _) fun _ => static_bind (static_lengthsKw _ _) fun _ =>
      static_bind (static_boolKw _ _) fun _ => static_finish (noDefaults_self h)
  | .dict kw key val coerce, h => by
    simp only [declare]
    exact static_bind (static_buildOpt key fun d hd => noDefaults_inner h (by simp [arguments, hd])) fun _ =>
      static_bind (static_buildOpt val fun d hd => noDefaults_inner h (by simp [arguments, hd])) fun _ =>
      static_bind (static_innerOf _) fun _ => static_bind (static_innerOf _) fun _ =>
      static_bind (static_requiredKw _ _) fun _ => static_bind (static_boolKw _ _) fun _ =>
      static_finish (noDefaults_self h)
  | .inst kw none auto, h => by
    simp only [declare]
    exact static_type
  | .inst kw (some c) auto, h => by
    simp only [declare]
    exact static_bind (static_requiredKw _ _) fun _ => static_bind (static_boolKw _ _) fun _ =>
      static_finish (noDefaults_self h)
  | .union kw none strict, h => by
    simp only [declare]
    exact static_type
  | .union kw (some as) strict, h => by
    simp only [declare]
    exact static_bind (static_buildAll as fun d hd => noDefaults_inner h hd) fun _ =>
      static_bind (static_mapML static_validateProp _) fun _ => static_bind (static_requiredKw _ _) fun _ =>
      static_bind (static_boolKw _ _) fun _ => static_finishUnion (noDefaults_self h)
theorem static_build : ∀ (a : Arg), (∀ d, a = .prop d → NoDefaults d) → Static (build E rec a)
  | .prop d, h => by
    simp only [build]
    exact static_bind (static_declare d (h d rfl)) fun _ => static_pure _
  | .cls c, h => by
    simp only [build]
    exact static_pure _
  | .other, h => by
    simp only [build]
    exact static_pure _
theorem static_buildAll : ∀ (as : List Arg), (∀ d, .prop d ∈ as → NoDefaults d) → Static (buildAll E rec as)
  | [], h => by
    simp only [buildAll]
    exact static_pure _
  | a :: as, h => by
    simp only [buildAll]
    exact static_bind (static_build a fun d hd => h d (by simp [hd])) fun _ =>
      static_bind (static_buildAll as fun d hd => h d (by simp [hd])) fun _ => static_pure _
theorem static_buildOpt : ∀ (a : Option Arg), (∀ d, a = some (.prop d) → NoDefaults d) → Static (buildOpt E rec a)
  | none, h => by
    simp only [buildOpt]
    exact static_pure _
  | some a, h => by
    simp only [buildOpt]
    exact static_bind (static_build a fun d hd => h d (by rw [hd])) fun _ => static_pure _
end

/-! ## Well-formed declarations are accepted -/

theorem requiredKw_none (w : World) : requiredKw false none w = (.ok true, w) := rfl

theorem finish_runs {req : Bool} {kw : Kw} {ty : PropTy} {a : Dflt} (h : kw.dflt = none ∨ kw.dflt = some .undef)
    (w : World) : finish E rec req kw ty a w = (.ok (withKw kw req (kw.dflt.getD a) ty), w) := by
  unfold finish
  rcases h with h | h <;> rw [h] <;> rfl

theorem finishUnion_runs {req st : Bool} {kw : Kw} {ps : List PropSpec}
    (h : kw.dflt = none ∨ kw.dflt = some .undef) (w : World) :
    finishUnion E rec req kw ps st w = (.ok (withKw kw req (kw.dflt.getD .undef) (.union ps st)), w) := by
  unfold finishUnion
  rcases h with h | h <;> rw [h] <;> rfl

theorem settable_runs {ty : PropTy} {d : Option Dflt} (h : ty = .uuid → d = none) (w : World) :
    settableDefault ty d w = (.ok (), w) := by
  unfold settableDefault
  split
  · exact absurd (h rfl) (by simp)
  · rfl

mutual
theorem declare_runs : ∀ (d : Decl) {p : PropSpec}, NoDefaults d → Declares d p →
    ∀ w, declare E rec d w = (.ok p, w)
  | .gettable kw, p, hn, h, w => by
    cases h with
    | gettable _ hr =>
      simp only [declare]
      rw [hr, bind_ok (requiredKw_none w)]
      exact finish_runs (noDefaults_self hn) w
  | .leaf kw ty, p, hn, h, w => by
    cases h with
    | uuid _ h0 hr hd =>
      simp only [declare]
      have hf : Decl.isProperty (.leaf kw ⟨.uuid, h0⟩) = false := rfl
      rw [hf, hr, bind_ok (requiredKw_none w), bind_ok (settable_runs (fun _ => hd) w), finish_runs (.inl hd) w, hd]
      rfl
    | leaf _ _ req hu hr =>
      simp only [declare]
      have ht : Decl.isProperty (.leaf kw ty) = true := by
        obtain ⟨ty, h0⟩ := ty
        cases ty <;> first | rfl | exact absurd rfl hu
      rw [ht]
      have h1 : requiredKw true kw.required w = (.ok req, w) := boolKw_runs hr w
      rw [bind_ok h1, bind_ok (settable_runs (fun e => absurd e hu) w)]
      exact finish_runs (noDefaults_self hn) w
  | .seq kw k item minL maxL coerce, p, hn, h, w => by
    cases h with
    | seq _ _ _ _ _ _ it req co lo hi h1 h2 h3 h4 h5 h6 =>
      simp only [declare]
      obtain ⟨b, hb, hb'⟩ := buildOpt_runs item (fun d hd => noDefaults_inner hn (by simp [arguments, hd])) h1
      have e2 : requiredKw true kw.required w = (.ok req, w) := boolKw_runs h2 w
      rw [bind_ok (hb w), bind_ok (hb' w), bind_ok e2, bind_ok (lengthKw_runs h3 w), bind_ok (lengthKw_runs h4 w),
        bind_ok (lengthsKw_runs h5 w), bind_ok (boolKw_runs h6 w)]
      exact finish_runs (noDefaults_self hn) w
  | .dict kw key val coerce, p, hn, h, w => by
    cases h with
    | dict _ _ _ _ kp vp req co h1 h2 h3 h4 =>
      simp only [declare]
      obtain ⟨b, hb, hb'⟩ := buildOpt_runs key (fun d hd => noDefaults_inner hn (by simp [arguments, hd])) h1
      obtain ⟨c, hc, hc'⟩ := buildOpt_runs val (fun d hd => noDefaults_inner hn (by simp [arguments, hd])) h2
      have e2 : requiredKw true kw.required w = (.ok req, w) := boolKw_runs h3 w
      rw [bind_ok (hb w), bind_ok (hc w), bind_ok (hb' w), bind_ok (hc' w), bind_ok e2, bind_ok (boolKw_runs h4 w)]
      exact finish_runs (noDefaults_self hn) w
  | .inst kw none auto, p, hn, h, w => by cases h
  | .inst kw (some c) auto, p, hn, h, w => by
    cases h with
    | inst _ _ _ req au h1 h2 =>
      simp only [declare]
      have e2 : requiredKw true kw.required w = (.ok req, w) := boolKw_runs h1 w
      rw [bind_ok e2, bind_ok (boolKw_runs h2 w)]
      exact finish_runs (noDefaults_self hn) w
  | .union kw none strict, p, hn, h, w => by cases h
  | .union kw (some as) strict, p, hn, h, w => by
    cases h with
    | union _ _ _ ps req st h1 h2 h3 =>
      simp only [declare]
      obtain ⟨b, hb, hb'⟩ := buildAll_runs as (fun d hd => noDefaults_inner hn hd) h1
      have e2 : requiredKw true kw.required w = (.ok req, w) := boolKw_runs h2 w
      rw [bind_ok (hb w), bind_ok (hb' w), bind_ok e2, bind_ok (boolKw_runs h3 w)]
      exact finishUnion_runs (noDefaults_self hn) w
theorem build_runs : ∀ (a : Arg) {p : PropSpec}, (∀ d, a = .prop d → NoDefaults d) → DeclaresElem a p →
    ∃ b, (∀ w, build E rec a w = (.ok b, w)) ∧ ∀ w, validateProp b w = (.ok p, w)
  | .prop d, p, hn, h => by
    cases h with
    | prop _ _ hi hd =>
      refine ⟨.prop true p, fun w => ?_, fun w => rfl⟩
      simp only [build]
      rw [bind_ok (declare_runs d (hn d rfl) hd w), (isProperty_iff d).2 hi]
      rfl
  | .cls c, p, hn, h => by
    cases h with
    | cls => exact ⟨.cls c, fun w => by simp only [build]; rfl, fun w => rfl⟩
  | .other, p, hn, h => by cases h
theorem buildAll_runs : ∀ (as : List Arg) {ps : List PropSpec}, (∀ d, .prop d ∈ as → NoDefaults d) →
    DeclaresAll as ps →
    ∃ bs, (∀ w, buildAll E rec as w = (.ok bs, w)) ∧ ∀ w, mapML validateProp bs w = (.ok ps, w)
  | [], ps, hn, h => by
    cases h with
    | nil => exact ⟨[], fun w => by simp only [buildAll]; rfl, fun w => rfl⟩
  | a :: as, ps, hn, h => by
    cases h with
    | cons _ _ p ps h1 h2 =>
      obtain ⟨b, hb, hb'⟩ := build_runs a (fun d hd => hn d (by simp [hd])) h1
      obtain ⟨bs, hbs, hbs'⟩ := buildAll_runs as (fun d hd => hn d (by simp [hd])) h2
      refine ⟨b :: bs, fun w => ?_, fun w => ?_⟩
      · simp only [buildAll]
        rw [bind_ok (hb w), bind_ok (hbs w)]
        rfl
      · unfold mapML
        rw [bind_ok (hb' w), bind_ok (hbs' w)]
        rfl
theorem buildOpt_runs : ∀ (a : Option Arg) {p : PropSpec}, (∀ d, a = some (.prop d) → NoDefaults d) →
    DeclaresInner a p →
    ∃ b, (∀ w, buildOpt E rec a w = (.ok b, w)) ∧ ∀ w, innerOf b w = (.ok p, w)
  | none, p, hn, h => by
    cases h with
    | absent => exact ⟨none, fun w => by simp only [buildOpt]; rfl, fun w => by simp only [innerOf]; rfl⟩
  | some a, p, hn, h => by
    cases h with
    | given _ _ h1 =>
      obtain ⟨b, hb, hb'⟩ := build_runs a (fun d hd => hn d (by rw [hd])) h1
      refine ⟨some b, fun w => ?_, fun w => ?_⟩
      · simp only [buildOpt]
        rw [bind_ok (hb w)]
        rfl
      · simp only [innerOf]
        exact hb' w
end

/-- C75: a declaration without defaults is accepted exactly if it is well-formed, in any
state and with no effect on it; otherwise it raises TypeError or AttributeError. -/
theorem C75_accepts (n : Nat) {d : Decl} (hn : NoDefaults d) :
    (∃ p, Declares d p ∧ ∀ w, declare E (run E n) d w = (.ok p, w)) ∨
    ((∀ p, ¬ Declares d p) ∧ ∃ e : PyErr, (e.kind = .type ∨ e.kind = .attr) ∧
      ∀ w, declare E (run E n) d w = (.error e, w)) := by
  rcases static_declare (E := E) (rec := run E n) d hn with ⟨p, hp⟩ | ⟨e, he, hk⟩
  · exact .inl ⟨p, declares_ok d (hp {}), hp⟩
  · refine .inr ⟨fun p hp => ?_, e, he, hk⟩
    have h1 := declare_runs (E := E) (rec := run E n) d hn hp {}
    rw [hk] at h1
    cases h1

/-! ## Defaults -/

theorem checkDefault_ok {n : Nat} {p : PropSpec} {δ : Dflt} {u : Unit} {w w' : World} (hδ : δ ≠ .undef)
    (h : checkDefault E (run E n) p δ w = (.ok u, w')) : TriedOk E n δ p w w' := by
  have h' : (do
      let v ← evalDflt E (run E n) δ
      let _ ← run E n (.validate [] p none v)
      pure () : M Unit) w = (.ok u, w') := by
    cases δ <;> first | exact absurd rfl hδ | exact h
  obtain ⟨v, w1, h1, h2⟩ := bind_ok_inv h'
  obtain ⟨x, w2, h3, h4⟩ := bind_ok_inv h2
  cases h4
  exact .mk _ _ _ _ _ (evaluates_of_run h1) h3

theorem tryDefault_ok {n : Nat} {δ : Dflt} : ∀ {ps : List PropSpec} {u : Unit} {w w' : World},
    tryDefault E (run E n) δ ps w = (.ok u, w') → OneTakes E n δ ps w w'
  | [], u, w, w', h => by cases h
  | p :: ps, u, w, w', h => by
    unfold tryDefault at h
    unfold M.catchIf at h
    cases hm : (do
      let v ← evalDflt E (run E n) δ
      let _ ← run E n (.validate [] p none v)
      pure () : M Unit) w with
    | mk r w1 =>
      rw [hm] at h
      cases r with
      | ok a =>
        cases h
        obtain ⟨v, w2, h1, h2⟩ := bind_ok_inv hm
        obtain ⟨x, w3, h3, h4⟩ := bind_ok_inv h2
        cases h4
        exact .here _ _ _ _ (.mk _ _ _ _ _ (evaluates_of_run h1) h3)
      | error e =>
        dsimp only at h
        split at h
        · rename_i hg
          refine .later _ _ _ _ _ ?_ (tryDefault_ok h)
          rcases bind_err_inv hm with h1 | ⟨v, w2, h1, h2⟩
          · cases δ with
            | undef => cases h1
            | val v => cases h1
            | uuid4 => cases h1
            | fn f => exact .fn f _ e _ rfl h1 hg
            | cls c => exact .cls c _ e _ rfl h1 hg
          · rcases bind_err_inv h2 with h3 | ⟨x, w3, h3, h4⟩
            · exact .refused _ _ _ e _ (evaluates_of_run h1) h3 hg
            · cases h4
        · cases h

/-- Every declaration ends by checking its default. -/
theorem declare_last : ∀ (d : Decl) {p : PropSpec} {w w' : World}, declare E rec d w = (.ok p, w') →
    ((∀ kw as strict, d ≠ .union kw as strict) ∧
      ∃ req ty a w1, finish E rec req (keywords d) ty a w1 = (.ok p, w')) ∨
    ∃ kw as strict ps req st w1, d = .union kw (some as) strict ∧
      finishUnion E rec req kw ps st w1 = (.ok p, w')
  | .gettable kw, p, w, w', h => by
    simp only [declare] at h
    obtain ⟨_, _, _, h⟩ := bind_ok_inv h
    exact .inl ⟨by simp, _, _, _, _, h⟩
  | .leaf kw ty, p, w, w', h => by
    simp only [declare] at h
    obtain ⟨_, _, _, h⟩ := bind_ok_inv h
    obtain ⟨_, _, _, h⟩ := bind_ok_inv h
    exact .inl ⟨by simp, _, _, _, _, h⟩
  | .seq kw k item minL maxL coerce, p, w, w', h => by
    simp only [declare] at h
    obtain ⟨_, _, _, h⟩ := bind_ok_inv h
    obtain ⟨_, _, _, h⟩ := bind_ok_inv h
    obtain ⟨_, _, _, h⟩ := bind_ok_inv h
    obtain ⟨_, _, _, h⟩ := bind_ok_inv h
    obtain ⟨_, _, _, h⟩ := bind_ok_inv h
    obtain ⟨_, _, _, h⟩ := bind_ok_inv h
    obtain ⟨_, _, _, h⟩ := bind_ok_inv h
    exact .inl ⟨by simp, _, _, _, _, h⟩
  | .dict kw key val coerce, p, w, w', h => by
    simp only [declare] at h
    obtain ⟨_, _, _, h⟩ := bind_ok_inv h
    obtain ⟨_, _, _, h⟩ := bind_ok_inv h
    obtain ⟨_, _, _, h⟩ := bind_ok_inv h
    obtain ⟨_, _, _, h⟩ := bind_ok_inv h
    obtain ⟨_, _, _, h⟩ := bind_ok_inv h
    obtain ⟨_, _, _, h⟩ := bind_ok_inv h
    exact .inl ⟨by simp, _, _, _, _, h⟩
  | .inst kw none auto, p, w, w', h => by
    simp only [declare] at h
    cases h
  | .inst kw (some c) auto, p, w, w', h => by
    simp only [declare] at h
    obtain ⟨_, _, _, h⟩ := bind_ok_inv h
    obtain ⟨_, _, _, h⟩ := bind_ok_inv h
    exact .inl ⟨by simp, _, _, _, _, h⟩
  | .union kw none strict, p, w, w', h => by
    simp only [declare] at h
    cases h
  | .union kw (some as) strict, p, w, w', h => by
    simp only [declare] at h
    obtain ⟨_, _, _, h⟩ := bind_ok_inv h
    obtain ⟨_, _, _, h⟩ := bind_ok_inv h
    obtain ⟨_, _, _, h⟩ := bind_ok_inv h
    obtain ⟨_, _, _, h⟩ := bind_ok_inv h
    exact .inr ⟨_, _, _, _, _, _, _, rfl, h⟩

/-- C75: a default is checked last: the finished property has accepted it, or what it
returned if it is callable. -/
theorem C75_default {n : Nat} {d : Decl} {p : PropSpec} {w w' : World} {δ : Dflt}
    (h : declare E (run E n) d w = (.ok p, w')) (hd : (keywords d).dflt = some δ) (hδ : δ ≠ .undef)
    (hu : ∀ kw as strict, d ≠ .union kw as strict) :
    ∃ w1, TriedOk E n δ p w1 w' := by
  rcases declare_last d h with ⟨_, req, ty, a, w1, h1⟩ | ⟨kw, as, st, _, _, _, _, e, _⟩
  · unfold finish at h1
    rw [hd] at h1
    obtain ⟨u, w2, h2, h3⟩ := bind_ok_inv h1
    cases h3
    exact ⟨w1, checkDefault_ok hδ h2⟩
  · exact absurd e (hu _ _ _)

/-- C75: the default of a Union is accepted by one of its alternatives, tried in order. -/
theorem C75_union_default {n : Nat} {kw : Kw} {as : Option (List Arg)} {strict : Option Val} {p : PropSpec}
    {w w' : World} {δ : Dflt} (h : declare E (run E n) (.union kw as strict) w = (.ok p, w'))
    (hd : kw.dflt = some δ) (hδ : δ ≠ .undef) :
    ∃ ps st w1, p.ty = .union ps st ∧ OneTakes E n δ ps w1 w' := by
  rcases declare_last _ h with ⟨hu, _⟩ | ⟨kw', as', st', ps, req, st, w1, e, h1⟩
  · exact absurd rfl (hu _ _ _)
  · cases e
    unfold finishUnion at h1
    rw [hd] at h1
    obtain ⟨u, w2, h2, h3⟩ := bind_ok_inv h1
    cases h3
    refine ⟨ps, st, w1, rfl, tryDefault_ok (u := u) ?_⟩
    cases δ <;> first | exact absurd rfl hδ | exact h2

theorem declares_shape {d : Decl} {p : PropSpec} {δ : Dflt} (h : Declares d p) (hd : (keywords d).dflt = some δ) :
    p = withKw (keywords d) p.required δ p.ty := by
  cases h with
  | uuid kw _ _ h => rw [show keywords _ = kw from rfl, h] at hd; cases hd
  | _ => simp only [keywords] at hd; simp only [hd, keywords]; rfl

/-- A well-formed declaration whose inner declarations have no defaults gets as far as
checking its own. -/
theorem declare_reaches : ∀ (d : Decl) {p : PropSpec}, (∀ e, .prop e ∈ arguments d → NoDefaults e) → Declares d p →
    ∀ w, ((∀ kw as st, d ≠ .union kw as st) ∧
        ∃ a, declare E rec d w = finish E rec p.required (keywords d) p.ty a w) ∨
      ∃ kw as st ps b, d = .union kw as st ∧ p.ty = .union ps b ∧
        declare E rec d w = finishUnion E rec p.required kw ps b w
  | .gettable kw, p, hn, h, w => by
    cases h with
    | gettable _ hr =>
      refine .inl ⟨by simp, .undef, ?_⟩
      simp only [declare]
      rw [hr, bind_ok (requiredKw_none w)]
      rfl
  | .leaf kw ty, p, hn, h, w => by
    cases h with
    | uuid _ h0 hr hd =>
      refine .inl ⟨by simp, .undef, ?_⟩
      simp only [declare]
      have hf : Decl.isProperty (.leaf kw ⟨.uuid, h0⟩) = false := rfl
      rw [hf, hr, bind_ok (requiredKw_none w), bind_ok (settable_runs (fun _ => hd) w)]
      rfl
    | leaf _ _ req hu hr =>
      refine .inl ⟨by simp, .undef, ?_⟩
      simp only [declare]
      have ht : Decl.isProperty (.leaf kw ty) = true := by
        obtain ⟨ty, h0⟩ := ty
        cases ty <;> first | rfl | exact absurd rfl hu
      rw [ht]
      have h1 : requiredKw true kw.required w = (.ok req, w) := boolKw_runs hr w
      rw [bind_ok h1, bind_ok (settable_runs (fun e => absurd e hu) w)]
      rfl
  | .seq kw k item minL maxL coerce, p, hn, h, w => by
    cases h with
    | seq _ _ _ _ _ _ it req co lo hi h1 h2 h3 h4 h5 h6 =>
      refine .inl ⟨by simp, .undef, ?_⟩
      simp only [declare]
      obtain ⟨b, hb, hb'⟩ := buildOpt_runs item (fun d hd => hn d (by simp [arguments, hd])) h1
      have e2 : requiredKw true kw.required w = (.ok req, w) := boolKw_runs h2 w
      rw [bind_ok (hb w), bind_ok (hb' w), bind_ok e2, bind_ok (lengthKw_runs h3 w), bind_ok (lengthKw_runs h4 w),
        bind_ok (lengthsKw_runs h5 w), bind_ok (boolKw_runs h6 w)]
      rfl
  | .dict kw key val coerce, p, hn, h, w => by
    cases h with
    | dict _ _ _ _ kp vp req co h1 h2 h3 h4 =>
      refine .inl ⟨by simp, .undef, ?_⟩
      simp only [declare]
      obtain ⟨b, hb, hb'⟩ := buildOpt_runs key (fun d hd => hn d (by simp [arguments, hd])) h1
      obtain ⟨c, hc, hc'⟩ := buildOpt_runs val (fun d hd => hn d (by simp [arguments, hd])) h2
      have e2 : requiredKw true kw.required w = (.ok req, w) := boolKw_runs h3 w
      rw [bind_ok (hb w), bind_ok (hc w), bind_ok (hb' w), bind_ok (hc' w), bind_ok e2, bind_ok (boolKw_runs h4 w)]
      rfl
  | .inst kw none auto, p, hn, h, w => by cases h
  | .inst kw (some c) auto, p, hn, h, w => by
    cases h with
    | inst _ _ _ req au h1 h2 =>
      refine .inl ⟨by simp, if au then .cls c else .undef, ?_⟩
      simp only [declare]
      have e2 : requiredKw true kw.required w = (.ok req, w) := boolKw_runs h1 w
      rw [bind_ok e2, bind_ok (boolKw_runs h2 w)]
      rfl
  | .union kw none strict, p, hn, h, w => by cases h
  | .union kw (some as) strict, p, hn, h, w => by
    cases h with
    | union _ _ _ ps req st h1 h2 h3 =>
      refine .inr ⟨_, _, _, ps, st, rfl, rfl, ?_⟩
      simp only [declare]
      obtain ⟨b, hb, hb'⟩ := buildAll_runs as (fun d hd => hn d hd) h1
      have e2 : requiredKw true kw.required w = (.ok req, w) := boolKw_runs h2 w
      rw [bind_ok (hb w), bind_ok (hb' w), bind_ok e2, bind_ok (boolKw_runs h3 w)]
      rfl

theorem evalDflt_runs {n : Nat} {δ : Dflt} {v : Val} {w w' : World} (h : Evaluates E n δ w v w') :
    evalDflt E (run E n) δ w = (.ok v, w') := by
  cases h with
  | fn f _ _ _ h => exact h
  | cls c _ _ _ h => exact h
  | _ => rfl

theorem checkDefault_runs {n : Nat} {p : PropSpec} {δ : Dflt} {w w' : World} (hδ : δ ≠ .undef)
    (h : TriedOk E n δ p w w') : checkDefault E (run E n) p δ w = (.ok (), w') := by
  cases h with
  | mk v w1 x _ hv hr =>
    have : (do
        let v ← evalDflt E (run E n) δ
        let _ ← run E n (.validate [] p none v)
        pure () : M Unit) w = (.ok (), w') := by
      rw [bind_ok (evalDflt_runs hv), bind_ok hr]
      rfl
    cases δ <;> first | exact absurd rfl hδ | exact this

theorem tryDefault_runs {n : Nat} {δ : Dflt} : ∀ {ps : List PropSpec} {w w' : World},
    OneTakes E n δ ps w w' → tryDefault E (run E n) δ ps w = (.ok (), w')
  | p :: ps, w, w', h => by
    unfold tryDefault
    cases h with
    | here _ _ _ _ ht =>
      cases ht with
      | mk v w1 x _ hv hr =>
        refine catchIf_ok ?_
        rw [bind_ok (evalDflt_runs hv), bind_ok hr]
        rfl
    | later _ _ _ w1 _ hb ht =>
      have : ∃ e : PyErr, (do
        let v ← evalDflt E (run E n) δ
        let _ ← run E n (.validate [] p none v)
        pure () : M Unit) w = (.error e, w1) ∧ e.kind.isGeneric = true := by
        cases hb with
        | refused _ v w2 e _ hv hr hg =>
          exact ⟨e, by rw [bind_ok (evalDflt_runs hv), bind_err hr], hg⟩
        | fn f _ e _ hf h hg => subst hf; exact ⟨e, bind_err h, hg⟩
        | cls c _ e _ hf h hg => subst hf; exact ⟨e, bind_err h, hg⟩
      obtain ⟨e, h1, hg⟩ := this
      rw [catchIf_err h1 hg]
      exact tryDefault_runs ht

/-- C75: a declaration with a default, and without defaults inside, is accepted exactly if it
is well-formed and the finished property accepts the default. -/
theorem C75_default_iff {n : Nat} {d : Decl} {p : PropSpec} {w w' : World} {δ : Dflt}
    (hn : ∀ e, .prop e ∈ arguments d → NoDefaults e) (hd : (keywords d).dflt = some δ) (hδ : δ ≠ .undef)
    (hu : ∀ kw as strict, d ≠ .union kw as strict) :
    declare E (run E n) d w = (.ok p, w') ↔ Declares d p ∧ TriedOk E n δ p w w' := by
  have key : Declares d p → ∃ q, declare E (run E n) d w = (do
      checkDefault E (run E n) p δ
      pure q : M PropSpec) w ∧ q = p := fun hp => by
    rcases declare_reaches (E := E) (rec := run E n) d hn hp w with ⟨_, a, h⟩ | ⟨kw, as, st, _, _, e, _⟩
    · refine ⟨p, ?_, rfl⟩
      rw [h]
      unfold finish
      rw [hd]
      simp only
      rw [show PropSpec.mk p.required (keywords d).ser (keywords d).deser δ p.ty = p from (declares_shape hp hd).symm]
    · exact absurd e (hu _ _ _)
  constructor
  · intro h
    have hp := declares_ok d h
    obtain ⟨q, hq, rfl⟩ := key hp
    rw [h] at hq
    obtain ⟨u, w1, h1, h2⟩ := bind_ok_inv hq.symm
    cases h2
    exact ⟨hp, checkDefault_ok hδ h1⟩
  · rintro ⟨hp, ht⟩
    obtain ⟨q, hq, rfl⟩ := key hp
    rw [hq, bind_ok (checkDefault_runs hδ ht)]
    rfl

/-- C75: a Union with a default, and without defaults inside, is accepted exactly if it is
well-formed and one of its alternatives accepts the default, those before it raising a
ValueError, KeyError, TypeError or AttributeError. -/
theorem C75_union_iff {n : Nat} {kw : Kw} {as : Option (List Arg)} {strict : Option Val} {p : PropSpec} {w w' : World}
    {δ : Dflt} (hn : ∀ e, .prop e ∈ arguments (.union kw as strict) → NoDefaults e) (hd : kw.dflt = some δ)
    (hδ : δ ≠ .undef) :
    declare E (run E n) (.union kw as strict) w = (.ok p, w') ↔
      Declares (.union kw as strict) p ∧ ∃ ps st, p.ty = .union ps st ∧ OneTakes E n δ ps w w' := by
  have key : Declares (.union kw as strict) p → ∃ q ps st, p.ty = .union ps st ∧
      declare E (run E n) (.union kw as strict) w = (do
      tryDefault E (run E n) δ ps
      pure q : M PropSpec) w ∧ q = p := fun hp => by
    rcases declare_reaches (E := E) (rec := run E n) _ hn hp w with ⟨hu, _⟩ | ⟨kw, as, st, ps, b, e, hty, h⟩
    · exact absurd rfl (hu _ _ _)
    · cases e
      refine ⟨p, ps, b, hty, ?_, rfl⟩
      rw [h]
      unfold finishUnion
      rw [hd]
      simp only
      rw [show PropSpec.mk p.required kw.ser kw.deser δ (.union ps b) = p from by
        have := declares_shape hp hd
        rw [hty] at this
        exact this.symm]
      cases δ <;> first | exact absurd rfl hδ | rfl
  constructor
  · intro h
    have hp := declares_ok _ h
    obtain ⟨q, ps, st, hty, hq, rfl⟩ := key hp
    rw [h] at hq
    obtain ⟨u, w1, h1, h2⟩ := bind_ok_inv hq.symm
    cases h2
    exact ⟨hp, ps, st, hty, tryDefault_ok h1⟩
  · rintro ⟨hp, ps, st, hty, ht⟩
    obtain ⟨q, ps', st', hty', hq, rfl⟩ := key hp
    rw [hty] at hty'
    cases hty'
    rw [hq, bind_ok (tryDefault_runs ht)]
    rfl

theorem gives_evaluates {n : Nat} {v x : Val} {δ : Dflt} {w w' : World} (hg : Gives E v δ)
    (h : Evaluates E n δ w x w') : x = v ∧ w' = w := by
  cases hg with
  | val => cases h; exact ⟨rfl, rfl⟩
  | fn f hf =>
    cases h with
    | fn _ _ _ _ h =>
      rw [hf] at h
      cases h
      exact ⟨rfl, rfl⟩

/-- A value that one of the alternatives takes is taken by the Union. -/
theorem oneTakes_validate {n : Nat} {v : Val} {δ : Dflt} (hg : Gives E v δ) :
    ∀ {ps : List PropSpec} {w w' : World}, OneTakes E n δ ps w w' → ∀ qs,
      ∃ x, tryProps E (run E n) [] none (fun p => .validate [] p none v) (ps ++ qs) w = (.ok x, w')
  | p :: ps, w, w', h, qs => by
    cases h with
    | here _ _ _ _ ht =>
      cases ht with
      | mk v' w1 x _ hv hr =>
        obtain ⟨rfl, rfl⟩ := gives_evaluates hg hv
        exact ⟨x, catchIf_ok hr⟩
    | later _ _ _ w1 _ hb ht =>
      obtain ⟨x, hx⟩ := oneTakes_validate hg ht qs
      refine ⟨x, ?_⟩
      cases hb with
      | refused _ v' w2 e _ hv hr hk =>
        obtain ⟨rfl, rfl⟩ := gives_evaluates hg hv
        rw [List.cons_append]
        unfold tryProps
        rw [catchIf_err hr hk]
        exact hx
      | fn f _ e _ hf h _ =>
        subst hf
        cases hg with
        | fn _ hf => rw [hf] at h; cases h
      | cls c _ e _ hf _ _ => subst hf; cases hg

/-- C75: so a Union accepts its own default. -/
theorem C75_union_value {n : Nat} {kw : Kw} {as : Option (List Arg)} {strict : Option Val} {p : PropSpec}
    {w w' : World} {v : Val} {δ : Dflt} (h : declare E (run E n) (.union kw as strict) w = (.ok p, w'))
    (hd : kw.dflt = some δ) (hg : Gives E v δ) : ∃ w1 x, run E (n + 1) (.validate [] p none v) w1 = (.ok x, w') := by
  obtain ⟨ps, st, w1, hp, ht⟩ := C75_union_default h hd (by rintro rfl; cases hg)
  obtain ⟨rq, sr, ds, df, ty⟩ := p
  simp only [PropSpec.ty] at hp
  subst hp
  obtain ⟨x, hx⟩ := oneTakes_validate hg ht []
  rw [List.append_nil] at hx
  exact ⟨w1, x, hx⟩

/-! ## Using the default later -/

/-- A value that does not depend on the state is accepted always if it is accepted once. -/
theorem constant_again {n : Nat} {p : PropSpec} {v x : Val} {w w1 : World}
    (h : run E n (.validate [] p none v) w = (.ok x, w1)) (hc : Constant E p v) {m : Nat} (hm : depth p ≤ m)
    (nm : PyStr) (inst : Option Nat) (w' : World)
    (hi : ∀ r, inst = some r → ∃ o, w'.objs[r]? = some o ∧ o.gv ≠ some false) :
    run E m (.validate nm p inst v) w' = (.ok x, w') := by
  cases hc with
  | still hs hr =>
    exact accepted_again h hs (by intro r hr; cases hr) hi hm (only_plain hr)
  | colour s hty hv hr =>
    subst hv
    obtain ⟨rq, sr, ds, df, ty⟩ := p
    simp only [PropSpec.ty] at hty
    subst hty
    cases n with
    | zero => cases h
    | succ n =>
      cases m with
      | zero => simp [depth] at hm
      | succ m =>
        replace h : colorBody E (run E n) [] none (.str s) w = (.ok x, w1) := h
        show colorBody E (run E m) nm inst (.str s) w' = (.ok x, w')
        unfold colorBody at h ⊢
        simp only [hr, Bool.false_eq_true, if_false] at h ⊢
        rw [bind_ok (pure_apply _ _)] at h ⊢
        rw [liftScalar_ok_inv h]
        rfl

/-- C75: a default that was accepted when the property was declared is accepted ever after,
with the same result: in every state, under every name, and for every instance that is new
or being validated. -/
theorem C75_again {n : Nat} {d : Decl} {p : PropSpec} {w w' : World} {δ : Dflt} {v : Val}
    (h : declare E (run E n) d w = (.ok p, w')) (hd : (keywords d).dflt = some δ) (hg : Gives E v δ)
    (hc : Constant E p v) :
    ∃ x, ∀ m, depth p ≤ m → ∀ (nm : PyStr) (inst : Option Nat) (w2 : World),
      (∀ r, inst = some r → ∃ o, w2.objs[r]? = some o ∧ o.gv ≠ some false) →
      run E m (.validate nm p inst v) w2 = (.ok x, w2) := by
  have hδ : δ ≠ .undef := by rintro rfl; cases hg
  have : ∃ k w1 x, run E k (.validate [] p none v) w1 = (.ok x, w') := by
    by_cases hu : ∃ kw as strict, d = .union kw as strict
    · obtain ⟨kw, as, strict, rfl⟩ := hu
      obtain ⟨w1, x, h1⟩ := C75_union_value h hd hg
      exact ⟨_, w1, x, h1⟩
    · obtain ⟨w1, ht⟩ := C75_default h hd hδ fun kw as strict e => hu ⟨kw, as, strict, e⟩
      cases ht with
      | mk v' w2 x _ hv hr =>
        obtain ⟨rfl, rfl⟩ := gives_evaluates hg hv
        exact ⟨_, _, x, hr⟩
  obtain ⟨k, w1, x, h1⟩ := this
  exact ⟨x, fun m hm nm inst w2 hi => constant_again h1 hc hm nm inst w2 hi⟩

theorem constantDefault_ready {n : Nat} {c : ClsId} {nm : PyStr} {e : Entry}
    (h : ConstantDefault E (n + 1) c nm e) : Ready E (n + 1) c nm e := by
  cases h with
  | absent h => exact .inl h
  | uuid p ho hty hd =>
    refine .inr ⟨p, ho, fun k w o t _ => ?_⟩
    rw [hd]
    refine ⟨.uuid (E.uuid4 t), t + 1, rfl, fun m hm => ?_⟩
    cases m with
    | zero => omega
    | succ m =>
      refine ⟨.uuid (E.uuid4 t), t + 1, ?_⟩
      obtain ⟨rq, sr, ds, df, ty⟩ := p
      simp only [PropSpec.ty] at hty
      subst hty
      rfl
  | declared p d k w w' δ v ho hδ hd hg h hc hn =>
    obtain ⟨x, hx⟩ := C75_again h hd hg hc
    refine .inr ⟨p, ho, fun k w o t hgv => ⟨v, t, ?_, fun m hm => ⟨x, t, ?_⟩⟩⟩
    · rw [hδ]
      cases hg with
      | val => rfl
      | fn f hf =>
        show execProg _ (E.fn f []) _ = _
        rw [hf]
        rfl
    · refine hx m (by omega) _ _ _ fun r hr => ?_
      cases hr
      exact ⟨o, atTop_get w o t, hgv⟩

/-- C75: a class whose properties have constant defaults, if any, accepted when they were
declared, can be called without keywords in every state, whichever listeners are registered
or disabled: an instance is added, and nothing else is changed but the clock. -/
theorem C75_constructs {n : Nat} {c : ClsId} (hnames : ((E.classes c).props.map (·.1)).Nodup)
    (ha : ∀ nm e, (nm, e) ∈ (E.classes c).props → ConstantDefault E (n + 1) c nm e) (w : World) :
    ∃ o t, o.cls = c ∧ o.gv = some false ∧ run E (n + 5) (.construct c []) w =
      (.ok (.obj w.objs.length), { w with objs := w.objs ++ [o], tick := t }) :=
  construct_ready w hnames (fun nm e he => constantDefault_ready (ha nm e he)) (Nat.le_refl _)

/-! ## Inner declarations -/

theorem buildAll_inner : ∀ {as : List Arg} {bs : List Built} {w w' : World}, buildAll E rec as w = (.ok bs, w') →
    ∀ d, .prop d ∈ as → ∃ p w1 w2, declare E rec d w1 = (.ok p, w2)
  | [], bs, w, w', h, d, hd => by cases hd
  | a :: as, bs, w, w', h, d, hd => by
    simp only [buildAll] at h
    obtain ⟨b, w1, h1, h2⟩ := bind_ok_inv h
    obtain ⟨cs, w2, h3, h4⟩ := bind_ok_inv h2
    rcases List.mem_cons.1 hd with e | hd
    · subst e
      simp only [build] at h1
      obtain ⟨p, w3, h5, h6⟩ := bind_ok_inv h1
      exact ⟨p, w, w3, h5⟩
    · exact buildAll_inner h3 d hd

theorem buildOpt_inner {a : Option Arg} {b : Option Built} {w w' : World} (h : buildOpt E rec a w = (.ok b, w'))
    {d : Decl} (hd : .prop d ∈ a.toList) : ∃ p w1 w2, declare E rec d w1 = (.ok p, w2) := by
  cases a with
  | none => cases hd
  | some a =>
    simp only [Option.toList, List.mem_singleton] at hd
    subst hd
    simp only [buildOpt] at h
    obtain ⟨c, w1, h1, h2⟩ := bind_ok_inv h
    simp only [build] at h1
    obtain ⟨p, w3, h5, h6⟩ := bind_ok_inv h1
    exact ⟨p, w, w3, h5⟩

theorem declare_inner {d e : Decl} {p : PropSpec} {w w' : World} (h : declare E rec d w = (.ok p, w'))
    (he : .prop e ∈ arguments d) : ∃ q w1 w2, declare E rec e w1 = (.ok q, w2) := by
  cases d with
  | gettable kw => cases he
  | leaf kw ty => cases he
  | inst kw c auto => cases he
  | seq kw k item minL maxL coerce =>
    simp only [declare] at h
    obtain ⟨_, _, h1, _⟩ := bind_ok_inv h
    exact buildOpt_inner h1 he
  | dict kw key val coerce =>
    simp only [declare] at h
    obtain ⟨_, _, h1, h2⟩ := bind_ok_inv h
    obtain ⟨_, _, h3, _⟩ := bind_ok_inv h2
    rcases List.mem_append.1 he with he | he
    · exact buildOpt_inner h1 he
    · exact buildOpt_inner h3 he
  | union kw props strict =>
    cases props with
    | none => cases he
    | some as =>
      simp only [declare] at h
      obtain ⟨_, _, h1, _⟩ := bind_ok_inv h
      exact buildAll_inner h1 e he

/-- C75: a declaration is accepted only if all the declarations written in it are. -/
theorem C75_inner {n : Nat} {d d' : Decl} {p : PropSpec} {w w' : World}
    (h : declare E (run E n) d w = (.ok p, w')) (hd : WrittenIn d' d) :
    ∃ q w1 w2, declare E (run E n) d' w1 = (.ok q, w2) ∧ Declares d' q := by
  induction hd generalizing p w w' with
  | self => exact ⟨p, w, w', h, declares_ok _ h⟩
  | inner e d _ he ih =>
    obtain ⟨q, w1, w2, h1⟩ := declare_inner h he
    exact ih h1

/-! ## The default in force -/

mutual
theorem source_of_default : ∀ (d : Decl) {p : PropSpec}, Declares d p → p.default ≠ .undef → Source d p.default
  | .gettable kw, p, h, hn => by
    cases h with
    | gettable _ _ =>
      cases hd : kw.dflt with
      | none => rw [hd] at hn; exact absurd rfl hn
      | some δ =>
        rw [hd] at hn
        cases δ with
        | undef => exact absurd rfl hn
        | _ => exact .own _ _ hd
  | .leaf kw ty, p, h, hn => by
    cases h with
    | uuid _ h0 _ hd => exact .uuid kw h0 hd
    | leaf _ _ req hu _ =>
      have hc : ty.1.classDefault = .undef := by
        obtain ⟨ty, h0⟩ := ty
        cases ty <;> first | rfl | exact absurd rfl hu | cases h0
      cases hd : kw.dflt with
      | none =>
        rw [hd] at hn
        exact absurd hc hn
      | some δ =>
        rw [hd] at hn
        cases δ with
        | undef => exact absurd hc hn
        | _ => exact .own _ _ hd
  | .seq kw k item minL maxL coerce, p, h, hn => by
    cases h with
    | seq _ _ _ _ _ _ it req co lo hi _ _ _ _ _ _ =>
      cases hd : kw.dflt with
      | none => rw [hd] at hn; exact absurd rfl hn
      | some δ =>
        rw [hd] at hn
        cases δ with
        | undef => exact absurd rfl hn
        | _ => exact .own _ _ hd
  | .dict kw key val coerce, p, h, hn => by
    cases h with
    | dict _ _ _ _ kp vp req co _ _ _ _ =>
      cases hd : kw.dflt with
      | none => rw [hd] at hn; exact absurd rfl hn
      | some δ =>
        rw [hd] at hn
        cases δ with
        | undef => exact absurd rfl hn
        | _ => exact .own _ _ hd
  | .inst kw none auto, p, h, hn => by cases h
  | .inst kw (some c) auto, p, h, hn => by
    cases h with
    | inst _ _ _ req au _ ha =>
      cases hd : kw.dflt with
      | none =>
        rw [hd] at hn
        cases au with
        | false => exact absurd rfl hn
        | true =>
          rcases ha with ⟨_, e⟩ | rfl
          · cases e
          · exact .auto kw c hd
      | some δ =>
        rw [hd] at hn
        cases δ with
        | undef => exact absurd rfl hn
        | _ => exact .own _ _ hd
  | .union kw none strict, p, h, hn => by cases h
  | .union kw (some as) strict, p, h, hn => by
    cases h with
    | union _ _ _ ps req st ha _ _ =>
      have hf : (kw.dflt = none ∨ kw.dflt = some .undef) →
          (withKw kw req (kw.dflt.getD .undef) (.union ps st)).default ≠ .undef →
          Source (.union kw (some as) strict) (withKw kw req (kw.dflt.getD .undef) (.union ps st)).default := by
        intro hd hn
        have e : (withKw kw req (kw.dflt.getD .undef) (.union ps st)).default = firstDefault ps := by
          rcases hd with hd | hd <;> rw [hd] <;> rfl
        rw [e] at hn ⊢
        obtain ⟨d, h1, h2⟩ := source_of_first as ha hn
        exact .alternative kw as strict d _ hd h1 h2
      cases hd : kw.dflt with
      | none => rw [← hd]; exact hf (.inl hd) hn
      | some δ =>
        cases δ with
        | undef => rw [← hd]; exact hf (.inr hd) hn
        | _ => exact .own _ _ hd
theorem source_of_elem : ∀ (a : Arg) {p : PropSpec}, DeclaresElem a p → p.default ≠ .undef →
    ∃ d, a = .prop d ∧ Source d p.default
  | .prop d, p, h, hn => by
    cases h with
    | prop _ _ _ hd => exact ⟨d, rfl, source_of_default d hd hn⟩
  | .cls c, p, h, hn => by
    cases h with
    | cls => exact absurd rfl hn
  | .other, p, h, hn => by cases h
theorem source_of_first : ∀ (as : List Arg) {ps : List PropSpec}, DeclaresAll as ps → firstDefault ps ≠ .undef →
    ∃ d, .prop d ∈ as ∧ Source d (firstDefault ps)
  | [], ps, h, hn => by
    cases h with
    | nil => exact absurd rfl hn
  | a :: as, ps, h, hn => by
    cases h with
    | cons _ _ p ps h1 h2 =>
      by_cases hp : p.default = .undef
      · have e : firstDefault (p :: ps) = firstDefault ps := by
          simp only [firstDefault, hp]
        rw [e] at hn ⊢
        obtain ⟨d, hd, hs⟩ := source_of_first as h2 hn
        exact ⟨d, by simp [hd], hs⟩
      · have e : firstDefault (p :: ps) = p.default := by
          simp only [firstDefault]
        rw [e]
        obtain ⟨d, rfl, hs⟩ := source_of_elem a h1 hp
        exact ⟨d, by simp, hs⟩
end

/-- C75: the default in force comes from the declaration, or for a Union from one of its
alternatives. -/
theorem C75_in_force {n : Nat} {d : Decl} {p : PropSpec} {w w' : World}
    (h : declare E (run E n) d w = (.ok p, w')) (hn : p.default ≠ .undef) : Source d p.default :=
  source_of_default d (declares_ok d h) hn

/-! ## Concrete cases -/

def c75Int : Decl := .leaf {} ⟨.integer false none none, rfl⟩

/-- `List('', Dictionary('', value_prop=SomeClass), min_length=True, max_length=3)`. -/
def c75List : Decl :=
  .seq {} .list (some (.prop (.dict {} none (some (.cls 0)) none))) (some (.bool true)) (some (.int 3)) none

theorem c75List_bare : NoDefaults c75List := by
  intro d' h
  cases h with
  | self => exact .inl rfl
  | inner e _ h1 h2 =>
    simp only [c75List, arguments, Option.toList, List.mem_singleton] at h2
    cases h2
    cases h1 with
    | self => exact .inl rfl
    | inner e _ h1 h2 =>
      simp only [arguments, Option.toList, List.nil_append, List.mem_singleton] at h2
      cases h2

/-- It is accepted; `True` is the length 1. -/
example (w : World) : declare demoEnv (run demoEnv 5) c75List w =
    (.ok (.mk true none none .undef (.seq .list (.mk true none none .undef (.dict (.mk true none none .undef .any)
      (.mk true none none .undef (.inst 0)) false)) (some 1) (some 3) false)), w) := by with_unfolding_all rfl

/-- A Uuid is no inner property, limits must be in order, `required` must be a bool, and a Uuid
takes no default. -/
example (w : World) : declare demoEnv (run demoEnv 5)
    (.seq {} .set (some (.prop (.leaf {} ⟨.uuid, rfl⟩))) none none none) w = (.error ⟨.type, []⟩, w) := by with_unfolding_all rfl
example (w : World) : declare demoEnv (run demoEnv 5)
    (.seq {} .tup none (some (.int 4)) (some (.int 3)) none) w = (.error ⟨.type, []⟩, w) := by with_unfolding_all rfl
example (w : World) : declare demoEnv (run demoEnv 5)
    (.union { required := some (.int 1) } (some []) none) w = (.error ⟨.type, []⟩, w) := by with_unfolding_all rfl
example (w : World) : declare demoEnv (run demoEnv 5)
    (.leaf { dflt := some (.val (.uuid 0)) } ⟨.uuid, rfl⟩) w = (.error ⟨.attr, []⟩, w) := by with_unfolding_all rfl

/-- `Union('', [Integer(''), List('', Integer(''))], default=[1])`: the second takes the default. -/
def c75Either : Decl :=
  .union { dflt := some (.val (.list [.int 1])) }
    (some [.prop c75Int, .prop (.seq {} .list (some (.prop c75Int)) none none none)]) none

def c75EitherSpec : PropSpec := .mk true none none (.val (.list [.int 1]))
  (.union [.mk true none none .undef (.integer false none none),
    .mk true none none .undef (.seq .list (.mk true none none .undef (.integer false none none)) none none false)] false)

theorem c75Either_ok (w : World) : ∃ p, declare demoEnv (run demoEnv 5) c75Either w = (.ok p, w) ∧
    p.default = .val (.list [.int 1]) ∧ Constant demoEnv p (.list [.int 1]) ∧ depth p = 3 := by
  refine ⟨c75EitherSpec, by with_unfolding_all rfl, rfl, .still ?_ ?_, by decide⟩
  · simp [Still, StillTy, StillAll, Val.items, Val.isContainer, c75EitherSpec]
  · intro r h
    cases h with
    | list _ x hx h => simp only [List.mem_singleton] at hx; subst hx; cases h

/-- The same with a text as default is refused. -/
example (w : World) : declare demoEnv (run demoEnv 5) (.union { dflt := some (.val (.str (s% "x"))) }
    (some [.prop c75Int, .prop (.seq {} .list (some (.prop c75Int)) none none none)]) none) w =
    (.error ⟨.type, []⟩, w) := by with_unfolding_all rfl

/-- `Union('', [Integer(''), Float('', default=inf)])`. -/
def c75Inf : Decl :=
  .union {} (some [.prop c75Int, .prop (.leaf { dflt := some (.val (.float .pinf)) } ⟨.float false none none, rfl⟩)]) none

def c75InfSpec : PropSpec := .mk true none none .undef
  (.union [.mk true none none .undef (.integer false none none),
    .mk true none none (.val (.float .pinf)) (.float false none none)] false)

/-- Class 0 has that property; class 1 has `e = Union(...)` as above, `l = List('', default=list)`,
`n = Integer('')` and a Uuid. -/
def c75Env : Env := { demoEnv with
  fn := fun _ _ => .ret (.list [])
  classes := fun c => { (default : ClassDef) with
    props := if c = 0 then [(s% "u", .mutable c75InfSpec)] else
      [(s% "e", .mutable c75EitherSpec),
       (s% "l", .mutable (.mk true none none (.fn 7) (.seq .list (.mk true none none .undef .any) none none false))),
       (s% "n", .mutable (.mk true none none .undef (.integer false none none))),
       (s% "id", .gettable (.mk true none none .undef .uuid))] } }

/-- Class 1 meets the hypotheses of `C75_constructs`. -/
theorem c75_one (w : World) : ∃ o t, o.cls = 1 ∧ o.gv = some false ∧ run c75Env 9 (.construct 1 []) w =
    (.ok (.obj w.objs.length), { w with objs := w.objs ++ [o], tick := t }) := by
  refine C75_constructs (n := 4) (by decide) (fun nm e he => ?_) w
  have he : (nm, e) ∈ [(s% "e", Entry.mutable c75EitherSpec),
       (s% "l", .mutable (.mk true none none (.fn 7) (.seq .list (.mk true none none .undef .any) none none false))),
       (s% "n", .mutable (.mk true none none .undef (.integer false none none))),
       (s% "id", .gettable (.mk true none none .undef .uuid))] := he
  simp only [List.mem_cons, List.not_mem_nil, or_false, Prod.mk.injEq] at he
  rcases he with ⟨rfl, rfl⟩ | ⟨rfl, rfl⟩ | ⟨rfl, rfl⟩ | ⟨rfl, rfl⟩
  · refine .declared _ c75Either 5 {} {} _ (.list [.int 1]) (.inl rfl) rfl rfl .val (by with_unfolding_all rfl) (.still ?_ ?_) (by decide)
    · simp [Still, StillTy, StillAll, Val.items, Val.isContainer, c75EitherSpec]
    · intro r h
      cases h with
      | list _ x hx h => simp only [List.mem_singleton] at hx; subst hx; cases h
  · refine .declared _ (.seq { dflt := some (.fn 7) } .list none none none none) 5 {} {} _ (.list [])
      (.inl rfl) rfl rfl (.fn 7 rfl) (by with_unfolding_all rfl) (.still ?_ ?_) (by decide)
    · simp [Still, StillTy, Val.items, Val.isContainer]
    · intro r h
      cases h with
      | list _ x hx h => cases hx
  · exact .absent rfl
  · exact .uuid _ (.inr rfl) rfl rfl

/-- C75: the default a Union takes from an alternative is not checked by the Union: here the
declaration is accepted and the class can never be called without the property, since
`int(inf)` raises OverflowError. -/
theorem C75_inherited_unchecked (n : Nat) (w : World) :
    (∃ w', declare c75Env (run c75Env (n + 4)) c75Inf w = (.ok c75InfSpec, w')) ∧
    c75InfSpec.default = .val (.float .pinf) ∧
    ∃ e w', run c75Env (n + 6) (.construct 0 []) w = (.error e, w') ∧ e.kind = .overflow := by
  refine ⟨⟨w, by with_unfolding_all rfl⟩, rfl, ?_⟩
  let wq : World := { w with quar := Quar.all }
  let o0 : Obj := { cls := 0, listeners := initListeners (c75Env.classes 0) }
  have hp : lookupS (s% "u") (c75Env.classes o0.cls).props = some (.mutable c75InfSpec) := rfl
  have hv : run c75Env (n + 2) (.validate (s% "u") c75InfSpec (some w.objs.length) (.float .pinf)) (atTop wq o0 w.tick) =
      (.error ⟨.overflow, []⟩, atTop wq o0 w.tick) := by with_unfolding_all rfl
  have hs : run c75Env (n + 3) (.setattr w.objs.length (s% "u") (.float .pinf)) (atTop wq o0 w.tick) =
      (.error ⟨.overflow, []⟩, atTop wq o0 w.tick) := by
    show setattrBody c75Env (run c75Env (n + 2)) wq.objs.length (s% "u") (.float .pinf) (atTop wq o0 w.tick) = _
    rw [setattr_mutable (atTop_get wq o0 w.tick) hp]
    exact bind_err hv
  have hr : run c75Env (n + 4) (.reset w.objs.length (some (s% "u"))) (atTop wq o0 w.tick) =
      (.error ⟨.overflow, []⟩, atTop wq o0 w.tick) := by
    show resetBody c75Env (run c75Env (n + 3)) wq.objs.length (some (s% "u")) (atTop wq o0 w.tick) = _
    unfold resetBody
    rw [bind_ok (getObj_top wq o0 w.tick)]
    simp only [hp]
    exact hs
  have ha : run c75Env (n + 5) (.reset w.objs.length none) (atTop wq o0 w.tick) =
      (.error ⟨.overflow, []⟩, atTop wq o0 w.tick) := by
    show resetBody c75Env (run c75Env (n + 4)) wq.objs.length none (atTop wq o0 w.tick) = _
    unfold resetBody
    rw [bind_ok (getObj_top wq o0 w.tick)]
    exact bind_err (bind_err (bind_err hr))
  have hd : withDisabled Quar.all (run c75Env (n + 5) (.reset w.objs.length none)) (atTop w o0 w.tick) =
      (.error ⟨.overflow, []⟩, atTop w o0 w.tick) := by
    unfold withDisabled
    have hqq : ({ atTop w o0 w.tick with quar := (atTop w o0 w.tick).quar.union Quar.all } : World) =
        atTop wq o0 w.tick := by
      rw [Quar.union_all']
      rfl
    rw [hqq]
    simp only [ha]
    rfl
  refine ⟨⟨.overflow, []⟩, atTop w o0 w.tick, ?_, rfl⟩
  show constructBody c75Env (run c75Env (n + 5)) 0 [] w = _
  unfold constructBody
  have halloc : alloc o0 w = (.ok w.objs.length, atTop w o0 w.tick) := rfl
  have hr0 : raiseWhen false ErrKind.type w = (.ok (), w) := rfl
  have hg : forML (gettableDefault c75Env (run c75Env (n + 5)) 0 w.objs.length) (c75Env.classes 0).props
      (atTop w o0 w.tick) = (.ok (), atTop w o0 w.tick) := rfl
  rw [List.any_nil, bind_ok hr0, bind_ok halloc, bind_ok hg, bind_err hd]

end Verif
