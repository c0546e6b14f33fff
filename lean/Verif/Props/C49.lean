import Verif.Lemmas.EqualRun
import Verif.Models.Demo

/-!
# C49: equality of Sets and Dictionaries

The equality of items is that of the item property: `R x y` is the answer of
`item.equal(x, y)`.
-/

namespace Verif
open Spec

/-- The item property answers `R x y` on these values, without side effects. -/
def Answers (E : Env) (n : Nat) (p : PropSpec) (R : Val → Val → Bool) (w : World)
    (xs ys : List Val) : Prop :=
  ∀ x ∈ xs, ∀ y ∈ ys, run E n (.propEqual p x y) w = (.ok (.bool (R x y)), w)

/-- Items equal to a common one are equal to the same ones; every equivalence
has this property. -/
def NoTolerance (R : Val → Val → Bool) (xs ys : List Val) : Prop :=
  ∀ x ∈ xs, ∀ x' ∈ xs, ∀ y ∈ ys, ∀ y' ∈ ys,
    R x y = true → R x' y = true → R x' y' = true → R x y' = true

/-- C49: `Set.equal` is True exactly if the items can be paired one to one. -/
theorem C49_set {E : Env} {n : Nat} {item : PropSpec} {R : Val → Val → Bool} {w : World}
    {xs ys : List Val} (hr : Answers E n item R w xs ys) (ht : NoTolerance R xs ys)
    (rq : Bool) (se de : Option FnId) (df : Dflt) (lo hi : Option Nat) (co : Bool) :
    ∃ b, run E (n + 1) (.propEqual (.mk rq se de df (.seq .set item lo hi co)) (.set xs) (.set ys)) w =
        (.ok (.bool b), w) ∧
      (b = true ↔ Pairing (fun x y => R x y = true) xs ys) := by
  refine ⟨_, setEqual_apply (rec := run E n) xs ys hr, ?_⟩
  rw [Bool.and_eq_true, List.isEmpty_iff, beq_iff_eq]
  constructor
  · rintro ⟨h1, h2⟩
    exact (leftOver_nil h1 ht).1 h2
  · intro h
    have hle := pairing_length h
    exact ⟨hle, (leftOver_nil hle ht).2 h⟩

/-- A pairing does not depend on the order. -/
theorem pairing_perm {α β : Type} {R : α → β → Prop} {xs xs' : List α} {ys ys' : List β}
    (hx : xs.Perm xs') (hy : ys.Perm ys') (h : Pairing R xs ys) : Pairing R xs' ys' := by
  obtain ⟨zs, h1, h2⟩ := h
  obtain ⟨us, l1, l2⟩ := List.perm_comp_forall₂ hx.symm h1
  exact ⟨us, l1, l2.trans (h2.trans hy)⟩

/-- C49: the answer does not depend on the order in which the sets are iterated. -/
theorem C49_set_order {E : Env} {n : Nat} {item : PropSpec} {R : Val → Val → Bool} {w : World}
    {xs ys xs' ys' : List Val} (hx : xs.Perm xs') (hy : ys.Perm ys')
    (hr : Answers E n item R w xs ys) (ht : NoTolerance R xs ys)
    (rq : Bool) (se de : Option FnId) (df : Dflt) (lo hi : Option Nat) (co : Bool) :
    run E (n + 1) (.propEqual (.mk rq se de df (.seq .set item lo hi co)) (.set xs) (.set ys)) w =
    run E (n + 1) (.propEqual (.mk rq se de df (.seq .set item lo hi co)) (.set xs') (.set ys')) w := by
  obtain ⟨b, h1, h2⟩ := C49_set hr ht rq se de df lo hi co
  obtain ⟨b', h1', h2'⟩ := C49_set (xs := xs') (ys := ys') (R := R)
    (fun x hx' y hy' => hr x (hx.symm.subset hx') y (hy.symm.subset hy'))
    (fun x a x' a' y c y' c' => ht x (hx.symm.subset a) x' (hx.symm.subset a') y (hy.symm.subset c) y'
      (hy.symm.subset c')) rq se de df lo hi co
  rw [h1, h1']
  have : b = b' := by
    rw [Bool.eq_iff_iff, h2, h2']
    exact ⟨pairing_perm hx hy, pairing_perm hx.symm hy.symm⟩
  rw [this]

/-! ## Dictionaries -/

/-- The same keys, with values equal by `R`. -/
def SameMap (R : Val → Val → Bool) (xs ys : List (Val × Val)) : Prop :=
  ∀ k, k.hashable = true →
    (dictGet? xs k = none ∧ dictGet? ys k = none) ∨
    ∃ a b, dictGet? xs k = some a ∧ dictGet? ys k = some b ∧ R a b = true

/-- If all entries of `xs` have a partner in `ys`, then `xs` is paired with a
part of `ys`. -/
theorem partners {R : Val → Val → Bool} : ∀ {xs ys : List (Val × Val)}, GoodKeys xs → GoodKeys ys →
    (∀ x ∈ xs, ∃ y ∈ ys, pyEq x.1 y.1 = true ∧ R x.2 y.2 = true) →
    ∃ zs, List.Forall₂ (fun x y => pyEq x.1 y.1 = true ∧ R x.2 y.2 = true) xs zs ∧
      zs.Subperm ys
  | [], ys, _, _, _ => ⟨[], .nil, List.nil_subperm⟩
  | x :: xs, ys, hx, hy, h => by
    obtain ⟨y, hym, hxy⟩ := h x (by simp)
    obtain ⟨pre, post, rfl⟩ := List.append_of_mem hym
    have hsub : (pre ++ post).Sublist (pre ++ y :: post) := (List.sublist_cons_self y post).append_left pre
    obtain ⟨zs, h1, h2⟩ := partners (xs := xs) (ys := pre ++ post)
      (goodKeys_sub (List.sublist_cons_self x xs) hx) (goodKeys_sub hsub hy) fun x' hx' => by
        obtain ⟨y', hy', hr'⟩ := h x' (by simp [hx'])
        refine ⟨y', ?_, hr'⟩
        simp only [List.mem_append, List.mem_cons] at hy' ⊢
        rcases hy' with hy' | rfl | hy'
        · exact .inl hy'
        · exfalso
          have hk : pyEq x.1 x'.1 = true :=
            pyEq_trans (hx.2 x (by simp)) hxy.1 (pyEq_symm (hx.2 x' (by simp [hx'])) hr'.1)
          have hp := hx.1
          rw [List.map_cons, List.pairwise_cons] at hp
          have := hp.1 x'.1 (List.mem_map_of_mem hx')
          rw [hk] at this
          cases this
        · exact .inr hy'
    exact ⟨y :: zs, .cons hxy h1,
      ((List.subperm_cons y).2 h2).trans List.perm_middle.symm.subperm⟩

/-- No key is NaN or contains it. -/
def SelfEqualKeys (xs : List (Val × Val)) : Prop := ∀ x ∈ xs, pyEq x.1 x.1 = true

theorem sameMap_iff {R : Val → Val → Bool} {xs ys : List (Val × Val)} (hx : GoodKeys xs)
    (hy : GoodKeys ys) (sx : SelfEqualKeys xs) (sy : SelfEqualKeys ys) : SameMap R xs ys ↔
      Pairing (fun x y => pyEq x.1 y.1 = true ∧ R x.2 y.2 = true) xs ys := by
  constructor
  · intro h
    have found : ∀ {zs : List (Val × Val)} {x : Val × Val}, GoodKeys zs → SelfEqualKeys zs → x ∈ zs →
        dictGet? zs x.1 = some x.2 := by
      intro zs x hz sz hm
      cases hg : dictGet? zs x.1 with
      | none => have := dictGet_none hg x hm; rw [sz x hm] at this; cases this
      | some v =>
        obtain ⟨k', hk, he⟩ := dictGet_some hg
        have := goodKeys_unique hz _ hk _ hm he
        cases this
        rfl
    have left : ∀ x ∈ xs, ∃ y ∈ ys, pyEq x.1 y.1 = true ∧ R x.2 y.2 = true := by
      intro x hm
      rcases h x.1 (hx.2 x hm) with h | ⟨a, b, h1, h2, h3⟩
      · rw [found hx sx hm] at h; cases h.1
      · rw [found hx sx hm] at h1
        cases h1
        obtain ⟨k', hk, he⟩ := dictGet_some h2
        exact ⟨_, hk, pyEq_symm (hy.2 _ hk) he, h3⟩
    have right : ∀ y ∈ ys, ∃ x ∈ xs, pyEq y.1 x.1 = true ∧ (fun a b => R b a) y.2 x.2 = true := by
      intro y hm
      rcases h y.1 (hy.2 y hm) with h | ⟨a, b, h1, h2, h3⟩
      · rw [found hy sy hm] at h; cases h.2
      · rw [found hy sy hm] at h2
        cases h2
        obtain ⟨k', hk, he⟩ := dictGet_some h1
        exact ⟨_, hk, pyEq_symm (hx.2 _ hk) he, h3⟩
    obtain ⟨zs, h1, h2⟩ := partners hx hy left
    obtain ⟨us, l1, l2⟩ := partners (R := fun a b => R b a) hy hx right
    refine ⟨zs, h1, h2.perm_of_length_le ?_⟩
    rw [← h1.length_eq, l1.length_eq]
    exact l2.length_le
  · rintro ⟨zs, h1, h2⟩ k hk
    have partner : ∀ {us vs : List (Val × Val)} {S : Val × Val → Val × Val → Prop},
        List.Forall₂ S us vs → ∀ v ∈ vs, ∃ u ∈ us, S u v := fun h v hv => forall₂_right h hv
    cases hgx : dictGet? xs k with
    | none =>
      left
      refine ⟨rfl, ?_⟩
      cases hgy : dictGet? ys k with
      | none => rfl
      | some b =>
        exfalso
        obtain ⟨k', hk', he⟩ := dictGet_some hgy
        obtain ⟨x, hxm, hr⟩ := partner h1 _ (h2.symm.subset hk')
        have := dictGet_none hgx x hxm
        rw [pyEq_trans (hx.2 x hxm) hr.1 he] at this
        cases this
    | some a =>
      right
      obtain ⟨k', hk', he⟩ := dictGet_some hgx
      obtain ⟨y, hym, hr⟩ := forall₂_left h1 _ hk'
      have hym' := h2.subset hym
      cases hgy : dictGet? ys k with
      | none =>
        exfalso
        have := dictGet_none hgy y hym'
        rw [pyEq_trans (hy.2 y hym') (pyEq_symm (hx.2 _ hk') hr.1) he] at this
        cases this
      | some b =>
        obtain ⟨k2, hk2, he2⟩ := dictGet_some hgy
        have := goodKeys_found hy hym' hk2
          (pyEq_trans (hy.2 y hym') (pyEq_symm (hx.2 _ hk') hr.1) he) he2
        subst this
        exact ⟨a, _, rfl, rfl, hr.2⟩

/-- C49: `Dictionary.equal` is True exactly if the dictionaries have the same
keys, with equal values. -/
theorem C49_dict {E : Env} {n : Nat} {kp vp : PropSpec} {R : Val → Val → Bool} {w : World}
    {xs ys : List (Val × Val)} (hx : GoodKeys xs) (hy : GoodKeys ys) (sx : SelfEqualKeys xs)
    (sy : SelfEqualKeys ys) (hr : Answers E n vp R w (xs.map (·.2)) (ys.map (·.2)))
    (rq : Bool) (se de : Option FnId) (df : Dflt) (co : Bool) :
    ∃ b, run E (n + 1) (.propEqual (.mk rq se de df (.dict kp vp co)) (.dict xs) (.dict ys)) w =
        (.ok (.bool b), w) ∧ (b = true ↔ SameMap R xs ys) := by
  obtain ⟨c, h1, h2⟩ := dictEqual_apply (rec := run E n) (p := vp) (ws := w) (R := R) hx hy
    fun x hx' y hy' => hr x.2 (List.mem_map_of_mem hx') y.2 (List.mem_map_of_mem hy')
  exact ⟨c, h1, h2.trans (sameMap_iff hx hy sx sy).symm⟩

/-! ## Item types that meet the hypotheses -/

/-- C49: item types without tolerance, alternatives and instances, at any depth,
answer without side effects and without tolerance. -/
theorem C49_items {E : Env} (hl : LawfulEq E) {item : PropSpec} (hx : Exact False item)
    (hs : SetsExact False item) {xs ys : List Val}
    (hc : ∀ x ∈ xs, Comparable E (fun _ => False) item x)
    (hc' : ∀ y ∈ ys, Comparable E (fun _ => False) item y) (w : World) {n : Nat}
    (hn : depth item + 1 ≤ n) : ∃ R, Answers E n item R w xs ys ∧ NoTolerance R xs ys := by
  have hsym : ∀ i j : Nat, False → False := fun _ _ h => h
  refine ⟨fun x y => truth (SameP E (fun _ _ => False) item x y), fun x h y h' => ?_, ?_⟩
  · exact propEqual_run (P := fun _ => False) (Q := fun _ => False) (I := False) hl (Nat.le_refl 1)
      (fun _ _ h => h) (fun h => h.elim) (fun _ _ _ _ h => h.elim) item n x y hn hs (hc x h) (hc' y h')
  · intro x hx1 x' hx2 y hy1 y' hy2 h1 h2 h3
    rw [truth_iff] at h1 h2 h3 ⊢
    have h4 := sameP_symm hl (fun i j _ _ h => h) item x' y (hc x' hx2) (hc' y hy1) h2
    have h5 := sameP_trans (I := False) hl (fun hI => hI.elim) item x y x' hx (hc x hx1) (hc' y hy1)
      (hc x' hx2) h1 h4
    exact sameP_trans (I := False) hl (fun hI => hI.elim) item x x' y' hx (hc x hx1) (hc x' hx2)
      (hc' y' hy2) h5 h3

/-! ## Examples -/

def intProp : PropSpec := .mk false none none .undef (.integer false none none)

def setOf (p : PropSpec) : PropSpec := .mk false none none .undef (.seq .set p none none false)

def dictOf (p : PropSpec) : PropSpec := .mk false none none .undef (.dict intProp p false)

/-- Sets of integers meet the hypotheses of `C49_set`. -/
theorem C49_example : (∃ R, Answers demoEnv 9 intProp R {} [.int 1, .int 2, .bool true] [.int 2, .int 1, .int 1] ∧
      NoTolerance R [.int 1, .int 2, .bool true] [.int 2, .int 1, .int 1]) ∧
    (run demoEnv 10 (.propEqual (setOf intProp) (.set [.int 1, .int 2, .bool true])
      (.set [.int 2, .int 1, .int 1])) {}).1 = .ok (.bool true) ∧
    (run demoEnv 10 (.propEqual (setOf intProp) (.set [.int 1, .int 2]) (.set [.int 2, .int 3])) {}).1 =
      .ok (.bool false) := by
  have hl : LawfulEq demoEnv :=
    { symm := fun _ _ h => (by cases h), trans := fun _ _ _ h => (by cases h),
      round := fun q => by show (PyFloat.fin (-q)).small = _; simp only [PyFloat.small, ratAbs_neg]; rfl }
  refine ⟨C49_items hl (by simp [intProp, Exact, ExactTy])
    (by simp [intProp, SetsExact, SetsExactTy]) (fun x hx => ?_) (fun x hx => ?_) _ (by decide +kernel),
    by with_unfolding_all rfl, by with_unfolding_all rfl⟩ <;>
  · simp only [List.mem_cons, List.not_mem_nil, or_false] at hx
    rcases hx with rfl | rfl | rfl <;> (unfold intProp Comparable; rfl)

/-- A Dictionary of integers, and one where only the values differ. -/
theorem C49_dict_example :
    GoodKeys [(.int 1, .int 5), (.int 2, .int 6)] ∧ GoodKeys [(.int 2, .int 6), (.bool true, .int 5)] ∧
    SelfEqualKeys [(.int 1, .int 5), (.int 2, .int 6)] ∧
    SelfEqualKeys [(.int 2, .int 6), (.bool true, .int 5)] ∧
    (run demoEnv 10 (.propEqual (dictOf intProp) (.dict [(.int 1, .int 5), (.int 2, .int 6)])
      (.dict [(.int 2, .int 6), (.bool true, .int 5)])) {}).1 = .ok (.bool true) ∧
    (run demoEnv 10 (.propEqual (dictOf intProp) (.dict [(.int 1, .int 5), (.int 2, .int 6)])
      (.dict [(.int 2, .int 5), (.int 1, .int 6)])) {}).1 = .ok (.bool false) := by
  have good : ∀ (k1 k2 v1 v2 : Val), pyEq k1 k2 = false → k1.hashable = true → k2.hashable = true →
      GoodKeys [(k1, v1), (k2, v2)] := by
    intro k1 k2 v1 v2 h1 h2 h3
    refine ⟨by simp [h1], fun kv h => ?_⟩
    simp only [List.mem_cons, List.not_mem_nil, or_false] at h
    rcases h with rfl | rfl <;> assumption
  have self : ∀ (k1 k2 v1 v2 : Val), pyEq k1 k1 = true → pyEq k2 k2 = true →
      SelfEqualKeys [(k1, v1), (k2, v2)] := by
    intro k1 k2 v1 v2 h1 h2 kv h
    simp only [List.mem_cons, List.not_mem_nil, or_false] at h
    rcases h with rfl | rfl <;> assumption
  exact ⟨good _ _ _ _ (by decide +kernel) rfl rfl, good _ _ _ _ (by decide +kernel) rfl rfl,
    self _ _ _ _ (by decide +kernel) (by decide +kernel), self _ _ _ _ (by decide +kernel) (by decide +kernel),
    by with_unfolding_all rfl, by with_unfolding_all rfl⟩

/-! ## With tolerance the answer depends on the order -/

def floatProp : PropSpec := .mk false none none .undef (.float false none none)

/-- `{1e-9, 0}` and `{0, 2e-9}` can be paired; `Set.equal` finds the pairing in one
order of iteration and not in the other. -/
theorem C49_tolerance_order :
    (run demoEnv 10 (.propEqual (setOf floatProp)
      (.set [.float (.fin (1 / 1000000000)), .float (.fin 0)])
      (.set [.float (.fin 0), .float (.fin (2 / 1000000000))])) {}).1 = .ok (.bool false) ∧
    (run demoEnv 10 (.propEqual (setOf floatProp)
      (.set [.float (.fin 0), .float (.fin (1 / 1000000000))])
      (.set [.float (.fin 0), .float (.fin (2 / 1000000000))])) {}).1 = .ok (.bool true) :=
  ⟨by with_unfolding_all rfl, by with_unfolding_all rfl⟩

/-- C49 (outside dictionaries): asked about two lists, `Dictionary.equal` takes the items of the
first one for positions; a position that is not there raises IndexError. -/
theorem C49_dict_lists {E : Env} {n : Nat} {kp vp : PropSpec} {b : Bool} {w : World} {y : Val} {i : Int}
    (hr : run E n (.propEqual vp (.int i) y) w = (.ok (.bool b), w))
    (rq : Bool) (se de : Option FnId) (df : Dflt) (co : Bool) :
    run E (n + 1) (.propEqual (.mk rq se de df (.dict kp vp co)) (.list [.int i]) (.list [y])) w =
      if i = 0 ∨ i = -1 then (.ok (.bool b), w) else (.error { kind := .index }, w) := by
  by_cases h : i = 0 ∨ i = -1
  · rw [if_pos h]
    have hi : pyIndex (.list [.int i]) (.int i) = .ok (.int i) ∧ pyIndex (.list [y]) (.int i) = .ok y ∧
        pyPop (.list [y]) (.int i) = .ok (.list []) := by
      rcases h with rfl | rfl <;> exact ⟨rfl, rfl, rfl⟩
    obtain ⟨h1, h2, h3⟩ := hi
    show dictEqual (run E n) vp (.list [.int i]) (.list [y]) w = _
    unfold dictEqual
    refine catchIf_ok ?_
    show bind (foldML (β := Val) _ _ [Val.int i]) _ w = _
    refine (bind_ok (a := .list (if b then [] else [y])) (w' := w) ?_).trans ?_
    · show bind _ (fun b => foldML _ b []) w = _
      refine (bind_ok (a := .list (if b then [] else [y])) (w' := w) ?_).trans rfl
      refine (bind_ok (a := .int i) (w' := w) (by rw [h1]; rfl)).trans ?_
      refine (bind_ok (a := y) (w' := w) (by rw [h2]; rfl)).trans ?_
      refine (bind_ok hr).trans ?_
      cases b with
      | true => exact (congrArg (fun z => liftK z w) h3).trans rfl
      | false => rfl
    · cases b <;> rfl
  · rw [if_neg h]
    have hi : pyIndex (.list [.int i]) (.int i) = .error .index := by
      unfold pyIndex
      dsimp only
      by_cases h0 : i < 0
      · rw [if_pos h0, if_pos (by simp; omega)]
      · rw [if_neg h0, if_neg h0]
        have : ¬ i.toNat < 1 := by omega
        rw [List.getElem?_eq_none (by simp; omega)]
    show dictEqual (run E n) vp (.list [.int i]) (.list [y]) w = _
    unfold dictEqual
    refine catchIf_pass ?_ rfl
    show bind (foldML (β := Val) _ _ [Val.int i]) _ w = _
    refine bind_err ?_
    show bind _ (fun b => foldML _ b []) w = _
    refine bind_err ?_
    exact bind_err (by rw [hi]; rfl)

/-- `Dictionary.equal([-1], [-1])` is True and `Dictionary.equal([1], [1])` raises. -/
example :
    run demoEnv 9 (.propEqual (.mk true none none .undef (.dict intProp intProp false)) (.list [.int (-1)]) (.list [.int (-1)])) {} =
      (.ok (.bool true), {}) ∧
    run demoEnv 9 (.propEqual (.mk true none none .undef (.dict intProp intProp false)) (.list [.int 1]) (.list [.int 1])) {} =
      (.error { kind := .index }, {}) :=
  ⟨C49_dict_lists (n := 8) (b := true) (by with_unfolding_all rfl) true none none .undef false,
    C49_dict_lists (n := 8) (b := true) (by with_unfolding_all rfl) true none none .undef false⟩

end Verif
