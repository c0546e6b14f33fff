import Verif.Lemmas.EqualRun
import Verif.Lemmas.Approx
import Verif.Models.Demo

/-!
# C28: equal() is an equivalence on acyclic data

`Spec.Same` says what it means that two instances are equal: the same instance,
or of one class with values that are equal property by property.
-/

namespace Verif
open Spec

/-- No `equal` call is in progress. -/
def NotComparing (w : World) : Prop :=
  ∀ (r : Nat) (o : Obj), w.objs[r]? = some o → o.te = false

/-- C28: for instances without reference cycles `equal` decides `Same`, given
enough stack, and changes nothing. -/
theorem C28_decides {E : Env} (hl : LawfulEq E) {D : Nat} (hd : DistinctNames E)
    (hD : TypesWithin E D) (hx : AllSetsExact E) {rk : Nat → Nat} {w : World}
    (hw : ComparableWorld E rk w) (hm : NotComparing w) {i j : Nat}
    (hi : ∃ o, w.objs[i]? = some o) (hj : ∃ o, w.objs[j]? = some o) :
    ∃ b, (b = true ↔ Spec.Same E w i j) ∧ ∀ n, 1 + (rk i + 1) * (D + 2) ≤ n →
      run E n (.equal (.obj i) (.obj j)) w = (.ok (.bool b), w) :=
  ⟨truth (Spec.Same E w i j), truth_iff, fun n hn =>
    equal_run hl hd hD hx hw (rk i + 1) w i j n (Nat.lt_succ_self _) (sameCore_refl w)
      (fun s o h _ => hm s o h) hi hj hn⟩

/-- C28: with any stack, an answer of `equal` is right. -/
theorem C28_answer {E : Env} (hE : ∀ f args, Transparent (E.fn f args)) (hl : LawfulEq E) {D : Nat}
    (hd : DistinctNames E) (hD : TypesWithin E D) (hx : AllSetsExact E) {rk : Nat → Nat} {w : World}
    (hw : ComparableWorld E rk w) (hm : NotComparing w) {i j : Nat}
    (hi : ∃ o, w.objs[i]? = some o) (hj : ∃ o, w.objs[j]? = some o) {n : Nat} {v : Val}
    (h : (run E n (.equal (.obj i) (.obj j)) w).1 = .ok v) :
    ∃ b, v = .bool b ∧ (b = true ↔ Spec.Same E w i j) := by
  obtain ⟨b, hb, hr⟩ := C28_decides hl hd hD hx hw hm hi hj
  refine ⟨b, ?_, hb⟩
  have h2 := hr (n + (1 + (rk i + 1) * (D + 2))) (by omega)
  rcases run_approx hE n (1 + (rk i + 1) * (D + 2)) (.equal (.obj i) (.obj j)) w with ⟨e, h1, _⟩ | h1
  · rw [h] at h1; cases h1
  · rw [h1, h2] at h
    cases h
    rfl

/-- C28: every instance equals itself, also when it contains itself. -/
theorem C28_refl (E : Env) {w : World} {i : Nat} {o : Obj} (ho : w.objs[i]? = some o)
    (ht : o.te = false) (n : Nat) :
    run E (n + 1) (.equal (.obj i) (.obj i)) w = (.ok (.bool true), w) := by
  show equalBody E (run E n) (.obj i) (.obj i) w = _
  unfold equalBody
  simp only
  rw [bind_ok (getObj_some ho), if_neg (by rw [ht]; simp), bind_ok (modObj_apply _ _ _), fin_apply,
    if_pos trivial, pure_apply]
  simp only
  rw [setObj_setObj]
  refine congrArg (Prod.mk _) ?_
  exact setObj_id ho (by cases o; cases ht; rfl)

/-- C28: `equal(a, b)` is `equal(b, a)`. -/
theorem C28_symm {E : Env} (hl : LawfulEq E) {D : Nat} (hd : DistinctNames E)
    (hD : TypesWithin E D) (hx : AllSetsExact E) {rk : Nat → Nat} {w : World}
    (hw : ComparableWorld E rk w) (hm : NotComparing w) {i j : Nat}
    (hi : ∃ o, w.objs[i]? = some o) (hj : ∃ o, w.objs[j]? = some o) {n : Nat}
    (hn : 1 + (rk i + 1) * (D + 2) ≤ n) (hn' : 1 + (rk j + 1) * (D + 2) ≤ n) :
    run E n (.equal (.obj i) (.obj j)) w = run E n (.equal (.obj j) (.obj i)) w := by
  obtain ⟨b, hb, hr⟩ := C28_decides hl hd hD hx hw hm hi hj
  obtain ⟨b', hb', hr'⟩ := C28_decides hl hd hD hx hw hm hj hi
  rw [hr n hn, hr' n hn']
  have : b = b' := by
    rw [Bool.eq_iff_iff, hb, hb']
    exact ⟨same_symm hl hw, same_symm hl hw⟩
  rw [this]

theorem setsExact_of_exact {I : Prop} (hI : I) : ∀ (p : PropSpec), Exact True p → SetsExact I p
  | .mk _ _ _ _ ty, h => by unfold Exact at h; unfold SetsExact; exact go ty h
where
  lift : ∀ (p : PropSpec), Exact True p → Exact I p
    | .mk _ _ _ _ ty, h => by unfold Exact at h ⊢; exact liftTy ty h
  liftTy : ∀ (ty : PropTy), ExactTy True ty → ExactTy I ty
    | .seq _ item _ _ _, h => by unfold ExactTy at h ⊢; exact lift item h
    | .dict _ vp _, h => by unfold ExactTy at h ⊢; exact lift vp h
    | .inst _, _ => hI
    | .float .., h => h
    | .complex _, h => h
    | .union .., h => h
    | .any, _ | .boolean _, _ | .integer .., _ | .string .., _ | .choice .., _ | .color, _
    | .datetime, _ | .uuid, _ => trivial
  go : ∀ (ty : PropTy), ExactTy True ty → SetsExactTy I ty
    | .seq .set item _ _ _, h => ⟨lift item h, setsExact_of_exact hI item h⟩
    | .seq .tup item _ _ _, h => by unfold ExactTy at h; unfold SetsExactTy; exact setsExact_of_exact hI item h
    | .seq .list item _ _ _, h => by unfold ExactTy at h; unfold SetsExactTy; exact setsExact_of_exact hI item h
    | .dict _ vp _, h => by unfold ExactTy at h; unfold SetsExactTy; exact setsExact_of_exact hI vp h
    | .union .., h => h.elim
    | .inst _, _ | .float .., _ | .complex _, _
    | .any, _ | .boolean _, _ | .integer .., _ | .string .., _ | .choice .., _ | .color, _
    | .datetime, _ | .uuid, _ => trivial

/-- C28: for types without tolerance, if `equal(a, b)` and `equal(b, c)` then
`equal(a, c)`. -/
theorem C28_trans {E : Env} (hE : ∀ f args, Transparent (E.fn f args)) (hl : LawfulEq E) {D : Nat}
    (hd : DistinctNames E) (hD : TypesWithin E D) (hx : AllExact E) {rk : Nat → Nat} {w : World}
    (hw : ComparableWorld E rk w) (hm : NotComparing w) {i j k : Nat}
    (hi : ∃ o, w.objs[i]? = some o) (hj : ∃ o, w.objs[j]? = some o) (hk : ∃ o, w.objs[k]? = some o)
    {n1 n2 n : Nat} (h1 : (run E n1 (.equal (.obj i) (.obj j)) w).1 = .ok (.bool true))
    (h2 : (run E n2 (.equal (.obj j) (.obj k)) w).1 = .ok (.bool true))
    (hn : 1 + (rk i + 1) * (D + 2) ≤ n) :
    run E n (.equal (.obj i) (.obj k)) w = (.ok (.bool true), w) := by
  have hs : AllSetsExact E := fun c nm e hm p hp => setsExact_of_exact hx p (hx c nm e hm p hp)
  obtain ⟨b1, e1, s1⟩ := C28_answer hE hl hd hD hs hw hm hi hj h1
  obtain ⟨b2, e2, s2⟩ := C28_answer hE hl hd hD hs hw hm hj hk h2
  cases e1; cases e2
  obtain ⟨b, hb, hr⟩ := C28_decides hl hd hD hs hw hm hi hk
  rw [hr n hn, hb.2 (same_trans hl hx hw (s1.1 rfl) (s2.1 rfl))]

/-! ## An example: nested instances in a Set, and a Dictionary -/

/-- `class Leaf` with a Set of `Leaf`s, a Dictionary and an alias. -/
def c28Env : Env :=
  { demoEnv with
    classes := fun _ => { (default : ClassDef) with
      name := s% "Leaf"
      props := [
        (s% "s", .mutable (.mk false none none .undef
          (.seq .set (.mk false none none .undef (.inst 0)) none none false))),
        (s% "d", .gettable (.mk false none none .undef
          (.dict (.mk false none none .undef (.integer false none none))
            (.mk false none none .undef (.string [] .keep none)) false))),
        (s% "n", .mutable (.mk false none none .undef (.integer false none none))),
        (s% "m", .renamed (s% "n"))] } }

/-- Instances 4 and 5 hold equal leaves, in another order. -/
def c28World : World :=
  { objs := [
      { cls := 0, backend := [(s% "n", .int 1)] },
      { cls := 0, backend := [(s% "n", .int 2)] },
      { cls := 0, backend := [(s% "n", .int 2)] },
      { cls := 0, backend := [(s% "n", .int 1)] },
      { cls := 0, backend := [(s% "s", .set [.obj 0, .obj 1]),
        (s% "d", .dict [(.int 1, .str (s% "x")), (.int 2, .str (s% "y"))])] },
      { cls := 0, backend := [(s% "s", .set [.obj 2, .obj 3]),
        (s% "d", .dict [(.int 2, .str (s% "y")), (.int 1, .str (s% "x"))])] }] }

theorem demo_lawful {E : Env} (h1 : E.same = fun _ _ => false) (h2 : E.rnd = .fin) : LawfulEq E where
  symm a b h := by rw [h1] at h; cases h
  trans a b c h := by rw [h1] at h; cases h
  round q := by
    rw [h2]
    simp only [PyFloat.small, ratAbs_neg]

theorem c28_comparable : ComparableWorld c28Env (fun r => if r < 4 then 0 else 1) c28World := by
  have hleaf : ∀ (c : ClassDef) (P : Nat → Prop) (o : Obj) (x : Int), c = c28Env.classes 0 →
      o.backend = [(s% "n", .int x)] → ∀ nm e, (nm, e) ∈ c.props →
      ComparableEntry c28Env P c (readAs o nm e) e := by
    rintro _ P ⟨_, _, _, _, _, _, _⟩ x rfl h nm e hm
    simp only at h
    subst h
    simp only [c28Env, List.mem_cons, Prod.mk.injEq, List.not_mem_nil, or_false] at hm
    rcases hm with ⟨rfl, rfl⟩ | ⟨rfl, rfl⟩ | ⟨rfl, rfl⟩ | ⟨rfl, rfl⟩
    · exact fun h => absurd rfl h
    · exact fun h => absurd rfl h
    · intro _; unfold Comparable; rfl
    · exact ⟨rfl, _, _, rfl, .inl rfl⟩
  have hdict : ∀ (P : Nat → Prop) (kvs : List (Val × Val)),
      (kvs.map (·.1)).Pairwise (fun a b => pyEq a b = false) →
      (∀ kv ∈ kvs, kv.1.hashable = true ∧ kv.2.hashable = true) →
      Comparable c28Env P (.mk false none none .undef
          (.dict (.mk false none none .undef (.integer false none none))
            (.mk false none none .undef (.string [] .keep none)) false)) (.dict kvs) := by
    intro P kvs h1 h2
    unfold Comparable
    refine .inl ⟨kvs, rfl, h1, fun kv h => (h2 kv h).1, fun kv h => ?_⟩
    unfold Comparable
    exact (h2 kv h).2
  have hset : ∀ (P : Nat → Prop) (xs : List Val), (∀ x ∈ xs, ∃ r, x = .obj r ∧ P r) →
      Comparable c28Env P (.mk false none none .undef
          (.seq .set (.mk false none none .undef (.inst 0)) none none false)) (.set xs) := by
    intro P xs h
    unfold Comparable
    refine .inl ⟨xs, rfl, fun x hx => ?_⟩
    unfold Comparable
    exact .inl (h x hx)
  intro r o ho nm e hm
  match r, ho with
  | 0, ho => cases ho; exact hleaf _ _ _ 1 rfl rfl nm e hm
  | 1, ho => cases ho; exact hleaf _ _ _ 2 rfl rfl nm e hm
  | 2, ho => cases ho; exact hleaf _ _ _ 2 rfl rfl nm e hm
  | 3, ho => cases ho; exact hleaf _ _ _ 1 rfl rfl nm e hm
  | 4, ho =>
    cases ho
    simp only [c28Env, List.mem_cons, Prod.mk.injEq, List.not_mem_nil, or_false] at hm
    rcases hm with ⟨rfl, rfl⟩ | ⟨rfl, rfl⟩ | ⟨rfl, rfl⟩ | ⟨rfl, rfl⟩
    · intro _
      refine hset _ _ fun x hx => ?_
      simp only [List.mem_cons, List.not_mem_nil, or_false] at hx
      rcases hx with rfl | rfl
      · exact ⟨0, rfl, ⟨_, rfl⟩, by decide⟩
      · exact ⟨1, rfl, ⟨_, rfl⟩, by decide⟩
    · intro _
      refine hdict _ _ ?_ ?_
      · simp only [List.map_cons, List.map_nil, List.pairwise_cons, List.mem_singleton, forall_eq]
        exact ⟨by decide +kernel, by simp⟩
      · intro kv h
        simp only [List.mem_cons, List.not_mem_nil, or_false] at h
        rcases h with rfl | rfl <;> exact ⟨rfl, rfl⟩
    · exact fun h => absurd rfl h
    · exact ⟨rfl, _, _, rfl, .inl rfl⟩
  | 5, ho =>
    cases ho
    simp only [c28Env, List.mem_cons, Prod.mk.injEq, List.not_mem_nil, or_false] at hm
    rcases hm with ⟨rfl, rfl⟩ | ⟨rfl, rfl⟩ | ⟨rfl, rfl⟩ | ⟨rfl, rfl⟩
    · intro _
      refine hset _ _ fun x hx => ?_
      simp only [List.mem_cons, List.not_mem_nil, or_false] at hx
      rcases hx with rfl | rfl
      · exact ⟨2, rfl, ⟨_, rfl⟩, by decide⟩
      · exact ⟨3, rfl, ⟨_, rfl⟩, by decide⟩
    · intro _
      refine hdict _ _ ?_ ?_
      · simp only [List.map_cons, List.map_nil, List.pairwise_cons, List.mem_singleton, forall_eq]
        exact ⟨by decide +kernel, by simp⟩
      · intro kv h
        simp only [List.mem_cons, List.not_mem_nil, or_false] at h
        rcases h with rfl | rfl <;> exact ⟨rfl, rfl⟩
    · exact fun h => absurd rfl h
    · exact ⟨rfl, _, _, rfl, .inl rfl⟩
  | n + 6, ho => cases ho

theorem c28_types : TypesWithin c28Env 2 ∧ AllExact c28Env ∧ DistinctNames c28Env := by
  refine ⟨?_, ?_, fun c => show ((c28Env.classes 0).props.map (·.1)).Nodup by decide +kernel⟩ <;>
  · intro c nm e hm p hp
    simp only [c28Env, List.mem_cons, Prod.mk.injEq, List.not_mem_nil, or_false] at hm
    rcases hm with ⟨rfl, rfl⟩ | ⟨rfl, rfl⟩ | ⟨rfl, rfl⟩ | ⟨rfl, rfl⟩ <;>
      rcases hp with hp | hp <;> cases hp <;> simp [depth, depthTy, Exact, ExactTy]

/-- The hypotheses of the theorems are met, and there are instances that are
equal and instances that are not. -/
theorem C28_example : LawfulEq c28Env ∧ DistinctNames c28Env ∧ TypesWithin c28Env 2 ∧
    AllExact c28Env ∧ ComparableWorld c28Env (fun r => if r < 4 then 0 else 1) c28World ∧
    NotComparing c28World ∧
    (run c28Env 9 (.equal (.obj 4) (.obj 5)) c28World).1 = .ok (.bool true) ∧
    (run c28Env 9 (.equal (.obj 0) (.obj 1)) c28World).1 = .ok (.bool false) := by
  refine ⟨demo_lawful rfl rfl, c28_types.2.2, c28_types.1, c28_types.2.1, c28_comparable, ?_,
    by with_unfolding_all rfl, by with_unfolding_all rfl⟩
  intro r o ho
  match r, ho with
  | 0, ho | 1, ho | 2, ho | 3, ho | 4, ho | 5, ho => cases ho; rfl
  | n + 6, ho => cases ho

/-! ## Where the claim is false -/

/-- `class Node` with a reference to a Node. -/
def c28Node : Env :=
  { demoEnv with
    classes := fun _ => { (default : ClassDef) with
      props := [(s% "p", .mutable (.mk false none none .undef (.inst 0)))] } }

/-- `a.p = a; b.p = a`. -/
def c28Cycle : World :=
  { objs := [{ cls := 0, backend := [(s% "p", .obj 0)] }, { cls := 0, backend := [(s% "p", .obj 0)] }] }

/-- With a cycle `equal` is not symmetric: `equal(a, b)` is False, `equal(b, a)`
is True. -/
theorem C28_cycle_not_symmetric (n : Nat) :
    (run c28Node (n + 5) (.equal (.obj 0) (.obj 1)) c28Cycle).1 = .ok (.bool false) ∧
    (run c28Node (n + 5) (.equal (.obj 1) (.obj 0)) c28Cycle).1 = .ok (.bool true) :=
  ⟨by with_unfolding_all rfl, by with_unfolding_all rfl⟩

/-- `class Num` with a Float. -/
def c28Num : Env :=
  { demoEnv with
    classes := fun _ => { (default : ClassDef) with
      props := [(s% "x", .mutable (.mk false none none .undef (.float false none none)))] } }

/-- Floats `0`, `1e-9` and `2e-9` (the tolerance is `1e-9`). -/
def c28Nums : World :=
  { objs := [{ cls := 0, backend := [(s% "x", .float (.fin 0))] },
      { cls := 0, backend := [(s% "x", .float (.fin (1 / 1000000000)))] },
      { cls := 0, backend := [(s% "x", .float (.fin (2 / 1000000000)))] }] }

/-- With the tolerance of Float `equal` is not transitive. -/
theorem C28_float_not_transitive (n : Nat) :
    (run c28Num (n + 5) (.equal (.obj 0) (.obj 1)) c28Nums).1 = .ok (.bool true) ∧
    (run c28Num (n + 5) (.equal (.obj 1) (.obj 2)) c28Nums).1 = .ok (.bool true) ∧
    (run c28Num (n + 5) (.equal (.obj 0) (.obj 2)) c28Nums).1 = .ok (.bool false) :=
  ⟨by with_unfolding_all rfl, by with_unfolding_all rfl, by with_unfolding_all rfl⟩

/-- `class Holder` with a reference to a Node, and the same with an alias of it
(class 2). -/
def c28Alias : Env :=
  { demoEnv with
    classes := fun c => { (default : ClassDef) with
      props := if c = 0 then [] else
        (s% "p", .mutable (.mk false none none .undef (.inst 0))) ::
          if c = 1 then [] else [(s% "q", .renamed (s% "p"))] } }

/-- Two Holders (without, then with alias), each of its own Node. -/
def c28Holders : World :=
  { objs := [{ cls := 0 }, { cls := 0 },
      { cls := 1, backend := [(s% "p", .obj 0)] }, { cls := 1, backend := [(s% "p", .obj 1)] },
      { cls := 2, backend := [(s% "p", .obj 0)] }, { cls := 2, backend := [(s% "p", .obj 1)] }] }

/-- An alias of an Instance property makes equal instances unequal: it compares
with `==`, which for instances is identity. -/
theorem C28_alias_changes_equality (n : Nat) :
    (run c28Alias (n + 5) (.equal (.obj 2) (.obj 3)) c28Holders).1 = .ok (.bool true) ∧
    (run c28Alias (n + 5) (.equal (.obj 4) (.obj 5)) c28Holders).1 = .ok (.bool false) :=
  ⟨by with_unfolding_all rfl, by with_unfolding_all rfl⟩

end Verif
