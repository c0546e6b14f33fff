import Verif.Models.Pickle
import Verif.Spec.Pickle
import Verif.Lemmas.Equal

/-!
# Values with their instances exchanged
-/

namespace Verif

open Spec

theorem movedL_eq (k : Nat) : ∀ xs, movedL k xs = xs.map (Val.moved k)
  | [] => rfl
  | x :: xs => by unfold movedL; rw [movedL_eq k xs]; rfl

theorem movedD_eq (k : Nat) : ∀ kvs, movedD k kvs = kvs.map fun kv => (kv.1.moved k, kv.2.moved k)
  | [] => rfl
  | (x, y) :: kvs => by unfold movedD; rw [movedD_eq k kvs]; rfl

mutual
theorem moved_noRef (k : Nat) : ∀ {v : Val}, (∀ r, ¬ RefIn r v) → v.moved k = v
  | .obj r, h => absurd .obj (h r)
  | .list xs, h => by
      unfold Val.moved
      rw [movedL_noRef k fun x hx r hr => h r (.list xs x hx hr)]
  | .tup xs, h => by
      unfold Val.moved
      rw [movedL_noRef k fun x hx r hr => h r (.tup xs x hx hr)]
  | .set xs, h => by
      unfold Val.moved
      rw [movedL_noRef k fun x hx r hr => h r (.set xs x hx hr)]
  | .dict kvs, h => by
      unfold Val.moved
      rw [movedD_noRef k fun kv hkv => ⟨fun r hr => h r (.key kvs kv hkv hr), fun r hr => h r (.value kvs kv hkv hr)⟩]
  | .none, _ => by unfold Val.moved; rfl
  | .undef, _ => by unfold Val.moved; rfl
  | .bool _, _ => by unfold Val.moved; rfl
  | .int _, _ => by unfold Val.moved; rfl
  | .float _, _ => by unfold Val.moved; rfl
  | .cplx _ _, _ => by unfold Val.moved; rfl
  | .str _, _ => by unfold Val.moved; rfl
  | .dt _, _ => by unfold Val.moved; rfl
  | .uuid _, _ => by unfold Val.moved; rfl
  | .opq _, _ => by unfold Val.moved; rfl
theorem movedL_noRef (k : Nat) : ∀ {xs : List Val}, (∀ x ∈ xs, ∀ r, ¬ RefIn r x) → movedL k xs = xs
  | [], _ => rfl
  | x :: xs, h => by
      unfold movedL
      rw [moved_noRef k (h x (.head _)), movedL_noRef k fun y hy => h y (.tail _ hy)]
theorem movedD_noRef (k : Nat) : ∀ {kvs : List (Val × Val)},
    (∀ kv ∈ kvs, (∀ r, ¬ RefIn r kv.1) ∧ ∀ r, ¬ RefIn r kv.2) → movedD k kvs = kvs
  | [], _ => rfl
  | (x, y) :: kvs, h => by
      unfold movedD
      rw [moved_noRef k (h (x, y) (.head _)).1, moved_noRef k (h (x, y) (.head _)).2,
        movedD_noRef k fun kv hkv => h kv (.tail _ hkv)]
end

mutual
theorem refIn_moved {k s : Nat} : ∀ {v : Val}, RefIn s (v.moved k) → ∃ r, s = r + k ∧ RefIn r v
  | .obj r, h => by unfold Val.moved at h; cases h; exact ⟨r, rfl, .obj⟩
  | .list xs, h => by
      unfold Val.moved at h
      cases h with
      | list _ x hx h => obtain ⟨y, hy, r, e, hr⟩ := refIn_movedL hx h; exact ⟨r, e, .list _ y hy hr⟩
  | .tup xs, h => by
      unfold Val.moved at h
      cases h with
      | tup _ x hx h => obtain ⟨y, hy, r, e, hr⟩ := refIn_movedL hx h; exact ⟨r, e, .tup _ y hy hr⟩
  | .set xs, h => by
      unfold Val.moved at h
      cases h with
      | set _ x hx h => obtain ⟨y, hy, r, e, hr⟩ := refIn_movedL hx h; exact ⟨r, e, .set _ y hy hr⟩
  | .dict kvs, h => by
      unfold Val.moved at h
      cases h with
      | key _ kv hkv h =>
        obtain ⟨y, hy, r, e, hr⟩ := refIn_movedD hkv (.inl h)
        exact ⟨r, e, hr.elim (.key _ y hy) (.value _ y hy)⟩
      | value _ kv hkv h =>
        obtain ⟨y, hy, r, e, hr⟩ := refIn_movedD hkv (.inr h)
        exact ⟨r, e, hr.elim (.key _ y hy) (.value _ y hy)⟩
  | .none, h => by unfold Val.moved at h; cases h
  | .undef, h => by unfold Val.moved at h; cases h
  | .bool _, h => by unfold Val.moved at h; cases h
  | .int _, h => by unfold Val.moved at h; cases h
  | .float _, h => by unfold Val.moved at h; cases h
  | .cplx _ _, h => by unfold Val.moved at h; cases h
  | .str _, h => by unfold Val.moved at h; cases h
  | .dt _, h => by unfold Val.moved at h; cases h
  | .uuid _, h => by unfold Val.moved at h; cases h
  | .opq _, h => by unfold Val.moved at h; cases h
theorem refIn_movedL {k s : Nat} : ∀ {xs : List Val} {x : Val}, x ∈ movedL k xs → RefIn s x →
    ∃ y ∈ xs, ∃ r, s = r + k ∧ RefIn r y
  | [], _, h, _ => by unfold movedL at h; cases h
  | y :: xs, x, h, hr => by
      unfold movedL at h
      rcases List.mem_cons.1 h with rfl | h
      · obtain ⟨r, e, hr⟩ := refIn_moved hr
        exact ⟨y, .head _, r, e, hr⟩
      · obtain ⟨z, hz, hh⟩ := refIn_movedL h hr
        exact ⟨z, .tail _ hz, hh⟩
theorem refIn_movedD {k s : Nat} : ∀ {kvs : List (Val × Val)} {kv : Val × Val}, kv ∈ movedD k kvs →
    RefIn s kv.1 ∨ RefIn s kv.2 → ∃ y ∈ kvs, ∃ r, s = r + k ∧ (RefIn r y.1 ∨ RefIn r y.2)
  | [], _, h, _ => by unfold movedD at h; cases h
  | (a, b) :: kvs, kv, h, hr => by
      unfold movedD at h
      rcases List.mem_cons.1 h with rfl | h
      · rcases hr with hr | hr
        · obtain ⟨r, e, hr⟩ := refIn_moved hr
          exact ⟨(a, b), .head _, r, e, .inl hr⟩
        · obtain ⟨r, e, hr⟩ := refIn_moved hr
          exact ⟨(a, b), .head _, r, e, .inr hr⟩
      · obtain ⟨z, hz, hh⟩ := refIn_movedD h hr
        exact ⟨z, .tail _ hz, hh⟩
end

mutual
theorem alike_moved (k : Nat) : ∀ v : Val, SameBut (· + k) v (v.moved k)
  | .obj r => by unfold Val.moved; exact .obj r
  | .list xs => by unfold Val.moved; exact .list _ _ (alike_movedL k xs)
  | .tup xs => by unfold Val.moved; exact .tup _ _ (alike_movedL k xs)
  | .set xs => by unfold Val.moved; exact .set _ _ (alike_movedL k xs)
  | .dict kvs => by unfold Val.moved; exact .dict _ _ (alike_movedD k kvs).1 (alike_movedD k kvs).2
  | .none => by unfold Val.moved; exact .same _ fun r h => nomatch h
  | .undef => by unfold Val.moved; exact .same _ fun r h => nomatch h
  | .bool _ => by unfold Val.moved; exact .same _ fun r h => nomatch h
  | .int _ => by unfold Val.moved; exact .same _ fun r h => nomatch h
  | .float _ => by unfold Val.moved; exact .same _ fun r h => nomatch h
  | .cplx _ _ => by unfold Val.moved; exact .same _ fun r h => nomatch h
  | .str _ => by unfold Val.moved; exact .same _ fun r h => nomatch h
  | .dt _ => by unfold Val.moved; exact .same _ fun r h => nomatch h
  | .uuid _ => by unfold Val.moved; exact .same _ fun r h => nomatch h
  | .opq _ => by unfold Val.moved; exact .same _ fun r h => nomatch h
theorem alike_movedL (k : Nat) : ∀ xs : List Val, List.Forall₂ (SameBut (· + k)) xs (movedL k xs)
  | [] => by unfold movedL; exact .nil
  | x :: xs => by unfold movedL; exact .cons (alike_moved k x) (alike_movedL k xs)
theorem alike_movedD (k : Nat) : ∀ kvs : List (Val × Val),
    List.Forall₂ (fun a b => SameBut (· + k) a.1 b.1) kvs (movedD k kvs) ∧
    List.Forall₂ (fun a b => SameBut (· + k) a.2 b.2) kvs (movedD k kvs)
  | [] => by unfold movedD; exact ⟨.nil, .nil⟩
  | (x, y) :: kvs => by
      unfold movedD
      exact ⟨.cons (alike_moved k x) (alike_movedD k kvs).1, .cons (alike_moved k y) (alike_movedD k kvs).2⟩
end

/-! ## `==` and the other primitives do not see the exchange -/

theorem num_moved (k : Nat) (v : Val) : (v.moved k).num? = v.num? := by
  cases v <;> (unfold Val.moved; rfl)

theorem realNum_moved (k : Nat) (v : Val) : (v.moved k).realNum? = v.realNum? := by
  cases v <;> (unfold Val.moved; rfl)

theorem realPart_moved (k : Nat) (v : Val) : (v.moved k).realPart? = v.realPart? := by
  cases v <;> (unfold Val.moved; rfl)

theorem imagPart_moved (k : Nat) (v : Val) : (v.moved k).imagPart? = v.imagPart? := by
  cases v <;> (unfold Val.moved; rfl)

mutual
theorem hashable_moved (k : Nat) : ∀ v : Val, (v.moved k).hashable = v.hashable
  | .tup xs => by unfold Val.moved Val.hashable; exact hashableL_moved k xs
  | .list _ => by unfold Val.moved; rfl
  | .set _ => by unfold Val.moved; rfl
  | .dict _ => by unfold Val.moved; rfl
  | .obj _ => by unfold Val.moved; rfl
  | .none => by unfold Val.moved; rfl
  | .undef => by unfold Val.moved; rfl
  | .bool _ => by unfold Val.moved; rfl
  | .int _ => by unfold Val.moved; rfl
  | .float _ => by unfold Val.moved; rfl
  | .cplx _ _ => by unfold Val.moved; rfl
  | .str _ => by unfold Val.moved; rfl
  | .dt _ => by unfold Val.moved; rfl
  | .uuid _ => by unfold Val.moved; rfl
  | .opq _ => by unfold Val.moved; rfl
theorem hashableL_moved (k : Nat) : ∀ xs, hashableL (movedL k xs) = hashableL xs
  | [] => rfl
  | x :: xs => by unfold movedL hashableL; rw [hashable_moved k x, hashableL_moved k xs]
end

theorem iter_moved (k : Nat) (v : Val) : (v.moved k).iter? = v.iter?.map (movedL k) := by
  cases v with
  | str s =>
    unfold Val.moved Val.iter?
    simp only [Option.map_some, movedL_eq, List.map_map, Option.some.injEq]
    exact List.map_congr_left fun c _ => by simp [Val.moved]
  | dict kvs =>
    unfold Val.moved Val.iter?
    simp only [Option.map_some, movedL_eq, movedD_eq, List.map_map, Option.some.injEq]
    exact List.map_congr_left fun c _ => rfl
  | _ => unfold Val.moved Val.iter?; rfl

mutual
theorem pyEq_moved (k : Nat) : ∀ a b : Val, pyEq (a.moved k) (b.moved k) = pyEq a b
  | .obj a, b => by
      cases b with
      | obj b =>
        unfold Val.moved pyEq
        simp only
        rw [Bool.eq_iff_iff]
        simp
      | _ => unfold Val.moved pyEq; rfl
  | .list xs, b => by
      cases b with
      | list ys => unfold Val.moved pyEq; exact pyEqL_moved k xs ys
      | _ => unfold Val.moved pyEq; rfl
  | .tup xs, b => by
      cases b with
      | tup ys => unfold Val.moved pyEq; exact pyEqL_moved k xs ys
      | _ => unfold Val.moved pyEq; rfl
  | .set xs, b => by
      cases b with
      | set ys =>
        unfold Val.moved pyEq
        simp only [pySubset_moved k xs ys]
        simp [movedL_eq]
      | _ => unfold Val.moved pyEq; rfl
  | .dict xs, b => by
      cases b with
      | dict ys =>
        unfold Val.moved pyEq
        simp only [pySubdict_moved k xs ys]
        simp [movedD_eq]
      | _ => unfold Val.moved pyEq; rfl
  | .none, b => by cases b <;> (unfold Val.moved pyEq; rfl)
  | .undef, b => by cases b <;> (unfold Val.moved pyEq; rfl)
  | .str _, b => by cases b <;> (unfold Val.moved pyEq; rfl)
  | .dt _, b => by cases b <;> (unfold Val.moved pyEq; rfl)
  | .uuid _, b => by cases b <;> (unfold Val.moved pyEq; rfl)
  | .opq _, b => by cases b <;> (unfold Val.moved pyEq; rfl)
  | .bool _, b => by cases b <;> (unfold Val.moved pyEq; rfl)
  | .int _, b => by cases b <;> (unfold Val.moved pyEq; rfl)
  | .float _, b => by cases b <;> (unfold Val.moved pyEq; rfl)
  | .cplx _ _, b => by cases b <;> (unfold Val.moved pyEq; rfl)
theorem pyEqL_moved (k : Nat) : ∀ xs ys, pyEqL (movedL k xs) (movedL k ys) = pyEqL xs ys
  | [], [] => rfl
  | [], _ :: _ => by simp [movedL, pyEqL]
  | _ :: _, [] => by simp [movedL, pyEqL]
  | x :: xs, y :: ys => by
      unfold movedL pyEqL
      rw [pyEq_moved k x y, pyEqL_moved k xs ys]
theorem pySubset_moved (k : Nat) : ∀ xs ys, pySubset (movedL k xs) (movedL k ys) = pySubset xs ys
  | [], _ => by simp [movedL, pySubset]
  | x :: xs, ys => by
      show pySubset (x.moved k :: movedL k xs) (movedL k ys) = _
      unfold pySubset
      rw [pySubset_moved k xs ys]
      congr 1
      rw [movedL_eq, List.any_map]
      congr 1
      funext y
      exact pyEq_moved k x y
theorem pySubdict_moved (k : Nat) : ∀ xs ys, pySubdict (movedD k xs) (movedD k ys) = pySubdict xs ys
  | [], _ => by simp [movedD, pySubdict]
  | (x, z) :: xs, ys => by
      show pySubdict ((x.moved k, z.moved k) :: movedD k xs) (movedD k ys) = _
      unfold pySubdict
      rw [pySubdict_moved k xs ys]
      congr 1
      rw [movedD_eq, List.any_map]
      congr 1
      funext y
      show (pyEq (x.moved k) (y.1.moved k) && pyEq (z.moved k) (y.2.moved k)) = _
      rw [pyEq_moved k x y.1, pyEq_moved k z y.2]
end

/-! ## Equality and types of the exchanged values -/

theorem forall2_movedL {R : Val → Val → Prop} {k : Nat} : ∀ {xs : List Val}, (∀ x ∈ xs, R x (x.moved k)) →
    List.Forall₂ R xs (movedL k xs)
  | [], _ => by unfold movedL; exact .nil
  | x :: xs, h => by
      unfold movedL
      exact .cons (h x (.head _)) (forall2_movedL fun y hy => h y (.tail _ hy))

theorem forall2_movedD {R : Val × Val → Val × Val → Prop} {k : Nat} : ∀ {kvs : List (Val × Val)},
    (∀ kv ∈ kvs, R kv (kv.1.moved k, kv.2.moved k)) → List.Forall₂ R kvs (movedD k kvs)
  | [], _ => by unfold movedD; exact .nil
  | (x, z) :: xs, h => by
      unfold movedD
      exact .cons (h (x, z) (.head _)) (forall2_movedD fun y hy => h y (.tail _ hy))

theorem mem_movedL {k : Nat} {x : Val} {xs : List Val} (h : x ∈ movedL k xs) : ∃ y ∈ xs, x = y.moved k := by
  rw [movedL_eq] at h
  obtain ⟨y, hy, rfl⟩ := List.mem_map.1 h
  exact ⟨y, hy, rfl⟩

theorem mem_movedD {k : Nat} {kv : Val × Val} {kvs : List (Val × Val)} (h : kv ∈ movedD k kvs) :
    ∃ y ∈ kvs, kv = (y.1.moved k, y.2.moved k) := by
  rw [movedD_eq] at h
  obtain ⟨y, hy, rfl⟩ := List.mem_map.1 h
  exact ⟨y, hy, rfl⟩

mutual
theorem sameP_moved {E : Env} {O : Nat → Nat → Prop} {k : Nat} : ∀ {p : PropSpec} {v : Val},
    ReEqual E p v → (∀ r, RefIn r v → O r (r + k)) → SameP E O p v (v.moved k)
  | .mk _ _ _ _ ty, v, h, hO => by
      unfold ReEqual at h
      unfold SameP
      exact sameTy_moved h hO
theorem sameTy_moved {E : Env} {O : Nat → Nat → Prop} {k : Nat} : ∀ {ty : PropTy} {v : Val},
    ReEqualTy E ty v → (∀ r, RefIn r v → O r (r + k)) → SameTy E O ty v (v.moved k)
  | .seq .set item _ _ _, v, h, hO => by
      unfold ReEqualTy at h
      obtain ⟨xs, rfl, h⟩ := h
      unfold SameTy Val.moved
      exact ⟨xs, _, rfl, rfl, _, forall2_movedL fun x hx => sameP_moved (h x hx) fun r hr => hO r (.set _ x hx hr), .refl _⟩
  | .seq .tup item _ _ _, v, h, hO => by
      unfold ReEqualTy at h
      obtain ⟨xs, rfl, h⟩ := h
      unfold SameTy Val.moved
      exact ⟨xs, _, rfl, rfl, forall2_movedL fun x hx => sameP_moved (h x hx) fun r hr => hO r (.tup _ x hx hr)⟩
  | .seq .list item _ _ _, v, h, hO => by
      unfold ReEqualTy at h
      obtain ⟨xs, rfl, h⟩ := h
      unfold SameTy Val.moved
      exact ⟨xs, _, rfl, rfl, forall2_movedL fun x hx => sameP_moved (h x hx) fun r hr => hO r (.list _ x hx hr)⟩
  | .dict _ vp _, v, h, hO => by
      unfold ReEqualTy at h
      obtain ⟨kvs, rfl, hk, h⟩ := h
      unfold SameTy Val.moved
      refine ⟨kvs, _, rfl, rfl, _, forall2_movedD fun kv hkv => ⟨?_, ?_⟩, .refl _⟩
      · show pyEq kv.1 (kv.1.moved k) = true
        rw [moved_noRef k (hk kv hkv).1]
        exact (hk kv hkv).2
      · exact sameP_moved (h kv hkv) fun r hr => hO r (.value _ kv hkv hr)
  | .inst _, v, h, hO => by
      unfold ReEqualTy at h
      obtain ⟨r, rfl⟩ := h
      unfold SameTy Val.moved
      exact hO r .obj
  | .union ps _, v, h, hO => by
      unfold ReEqualTy at h
      unfold SameTy
      exact sameAny_moved h hO
  | .any, v, h, hO => by unfold ReEqualTy at h; rw [moved_noRef k h.1]; unfold SameTy; exact h.2
  | .boolean _, v, h, hO => by unfold ReEqualTy at h; rw [moved_noRef k h.1]; unfold SameTy; exact h.2
  | .integer _ _ _, v, h, hO => by unfold ReEqualTy at h; rw [moved_noRef k h.1]; unfold SameTy; exact h.2
  | .float _ _ _, v, h, hO => by unfold ReEqualTy at h; rw [moved_noRef k h.1]; unfold SameTy; exact h.2
  | .complex _, v, h, hO => by unfold ReEqualTy at h; rw [moved_noRef k h.1]; unfold SameTy; exact h.2
  | .string _ _ _, v, h, hO => by unfold ReEqualTy at h; rw [moved_noRef k h.1]; unfold SameTy; exact h.2
  | .choice _ _, v, h, hO => by unfold ReEqualTy at h; rw [moved_noRef k h.1]; unfold SameTy; exact h.2
  | .color, v, h, hO => by unfold ReEqualTy at h; rw [moved_noRef k h.1]; unfold SameTy; exact h.2
  | .datetime, v, h, hO => by unfold ReEqualTy at h; rw [moved_noRef k h.1]; unfold SameTy; exact h.2
  | .uuid, v, h, hO => by unfold ReEqualTy at h; rw [moved_noRef k h.1]; unfold SameTy; exact h.2
theorem sameAny_moved {E : Env} {O : Nat → Nat → Prop} {k : Nat} : ∀ {ps : List PropSpec} {v : Val},
    ReEqualAny E ps v → (∀ r, RefIn r v → O r (r + k)) → SameAny E O ps v (v.moved k)
  | [], _, h, _ => by unfold ReEqualAny at h; exact h.elim
  | p :: ps, v, h, hO => by
      unfold ReEqualAny at h
      unfold SameAny
      exact h.imp (fun h => sameP_moved h hO) (fun h => sameAny_moved h hO)
end

mutual
theorem comparable_moved {E : Env} {P Q : Nat → Prop} {k : Nat} (hPQ : ∀ r, P r → Q (r + k)) : ∀ {p : PropSpec} {v : Val},
    Comparable E P p v → Comparable E Q p (v.moved k)
  | .mk _ _ _ _ ty, v, h => by
      unfold Comparable at h ⊢
      exact comparableTy_moved hPQ h
theorem comparableTy_moved {E : Env} {P Q : Nat → Prop} {k : Nat} (hPQ : ∀ r, P r → Q (r + k)) : ∀ {ty : PropTy} {v : Val},
    ComparableTy E P ty v → ComparableTy E Q ty (v.moved k)
  | .seq .set item _ _ _, v, h => by
      unfold ComparableTy at h ⊢
      rcases h with ⟨xs, rfl, h⟩ | h
      · refine .inl ⟨movedL k xs, by unfold Val.moved; rfl, fun x hx => ?_⟩
        obtain ⟨y, hy, rfl⟩ := mem_movedL hx
        exact comparable_moved hPQ (h y hy)
      · exact .inr (by rw [iter_moved, h]; rfl)
  | .seq .tup item _ _ _, v, h => by
      unfold ComparableTy at h ⊢
      intro xs hxs x hx
      rw [iter_moved] at hxs
      obtain ⟨ys, hys, rfl⟩ := Option.map_eq_some_iff.1 hxs
      obtain ⟨y, hy, rfl⟩ := mem_movedL hx
      exact comparable_moved hPQ (h ys hys y hy)
  | .seq .list item _ _ _, v, h => by
      unfold ComparableTy at h ⊢
      intro xs hxs x hx
      rw [iter_moved] at hxs
      obtain ⟨ys, hys, rfl⟩ := Option.map_eq_some_iff.1 hxs
      obtain ⟨y, hy, rfl⟩ := mem_movedL hx
      exact comparable_moved hPQ (h ys hys y hy)
  | .dict _ vp _, v, h => by
      unfold ComparableTy at h ⊢
      rcases h with ⟨kvs, rfl, hd, hk, h⟩ | h
      · refine .inl ⟨movedD k kvs, by unfold Val.moved; rfl, ?_, fun kv hkv => ?_, fun kv hkv => ?_⟩
        · rw [movedD_eq, List.map_map, List.pairwise_map]
          rw [List.pairwise_map] at hd
          exact hd.imp fun {a b} h => (pyEq_moved k a.1 b.1).trans h
        · obtain ⟨y, hy, rfl⟩ := mem_movedD hkv
          exact (hashable_moved k y.1).trans (hk y hy)
        · obtain ⟨y, hy, rfl⟩ := mem_movedD hkv
          exact comparable_moved hPQ (h y hy)
      · exact .inr (by rw [iter_moved, h]; rfl)
  | .inst _, v, h => by
      unfold ComparableTy at h ⊢
      rcases h with ⟨r, rfl, h⟩ | ⟨hn, h⟩
      · exact .inl ⟨r + k, by unfold Val.moved; rfl, hPQ r h⟩
      · refine .inr ⟨fun r hr => ?_, (hashable_moved k v).trans h⟩
        cases v <;> unfold Val.moved at hr <;> first | exact hn _ rfl | cases hr
  | .union ps _, v, h => by
      unfold ComparableTy at h ⊢
      exact comparableAll_moved hPQ h
  | .boolean _, v, h => by unfold ComparableTy; trivial
  | .float _ _ _, v, h => by unfold ComparableTy at h ⊢; rw [realNum_moved]; exact h
  | .complex _, v, h => by unfold ComparableTy at h ⊢; rw [realPart_moved, imagPart_moved]; exact h
  | .any, v, h => by unfold ComparableTy at h ⊢; exact (hashable_moved k v).trans h
  | .integer _ _ _, v, h => by unfold ComparableTy at h ⊢; exact (hashable_moved k v).trans h
  | .string _ _ _, v, h => by unfold ComparableTy at h ⊢; exact (hashable_moved k v).trans h
  | .choice _ _, v, h => by unfold ComparableTy at h ⊢; exact (hashable_moved k v).trans h
  | .color, v, h => by unfold ComparableTy at h ⊢; exact (hashable_moved k v).trans h
  | .datetime, v, h => by unfold ComparableTy at h ⊢; exact (hashable_moved k v).trans h
  | .uuid, v, h => by unfold ComparableTy at h ⊢; exact (hashable_moved k v).trans h
theorem comparableAll_moved {E : Env} {P Q : Nat → Prop} {k : Nat} (hPQ : ∀ r, P r → Q (r + k)) : ∀ {ps : List PropSpec} {v : Val},
    ComparableAll E P ps v → ComparableAll E Q ps (v.moved k)
  | [], _, h => by unfold ComparableAll; trivial
  | p :: ps, v, h => by
      unfold ComparableAll at h ⊢
      exact ⟨comparable_moved hPQ h.1, comparableAll_moved hPQ h.2⟩
end

theorem admits_moved {E : Env} {w w' : World} {k : Nat}
    (hc : ∀ r c, InstanceOf E w r c → InstanceOf E w' (r + k) c) {ty : PropTy} {v : Val} (h : Admits E w ty v) :
    Admits E w' ty (v.moved k) := by
  induction h with
  | any v => exact .any _
  | boolean c b => unfold Val.moved; exact .boolean c b
  | integer c mn mx i h => unfold Val.moved; exact .integer c mn mx i h
  | float c mn mx f h => unfold Val.moved; exact .float c mn mx f h
  | complex c a b => unfold Val.moved; exact .complex c a b
  | string cs m regex s t h1 h2 => unfold Val.moved; exact .string cs m regex s t h1 h2
  | choice kvs c k vs h => unfold Val.moved; exact .choice kvs c k vs h
  | color v h =>
    obtain ⟨a, b, c, rfl, ha, hb, hc⟩ := h
    have hm : ∀ x, IsByte x → x.moved k = x := fun x hx => by
      rcases hx with ⟨n, rfl, _⟩ | ⟨b, rfl⟩ <;> (unfold Val.moved; rfl)
    unfold Val.moved movedL movedL movedL movedL
    rw [hm a ha, hm b hb, hm c hc]
    exact .color _ ⟨a, b, c, rfl, ha, hb, hc⟩
  | datetime t => unfold Val.moved; exact .datetime t
  | uuid n => unfold Val.moved; exact .uuid n
  | tup item a b c xs _ ih =>
    unfold Val.moved
    refine .tup item a b c _ fun x hx => ?_
    obtain ⟨y, hy, rfl⟩ := mem_movedL hx
    exact ih y hy
  | list item a b c xs _ ih =>
    unfold Val.moved
    refine .list item a b c _ fun x hx => ?_
    obtain ⟨y, hy, rfl⟩ := mem_movedL hx
    exact ih y hy
  | set item a b c xs _ ih =>
    unfold Val.moved
    refine .set item a b c _ fun x hx => ?_
    obtain ⟨y, hy, rfl⟩ := mem_movedL hx
    exact ih y hy
  | dict kp vp c kvs _ _ ihk ihv =>
    unfold Val.moved
    refine .dict kp vp c _ (fun kv hkv => ?_) fun kv hkv => ?_
    · obtain ⟨y, hy, rfl⟩ := mem_movedD hkv
      exact ihk y hy
    · obtain ⟨y, hy, rfl⟩ := mem_movedD hkv
      exact ihv y hy
  | inst c r h => unfold Val.moved; exact .inst c _ (hc r c h)
  | union ps s p v hp _ ih => exact .union ps s p _ hp ih

mutual
theorem moved_zero : ∀ v : Val, v.moved 0 = v
  | .obj r => by unfold Val.moved; rfl
  | .list xs => by unfold Val.moved; rw [movedL_zero xs]
  | .tup xs => by unfold Val.moved; rw [movedL_zero xs]
  | .set xs => by unfold Val.moved; rw [movedL_zero xs]
  | .dict kvs => by unfold Val.moved; rw [movedD_zero kvs]
  | .none => by unfold Val.moved; rfl
  | .undef => by unfold Val.moved; rfl
  | .bool _ => by unfold Val.moved; rfl
  | .int _ => by unfold Val.moved; rfl
  | .float _ => by unfold Val.moved; rfl
  | .cplx _ _ => by unfold Val.moved; rfl
  | .str _ => by unfold Val.moved; rfl
  | .dt _ => by unfold Val.moved; rfl
  | .uuid _ => by unfold Val.moved; rfl
  | .opq _ => by unfold Val.moved; rfl
theorem movedL_zero : ∀ xs : List Val, movedL 0 xs = xs
  | [] => rfl
  | x :: xs => by unfold movedL; rw [moved_zero x, movedL_zero xs]
theorem movedD_zero : ∀ kvs : List (Val × Val), movedD 0 kvs = kvs
  | [] => rfl
  | (x, y) :: kvs => by unfold movedD; rw [moved_zero x, moved_zero y, movedD_zero kvs]
end

mutual
/-- The instances of a value that equals itself are where the property compares
instances. -/
theorem refIn_comparable {E : Env} {P : Nat → Prop} {r : Nat} : ∀ {p : PropSpec} {v : Val},
    ReEqual E p v → Comparable E P p v → RefIn r v → P r
  | .mk _ _ _ _ ty, v, h, hc, hr => by
      unfold ReEqual at h
      unfold Comparable at hc
      exact refIn_comparableTy h hc hr
theorem refIn_comparableTy {E : Env} {P : Nat → Prop} {r : Nat} : ∀ {ty : PropTy} {v : Val},
    ReEqualTy E ty v → ComparableTy E P ty v → RefIn r v → P r
  | .seq .set item _ _ _, v, h, hc, hr => by
      unfold ReEqualTy at h
      unfold ComparableTy at hc
      obtain ⟨xs, rfl, h⟩ := h
      rcases hc with ⟨_, hh, hc⟩ | hc
      · cases hh
        cases hr with
        | set _ x hx hr => exact refIn_comparable (h x hx) (hc x hx) hr
      · cases hc
  | .seq .tup item _ _ _, v, h, hc, hr => by
      unfold ReEqualTy at h
      unfold ComparableTy at hc
      obtain ⟨xs, rfl, h⟩ := h
      cases hr with
      | tup _ x hx hr => exact refIn_comparable (h x hx) (hc xs rfl x hx) hr
  | .seq .list item _ _ _, v, h, hc, hr => by
      unfold ReEqualTy at h
      unfold ComparableTy at hc
      obtain ⟨xs, rfl, h⟩ := h
      cases hr with
      | list _ x hx hr => exact refIn_comparable (h x hx) (hc xs rfl x hx) hr
  | .dict _ vp _, v, h, hc, hr => by
      unfold ReEqualTy at h
      unfold ComparableTy at hc
      obtain ⟨xs, rfl, hk, h⟩ := h
      rcases hc with ⟨_, hh, _, _, hc⟩ | hc
      · cases hh
        cases hr with
        | key _ x hx hr => exact absurd hr ((hk x hx).1 r)
        | value _ x hx hr => exact refIn_comparable (h x hx) (hc x hx) hr
      · cases hc
  | .inst _, v, h, hc, hr => by
      unfold ReEqualTy at h
      unfold ComparableTy at hc
      obtain ⟨s, rfl⟩ := h
      cases hr
      rcases hc with ⟨_, hh, hc⟩ | hc
      · cases hh; exact hc
      · exact absurd rfl (hc.1 _)
  | .union ps _, v, h, hc, hr => by
      unfold ReEqualTy at h
      unfold ComparableTy at hc
      exact refIn_comparableAny h hc hr
  | .any, v, h, _, hr => by unfold ReEqualTy at h; exact absurd hr (h.1 r)
  | .boolean _, v, h, _, hr => by unfold ReEqualTy at h; exact absurd hr (h.1 r)
  | .integer _ _ _, v, h, _, hr => by unfold ReEqualTy at h; exact absurd hr (h.1 r)
  | .float _ _ _, v, h, _, hr => by unfold ReEqualTy at h; exact absurd hr (h.1 r)
  | .complex _, v, h, _, hr => by unfold ReEqualTy at h; exact absurd hr (h.1 r)
  | .string _ _ _, v, h, _, hr => by unfold ReEqualTy at h; exact absurd hr (h.1 r)
  | .choice _ _, v, h, _, hr => by unfold ReEqualTy at h; exact absurd hr (h.1 r)
  | .color, v, h, _, hr => by unfold ReEqualTy at h; exact absurd hr (h.1 r)
  | .datetime, v, h, _, hr => by unfold ReEqualTy at h; exact absurd hr (h.1 r)
  | .uuid, v, h, _, hr => by unfold ReEqualTy at h; exact absurd hr (h.1 r)
theorem refIn_comparableAny {E : Env} {P : Nat → Prop} {r : Nat} : ∀ {ps : List PropSpec} {v : Val},
    ReEqualAny E ps v → ComparableAll E P ps v → RefIn r v → P r
  | [], _, h, _, _ => by unfold ReEqualAny at h; exact h.elim
  | p :: ps, v, h, hc, hr => by
      unfold ReEqualAny at h
      unfold ComparableAll at hc
      exact h.elim (fun h => refIn_comparable h hc.1 hr) fun h => refIn_comparableAny h hc.2 hr
end

end Verif
