import Mathlib.Data.List.Induction
import Verif.Lemmas.PyEq
import Verif.Lemmas.Scalar
import Verif.Spec.Container

/-!
# Loops over items and alternatives
-/

namespace Verif
open Spec

theorem mapML_iff {α β : Type} {f : α → M β} : ∀ {xs : List α} {ys : List β} {w w' : World},
    mapML f xs w = (.ok ys, w') ↔ Each (fun a w b w' => f a w = (.ok b, w')) xs w ys w'
  | [], ys, w, w' => by
      constructor
      · intro h; cases h; exact .nil _
      · intro h; cases h; rfl
  | x :: xs, ys, w, w' => by
      constructor
      · intro h
        obtain ⟨y, w1, h1, h⟩ := bind_ok_inv h
        obtain ⟨zs, w2, h2, h⟩ := bind_ok_inv h
        cases h
        exact .cons h1 (mapML_iff.1 h2)
      · intro h
        cases h with
        | cons h1 h2 =>
          unfold mapML
          rw [bind_ok h1, bind_ok (mapML_iff.2 h2)]; rfl

theorem mapML_err {α β : Type} {f : α → M β} {x : α} {post : List α} {e : PyErr} {w2 : World} :
    ∀ {pre : List α} {ys : List β} {w w1 : World},
    Each (fun a w b w' => f a w = (.ok b, w')) pre w ys w1 → f x w1 = (.error e, w2) →
    mapML f (pre ++ x :: post) w = (.error e, w2)
  | [], ys, w, w1, h, hx => by
      cases h
      exact bind_err hx
  | a :: pre, ys, w, w1, h, hx => by
      cases h with
      | cons h1 h2 =>
        show mapML f (a :: (pre ++ x :: post)) w = _
        unfold mapML
        rw [bind_ok h1, bind_err (mapML_err h2 hx)]

theorem mapML_err_inv {α β : Type} {f : α → M β} {e : PyErr} {w' : World} :
    ∀ {xs : List α} {w : World}, mapML f xs w = (.error e, w') →
    ∃ pre x post ys w1, xs = pre ++ x :: post ∧
      Each (fun a w b w' => f a w = (.ok b, w')) pre w ys w1 ∧ f x w1 = (.error e, w')
  | [], w, h => by cases h
  | x :: xs, w, h => by
      rcases bind_err_inv h with h | ⟨y, w1, h1, h⟩
      · exact ⟨[], x, xs, [], w, rfl, .nil _, h⟩
      · rcases bind_err_inv h with h | ⟨zs, w2, h2, h⟩
        · obtain ⟨pre, a, post, ys, w3, rfl, h3, h4⟩ := mapML_err_inv h
          exact ⟨x :: pre, a, post, y :: ys, w3, rfl, .cons h1 h3, h4⟩
        · cases h

theorem Spec.Each.mono {α β : Type} {f g : α → World → β → World → Prop}
    (h : ∀ a w b w', f a w b w' → g a w b w') {xs : List α} {ys : List β} {w w' : World}
    (he : Each f xs w ys w') : Each g xs w ys w' := by
  induction he with
  | nil => exact .nil _
  | cons h1 _ ih => exact .cons (h _ _ _ _ h1) ih

/-- One item: a ValueError is replaced by the error of the container. -/
theorem item_ok {E : Env} {rec : Rec} {nm : PyStr} {inst : Option Nat} {m : M Val} {w w' : World}
    {b : Val} : M.catchIf ErrKind.isValueError m (fun _ => propError E rec nm inst) w = (.ok b, w') ↔
      m w = (.ok b, w') := by
  constructor
  · intro h
    unfold M.catchIf at h
    cases hm : m w with
    | mk x w1 =>
      rw [hm] at h
      cases x with
      | ok a => exact h
      | error e =>
        simp only at h
        split at h
        · exact absurd (congrArg Prod.fst h) (propError_never_ok E rec nm inst w1 b)
        · cases h
  · exact catchIf_ok

theorem hashableL_iff : ∀ {xs : List Val}, hashableL xs = true ↔ ∀ x ∈ xs, x.hashable = true
  | [] => by simp [hashableL]
  | x :: xs => by
      unfold hashableL
      rw [Bool.and_eq_true, hashableL_iff]
      simp

theorem setOfList_snoc (xs : List Val) (x : Val) : setOfList (xs ++ [x]) =
    if (setOfList xs).any (fun y => pyEq y x) then setOfList xs else setOfList xs ++ [x] := by
  unfold setOfList
  rw [List.foldl_append]
  rfl

theorem setOfList_subset (xs : List Val) : (setOfList xs).Sublist xs := by
  induction xs using List.reverseRecOn with
  | nil => exact List.Sublist.refl _
  | append_singleton xs x ih =>
    rw [setOfList_snoc]
    split
    · exact ih.trans (List.sublist_append_left _ _)
    · exact ih.append (List.Sublist.refl _)

theorem distinct_setOfList (xs : List Val) : DistinctOf xs (setOfList xs) := by
  refine ⟨setOfList_subset xs, ?_, ?_⟩
  · induction xs using List.reverseRecOn with
    | nil => exact List.Pairwise.nil
    | append_singleton xs x ih =>
      rw [setOfList_snoc]
      split
      · exact ih
      · rename_i h
        simp only [List.any_eq_true, not_exists, not_and, Bool.not_eq_true] at h
        rw [List.pairwise_append]
        refine ⟨ih, List.pairwise_singleton _ _, fun a ha b hb => ?_⟩
        simp only [List.mem_singleton] at hb
        subst hb
        exact h a ha
  · induction xs using List.reverseRecOn with
    | nil => intro pre x post h; cases pre <;> cases h
    | append_singleton xs x ih =>
      intro pre y post h
      rcases List.eq_nil_or_concat post with rfl | ⟨post', z, rfl⟩
      · obtain ⟨e1, e2⟩ := List.append_inj' h rfl
        clear h
        cases e2
        subst e1
        rw [setOfList_snoc]
        split
        · rename_i h
          simp only [List.any_eq_true] at h
          obtain ⟨y, h1, h2⟩ := h
          exact .inr ⟨y, h1, (setOfList_subset _).subset h1, h2⟩
        · exact .inl (by simp)
      · have h' : xs ++ [x] = (pre ++ y :: post') ++ [z] := by rw [h]; simp
        obtain ⟨e1, _⟩ := List.append_inj' h' rfl
        clear h h'
        subst e1
        rw [setOfList_snoc]
        rcases ih pre y post' rfl with h | ⟨y', h1, h2⟩
        · exact .inl (by split <;> simp [h])
        · exact .inr ⟨y', by split <;> simp [h1], h2⟩

theorem dictSet_keys (d : List (Val × Val)) (k v : Val) : (dictSet d k v).map (·.1) =
    if (d.map (·.1)).any (fun y => pyEq y k) then d.map (·.1) else d.map (·.1) ++ [k] := by
  induction d with
  | nil => rfl
  | cons a d ih =>
    obtain ⟨k', v'⟩ := a
    unfold dictSet
    split
    · rename_i h
      simp [h]
    · rename_i h
      simp only [List.map_cons, ih, List.any_cons, h, Bool.false_or]
      split <;> rfl

theorem dictOfPairs_snoc (ps : List (Val × Val)) (q : Val × Val) :
    dictOfPairs (ps ++ [q]) = dictSet (dictOfPairs ps) q.1 q.2 := by
  unfold dictOfPairs
  rw [List.foldl_append]
  rfl

theorem dictOfPairs_keys (ps : List (Val × Val)) :
    (dictOfPairs ps).map (·.1) = setOfList (ps.map (·.1)) := by
  induction ps using List.reverseRecOn with
  | nil => rfl
  | append_singleton ps q ih =>
    rw [dictOfPairs_snoc, dictSet_keys, ih, List.map_append]
    show _ = setOfList (ps.map (·.1) ++ [q.1])
    rw [setOfList_snoc]

/-- Entries after an assignment: the assigned one, and those with other keys. -/
theorem mem_dictSet {d : List (Val × Val)} (hd : (d.map (·.1)).Pairwise (fun a b => pyEq a b = false))
    (hh : ∀ x ∈ d.map (·.1), x.hashable = true) {k v a b : Val} (h : (a, b) ∈ dictSet d k v) :
    (b = v ∧ (a = k ∨ pyEq a k = true)) ∨ ((a, b) ∈ d ∧ pyEq a k = false) := by
  induction d with
  | nil => simp [dictSet] at h; exact .inl ⟨h.2, .inl h.1⟩
  | cons c d ih =>
    obtain ⟨k', v'⟩ := c
    simp only [List.map_cons, List.pairwise_cons] at hd
    unfold dictSet at h
    split at h
    · rename_i hk
      rcases List.mem_cons.1 h with h | h
      · cases h; exact .inl ⟨rfl, .inr hk⟩
      · refine .inr ⟨List.mem_cons_of_mem _ h, ?_⟩
        by_contra hc
        have hc : pyEq a k = true := by simpa using hc
        have ha : a ∈ d.map (·.1) := List.mem_map.2 ⟨_, h, rfl⟩
        have h1 := hd.1 a ha
        rw [pyEq_trans (hh _ (by simp)) hk (pyEq_symm (hh a (List.mem_cons_of_mem _ ha)) hc)] at h1
        cases h1
    · rename_i hk
      rcases List.mem_cons.1 h with h | h
      · cases h; exact .inr ⟨by simp, by simpa using hk⟩
      · rcases ih hd.2 (fun x hx => hh x (List.mem_cons_of_mem _ hx)) h with h | h
        · exact .inl h
        · exact .inr ⟨List.mem_cons_of_mem _ h.1, h.2⟩

theorem dictOf_dictOfPairs {ps : List (Val × Val)} (hh : ∀ q ∈ ps, q.1.hashable = true) :
    DictOf ps (dictOfPairs ps) := by
  have hk : ∀ qs : List (Val × Val), DistinctOf (qs.map (·.1)) ((dictOfPairs qs).map (·.1)) :=
    fun qs => by rw [dictOfPairs_keys]; exact distinct_setOfList _
  refine ⟨hk ps, ?_⟩
  induction ps using List.reverseRecOn with
  | nil => intro k v h; cases h
  | append_singleton ps q ih =>
    intro k v h
    rw [dictOfPairs_snoc] at h
    have hd := hk ps
    have hh' : ∀ x ∈ (dictOfPairs ps).map (·.1), x.hashable = true := by
      intro x hx
      obtain ⟨y, hy, rfl⟩ := List.mem_map.1 (hd.sub.subset hx)
      exact hh y (by simp [hy])
    rcases mem_dictSet hd.distinct hh' h with ⟨rfl, h0⟩ | ⟨h, h'⟩
    · exact ⟨ps, q.1, [], rfl, h0.imp Eq.symm id, by simp⟩
    · obtain ⟨pre, k', post, rfl, h1, h2⟩ := ih (fun q hq => hh q (by simp [hq])) k v h
      refine ⟨pre, k', post ++ [q], by simp, h1, fun x hx => ?_⟩
      rcases List.mem_append.1 hx with hx | hx
      · exact h2 x hx
      · simp only [List.mem_singleton] at hx
        subst hx; exact h'

end Verif
