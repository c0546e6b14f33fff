import Verif.Props.C112
import Verif.Spec.Tagged

/-!
# C113: untrusted, the names of classes in nested input make no difference
-/

namespace Verif
open Spec Spec.Exc

namespace Tag

theorem mapML_congr₂ {α β γ : Type} {f : α → M γ} {g : β → M γ} {xs : List α} {ys : List β}
    (h : List.Forall₂ (fun x y => f x = g y) xs ys) : mapML f xs = mapML g ys := by
  induction h with
  | nil => rfl
  | cons h _ ih =>
    unfold mapML
    rw [h, ih]

theorem state_tags {ps : List (PyStr × Entry)} {tags : List (Val × Val)}
    (ht : ∀ kv ∈ tags, kv.1 = .str (s% "__class__")) (hn : lookupS (s% "__class__") ps = none) :
    ∀ kvs : List (Val × Val), propState ps (kvs ++ tags) = propState ps kvs
  | [] => by
    rw [List.nil_append]
    induction tags with
    | nil => rfl
    | cons a tags ih =>
      obtain ⟨k, v⟩ := a
      obtain rfl : k = .str (s% "__class__") := ht (k, v) (by simp)
      simp only [propState, hn, Option.isSome_none, Bool.false_eq_true, if_false]
      exact ih fun kv hm => ht kv (by simp [hm])
  | (k, v) :: kvs => by
    have ih := state_tags ht hn kvs
    rw [List.cons_append]
    cases k <;> simp only [propState, ih]

theorem state_pairs {ps : List (PyStr × Entry)} {R : PyStr → Val → Val → Prop} {kvs kvs' : List (Val × Val)}
    (h : List.Forall₂ (fun a b => a.1 = b.1 ∧ ∀ k, a.1 = .str k → R k a.2 b.2) kvs kvs') :
    List.Forall₂ (fun a b => a.1 = b.1 ∧ R a.1 a.2 b.2) (propState ps kvs) (propState ps kvs') := by
  induction h with
  | nil => exact .nil
  | @cons a b l l' h _ ih =>
    obtain ⟨k, v⟩ := a
    obtain ⟨k', v'⟩ := b
    obtain ⟨rfl, hr⟩ := h
    cases k with
    | str s =>
      simp only [propState]
      split
      · exact .cons ⟨rfl, hr s rfl⟩ ih
      · exact ih
    | _ => simpa only [propState] using ih

theorem class_own {E : Env} {c : ClsId} {v : Val} : deserializeClass E c v false false = pure c := by
  unfold deserializeClass
  split
  · rfl
  · rfl

theorem rec_tag {E : Env} : ∀ n nm p v v' (a : Bool), Tagged E p v v' →
    run E n (.deserializeP nm p v ⟨false, false, a⟩) = run E n (.deserializeP nm p v' ⟨false, false, a⟩) := by
  intro n
  induction n using Nat.strongRecOn with
  | ind n ihn =>
  intro nm p v v' a h
  cases n with
  | zero => rfl
  | succ n =>
  have ih := ihn n (by omega)
  show deserializeBody E (run E n) nm p v _ = deserializeBody E (run E n) nm p v' _
  cases h with
  | same => rfl
  | seq _ k it lo hi co xs ys hd hty hl hx =>
    unfold deserializeBody
    rw [hd, hty]
    simp only [Val.isNone, Bool.false_eq_true, if_false, Val.iter?]
    have hm : mapML (fun x => run E n (.deserializeP nm it x ⟨false, false, a⟩)) xs =
        mapML (fun x => run E n (.deserializeP nm it x ⟨false, false, a⟩)) ys :=
      mapML_congr₂ (List.forall₂_iff_zip.2 ⟨hl, fun {x y} hm => ih nm it x y a (hx (x, y) hm)⟩)
    rw [hm]
  | dict _ kp vp co kvs kvs' hd hty hl hk hx =>
    unfold deserializeBody
    rw [hd, hty]
    simp only [Val.isNone, Bool.false_eq_true, if_false]
    rw [mapML_congr₂ (List.forall₂_iff_zip.2 ⟨hl, fun {x y} hm => by
      have h1 := hk (x, y) hm
      have h2 := ih nm vp _ _ a (hx (x, y) hm)
      dsimp only at h1 h2
      rw [h1, h2]⟩)]
  | inst _ c kvs kvs' tags hd hty hl hk hx hy ht hn =>
    unfold deserializeBody
    rw [hd, hty]
    simp only [Val.isNone, Bool.false_eq_true, if_false]
    cases n with
    | zero => rfl
    | succ n =>
    have ih := ihn n (by omega)
    show hpDeserializeBody E (run E n) c (.dict (kvs ++ tags)) ⟨false, false, a⟩ =
      hpDeserializeBody E (run E n) c (.dict kvs') ⟨false, false, a⟩
    unfold hpDeserializeBody
    dsimp only
    rw [class_own, class_own]
    have hst := state_pairs (ps := (E.classes c).props)
      (R := fun k x y => ∀ e, lookupS k (E.classes c).props = some e →
        (∀ q, OwnSpec e q → Tagged E q x y) ∧ ((∀ q, ¬OwnSpec e q) → x = y))
      (List.forall₂_iff_zip.2 ⟨hl, fun {x y} hm => ⟨hk (x, y) hm, fun k hks e he =>
        ⟨fun q ho => hx (x, y) hm k e q hks he ho, fun ho => hy (x, y) hm k e hks he ho⟩⟩⟩)
    have hent : mapML (deserEntry E (run E n) c ⟨false, false, false⟩) (propState (E.classes c).props (kvs ++ tags)) =
        mapML (deserEntry E (run E n) c ⟨false, false, false⟩) (propState (E.classes c).props kvs') := by
      rw [state_tags ht hn]
      refine mapML_congr₂ (hst.imp ?_)
      rintro ⟨k, x⟩ ⟨k', y⟩ ⟨hkk, h⟩
      obtain rfl : k = k' := hkk
      unfold deserEntry
      dsimp only at h ⊢
      cases hl : lookupS k (E.classes c).props with
      | none => rfl
      | some e =>
        obtain ⟨h1, h2⟩ := h e hl
        have he : entryDeserialize E (run E n) k e x ⟨false, false, false⟩ =
            entryDeserialize E (run E n) k e y ⟨false, false, false⟩ := by
          cases e with
          | mutable q => exact ih k q x y false (h1 q (.inl rfl))
          | gettable q => exact ih k q x y false (h1 q (.inr rfl))
          | dynamic p g s d => rw [h2 fun q hq => by rcases hq with hq | hq <;> cases hq]
          | renamed _ => rw [h2 fun q hq => by rcases hq with hq | hq <;> cases hq]
        simp only [he]
    funext w
    rw [bind_ok (show (pure c : M ClsId) w = (.ok c, w) from rfl),
      bind_ok (show (pure c : M ClsId) w = (.ok c, w) from rfl), hent]
    rfl

end Tag

/-- **C113**.  Without `trusted` and `strict`, `deserialize` does exactly the same
with and without `__class__` entries in the dictionaries read as instances, at
any depth, whatever their values. -/
theorem C113_untrusted {E : Env} {c : ClsId} {v v' : Val}
    (h : Tagged E (.mk true none none .undef (.inst c)) v v') (n : Nat) (a : Bool) (w : World) :
    run E n (.hpDeserialize c v ⟨false, false, a⟩) w = run E n (.hpDeserialize c v' ⟨false, false, a⟩) w := by
  by_cases hv : v.isNone = true
  · cases h with
    | same => rfl
    | seq => cases hv
    | dict => cases hv
    | inst => cases hv
  · by_cases hv' : v'.isNone = true
    · cases h with
      | same => rfl
      | seq => cases hv'
      | dict => cases hv'
      | inst => cases hv'
    · have key := Tag.rec_tag (n + 1) [] _ v v' a h
      have hb : ∀ x : Val, ¬x.isNone = true →
          run E (n + 1) (.deserializeP [] (.mk true none none .undef (.inst c)) x ⟨false, false, a⟩) =
          run E n (.hpDeserialize c x ⟨false, false, a⟩) := by
        intro x hx
        show deserializeBody E (run E n) [] (.mk true none none .undef (.inst c)) x ⟨false, false, a⟩ = _
        unfold deserializeBody
        simp only [PropSpec.deser, PropSpec.ty, hx, if_false]
        rfl
      rw [hb v hv, hb v' hv'] at key
      rw [key]

/-! ## The line of C112 -/

def c113With : Val := .dict [(.str (s% "i"),
  .list [.dict [(.str (s% "a"), .int 3), (.str (s% "__class__"), .str (s% "P"))],
    .dict [(.str (s% "__class__"), .str (s% "Other"))]]), (.str (s% "__class__"), .str (s% "L"))]
def c113Without : Val := .dict [(.str (s% "i"), .list [.dict [(.str (s% "a"), .int 3)], .dict []])]

/-- The names are of no account, even where one is wrong, but for `strict`. -/
theorem C113_example : Tagged c112Env (.mk true none none .undef (.inst 1)) c113With c113Without ∧
    (run c112Env 12 (.hpDeserialize 1 c113With {}) {}).1 = .ok (.obj 2) ∧
    (run c112Env 12 (.hpDeserialize 1 c113Without {}) {}).1 = .ok (.obj 2) ∧
    (run c112Env 12 (.hpDeserialize 1 c113With { strict := true }) {}).1.toOption = none ∧
    (run c112Env 12 (.hpDeserialize 1 c113Without { strict := true }) {}).1 = .ok (.obj 2) := by
  refine ⟨?_, by with_unfolding_all rfl, by with_unfolding_all rfl, ?_, by with_unfolding_all rfl⟩
  · refine Tagged.inst (E := c112Env) (.mk true none none .undef (.inst 1)) 1 [(.str (s% "i"), .list [.dict ([(.str (s% "a"), .int 3)] ++ [(.str (s% "__class__"), .str (s% "P"))]),
      .dict ([] ++ [(.str (s% "__class__"), .str (s% "Other"))])])]
      [(.str (s% "i"), .list [.dict [(.str (s% "a"), .int 3)], .dict []])] [(.str (s% "__class__"), .str (s% "L"))]
      rfl rfl rfl ?_ ?_ ?_ ?_ ?_
    · intro ab hm; obtain rfl := List.mem_singleton.1 hm; rfl
    · intro ab hm k e q hk he ho
      obtain rfl := List.mem_singleton.1 hm
      cases hk
      cases he
      rcases ho with ho | ho <;> cases ho
      refine .seq _ _ c110Inst _ _ _ _ _ rfl rfl rfl fun xy hm => ?_
      simp only [List.zip_cons_cons, List.zip_nil_right, List.mem_cons, List.not_mem_nil, or_false] at hm
      rcases hm with rfl | rfl
      · refine .inst _ 0 [(.str (s% "a"), .int 3)] _ _ rfl rfl rfl ?_ ?_ ?_ ?_ rfl
        · intro ab hm; obtain rfl := List.mem_singleton.1 hm; rfl
        · intro ab hm k e q hk he ho; obtain rfl := List.mem_singleton.1 hm; exact .same _ _
        · intro ab hm k e hk he ho; obtain rfl := List.mem_singleton.1 hm; rfl
        · intro ab hm; obtain rfl := List.mem_singleton.1 hm; rfl
      · refine .inst _ 0 [] _ _ rfl rfl rfl ?_ ?_ ?_ ?_ rfl
        · intro ab hm; cases hm
        · intro ab hm; cases hm
        · intro ab hm; cases hm
        · intro ab hm; obtain rfl := List.mem_singleton.1 hm; rfl
    · intro ab hm k e hk he ho
      obtain rfl := List.mem_singleton.1 hm
      cases hk
      cases he
      exact absurd (.inl rfl) (ho c112Ends)
    · intro ab hm; obtain rfl := List.mem_singleton.1 hm; rfl
    · rfl
  · with_unfolding_all rfl

end Verif
