import Verif.Lemmas.ReadBack
import Verif.Spec.Tree

/-!
# Values made of new instances, each held once
-/

namespace Verif
open Spec

theorem path_list_inv {w : World} {xs : List Val} {π : List Hop} {r : Nat} (h : Path w (.list xs) π r) :
    ∃ i x ρ, π = .item i :: ρ ∧ xs[i]? = some x ∧ Path w x ρ r := by
  cases h with
  | list _ i x ρ _ hx h => exact ⟨i, x, ρ, rfl, hx, h⟩

theorem path_tup_inv {w : World} {xs : List Val} {π : List Hop} {r : Nat} (h : Path w (.tup xs) π r) :
    ∃ i x ρ, π = .item i :: ρ ∧ xs[i]? = some x ∧ Path w x ρ r := by
  cases h with
  | tup _ i x ρ _ hx h => exact ⟨i, x, ρ, rfl, hx, h⟩

theorem path_set_inv {w : World} {xs : List Val} {π : List Hop} {r : Nat} (h : Path w (.set xs) π r) :
    ∃ i x ρ, π = .item i :: ρ ∧ xs[i]? = some x ∧ Path w x ρ r := by
  cases h with
  | set _ i x ρ _ hx h => exact ⟨i, x, ρ, rfl, hx, h⟩

theorem path_kind_inv {w : World} {k : SeqKind} {xs : List Val} {π : List Hop} {r : Nat}
    (h : Path w (ofKind k xs) π r) : ∃ i x ρ, π = .item i :: ρ ∧ xs[i]? = some x ∧ Path w x ρ r := by
  cases k with
  | tup => exact path_tup_inv h
  | list => exact path_list_inv h
  | set => exact path_set_inv h

theorem path_dict_inv {w : World} {kvs : List (Val × Val)} {π : List Hop} {r : Nat} (h : Path w (.dict kvs) π r) :
    ∃ i kv ρ, kvs[i]? = some kv ∧ ((π = .key i :: ρ ∧ Path w kv.1 ρ r) ∨ (π = .entry i :: ρ ∧ Path w kv.2 ρ r)) := by
  cases h with
  | key _ i x ρ _ hx h => exact ⟨i, x, ρ, hx, .inl ⟨rfl, h⟩⟩
  | entry _ i x ρ _ hx h => exact ⟨i, x, ρ, hx, .inr ⟨rfl, h⟩⟩

theorem path_obj_inv {w : World} {s : Nat} {π : List Hop} {r : Nat} (h : Path w (.obj s) π r) :
    (π = [] ∧ r = s) ∨ ∃ o nm v ρ, w.objs[s]? = some o ∧ lookupS nm o.backend = some v ∧ π = .prop nm :: ρ ∧
      Path w v ρ r := by
  cases h with
  | here => exact .inl ⟨rfl, rfl⟩
  | prop _ o nm v ρ _ ho hl h => exact .inr ⟨o, nm, v, ρ, ho, hl, rfl, h⟩

theorem refFree_path {w : World} {v : Val} {π : List Hop} {r : Nat} (h : Path w v π r) : ∃ s, RefIn s v := by
  induction h with
  | here r => exact ⟨r, .obj⟩
  | list xs i x _ _ hx _ ih =>
    obtain ⟨s, hs⟩ := ih
    exact ⟨s, .list xs x (List.mem_of_getElem? hx) hs⟩
  | tup xs i x _ _ hx _ ih =>
    obtain ⟨s, hs⟩ := ih
    exact ⟨s, .tup xs x (List.mem_of_getElem? hx) hs⟩
  | set xs i x _ _ hx _ ih =>
    obtain ⟨s, hs⟩ := ih
    exact ⟨s, .set xs x (List.mem_of_getElem? hx) hs⟩
  | key kvs i kv _ _ hx _ ih =>
    obtain ⟨s, hs⟩ := ih
    exact ⟨s, .key kvs kv (List.mem_of_getElem? hx) hs⟩
  | entry kvs i kv _ _ hx _ ih =>
    obtain ⟨s, hs⟩ := ih
    exact ⟨s, .value kvs kv (List.mem_of_getElem? hx) hs⟩
  | prop s _ _ _ _ _ _ _ _ _ => exact ⟨s, .obj⟩

/-- The values hold instances numbered from `lo` to `hi` only, all of them exist, and no
instance is held in two places. -/
structure Built (w : World) (lo hi : Nat) (ys : List Val) : Prop where
  within : ∀ (i : Nat) y π r, ys[i]? = some y → Path w y π r → lo ≤ r ∧ r < hi
  top : hi ≤ w.objs.length
  once : ∀ (i j : Nat) y z π ρ r, ys[i]? = some y → ys[j]? = some z → Path w y π r → Path w z ρ r →
    i = j ∧ π = ρ

theorem built_free {w : World} {lo hi : Nat} {ys : List Val} (h : ∀ y ∈ ys, RefFree y)
    (ht : hi ≤ w.objs.length) : Built w lo hi ys := by
  have hno : ∀ (i : Nat) y π r, ys[i]? = some y → ¬ Path w y π r := fun i y π r hy hp => by
    obtain ⟨s, hs⟩ := refFree_path hp
    exact h y (List.mem_of_getElem? hy) s hs
  exact ⟨fun i y π r hy hp => absurd hp (hno i y π r hy), ht,
    fun i j y z π ρ r hy _ hp _ => absurd hp (hno i y π r hy)⟩

theorem built_mono {w : World} {lo lo' hi hi' : Nat} {ys : List Val} (h : Built w lo hi ys) (hl : lo' ≤ lo)
    (hh : hi ≤ hi') (ht : hi' ≤ w.objs.length) : Built w lo' hi' ys :=
  ⟨fun i y π r hy hp => by
    have := h.within i y π r hy hp
    omega, ht, h.once⟩

theorem path_earlier {w w' : World} (hon : OnlyNew w w') {v : Val} {π : List Hop} {r : Nat}
    (h : Path w' v π r) (hb : ∀ ρ s, Path w v ρ s → s < w.objs.length) : Path w v π r := by
  induction h with
  | here r => exact .here r
  | list xs i x π r hx _ ih => exact .list xs i x π r hx (ih fun ρ s h => hb _ s (.list xs i x ρ s hx h))
  | tup xs i x π r hx _ ih => exact .tup xs i x π r hx (ih fun ρ s h => hb _ s (.tup xs i x ρ s hx h))
  | set xs i x π r hx _ ih => exact .set xs i x π r hx (ih fun ρ s h => hb _ s (.set xs i x ρ s hx h))
  | key xs i x π r hx _ ih => exact .key xs i x π r hx (ih fun ρ s h => hb _ s (.key xs i x ρ s hx h))
  | entry xs i x π r hx _ ih => exact .entry xs i x π r hx (ih fun ρ s h => hb _ s (.entry xs i x ρ s hx h))
  | prop s o nm v π r ho hl _ ih =>
    have hs := hb [] s (.here s)
    have h1 : w.objs[s]? = some o := by
      have h2 := hon.old s _ (List.getElem?_eq_getElem hs)
      rw [ho] at h2
      rw [List.getElem?_eq_getElem hs]
      exact h2.symm
    exact .prop s o nm v π r h1 hl (ih fun ρ t h => hb _ t (.prop s o nm v ρ t h1 hl h))

theorem path_later {w w' : World} (hon : OnlyNew w w') {v : Val} {π : List Hop} {r : Nat}
    (h : Path w v π r) : Path w' v π r := by
  induction h with
  | here r => exact .here r
  | list xs i x π r hx _ ih => exact .list xs i x π r hx ih
  | tup xs i x π r hx _ ih => exact .tup xs i x π r hx ih
  | set xs i x π r hx _ ih => exact .set xs i x π r hx ih
  | key xs i x π r hx _ ih => exact .key xs i x π r hx ih
  | entry xs i x π r hx _ ih => exact .entry xs i x π r hx ih
  | prop s o nm v π r ho hl _ ih => exact .prop s o nm v π r (hon.old s o ho) hl ih

theorem built_later {w w' : World} (hon : OnlyNew w w') {lo hi : Nat} {ys : List Val} (h : Built w lo hi ys) :
    Built w' lo hi ys := by
  have hp : ∀ (i : Nat) y π r, ys[i]? = some y → Path w' y π r → Path w y π r := fun i y π r hy hq =>
    path_earlier hon hq fun ρ s hs => Nat.lt_of_lt_of_le (h.within i y ρ s hy hs).2 h.top
  exact ⟨fun i y π r hy hq => h.within i y π r hy (hp i y π r hy hq), Nat.le_trans h.top hon.length,
    fun i j y z π ρ r hy hz h1 h2 => h.once i j y z π ρ r hy hz (hp i y π r hy h1) (hp j z ρ r hz h2)⟩

theorem built_cons {w : World} {lo mid hi : Nat} {y : Val} {ys : List Val} (h1 : Built w lo mid [y])
    (h2 : Built w mid hi ys) (hl : lo ≤ mid) (hm : mid ≤ hi) : Built w lo hi (y :: ys) := by
  have ha : ∀ π r, Path w y π r → lo ≤ r ∧ r < mid := fun π r h => h1.within 0 y π r rfl h
  refine ⟨fun i z π r hz hp => ?_, h2.top, fun i j a b π ρ r hi' hj hp hq => ?_⟩
  · cases i with
    | zero =>
      cases hz
      have := ha π r hp
      omega
    | succ i =>
      have := h2.within i z π r hz hp
      omega
  · cases i with
    | zero =>
      cases hi'
      have h3 := ha π r hp
      cases j with
      | zero =>
        cases hj
        exact ⟨rfl, (h1.once 0 0 y y π ρ r rfl rfl hp hq).2⟩
      | succ j =>
        have := h2.within j b ρ r hj hq
        omega
    | succ i =>
      have h3 := h2.within i a π r hi' hp
      cases j with
      | zero =>
        cases hj
        have := ha ρ r hq
        omega
      | succ j =>
        obtain ⟨h4, h5⟩ := h2.once i j a b π ρ r hi' hj hp hq
        exact ⟨by omega, h5⟩

/-- One value after the other. -/
theorem mapML_built {β γ : Type} {f : β → M γ} {g : γ → Val} {w0 : World} : ∀ (js : List β),
    (∀ j ∈ js, ∀ w2, OnlyNew w0 w2 → ∃ y w3, f j w2 = (.ok y, w3) ∧ OnlyNew w2 w3 ∧
      Built w3 w2.objs.length w3.objs.length [g y]) →
    ∀ w2, OnlyNew w0 w2 → ∀ ys w3, mapML f js w2 = (.ok ys, w3) →
      OnlyNew w2 w3 ∧ Built w3 w2.objs.length w3.objs.length (ys.map g)
  | [], _, w2, _, ys, w3, he => by
    cases he
    exact ⟨.refl _, built_free (by simp) (Nat.le_refl _)⟩
  | j :: js, h, w2, h2, ys, w3, he => by
    obtain ⟨y, w4, h3, h4, h5⟩ := h j (by simp) w2 h2
    unfold mapML at he
    rw [bind_ok h3] at he
    rcases hm : mapML f js w4 with ⟨r, w5⟩
    cases r with
    | error e =>
      rw [bind_err hm] at he
      cases he
    | ok zs =>
      rw [bind_ok hm] at he
      cases he
      obtain ⟨h6, h7⟩ := mapML_built js (fun z hz => h z (by simp [hz])) w4 (h2.trans h4) zs w3 hm
      exact ⟨h4.trans h6, built_cons (built_later h6 h5) h7 h4.length h6.length⟩

theorem built_one {w : World} {lo hi : Nat} {ys : List Val} {v : Val} (h : Built w lo hi ys)
    (hv : ∀ π r, Path w v π r → ∃ (i : Nat) (y : Val) (ρ : List Hop), ys[i]? = some y ∧ π = .item i :: ρ ∧ Path w y ρ r) :
    Built w lo hi [v] := by
  have h0 : ∀ (i : Nat) y, [v][i]? = some y → i = 0 ∧ y = v := fun i y hy => by
    cases i with
    | zero => exact ⟨rfl, by simpa using hy.symm⟩
    | succ i => simp at hy
  refine ⟨fun i y π r hy hp => ?_, h.top, fun i j y z π ρ r hy hz hp hq => ?_⟩
  · obtain ⟨_, rfl⟩ := h0 i y hy
    obtain ⟨k, x, σ, h1, _, h2⟩ := hv π r hp
    exact h.within k x σ r h1 h2
  · obtain ⟨h1, rfl⟩ := h0 i y hy
    obtain ⟨h2, rfl⟩ := h0 j z hz
    obtain ⟨k, x, σ, h3, rfl, h4⟩ := hv π r hp
    obtain ⟨l, x', τ, h5, rfl, h6⟩ := hv ρ r hq
    obtain ⟨rfl, rfl⟩ := h.once k l x x' σ τ r h3 h5 h4 h6
    exact ⟨by omega, rfl⟩

theorem built_kind {w : World} {lo hi : Nat} {k : SeqKind} {ys : List Val} (h : Built w lo hi ys) :
    Built w lo hi [ofKind k ys] :=
  built_one h fun π r hp => by
    obtain ⟨i, x, ρ, h1, h2, h3⟩ := path_kind_inv hp
    exact ⟨i, x, ρ, h2, h1, h3⟩

/-- A dictionary whose keys hold no instances. -/
theorem built_dict {w : World} {lo hi : Nat} {kvs : List (Val × Val)} (h : Built w lo hi (kvs.map (·.2)))
    (hk : ∀ kv ∈ kvs, RefFree kv.1) : Built w lo hi [.dict kvs] := by
  have h0 : ∀ (i : Nat) y, [Val.dict kvs][i]? = some y → i = 0 ∧ y = .dict kvs := fun i y hy => by
    cases i with
    | zero => exact ⟨rfl, by simpa using hy.symm⟩
    | succ i => simp at hy
  have hv : ∀ π r, Path w (.dict kvs) π r → ∃ (i : Nat) (y : Val) (ρ : List Hop), (kvs.map (·.2))[i]? = some y ∧ π = .entry i :: ρ ∧
      Path w y ρ r := fun π r hp => by
    obtain ⟨i, kv, ρ, h1, ⟨_, h3⟩ | ⟨h2, h3⟩⟩ := path_dict_inv hp
    · obtain ⟨s, hs⟩ := refFree_path h3
      exact absurd hs (hk kv (List.mem_of_getElem? h1) s)
    · exact ⟨i, kv.2, ρ, by rw [List.getElem?_map, h1]; rfl, h2, h3⟩
  refine ⟨fun i y π r hy hp => ?_, h.top, fun i j y z π ρ r hy hz hp hq => ?_⟩
  · obtain ⟨_, rfl⟩ := h0 i y hy
    obtain ⟨k, x, σ, h1, _, h2⟩ := hv π r hp
    exact h.within k x σ r h1 h2
  · obtain ⟨h1, rfl⟩ := h0 i y hy
    obtain ⟨h2, rfl⟩ := h0 j z hz
    obtain ⟨k, x, σ, h3, rfl, h4⟩ := hv π r hp
    obtain ⟨l, x', τ, h5, rfl, h6⟩ := hv ρ r hq
    obtain ⟨rfl, rfl⟩ := h.once k l x x' σ τ r h3 h5 h4 h6
    exact ⟨by omega, rfl⟩

/-- A new instance whose values are the given ones. -/
theorem built_object {w : World} {lo hi : Nat} {kvs : List (PyStr × Val)} {o : Obj}
    (h : Built w lo hi (kvs.map (·.2))) (ho : w.objs[hi]? = some o) (hl : lo ≤ hi)
    (hv : ∀ nm v, lookupS nm o.backend = some v → lookupS nm kvs = some v ∨ RefFree v)
    : Built w lo (hi + 1) [.obj hi] := by
  have h0 : ∀ (i : Nat) y, [Val.obj hi][i]? = some y → i = 0 ∧ y = .obj hi := fun i y hy => by
    cases i with
    | zero => exact ⟨rfl, by simpa using hy.symm⟩
    | succ i => simp at hy
  have hlt : hi < w.objs.length := (List.getElem?_eq_some_iff.1 ho).1
  have hp : ∀ π r, Path w (.obj hi) π r → (π = [] ∧ r = hi) ∨ ∃ nm ρ v, π = .prop nm :: ρ ∧ (nm, v) ∈ kvs ∧
      Path w v ρ r := fun π r h => by
    rcases path_obj_inv h with h | ⟨o', nm, v, ρ, h1, h2, h3, h4⟩
    · exact .inl h
    · rw [ho] at h1
      cases h1
      rcases hv nm v h2 with h5 | h5
      · exact .inr ⟨nm, ρ, v, h3, lookupS_mem_props h5, h4⟩
      · obtain ⟨s, hs⟩ := refFree_path h4
        exact absurd hs (h5 s)
  have hin : ∀ nm v ρ r, (nm, v) ∈ kvs → Path w v ρ r → lo ≤ r ∧ r < hi := fun nm v ρ r hm h2 => by
    obtain ⟨i, hi'⟩ := List.mem_iff_getElem?.1 hm
    exact h.within i v ρ r (by rw [List.getElem?_map, hi']; rfl) h2
  refine ⟨fun i y π r hy hq => ?_, hlt, fun i j y z π ρ r hy hz h1 h2 => ?_⟩
  · obtain ⟨_, rfl⟩ := h0 i y hy
    rcases hp π r hq with ⟨_, rfl⟩ | ⟨nm, ρ, v, _, h2, h3⟩
    · omega
    · have := hin nm v ρ r h2 h3
      omega
  · obtain ⟨h3, rfl⟩ := h0 i y hy
    obtain ⟨h4, rfl⟩ := h0 j z hz
    refine ⟨by omega, ?_⟩
    rcases hp π r h1 with ⟨rfl, hr⟩ | ⟨nm, π', v, rfl, h5, h6⟩ <;>
      rcases hp ρ r h2 with ⟨rfl, hr'⟩ | ⟨nm', ρ', v', rfl, h7, h8⟩
    · rfl
    · have := hin nm' v' ρ' r h7 h8
      omega
    · have := hin nm v π' r h5 h6
      omega
    · obtain ⟨a, ha⟩ := List.mem_iff_getElem?.1 h5
      obtain ⟨b, hb⟩ := List.mem_iff_getElem?.1 h7
      obtain ⟨rfl, rfl⟩ := h.once a b v v' π' ρ' r (by rw [List.getElem?_map, ha]; rfl)
        (by rw [List.getElem?_map, hb]; rfl) h6 h8
      rw [ha] at hb
      cases hb
      rfl

end Verif
