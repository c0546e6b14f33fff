import Verif.Spec.Decl
import Verif.Props.C59

/-!
# C67: declarations
-/

namespace Verif.Decl
open Verif.Decl.Spec Limits Verif.Spec

def done {α : Type} : Except Err α → Option α
  | .ok a => some a
  | .error _ => none

theorem put_comm {f : PyStr → Option KV} {k k' : PyStr} (h : k ≠ k') (v v' : KV) : put (put f k v) k' v' = put (put f k' v') k v := by
  funext x
  unfold put
  by_cases h1 : x = k'
  · have h2 : x ≠ k := fun he => h (he.symm.trans h1)
    rw [if_pos h1, if_neg h2, if_pos h1]
  · rw [if_neg h1, if_neg h1]

/-- The limits among the keywords that are still to come are not set. -/
structure Fresh (A : Attrs) (l : List (PyStr × KV)) (s : St) : Prop where
  min : ∀ k v, (k, v) ∈ l → A k = .min → s.bounds.min = .none
  max : ∀ k v, (k, v) ∈ l → A k = .max → s.bounds.max = .none
  minLength : ∀ k v, (k, v) ∈ l → A k = .minLength → s.lens.min = none
  maxLength : ∀ k v, (k, v) ∈ l → A k = .maxLength → s.lens.max = none

/-- What one keyword does. -/
inductive Step (A : Attrs) (k : PyStr) (v : KV) (s : St) : St → Prop
  | plain : A k = .plain → Step A k v s { s with attrs := put s.attrs k v }
  | free (f : KV → Option KV) (v' : KV) : A k = .free f → f v = some v' → Step A k v s { s with attrs := put s.attrs k v' }
  | min : A k = .min → (s.bounds.max = .none ∨ pyLt s.bounds.max v.bound = some false) →
      Step A k v s { s with attrs := put s.attrs k v, bounds := { s.bounds with min := v.bound } }
  | max : A k = .max → (s.bounds.min = .none ∨ pyLt v.bound s.bounds.min = some false) →
      Step A k v s { s with attrs := put s.attrs k v, bounds := { s.bounds with max := v.bound } }
  | minLength (i : Int) : A k = .minLength → asInt v.asVal = some i → 0 ≤ i → (∀ m, s.lens.max = some m → i ≤ m) →
      Step A k v s { s with attrs := put s.attrs k v, lens := { s.lens with min := some i } }
  | maxLength (i : Int) : A k = .maxLength → asInt v.asVal = some i → 0 ≤ i → (∀ m, s.lens.min = some m → m ≤ i) →
      Step A k v s { s with attrs := put s.attrs k v, lens := { s.lens with max := some i } }

theorem apply_min {b b' : Bounds} {v : Bound} : apply b (.min v) = (b', true) ↔
    (b.max = .none ∨ pyLt b.max v = some false) ∧ b' = { b with min := v } := by
  unfold apply
  dsimp only
  by_cases h : b.max = .none
  · simp [h, eq_comm]
  · rw [if_pos h]
    split
    · rename_i hp; simp [h, hp, eq_comm]
    · rename_i hp
      constructor
      · intro h'; cases h'
      · rintro ⟨h1 | h1, _⟩
        · exact absurd h1 h
        · exact absurd h1 hp

theorem apply_max {b b' : Bounds} {v : Bound} : apply b (.max v) = (b', true) ↔
    (b.min = .none ∨ pyLt v b.min = some false) ∧ b' = { b with max := v } := by
  unfold apply
  dsimp only
  by_cases h : b.min = .none
  · simp [h, eq_comm]
  · rw [if_pos h]
    split
    · rename_i hp; simp [h, hp, eq_comm]
    · rename_i hp
      constructor
      · intro h'; cases h'
      · rintro ⟨h1 | h1, _⟩
        · exact absurd h1 h
        · exact absurd h1 hp

theorem applyLen_min {b b' : Lengths} {v : Val} : applyLen b (.min v) = (b', true) ↔
    ∃ i, asInt v = some i ∧ 0 ≤ i ∧ (∀ m, b.max = some m → i ≤ m) ∧ b' = { b with min := some i } := by
  unfold applyLen
  dsimp only
  cases hv : asInt v with
  | none => simp
  | some i =>
    dsimp only
    by_cases hi : i < 0
    · rw [if_pos hi]; simp; omega
    · rw [if_neg hi]
      cases hm : b.max with
      | none => simp [eq_comm]; omega
      | some m =>
        dsimp only
        by_cases hmi : i > m
        · rw [if_pos hmi]; simp; omega
        · rw [if_neg hmi]
          have h1 : 0 ≤ i := by omega
          have h2 : i ≤ m := by omega
          simp [eq_comm, h1, h2]

theorem applyLen_max {b b' : Lengths} {v : Val} : applyLen b (.max v) = (b', true) ↔
    ∃ i, asInt v = some i ∧ 0 ≤ i ∧ (∀ m, b.min = some m → m ≤ i) ∧ b' = { b with max := some i } := by
  unfold applyLen
  dsimp only
  cases hv : asInt v with
  | none => simp
  | some i =>
    dsimp only
    by_cases hi : i < 0
    · rw [if_pos hi]; simp; omega
    · rw [if_neg hi]
      cases hm : b.min with
      | none => simp [eq_comm]; omega
      | some m =>
        dsimp only
        by_cases hmi : i < m
        · rw [if_pos hmi]; simp; omega
        · rw [if_neg hmi]
          have h1 : 0 ≤ i := by omega
          have h2 : m ≤ i := by omega
          simp [eq_comm, h1, h2]

theorem setAttr_ok {A : Attrs} {k : PyStr} {v : KV} {s s' : St} : setAttr A k v s = .ok s' ↔ Step A k v s s' := by
  constructor
  · intro h
    unfold setAttr at h
    split at h
    · cases h
    · cases h
    · rename_i ha; cases h; exact .plain ha
    · rename_i f ha
      split at h
      · cases h
      · rename_i v' hf; cases h; exact .free f v' ha hf
    all_goals
      rename_i ha
      split at h
      · rename_i b hb
        cases h
        first
          | obtain ⟨h1, rfl⟩ := apply_min.1 hb; exact .min ha h1
          | obtain ⟨h1, rfl⟩ := apply_max.1 hb; exact .max ha h1
          | obtain ⟨i, h1, h2, h3, rfl⟩ := applyLen_min.1 hb; exact .minLength i ha h1 h2 h3
          | obtain ⟨i, h1, h2, h3, rfl⟩ := applyLen_max.1 hb; exact .maxLength i ha h1 h2 h3
      · cases h
  · intro h
    cases h with
    | plain ha => unfold setAttr; rw [ha]
    | free f v' ha hf => unfold setAttr; rw [ha]; simp only [hf]
    | min ha h => unfold setAttr; rw [ha]; simp only [apply_min.2 ⟨h, rfl⟩]
    | max ha h => unfold setAttr; rw [ha]; simp only [apply_max.2 ⟨h, rfl⟩]
    | minLength i ha h1 h2 h3 => unfold setAttr; rw [ha]; simp only [applyLen_min.2 ⟨i, h1, h2, h3, rfl⟩]
    | maxLength i ha h1 h2 h3 => unfold setAttr; rw [ha]; simp only [applyLen_max.2 ⟨i, h1, h2, h3, rfl⟩]

theorem private_iff {k : PyStr} : isPrivate k = false ↔ k.head? ≠ some '_' := by
  cases k <;> simp [isPrivate]

theorem setKw_ok {A : Attrs} {k : PyStr} {v : KV} {s s' : St} : setKw A k v s = .ok s' ↔ Known A k ∧ Step A k v s s' := by
  unfold setKw Known
  by_cases h1 : k = s% "terms"
  · rw [if_pos h1]; simp [h1]
  · rw [if_neg h1]
    by_cases h2 : k = []
    · rw [if_pos h2]; simp [h2]
    · rw [if_neg h2]
      cases h3 : isPrivate k with
      | true =>
        have : ¬ k.head? ≠ some '_' := fun h => by rw [private_iff.2 h] at h3; cases h3
        simp at this
        simp [this]
      | false =>
        have := private_iff.1 h3
        rw [if_neg (by decide), setAttr_ok]
        constructor
        · intro h
          refine ⟨⟨h2, this, h1, ?_, ?_⟩, h⟩ <;> intro ha <;> cases h <;> simp_all
        · exact fun h => h.2

/-- Two keywords can be swapped. -/
theorem Step.swap {A : Attrs} (hA : Single A) {k k' : PyStr} {v v' : KV} {s s1 s2 : St} (hk : k ≠ k')
    (hn : ∀ a b, (a = k ∧ b = k' ∨ a = k' ∧ b = k) → A a = .min → A b = .max → v.bound ≠ .none ∧ v'.bound ≠ .none)
    (hf : Fresh A [(k, v), (k', v')] s) (h1 : Step A k v s s1) (h2 : Step A k' v' s1 s2) :
    ∃ s1', Step A k' v' s s1' ∧ Step A k v s1' s2 := by
  have e := put_comm (f := s.attrs) hk
  have a1 : ∀ {x}, A k = x → A k' = x → x = .min ∨ x = .max ∨ x = .minLength ∨ x = .maxLength → False := by
    rintro x h1 h2 (rfl | rfl | rfl | rfl)
    · exact hk (hA.min _ _ h1 h2)
    · exact hk (hA.max _ _ h1 h2)
    · exact hk (hA.minLength _ _ h1 h2)
    · exact hk (hA.maxLength _ _ h1 h2)
  cases h1 with
  | plain ha =>
    cases h2 with
    | plain hb => rw [e]; exact ⟨_, .plain hb, .plain ha⟩
    | free f w hb hw => rw [e]; exact ⟨_, .free f w hb hw, .plain ha⟩
    | min hb h => rw [e]; exact ⟨_, .min hb h, .plain ha⟩
    | max hb h => rw [e]; exact ⟨_, .max hb h, .plain ha⟩
    | minLength i hb h h' h'' => rw [e]; exact ⟨_, .minLength i hb h h' h'', .plain ha⟩
    | maxLength i hb h h' h'' => rw [e]; exact ⟨_, .maxLength i hb h h' h'', .plain ha⟩
  | free g u ha hg =>
    cases h2 with
    | plain hb => rw [e]; exact ⟨_, .plain hb, .free g u ha hg⟩
    | free f w hb hw => rw [e]; exact ⟨_, .free f w hb hw, .free g u ha hg⟩
    | min hb h => rw [e]; exact ⟨_, .min hb h, .free g u ha hg⟩
    | max hb h => rw [e]; exact ⟨_, .max hb h, .free g u ha hg⟩
    | minLength i hb h h' h'' => rw [e]; exact ⟨_, .minLength i hb h h' h'', .free g u ha hg⟩
    | maxLength i hb h h' h'' => rw [e]; exact ⟨_, .maxLength i hb h h' h'', .free g u ha hg⟩
  | min ha hm =>
    cases h2 with
    | plain hb => rw [e]; exact ⟨_, .plain hb, .min ha hm⟩
    | free f w hb hw => rw [e]; exact ⟨_, .free f w hb hw, .min ha hm⟩
    | min hb h => exact (a1 ha hb (.inl rfl)).elim
    | max hb h =>
      rw [e]
      obtain ⟨n1, n2⟩ := hn k k' (.inl ⟨rfl, rfl⟩) ha hb
      have f1 := hf.min k v (by simp) ha
      refine ⟨_, .max hb (.inl f1), .min ha (.inr ?_)⟩
      rcases h with h | h
      · exact absurd h n1
      · exact h
    | minLength i hb h h' h'' => rw [e]; exact ⟨_, .minLength i hb h h' h'', .min ha hm⟩
    | maxLength i hb h h' h'' => rw [e]; exact ⟨_, .maxLength i hb h h' h'', .min ha hm⟩
  | max ha hm =>
    cases h2 with
    | plain hb => rw [e]; exact ⟨_, .plain hb, .max ha hm⟩
    | free f w hb hw => rw [e]; exact ⟨_, .free f w hb hw, .max ha hm⟩
    | max hb h => exact (a1 ha hb (.inr (.inl rfl))).elim
    | min hb h =>
      rw [e]
      obtain ⟨n1, n2⟩ := hn k' k (.inr ⟨rfl, rfl⟩) hb ha
      have f1 := hf.max k v (by simp) ha
      refine ⟨_, .min hb (.inl f1), .max ha (.inr ?_)⟩
      rcases h with h | h
      · exact absurd h n1
      · exact h
    | minLength i hb h h' h'' => rw [e]; exact ⟨_, .minLength i hb h h' h'', .max ha hm⟩
    | maxLength i hb h h' h'' => rw [e]; exact ⟨_, .maxLength i hb h h' h'', .max ha hm⟩
  | minLength j ha g1 g2 g3 =>
    cases h2 with
    | plain hb => rw [e]; exact ⟨_, .plain hb, .minLength j ha g1 g2 g3⟩
    | free f w hb hw => rw [e]; exact ⟨_, .free f w hb hw, .minLength j ha g1 g2 g3⟩
    | min hb h => rw [e]; exact ⟨_, .min hb h, .minLength j ha g1 g2 g3⟩
    | max hb h => rw [e]; exact ⟨_, .max hb h, .minLength j ha g1 g2 g3⟩
    | minLength i hb h h' h'' => exact (a1 ha hb (.inr (.inr (.inl rfl)))).elim
    | maxLength i hb h h' h'' =>
      rw [e]
      have f1 := hf.minLength k v (by simp) ha
      exact ⟨_, .maxLength i hb h h' (fun m hm => by rw [f1] at hm; cases hm),
        .minLength j ha g1 g2 (fun m hm => by cases hm; exact h'' _ rfl)⟩
  | maxLength j ha g1 g2 g3 =>
    cases h2 with
    | plain hb => rw [e]; exact ⟨_, .plain hb, .maxLength j ha g1 g2 g3⟩
    | free f w hb hw => rw [e]; exact ⟨_, .free f w hb hw, .maxLength j ha g1 g2 g3⟩
    | min hb h => rw [e]; exact ⟨_, .min hb h, .maxLength j ha g1 g2 g3⟩
    | max hb h => rw [e]; exact ⟨_, .max hb h, .maxLength j ha g1 g2 g3⟩
    | maxLength i hb h h' h'' => exact (a1 ha hb (.inr (.inr (.inr rfl)))).elim
    | minLength i hb h h' h'' =>
      rw [e]
      have f1 := hf.maxLength k v (by simp) ha
      exact ⟨_, .minLength i hb h h' (fun m hm => by rw [f1] at hm; cases hm),
        .maxLength j ha g1 g2 (fun m hm => by cases hm; exact h'' _ rfl)⟩

theorem setKws_cons {A : Attrs} {k : PyStr} {v : KV} {l : List (PyStr × KV)} {s s' : St} :
    setKws A ((k, v) :: l) s = .ok s' ↔ ∃ s1, Known A k ∧ Step A k v s s1 ∧ setKws A l s1 = .ok s' := by
  simp only [setKws]
  cases h : setKw A k v s with
  | error e =>
    simp only [reduceCtorEq, false_iff]
    rintro ⟨s1, h1, h2, _⟩
    rw [setKw_ok.2 ⟨h1, h2⟩] at h
    cases h
  | ok s1 =>
    obtain ⟨h1, h2⟩ := setKw_ok.1 h
    simp only
    constructor
    · exact fun h' => ⟨s1, h1, h2, h'⟩
    · rintro ⟨s2, h3, h4, h5⟩
      have := setKw_ok.2 ⟨h3, h4⟩
      rw [h] at this
      cases this
      exact h5

theorem limit_bound (v : KV) : limit v = v.bound := by
  cases v with
  | fn n => rfl
  | val v => cases v with
    | bool b => cases b <;> rfl
    | _ => rfl

theorem bound_none {v : KV} : v.bound = .none ↔ v = .val .none := by
  cases v with
  | fn n => simp [KV.bound]
  | val v => cases v <;> simp [KV.bound]

/-- A keyword leaves the limits that are still to come alone. -/
theorem Fresh.step {A : Attrs} (hA : Single A) {k : PyStr} {v : KV} {l : List (PyStr × KV)} {s s1 : St}
    (hd : Distinct ((k, v) :: l)) (h : Fresh A ((k, v) :: l) s) (hs : Step A k v s s1) : Fresh A l s1 := by
  have hne : ∀ k' v', (k', v') ∈ l → k ≠ k' := fun k' v' hm he => by
    subst he
    simp only [Distinct, List.map_cons, List.nodup_cons] at hd
    exact hd.1 (List.mem_map.2 ⟨_, hm, rfl⟩)
  have tl : Fresh A l s := ⟨fun k v hm => h.min k v (List.mem_cons_of_mem _ hm), fun k v hm => h.max k v (List.mem_cons_of_mem _ hm),
    fun k v hm => h.minLength k v (List.mem_cons_of_mem _ hm), fun k v hm => h.maxLength k v (List.mem_cons_of_mem _ hm)⟩
  cases hs with
  | plain ha => exact ⟨tl.min, tl.max, tl.minLength, tl.maxLength⟩
  | free f v' ha hf => exact ⟨tl.min, tl.max, tl.minLength, tl.maxLength⟩
  | min ha hm => exact ⟨fun k' v' hm hk => absurd (hA.min _ _ ha hk) (hne k' v' hm), tl.max, tl.minLength, tl.maxLength⟩
  | max ha hm => exact ⟨tl.min, fun k' v' hm hk => absurd (hA.max _ _ ha hk) (hne k' v' hm), tl.minLength, tl.maxLength⟩
  | minLength i ha _ _ _ =>
    exact ⟨tl.min, tl.max, fun k' v' hm hk => absurd (hA.minLength _ _ ha hk) (hne k' v' hm), tl.maxLength⟩
  | maxLength i ha _ _ _ =>
    exact ⟨tl.min, tl.max, tl.minLength, fun k' v' hm hk => absurd (hA.maxLength _ _ ha hk) (hne k' v' hm)⟩

theorem Fresh.empty (A : Attrs) (l : List (PyStr × KV)) : Fresh A l {} :=
  ⟨fun _ _ _ _ => rfl, fun _ _ _ _ => rfl, fun _ _ _ _ => rfl, fun _ _ _ _ => rfl⟩

theorem setKws_perm {A : Attrs} (hA : Single A) {l l' : List (PyStr × KV)} (hp : l.Perm l') : ∀ s s', Distinct l → NoNone A l →
    Fresh A l s → setKws A l s = .ok s' → setKws A l' s = .ok s' := by
  induction hp with
  | nil => exact fun _ _ _ _ _ h => h
  | cons x p ih =>
    obtain ⟨k, v⟩ := x
    intro s s' hd hn hf h
    obtain ⟨s1, h1, h2, h3⟩ := setKws_cons.1 h
    refine setKws_cons.2 ⟨s1, h1, h2, ih s1 s' ?_ ?_ (hf.step hA hd h2) h3⟩
    · simp only [Distinct, List.map_cons, List.nodup_cons] at hd; exact hd.2
    · exact fun a b c d e f => hn a b c d (List.mem_cons_of_mem _ e) (List.mem_cons_of_mem _ f)
  | swap x y l =>
    obtain ⟨k, v⟩ := y
    obtain ⟨k', v'⟩ := x
    intro s s' hd hn hf h
    obtain ⟨s1, h1, h2, h3⟩ := setKws_cons.1 h
    obtain ⟨s2, h4, h5, h6⟩ := setKws_cons.1 h3
    have hk : k ≠ k' := by
      simp only [Distinct, List.map_cons, List.nodup_cons, List.mem_cons] at hd
      exact fun he => hd.1 (.inl he)
    obtain ⟨s1', g1, g2⟩ := Step.swap hA hk (v := v) (v' := v') (by
        rintro a b (⟨rfl, rfl⟩ | ⟨rfl, rfl⟩) ha hb
        · have := hn a v b v' (by simp) (by simp) ha hb
          exact ⟨fun h => this.1 (bound_none.1 h), fun h => this.2 (bound_none.1 h)⟩
        · have := hn a v' b v (by simp) (by simp) ha hb
          exact ⟨fun h => this.2 (bound_none.1 h), fun h => this.1 (bound_none.1 h)⟩)
      ⟨fun a b hm => hf.min a b (by simp only [List.mem_cons, List.not_mem_nil, or_false] at hm ⊢; exact hm.elim .inl fun h => .inr (.inl h)),
       fun a b hm => hf.max a b (by simp only [List.mem_cons, List.not_mem_nil, or_false] at hm ⊢; exact hm.elim .inl fun h => .inr (.inl h)),
       fun a b hm => hf.minLength a b (by simp only [List.mem_cons, List.not_mem_nil, or_false] at hm ⊢; exact hm.elim .inl fun h => .inr (.inl h)),
       fun a b hm => hf.maxLength a b (by simp only [List.mem_cons, List.not_mem_nil, or_false] at hm ⊢; exact hm.elim .inl fun h => .inr (.inl h))⟩
      h2 h5
    exact setKws_cons.2 ⟨s1', h4, g1, setKws_cons.2 ⟨s2, h1, g2, h6⟩⟩
  | trans p q ih1 ih2 =>
    intro s s' hd hn hf h
    refine ih2 s s' ?_ ?_ ?_ (ih1 s s' hd hn hf h)
    · exact ((p.map Prod.fst).nodup_iff).1 hd
    · exact fun a b c d e f => hn a b c d (p.mem_iff.2 e) (p.mem_iff.2 f)
    · exact ⟨fun k v hm => hf.min k v (p.mem_iff.2 hm), fun k v hm => hf.max k v (p.mem_iff.2 hm),
        fun k v hm => hf.minLength k v (p.mem_iff.2 hm), fun k v hm => hf.maxLength k v (p.mem_iff.2 hm)⟩

/-- The limits that are set fit those that are still to come. -/
structure Compat (A : Attrs) (l : List (PyStr × KV)) (s : St) : Prop where
  min : ∀ k v, (k, v) ∈ l → A k = .min → s.bounds.max = .none ∨ pyLt s.bounds.max v.bound = some false
  max : ∀ k v, (k, v) ∈ l → A k = .max → s.bounds.min = .none ∨ pyLt v.bound s.bounds.min = some false
  minLength : ∀ k v i, (k, v) ∈ l → A k = .minLength → asInt v.asVal = some i → ∀ m, s.lens.max = some m → i ≤ m
  maxLength : ∀ k v i, (k, v) ∈ l → A k = .maxLength → asInt v.asVal = some i → ∀ m, s.lens.min = some m → m ≤ i

theorem bound_nan {v : KV} : v.bound = .num .nan ↔ v = .val (.float .nan) := by
  cases v with
  | fn n => simp [KV.bound]
  | val v => cases v <;> simp [KV.bound]

theorem asInt_val {v : KV} {i : Int} (h : asInt v.asVal = some i) (hi : 0 ≤ i) :
    (∃ i : Int, 0 ≤ i ∧ v = .val (.int i)) ∨ ∃ b, v = .val (.bool b) := by
  cases v with
  | fn n => cases h
  | val v =>
    cases v <;> simp only [KV.asVal, asInt, reduceCtorEq, Option.some.injEq] at h
    · exact .inr ⟨_, rfl⟩
    · subst h; exact .inl ⟨_, hi, rfl⟩

theorem fine_asInt {v : KV} (h : (∃ i : Int, 0 ≤ i ∧ v = .val (.int i)) ∨ ∃ b, v = .val (.bool b)) :
    ∃ i, asInt v.asVal = some i ∧ 0 ≤ i := by
  rcases h with ⟨i, hi, rfl⟩ | ⟨b, rfl⟩
  · exact ⟨i, rfl, hi⟩
  · cases b
    · exact ⟨0, rfl, by decide⟩
    · exact ⟨1, rfl, by decide⟩

theorem Spec.Fine.tail {A : Attrs} {x : PyStr × KV} {l : List (PyStr × KV)} (h : Fine A (x :: l)) : Fine A l :=
  ⟨fun k v hm => h.known k v (List.mem_cons_of_mem _ hm), fun k v f hm => h.free k v f (List.mem_cons_of_mem _ hm),
   fun k v hm => h.length k v (List.mem_cons_of_mem _ hm),
   fun k v k' v' hm hm' => h.bounds k v k' v' (List.mem_cons_of_mem _ hm) (List.mem_cons_of_mem _ hm'),
   fun k v k' v' i j hm hm' => h.lengths k v k' v' i j (List.mem_cons_of_mem _ hm) (List.mem_cons_of_mem _ hm')⟩

/-- Keywords that are right are accepted. -/
theorem setKws_fine {A : Attrs} (l : List (PyStr × KV)) : ∀ s, Fine A l → NoNan A l → Compat A l s → ∃ s', setKws A l s = .ok s' := by
  induction l with
  | nil => exact fun s _ _ _ => ⟨s, rfl⟩
  | cons x l ih =>
    obtain ⟨k, v⟩ := x
    intro s hf hn hc
    have hn' : NoNan A l := fun k v hm => hn k v (List.mem_cons_of_mem _ hm)
    have hc' : Compat A l s := ⟨fun k v hm => hc.min k v (List.mem_cons_of_mem _ hm), fun k v hm => hc.max k v (List.mem_cons_of_mem _ hm),
      fun k v i hm => hc.minLength k v i (List.mem_cons_of_mem _ hm), fun k v i hm => hc.maxLength k v i (List.mem_cons_of_mem _ hm)⟩
    have hk := hf.known k v (by simp)
    have fin : ∀ s1, Step A k v s s1 → Compat A l s1 → ∃ s', setKws A ((k, v) :: l) s = .ok s' := fun s1 h1 h2 => by
      obtain ⟨s', h3⟩ := ih s1 hf.tail hn' h2
      exact ⟨s', setKws_cons.2 ⟨s1, hk, h1, h3⟩⟩
    have m0 : (k, v) ∈ (k, v) :: l := by simp
    cases ha : A k with
    | missing => exact absurd ha hk.2.2.2.1
    | readOnly => exact absurd ha hk.2.2.2.2
    | plain => exact fin _ (.plain ha) ⟨hc'.min, hc'.max, hc'.minLength, hc'.maxLength⟩
    | free f =>
      cases hv : f v with
      | none => exact absurd hv (hf.free k v f m0 ha)
      | some v' => exact fin _ (.free f v' ha hv) ⟨hc'.min, hc'.max, hc'.minLength, hc'.maxLength⟩
    | min =>
      refine fin _ (.min ha (hc.min k v m0 ha)) ⟨hc'.min, fun k' v' hm hk' => .inr ?_, hc'.minLength, hc'.maxLength⟩
      refine (pyLt_false (fun h => ?_) (fun h => ?_)).2
        (by have := hf.bounds k v k' v' m0 (List.mem_cons_of_mem _ hm) ha hk'; rwa [limit_bound, limit_bound] at this)
      · exact hn' k' v' hm (.inr hk') (bound_nan.1 h)
      · exact hn k v m0 (.inl ha) (bound_nan.1 h)
    | max =>
      refine fin _ (.max ha (hc.max k v m0 ha)) ⟨fun k' v' hm hk' => .inr ?_, hc'.max, hc'.minLength, hc'.maxLength⟩
      refine (pyLt_false (fun h => ?_) (fun h => ?_)).2
        (by have := hf.bounds k' v' k v (List.mem_cons_of_mem _ hm) m0 hk' ha; rwa [limit_bound, limit_bound] at this)
      · exact hn k v m0 (.inr ha) (bound_nan.1 h)
      · exact hn' k' v' hm (.inl hk') (bound_nan.1 h)
    | minLength =>
      obtain ⟨i, h1, h2⟩ := fine_asInt (hf.length k v m0 (.inl ha))
      refine fin _ (.minLength i ha h1 h2 (hc.minLength k v i m0 ha h1)) ⟨hc'.min, hc'.max, hc'.minLength, fun k' v' j hm hk' hj m he => ?_⟩
      cases he
      exact hf.lengths k v k' v' i j m0 (List.mem_cons_of_mem _ hm) ha hk' h1 hj
    | maxLength =>
      obtain ⟨i, h1, h2⟩ := fine_asInt (hf.length k v m0 (.inr ha))
      refine fin _ (.maxLength i ha h1 h2 (hc.maxLength k v i m0 ha h1)) ⟨hc'.min, hc'.max, fun k' v' j hm hk' hj m he => ?_, hc'.maxLength⟩
      cases he
      exact hf.lengths k' v' k v j i (List.mem_cons_of_mem _ hm) m0 hk' ha hj h1

/-- What is set stays set, and what comes was checked against it. -/
structure Seen (A : Attrs) (l : List (PyStr × KV)) (s s' : St) : Prop where
  known : ∀ k v, (k, v) ∈ l → Known A k
  attrs : ∀ k v, (k, v) ∈ l → ∃ v', SetTo A k v v' ∧ s'.attrs k = some v'
  others : ∀ k, (∀ v, (k, v) ∉ l) → s'.attrs k = s.attrs k
  default : s'.default = s.default
  length : ∀ k v, (k, v) ∈ l → A k = .minLength ∨ A k = .maxLength → ∃ i, asInt v.asVal = some i ∧ 0 ≤ i
  min : ∀ k v, (k, v) ∈ l → A k = .min → s'.bounds.min = v.bound
  max : ∀ k v, (k, v) ∈ l → A k = .max → s'.bounds.max = v.bound
  minLength : ∀ k v, (k, v) ∈ l → A k = .minLength → s'.lens.min = asInt v.asVal
  maxLength : ∀ k v, (k, v) ∈ l → A k = .maxLength → s'.lens.max = asInt v.asVal
  keepMin : (∀ k v, (k, v) ∈ l → A k ≠ .min) → s'.bounds.min = s.bounds.min
  keepMax : (∀ k v, (k, v) ∈ l → A k ≠ .max) → s'.bounds.max = s.bounds.max
  keepMinLength : (∀ k v, (k, v) ∈ l → A k ≠ .minLength) → s'.lens.min = s.lens.min
  keepMaxLength : (∀ k v, (k, v) ∈ l → A k ≠ .maxLength) → s'.lens.max = s.lens.max

theorem Step.attrs {A : Attrs} {k : PyStr} {v : KV} {s s1 : St} (h : Step A k v s s1) :
    (∃ v', SetTo A k v v' ∧ s1.attrs k = some v') ∧ (∀ k', k' ≠ k → s1.attrs k' = s.attrs k') ∧ s1.default = s.default := by
  cases h with
  | plain ha => exact ⟨⟨v, .same (fun f h => by rw [ha] at h; cases h), if_pos rfl⟩, fun k' h => if_neg h, rfl⟩
  | free f v' ha hf => exact ⟨⟨v', .free f v' ha hf, if_pos rfl⟩, fun k' h => if_neg h, rfl⟩
  | min ha _ => exact ⟨⟨v, .same (fun f h => by rw [ha] at h; cases h), if_pos rfl⟩, fun k' h => if_neg h, rfl⟩
  | max ha _ => exact ⟨⟨v, .same (fun f h => by rw [ha] at h; cases h), if_pos rfl⟩, fun k' h => if_neg h, rfl⟩
  | minLength i ha _ _ _ => exact ⟨⟨v, .same (fun f h => by rw [ha] at h; cases h), if_pos rfl⟩, fun k' h => if_neg h, rfl⟩
  | maxLength i ha _ _ _ => exact ⟨⟨v, .same (fun f h => by rw [ha] at h; cases h), if_pos rfl⟩, fun k' h => if_neg h, rfl⟩

theorem Step.limits {A : Attrs} {k : PyStr} {v : KV} {s s1 : St} (h : Step A k v s s1) :
    s1.bounds.min = (match A k with | .min => v.bound | _ => s.bounds.min) ∧
    s1.bounds.max = (match A k with | .max => v.bound | _ => s.bounds.max) ∧
    s1.lens.min = (match A k with | .minLength => asInt v.asVal | _ => s.lens.min) ∧
    s1.lens.max = (match A k with | .maxLength => asInt v.asVal | _ => s.lens.max) ∧
    (A k = .minLength ∨ A k = .maxLength → ∃ i, asInt v.asVal = some i ∧ 0 ≤ i) := by
  cases h with
  | plain ha => simp [ha]
  | free f v' ha hf => simp [ha]
  | min ha _ => simp [ha]
  | max ha _ => simp [ha]
  | minLength i ha h1 h2 _ => simp [ha, h1, h2]
  | maxLength i ha h1 h2 _ => simp [ha, h1, h2]

theorem setKws_seen {A : Attrs} (hA : Single A) (l : List (PyStr × KV)) : ∀ s s', Distinct l → setKws A l s = .ok s' → Seen A l s s' := by
  induction l with
  | nil =>
    intro s s' _ h
    cases h
    exact ⟨fun _ _ h => (by simp at h), fun _ _ h => (by simp at h), fun _ _ => rfl, rfl, fun _ _ h => (by simp at h),
      fun _ _ h => (by simp at h), fun _ _ h => (by simp at h), fun _ _ h => (by simp at h), fun _ _ h => (by simp at h),
      fun _ => rfl, fun _ => rfl, fun _ => rfl, fun _ => rfl⟩
  | cons x l ih =>
    obtain ⟨k, v⟩ := x
    intro s s' hd h
    obtain ⟨s1, h1, h2, h3⟩ := setKws_cons.1 h
    simp only [Distinct, List.map_cons, List.nodup_cons] at hd
    have hne : ∀ v', (k, v') ∉ l := fun v' hm => hd.1 (List.mem_map.2 ⟨_, hm, rfl⟩)
    have hne' : ∀ k' v', (k', v') ∈ l → k' ≠ k := fun k' v' hm he => by subst he; exact hne v' hm
    have i := ih s1 s' hd.2 h3
    obtain ⟨a1, a2, a3⟩ := h2.attrs
    obtain ⟨b1, b2, b3, b4, b5⟩ := h2.limits
    refine ⟨?_, ?_, ?_, i.default.trans a3, ?_, ?_, ?_, ?_, ?_, ?_, ?_, ?_, ?_⟩
    · intro k' v' hm
      rcases List.mem_cons.1 hm with he | hm
      · cases he; exact h1
      · exact i.known k' v' hm
    · intro k' v' hm
      rcases List.mem_cons.1 hm with he | hm
      · cases he; rw [i.others k hne]; exact a1
      · exact i.attrs k' v' hm
    · intro k' hk'
      rw [i.others k' (fun v' hm => hk' v' (List.mem_cons_of_mem _ hm))]
      exact a2 k' (fun he => hk' v (by rw [he]; simp))
    · intro k' v' hm
      rcases List.mem_cons.1 hm with he | hm
      · cases he; exact b5
      · exact i.length k' v' hm
    · intro k' v' hm hk'
      rcases List.mem_cons.1 hm with he | hm
      · cases he
        rw [i.keepMin (fun k2 v2 hm2 h2 => hne' k2 v2 hm2 (hA.min _ _ h2 hk')), b1, hk']
      · exact i.min k' v' hm hk'
    · intro k' v' hm hk'
      rcases List.mem_cons.1 hm with he | hm
      · cases he
        rw [i.keepMax (fun k2 v2 hm2 h2 => hne' k2 v2 hm2 (hA.max _ _ h2 hk')), b2, hk']
      · exact i.max k' v' hm hk'
    · intro k' v' hm hk'
      rcases List.mem_cons.1 hm with he | hm
      · cases he
        rw [i.keepMinLength (fun k2 v2 hm2 h2 => hne' k2 v2 hm2 (hA.minLength _ _ h2 hk')), b3, hk']
      · exact i.minLength k' v' hm hk'
    · intro k' v' hm hk'
      rcases List.mem_cons.1 hm with he | hm
      · cases he
        rw [i.keepMaxLength (fun k2 v2 hm2 h2 => hne' k2 v2 hm2 (hA.maxLength _ _ h2 hk')), b4, hk']
      · exact i.maxLength k' v' hm hk'
    · intro hn
      have := hn k v (by simp)
      rw [i.keepMin (fun k2 v2 hm2 => hn k2 v2 (List.mem_cons_of_mem _ hm2)), b1]
      split
      · rename_i h; exact absurd h this
      · rfl
    · intro hn
      have := hn k v (by simp)
      rw [i.keepMax (fun k2 v2 hm2 => hn k2 v2 (List.mem_cons_of_mem _ hm2)), b2]
      split
      · rename_i h; exact absurd h this
      · rfl
    · intro hn
      have := hn k v (by simp)
      rw [i.keepMinLength (fun k2 v2 hm2 => hn k2 v2 (List.mem_cons_of_mem _ hm2)), b3]
      split
      · rename_i h; exact absurd h this
      · rfl
    · intro hn
      have := hn k v (by simp)
      rw [i.keepMaxLength (fun k2 v2 hm2 => hn k2 v2 (List.mem_cons_of_mem _ hm2)), b4]
      split
      · rename_i h; exact absurd h this
      · rfl

/-- The limits of a property object are in order. -/
def Ordered (s : St) : Prop := Limits.Good s.bounds ∧ ∀ m n, s.lens.min = some m → s.lens.max = some n → m ≤ n

theorem setKws_ordered {A : Attrs} (l : List (PyStr × KV)) : ∀ s s', NoNan A l → Ordered s → setKws A l s = .ok s' → Ordered s' := by
  induction l with
  | nil => intro s s' _ hs h; cases h; exact hs
  | cons x l ih =>
    obtain ⟨k, v⟩ := x
    intro s s' hn hs h
    obtain ⟨s1, h1, h2, h3⟩ := setKws_cons.1 h
    refine ih s1 s' (fun k v hm => hn k v (List.mem_cons_of_mem _ hm)) ?_ h3
    have nn : A k = .min ∨ A k = .max → v.bound ≠ .num .nan := fun h he => hn k v (by simp) h (bound_nan.1 he)
    obtain ⟨⟨g1, g2, g3⟩, g4⟩ := hs
    cases h2 with
    | plain ha => exact ⟨⟨g1, g2, g3⟩, g4⟩
    | free f v' ha hf => exact ⟨⟨g1, g2, g3⟩, g4⟩
    | min ha hm =>
      refine ⟨⟨nn (.inl ha), g2, fun _ hx => ?_⟩, g4⟩
      rcases hm with hm | hm
      · exact absurd hm hx
      · exact (pyLt_false g2 (nn (.inl ha))).1 hm
    | max ha hm =>
      refine ⟨⟨g1, nn (.inr ha), fun hx _ => ?_⟩, g4⟩
      rcases hm with hm | hm
      · exact absurd hm hx
      · exact (pyLt_false (nn (.inr ha)) g1).1 hm
    | minLength i ha _ _ h => exact ⟨⟨g1, g2, g3⟩, fun m n hm hn => by cases hm; exact h n hn⟩
    | maxLength i ha _ _ h => exact ⟨⟨g1, g2, g3⟩, fun m n hm hn => by cases hn; exact h m hm⟩

theorem Ordered.empty : Ordered {} := ⟨⟨by decide, by decide, fun h => absurd rfl h⟩, fun m n h => by cases h⟩

/-! ## The default -/

theorem popped_mem {l : List (PyStr × KV)} (hd : Distinct l) {v : KV} (h : (s% "default", v) ∈ l) : popped l = v := by
  induction l with
  | nil => simp at h
  | cons x l ih =>
    obtain ⟨k, u⟩ := x
    simp only [Distinct, List.map_cons, List.nodup_cons] at hd
    simp only [popped]
    rcases List.mem_cons.1 h with he | hm
    · cases he; rw [if_pos rfl]
    · by_cases hk : k = s% "default"
      · subst hk; exact absurd (List.mem_map.2 ⟨_, hm, rfl⟩) hd.1
      · rw [if_neg hk]; exact ih hd.2 hm

theorem popped_none {l : List (PyStr × KV)} (h : ∀ v, (s% "default", v) ∉ l) : popped l = .val .none := by
  induction l with
  | nil => rfl
  | cons x l ih =>
    obtain ⟨k, u⟩ := x
    simp only [popped]
    rw [if_neg (fun hk => h u (by rw [hk]; simp))]
    exact ih fun v hm => h v (List.mem_cons_of_mem _ hm)

theorem mem_rest {l : List (PyStr × KV)} {k : PyStr} {v : KV} : (k, v) ∈ rest l ↔ (k, v) ∈ l ∧ k ≠ s% "default" := by
  simp [rest]

theorem rest_distinct {l : List (PyStr × KV)} (h : Distinct l) : Distinct (rest l) :=
  List.Nodup.sublist (List.filter_sublist.map _) h

theorem popped_perm {l l' : List (PyStr × KV)} (hp : l.Perm l') (hd : Distinct l) : popped l = popped l' := by
  have hd' : Distinct l' := ((hp.map Prod.fst).nodup_iff).1 hd
  by_cases h : ∃ v, (s% "default", v) ∈ l
  · obtain ⟨v, h⟩ := h
    rw [popped_mem hd h, popped_mem hd' (hp.mem_iff.1 h)]
  · rw [popped_none fun v hv => h ⟨v, hv⟩, popped_none fun v hv => h ⟨v, hp.mem_iff.2 hv⟩]

/-- C67: the order of keywords does not matter, unless both limits are given and one
is `None`: another order is accepted just as well, and declares the same. -/
theorem C67_order (A : Attrs) (hA : Single A) (m : Meth) (l l' : List (PyStr × KV)) (hp : l.Perm l') (hd : Distinct l)
    (hn : NoNone A l) (s : St) : declare A m l = .ok s ↔ declare A m l' = .ok s := by
  have one : ∀ (l l' : List (PyStr × KV)), l.Perm l' → Distinct l → NoNone A l → declare A m l = .ok s → declare A m l' = .ok s := by
    intro l l' hp hd hn h
    unfold declare at h ⊢
    rw [popped_perm hp hd] at h
    split at h
    · cases h
    · rename_i s1 h1
      have := setKws_perm hA (hp.filter _) {} s1 (rest_distinct hd) (fun a b c d e f => hn a b c d (mem_rest.1 e).1 (mem_rest.1 f).1)
        (.empty A _) h1
      have e : setKws A (rest l') {} = .ok s1 := this
      rw [e]
      exact h
  refine ⟨one l l' hp hd hn, one l' l hp.symm (((hp.map Prod.fst).nodup_iff).1 hd) fun a b c d e f => ?_⟩
  exact hn a b c d (hp.mem_iff.2 e) (hp.mem_iff.2 f)

/-- What a declaration comes from. -/
theorem declare_ok {A : Attrs} {m : Meth} {l : List (PyStr × KV)} {s : St} (h : declare A m l = .ok s) :
    ∃ s0, setKws A (rest l) {} = .ok s0 ∧ ((popped l = .val .none ∧ s = s0) ∨ (popped l ≠ .val .none ∧ setDefault m (popped l) s0 = .ok s)) := by
  unfold declare at h
  split at h
  · cases h
  · rename_i s0 h0
    refine ⟨s0, h0, ?_⟩
    split at h
    · rename_i hp; cases h; exact .inl ⟨hp, rfl⟩
    · rename_i hp; exact .inr ⟨hp, h⟩

theorem setDefault_ok {m : Meth} {d : KV} {s s' : St} (h : setDefault m d s = .ok s') :
    s' = { s with default := some d } ∧
    (d = .val .undef ∨ (∃ n v, d = .fn n ∧ m.call n = .ok v ∧ m.validate s v = true) ∨ (∃ v, d = .val v ∧ m.validate s d = true)) := by
  unfold setDefault at h
  split at h
  · rename_i n
    split at h
    · cases h
    · rename_i v hv
      split at h
      · rename_i hx; cases h; exact ⟨rfl, .inr (.inl ⟨n, v, rfl, hv, hx⟩)⟩
      · cases h
  · cases h; exact ⟨rfl, .inl rfl⟩
  · split at h
    · rename_i h1 h2 hx
      cases h
      refine ⟨rfl, .inr (.inr ?_)⟩
      cases d with
      | fn n => exact absurd rfl (h1 n)
      | val v => exact ⟨v, rfl, hx⟩
    · cases h

/-- C67: an accepted declaration has known keywords only, and every attribute has the
value given for it and the others none. -/
theorem C67_declared (A : Attrs) (hA : Single A) (m : Meth) (l : List (PyStr × KV)) (hd : Distinct l) (s : St)
    (h : declare A m l = .ok s) :
    (∀ k v, (k, v) ∈ l → k ≠ s% "default" → Known A k ∧ ∃ v', SetTo A k v v' ∧ s.attrs k = some v') ∧
    ∀ k, k ≠ s% "default" → (∀ v, (k, v) ∉ l) → s.attrs k = none := by
  obtain ⟨s0, h0, h1⟩ := declare_ok h
  have hs := setKws_seen hA (rest l) {} s0 (rest_distinct hd) h0
  have ha : s.attrs = s0.attrs := by
    rcases h1 with ⟨_, rfl⟩ | ⟨_, h1⟩
    · rfl
    · rw [(setDefault_ok h1).1]
  refine ⟨fun k v hm hk => ⟨hs.known k v (mem_rest.2 ⟨hm, hk⟩), ?_⟩, fun k hk hn => ?_⟩
  · rw [ha]; exact hs.attrs k v (mem_rest.2 ⟨hm, hk⟩)
  · rw [ha]; exact hs.others k fun v hm => hn v (mem_rest.1 hm).1

/-- C67: keywords without a default are accepted exactly if they are right. -/
theorem C67_accepted (A : Attrs) (hA : Single A) (m : Meth) (l : List (PyStr × KV)) (hd : Distinct l) (hn : NoNan A l)
    (hnn : NoNone A l) (h : ∀ v, (s% "default", v) ∉ l) : (∃ s, declare A m l = .ok s) ↔ Fine A l := by
  have hr : rest l = l := by
    unfold rest
    rw [List.filter_eq_self]
    rintro ⟨k, v⟩ hm
    simp only [decide_eq_true_eq, ne_eq]
    exact fun hk => h v (by rw [← hk]; exact hm)
  have he : ∀ s, declare A m l = .ok s ↔ setKws A l {} = .ok s := fun s => by
    unfold declare
    rw [hr, popped_none h]
    split <;> rename_i h' <;> rw [h']
  constructor
  · rintro ⟨s, hs⟩
    have h1 := (he s).1 hs
    have h2 := setKws_seen hA l {} s hd h1
    obtain ⟨⟨_, _, o1⟩, o2⟩ := setKws_ordered l {} s hn .empty h1
    refine ⟨h2.known, fun k v f hm hk hf => ?_, fun k v hm hk => ?_, fun k v k' v' hm hm' hk hk' => ?_,
      fun k v k' v' i j hm hm' hk hk' hi hj => ?_⟩
    · obtain ⟨v', h3, _⟩ := h2.attrs k v hm
      cases h3 with
      | free g v' hg hv => rw [hk] at hg; cases hg; rw [hf] at hv; cases hv
      | same hx => exact hx f hk
    · obtain ⟨i, hi, h0⟩ := h2.length k v hm hk
      exact asInt_val hi h0
    · have b1 := h2.min k v hm hk
      have b2 := h2.max k' v' hm' hk'
      obtain ⟨n1, n2⟩ := hnn k v k' v' hm hm' hk hk'
      rw [limit_bound, limit_bound, ← b1, ← b2]
      exact o1 (by rw [b1]; exact fun h => n1 (bound_none.1 h)) (by rw [b2]; exact fun h => n2 (bound_none.1 h))
    · exact o2 i j ((h2.minLength k v hm hk).trans hi) ((h2.maxLength k' v' hm' hk').trans hj)
  · intro hf
    obtain ⟨s, hs⟩ := setKws_fine l {} hf hn
      ⟨fun _ _ _ _ => .inl rfl, fun _ _ _ _ => .inl rfl, fun _ _ _ _ _ _ _ h => (by cases h), fun _ _ _ _ _ _ _ h => (by cases h)⟩
    exact ⟨s, (he s).2 hs⟩

/-- C67: wherever it stands, a default is checked last: it is accepted exactly if the
declaration without it is, and the finished property accepts it (what a function
returns, if it is a function); `None` is no default, and `undefined` is not checked. -/
theorem C67_default (A : Attrs) (m : Meth) (l : List (PyStr × KV)) (hd : Distinct l) (d : KV) (h : (s% "default", d) ∈ l) (s : St) :
    declare A m l = .ok s ↔ ∃ s0, declare A m (rest l) = .ok s0 ∧
      ((d = .val .none ∧ s = s0) ∨ (d = .val .undef ∧ s = { s0 with default := some d }) ∨
       ((∃ v, d = .val v ∧ v ≠ .none ∧ v ≠ .undef ∧ m.validate s0 d = true) ∨
          ∃ n v, d = .fn n ∧ m.call n = .ok v ∧ m.validate s0 v = true) ∧ s = { s0 with default := some d }) := by
  have hp := popped_mem hd h
  have hrr : rest (rest l) = rest l := by simp [rest]
  have hr : ∀ s0, declare A m (rest l) = .ok s0 ↔ setKws A (rest l) {} = .ok s0 := fun s0 => by
    unfold declare
    rw [hrr, popped_none (fun v hm => (mem_rest.1 hm).2 rfl)]
    split <;> rename_i h' <;> rw [h']
  constructor
  · intro hs
    obtain ⟨s0, h0, h1⟩ := declare_ok hs
    rw [hp] at h1
    refine ⟨s0, (hr s0).2 h0, ?_⟩
    rcases h1 with h1 | ⟨hx, h1⟩
    · exact .inl h1
    · obtain ⟨rfl, h2⟩ := setDefault_ok h1
      rcases h2 with h2 | ⟨n, v, h2, h3, h4⟩ | ⟨v, rfl, h2⟩
      · exact .inr (.inl ⟨h2, rfl⟩)
      · exact .inr (.inr ⟨.inr ⟨n, v, h2, h3, h4⟩, rfl⟩)
      · by_cases hu : v = .undef
        · exact .inr (.inl ⟨by rw [hu], rfl⟩)
        · exact .inr (.inr ⟨.inl ⟨v, rfl, fun h => hx (by rw [h]), hu, h2⟩, rfl⟩)
  · rintro ⟨s0, h0, h1⟩
    unfold declare
    rw [(hr s0).1 h0, hp]
    simp only
    rcases h1 with ⟨rfl, rfl⟩ | ⟨rfl, rfl⟩ | ⟨⟨v, rfl, h1, h2, h3⟩ | ⟨n, v, rfl, h1, h2⟩, rfl⟩
    · rfl
    · rfl
    · split
      · rename_i hx; cases hx; exact absurd rfl h1
      · unfold setDefault
        split
        · rename_i hx; cases hx
        · rename_i hx; cases hx; exact absurd rfl h2
        · rw [if_pos h3]
    · simp only [setDefault, h1, h2, if_true]

/-! ## Concrete cases -/

theorem find_mem {k : PyStr} {a : Attr} (ha : a ≠ .missing) : ∀ {l : List (PyStr × Attr)}, find k l = a → (k, a) ∈ l
  | [], h => absurd h.symm ha
  | (k', b) :: l, h => by
    simp only [find] at h
    split at h
    · rename_i hk; subst hk; subst h; simp
    · exact List.mem_cons_of_mem _ (find_mem ha h)

theorem single_of {l : List (PyStr × Attr)}
    (h : ∀ k a k', (k, a) ∈ l → (k', a) ∈ l → a = .min ∨ a = .max ∨ a = .minLength ∨ a = .maxLength → k = k') : Single (attrs l) :=
  ⟨fun k k' h1 h2 => h k _ k' (find_mem (by simp) h1) (find_mem (by simp) h2) (.inl rfl),
   fun k k' h1 h2 => h k _ k' (find_mem (by simp) h1) (find_mem (by simp) h2) (.inr (.inl rfl)),
   fun k k' h1 h2 => h k _ k' (find_mem (by simp) h1) (find_mem (by simp) h2) (.inr (.inr (.inl rfl))),
   fun k k' h1 h2 => h k _ k' (find_mem (by simp) h1) (find_mem (by simp) h2) (.inr (.inr (.inr rfl)))⟩

/-- The classes of the library have one setter for each limit. -/
theorem C67_classes (regex : KV → Option KV) :
    Single (attrs property) ∧ Single (attrs boolean) ∧ Single (attrs integer) ∧ Single (attrs (string regex)) ∧ Single (attrs tuple) := by
  refine ⟨single_of ?_, single_of ?_, single_of ?_, single_of ?_, single_of ?_⟩ <;>
    (intro k a k' h1 h2 ha
     simp only [property, boolean, integer, string, tuple, List.mem_cons, Prod.mk.injEq, List.not_mem_nil, or_false] at h1 h2
     rcases ha with rfl | rfl | rfl | rfl <;> simp at h1 h2 <;> (try rw [h1, h2]))

/-- Whole numbers from `min` to `max`. -/
def demoMeth : Meth := ⟨fun s v => match v with
  | .val (.int i) => pyLt (.num (.fin i)) s.bounds.min != some true && pyLt s.bounds.max (.num (.fin i)) != some true
  | _ => false, fun _ => .ok (.val (.int 3))⟩

/-- `Integer('', default=5, max=7, min=2, required=False)` and the same in another order; with the
default 1, or with `min=8`, or with an unknown keyword, it is refused. -/
theorem C67_example :
    (∃ s, declare (attrs integer) demoMeth [(s% "default", .val (.int 5)), (s% "max", .val (.int 7)), (s% "min", .val (.int 2)),
      (s% "required", .val (.bool false))] = .ok s ∧ s.bounds = ⟨.num (.fin 2), .num (.fin 7)⟩) ∧
    (∃ s, declare (attrs integer) demoMeth [(s% "min", .val (.int 2)), (s% "required", .val (.bool false)), (s% "max", .val (.int 7)),
      (s% "default", .fn 0)] = .ok s) ∧
    declare (attrs integer) demoMeth [(s% "default", .val (.int 1)), (s% "max", .val (.int 7)), (s% "min", .val (.int 2))] = .error .invalid ∧
    declare (attrs integer) demoMeth [(s% "max", .val (.int 7)), (s% "min", .val (.int 8))] = .error .type ∧
    declare (attrs integer) demoMeth [(s% "maximum", .val (.int 7))] = .error .attribute ∧
    declare (attrs integer) demoMeth [(s% "_max", .val (.int 7))] = .error .attribute ∧
    declare (attrs integer) demoMeth [(s% "meta", .val (.int 7))] = .error .attribute := by
  refine ⟨⟨_, rfl, rfl⟩, ⟨_, rfl⟩, rfl, rfl, rfl, rfl, rfl⟩

/-- If one of two limits is `None`, the order does matter. -/
theorem C67_none :
    (∃ s, declare (attrs integer) demoMeth [(s% "min", .val .none), (s% "max", .val (.int 7))] = .ok s) ∧
    declare (attrs integer) demoMeth [(s% "max", .val (.int 7)), (s% "min", .val .none)] = .error .type :=
  ⟨⟨_, rfl⟩, rfl⟩

/-- A method of the class can be a keyword: it is replaced. -/
theorem C67_method : ∃ s, declare (attrs integer) demoMeth [(s% "validate", .fn 1)] = .ok s ∧ s.attrs (s% "validate") = some (.fn 1) :=
  ⟨_, rfl, rfl⟩

theorem isBool_some {v v' : KV} (h : isBool v = some v') : v = v' ∧ ∃ b, v = .val (.bool b) := by
  unfold isBool at h
  split at h
  · rename_i b; cases h; exact ⟨rfl, b, rfl⟩
  · cases h

theorem isText_some {v v' : KV} (h : isText v = some v') : v = v' ∧ ∃ b, v = .val (.str b) := by
  unfold isText at h
  split at h
  · rename_i b; cases h; exact ⟨rfl, b, rfl⟩
  · cases h

theorem isCallable_some {v v' : KV} (h : isCallable v = some v') : v = v' ∧ ∃ n, v = .fn n := by
  unfold isCallable at h
  split at h
  · rename_i b; cases h; exact ⟨rfl, b, rfl⟩
  · cases h

theorem isCase_some {v v' : KV} (h : isCase v = some v') : v = v' ∧
    (v = .val .none ∨ v = .val (.str (s% "upper")) ∨ v = .val (.str (s% "lower"))) := by
  unfold isCase at h
  split at h
  · cases h; exact ⟨rfl, .inl rfl⟩
  · split at h
    · rename_i s hs
      cases h
      refine ⟨rfl, .inr ?_⟩
      rcases hs with rfl | rfl
      · exact .inl rfl
      · exact .inr rfl
    · cases h
  · cases h

/-- The classes of the library. -/
def library (regex : KV → Option KV) : List (List (PyStr × Attr)) :=
  [property, boolean, integer, string regex, tuple]

theorem setTo_free {A : Attrs} {k : PyStr} {v v' : KV} {f : KV → Option KV} (h : SetTo A k v v')
    (ha : A k = .free f) : f v = some v' := by
  cases h with
  | free g _ hg hv => rw [ha] at hg; cases hg; exact hv
  | same hn => exact absurd ha (hn f)

theorem library_checks {regex : KV → Option KV} {l : List (PyStr × Attr)} (hl : l ∈ library regex)
    (k : PyStr) :
    (k ∈ flags → attrs l k = .missing ∨ attrs l k = .free isBool) ∧
    (k ∈ texts → attrs l k = .missing ∨ attrs l k = .free isText) ∧
    (k ∈ functions → attrs l k = .missing ∨ attrs l k = .free isCallable) ∧
    (k = s% "change_case" → attrs l k = .missing ∨ attrs l k = .free isCase) := by
  simp only [library, List.mem_cons, List.not_mem_nil, or_false] at hl
  refine ⟨fun h => ?_, fun h => ?_, fun h => ?_, fun h => ?_⟩
  · simp only [flags, List.mem_cons, List.not_mem_nil, or_false] at h
    rcases hl with rfl | rfl | rfl | rfl | rfl <;> rcases h with rfl | rfl | rfl | rfl | rfl <;>
      first | exact .inl rfl | exact .inr rfl
  · simp only [texts, List.mem_cons, List.not_mem_nil, or_false] at h
    rcases hl with rfl | rfl | rfl | rfl | rfl <;> rcases h with rfl | rfl | rfl <;>
      first | exact .inl rfl | exact .inr rfl
  · simp only [functions, List.mem_cons, List.not_mem_nil, or_false] at h
    rcases hl with rfl | rfl | rfl | rfl | rfl <;> rcases h with rfl | rfl <;>
      first | exact .inl rfl | exact .inr rfl
  · subst h
    rcases hl with rfl | rfl | rfl | rfl | rfl <;> first | exact .inl rfl | exact .inr rfl

theorem library_single {regex : KV → Option KV} {l : List (PyStr × Attr)} (hl : l ∈ library regex) :
    Single (attrs l) := by
  obtain ⟨h1, h2, h3, h4, h5⟩ := C67_classes regex
  simp only [library, List.mem_cons, List.not_mem_nil, or_false] at hl
  rcases hl with rfl | rfl | rfl | rfl | rfl <;> assumption

/-- C67: in the classes of the library every setting of a declaration that is accepted
makes sense: flags are bools, names and documentation are text, serializers are
functions, and the case is a known one. -/
theorem C67_settings {regex : KV → Option KV} {c : List (PyStr × Attr)} (hc : c ∈ library regex) {m : Meth}
    {l : List (PyStr × KV)} (hd : Distinct l) {s : St} (h : declare (attrs c) m l = .ok s)
    {k : PyStr} {v : KV} (hk : (k, v) ∈ l) : Sound k v := by
  obtain ⟨h1, _⟩ := C67_declared (attrs c) (library_single hc) m l hd s h
  obtain ⟨c1, c2, c3, c4⟩ := library_checks hc k
  have key : k ≠ s% "default" → ∀ f, (attrs c k = .missing ∨ attrs c k = .free f) → ∃ v', f v = some v' := by
    intro hkd f hf
    obtain ⟨hkn, v', hs, _⟩ := h1 k v hk hkd
    rcases hf with hf | hf
    · exact absurd hf hkn.2.2.2.1
    · exact ⟨v', setTo_free hs hf⟩
  refine ⟨fun hm => ?_, fun hm => ?_, fun hm => ?_, fun hm => ?_⟩
  · obtain ⟨v', e⟩ := key (by rintro rfl; revert hm; decide) _ (c1 hm)
    exact (isBool_some e).2
  · obtain ⟨v', e⟩ := key (by rintro rfl; revert hm; decide) _ (c2 hm)
    exact (isText_some e).2
  · obtain ⟨v', e⟩ := key (by rintro rfl; revert hm; decide) _ (c3 hm)
    exact (isCallable_some e).2
  · obtain ⟨v', e⟩ := key (by rintro rfl; revert hm; decide) _ (c4 hm)
    exact (isCase_some e).2

/-- Settings that do not make sense are refused. -/
theorem C67_settings_example :
    declare (attrs integer) demoMeth [(s% "required", .val .none)] = .error .type ∧
    declare (attrs integer) demoMeth [(s% "cast", .val (.int 1))] = .error .type ∧
    declare (attrs (string fun _ => none)) demoMeth [(s% "change_case", .val (.str (s% "title")))] = .error .type ∧
    (∃ s, declare (attrs (string fun _ => none)) demoMeth [(s% "change_case", .val (.str (s% "upper")))] = .ok s) ∧
    declare (attrs tuple) demoMeth [(s% "serializer", .val (.str (s% "f")))] = .error .type :=
  ⟨rfl, rfl, rfl, ⟨_, rfl⟩, rfl⟩

end Verif.Decl
