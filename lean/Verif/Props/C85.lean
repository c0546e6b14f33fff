import Verif.Spec.AnyInstance
import Verif.Props.C84

/-!
# C85: Instance properties of any class
-/

namespace Verif.AnyInst
open Spec Verif.Spec

variable {σ O : Type}

theorem keywords_some {C : AnyClass σ O} : ∀ {kvs : List (O × O)} {kw : List (PyStr × O)},
    keywords C kvs = some kw → ∃ names : List PyStr, names.map some = kvs.map (fun kv => C.text kv.1) ∧
      kw = names.zip (kvs.map (·.2))
  | [], kw, h => by cases h; exact ⟨[], rfl, rfl⟩
  | (k, v) :: kvs, kw, h => by
    unfold keywords at h
    split at h
    · rename_i t kw' h1 h2
      cases h
      obtain ⟨names, h3, h4⟩ := keywords_some h2
      exact ⟨t :: names, by simp [h1, h3], by simp [h4]⟩
    · cases h

theorem keywords_of {C : AnyClass σ O} : ∀ {kvs : List (O × O)} {names : List PyStr},
    names.map some = kvs.map (fun kv => C.text kv.1) → keywords C kvs = some (names.zip (kvs.map (·.2)))
  | [], names, h => by cases names <;> first | rfl | cases h
  | (k, v) :: kvs, [], h => by cases h
  | (k, v) :: kvs, nm :: names, h => by
    simp only [List.map_cons, List.cons.injEq] at h
    unfold keywords
    rw [← h.1, keywords_of h.2]
    rfl

theorem keywords_none {C : AnyClass σ O} : ∀ {kvs : List (O × O)}, keywords C kvs = none →
    ∃ kv ∈ kvs, C.text kv.1 = none
  | [], h => by cases h
  | (k, v) :: kvs, h => by
    cases hk : C.text k with
    | none => exact ⟨(k, v), by simp, hk⟩
    | some t =>
      cases hr : keywords C kvs with
      | none =>
        obtain ⟨kv, h1, h2⟩ := keywords_none hr
        exact ⟨kv, by simp [h1], h2⟩
      | some kw =>
        unfold keywords at h
        rw [hk, hr] at h
        cases h

theorem build_iff {C : AnyClass σ O} {v : O} {s s' : σ} {r : Except ErrKind O} :
    build C v s = (r, s') ↔ Called C v s r s' := by
  unfold build
  constructor
  · intro h
    split at h
    · rename_i kvs hd
      split at h
      · rename_i kw hk
        obtain ⟨names, h1, rfl⟩ := keywords_some hk
        exact .kw kvs names r s' hd h1 h
      · rename_i hk
        obtain ⟨kv, h1, h2⟩ := keywords_none hk
        cases h
        exact .noText kvs kv hd h1 h2
    · rename_i hd
      exact .one r s' hd h
  · intro h
    cases h with
    | one _ _ hd h => rw [hd]; exact h
    | kw kvs names _ _ hd hn h => rw [hd]; simp only [keywords_of hn]; exact h
    | noText kvs kv hd hm ht =>
      rw [hd]
      cases hk : keywords C kvs with
      | none => simp only [hk]
      | some kw =>
        obtain ⟨names, h1, _⟩ := keywords_some hk
        have : C.text kv.1 ∈ kvs.map (fun kv => C.text kv.1) :=
          List.mem_map_of_mem (f := fun kv : O × O => C.text kv.1) hm
        rw [← h1, ht] at this
        obtain ⟨_, _, h⟩ := List.mem_map.1 this
        cases h

theorem refusal_iff {k : ErrKind} : k.isGeneric = true ↔ Refusal k := by
  cases k <;> simp [ErrKind.isGeneric, Refusal]

/-- C85: a value is accepted if it is an instance of the class, which is then
taken as it is, or if the class, called with it, returns; that is the value. -/
theorem C85_accepts {C : AnyClass σ O} {v x : O} {s s' : σ} : validate C v s = (.ok x, s') ↔
    (C.isInst v = true ∧ x = v ∧ s' = s) ∨ (C.isInst v = false ∧ Called C v s (.ok x) s') := by
  unfold validate
  by_cases hi : C.isInst v = true
  · rw [if_pos hi]
    constructor
    · intro h; cases h; exact .inl ⟨hi, rfl, rfl⟩
    · rintro (⟨_, rfl, rfl⟩ | ⟨h, _⟩)
      · rfl
      · rw [hi] at h; cases h
  · rw [if_neg hi]
    constructor
    · intro h
      split at h
      · cases h
      · rename_i hb
        cases h
        exact .inr ⟨by simpa using hi, build_iff.1 hb⟩
    · rintro (⟨h, _⟩ | ⟨_, h⟩)
      · exact absurd h hi
      · rw [build_iff.2 h]

/-- C85: a value that is not accepted is refused with a ValidationError if calling
the class fails in one of the ways that say so; other errors come through. -/
theorem C85_refuses {C : AnyClass σ O} {v : O} {s s' : σ} {k : ErrKind} : validate C v s = (.error k, s') ↔
    C.isInst v = false ∧ ∃ k', Called C v s (.error k') s' ∧
      ((Refusal k' ∧ k = .validation) ∨ (¬ Refusal k' ∧ k = k')) := by
  unfold validate
  by_cases hi : C.isInst v = true
  · rw [if_pos hi]
    constructor
    · intro h; cases h
    · rintro ⟨h, _⟩; rw [hi] at h; cases h
  · rw [if_neg hi]
    constructor
    · intro h
      split at h
      · rename_i k' _ hb
        refine ⟨by simpa using hi, k', ?_⟩
        by_cases hk : k'.isGeneric = true
        · rw [if_pos hk] at h
          cases h
          exact ⟨build_iff.1 hb, .inl ⟨refusal_iff.1 hk, rfl⟩⟩
        · rw [if_neg hk] at h
          cases h
          exact ⟨build_iff.1 hb, .inr ⟨fun h => hk (refusal_iff.2 h), rfl⟩⟩
      · cases h
    · rintro ⟨_, k', h, h' | h'⟩
      · rw [build_iff.2 h, h'.2]
        simp only [if_pos (refusal_iff.2 h'.1)]
      · rw [build_iff.2 h, h'.2]
        simp only [if_neg (fun hg => h'.1 (refusal_iff.1 hg))]

theorem validate_inst {C : AnyClass σ O} (hC : MakesInstances C) {v x : O} {s s' : σ}
    (h : validate C v s = (.ok x, s')) : C.isInst x = true := by
  rcases C85_accepts.1 h with ⟨h1, rfl, _⟩ | ⟨_, h1⟩
  · exact h1
  · cases h1 with
    | one _ _ _ h => exact hC.one _ _ _ _ h
    | kw _ _ _ _ _ _ h => exact hC.kw _ _ _ _ h

theorem validate_same {C : AnyClass σ O} {v : O} (h : C.isInst v = true) (s : σ) : validate C v s = (.ok v, s) := by
  unfold validate
  rw [if_pos h]

/-- C85: what an assignment does.  Refused, it leaves all values as they were;
otherwise the holder has the accepted value, also when an error raised by the
comparison with the previous value comes through; no other holder is touched. -/
theorem C85_assign {C : AnyClass σ O} {h : Nat} {v : O} {w w' : Slots σ O} {r : Except ErrKind Unit}
    (ha : assign C h v w = (r, w')) :
    (∃ k s, validate C v w.user = (.error k, s) ∧ r = .error k ∧ w'.at_ = w.at_) ∨
    (∃ x s, validate C v w.user = (.ok x, s) ∧ w'.at_ h = some x ∧ (∀ i, i ≠ h → w'.at_ i = w.at_ i) ∧
      ∀ k, r = .error k ↔ ∃ prev s', w.at_ h = some prev ∧ C.eq prev x s = (.error k, s')) := by
  unfold assign at ha
  split at ha
  · rename_i k s hv
    cases ha
    exact .inl ⟨k, s, hv, rfl, rfl⟩
  · rename_i x s hv
    refine .inr ⟨x, s, hv, ?_⟩
    simp only [] at ha
    split at ha
    · rename_i hp
      cases ha
      exact ⟨if_pos rfl, fun i hi => if_neg hi, fun k => ⟨fun h => (by cases h), fun ⟨_, _, h, _⟩ =>
        (by rw [hp] at h; cases h)⟩⟩
    · rename_i prev hp
      split at ha
      · rename_i k s' he
        cases ha
        refine ⟨if_pos rfl, fun i hi => if_neg hi, fun k' => ⟨fun h => ?_, fun ⟨p, s2, h1, h2⟩ => ?_⟩⟩
        · cases h; exact ⟨prev, _, hp, he⟩
        · rw [hp] at h1; cases h1; rw [he] at h2; cases h2; rfl
      · rename_i he
        cases ha
        refine ⟨if_pos rfl, fun i hi => if_neg hi, fun k' => ⟨fun h => (by cases h), fun ⟨p, s2, h1, h2⟩ => ?_⟩⟩
        rw [hp] at h1; cases h1; rw [he] at h2; cases h2

/-- Every value is an instance of the class. -/
def AllInstances (C : AnyClass σ O) (w : Slots σ O) : Prop := ∀ h v, w.at_ h = some v → C.isInst v = true

theorem step_kept {C : AnyClass σ O} (hC : MakesInstances C) {required : Bool} {w : Slots σ O}
    (hw : AllInstances C w) (op : Op O) : AllInstances C (step C required w op) := by
  intro i x hx
  cases op with
  | assign h v =>
    rcases C85_assign (C := C) (h := h) (v := v) (w := w) (r := (assign C h v w).1)
      (w' := (assign C h v w).2) rfl with ⟨_, _, _, _, h1⟩ | ⟨y, s, h1, h2, h3, _⟩
    · exact hw i x (by rw [← h1]; exact hx)
    · by_cases hi : i = h
      · subst hi
        have hx : (assign C i v w).2.at_ i = some x := hx
        rw [h2] at hx
        cases hx
        exact validate_inst hC h1
      · exact hw i x (by rw [← h3 i hi]; exact hx)
  | remove h =>
    have hx : (if i = h then none else w.at_ i) = some x := hx
    split at hx
    · cases hx
    · exact hw i x hx
  | check h => exact hw i x hx

/-- C85: whatever is assigned, deleted and checked, in whatever order and with
whatever errors, every value of the property is an instance of the class. -/
theorem C85_kept {C : AnyClass σ O} (hC : MakesInstances C) (required : Bool) (s : σ) (ops : List (Op O)) :
    ∀ h v, (play C required ⟨fun _ => none, s⟩ ops).at_ h = some v → C.isInst v = true := by
  have : ∀ w : Slots σ O, AllInstances C w → AllInstances C (play C required w ops) := by
    induction ops with
    | nil => exact fun w h => h
    | cons op ops ih => exact fun w h => ih _ (step_kept hC h op)
  exact this _ fun h v hv => by cases hv

/-- C85: and `assert_valid` passes exactly if the value equals itself or may be
missing; the class is not called. -/
theorem C85_valid {C : AnyClass σ O} (hC : MakesInstances C) (required : Bool) (s : σ) (ops : List (Op O))
    (h : Nat) (w : Slots σ O) (hw : w = play C required ⟨fun _ => none, s⟩ ops) :
    ((∃ s', assertValid C required h w = (.ok (), s')) ↔
      ((∀ v, w.at_ h = some v → C.isNone v = true) ∧ required = false) ∨
      ∃ v s', w.at_ h = some v ∧ C.isNone v = false ∧ C.eq v v w.user = (.ok true, s')) := by
  have hk := C85_kept hC required s ops h
  rw [← hw] at hk
  unfold assertValid
  cases hv : w.at_ h with
  | none => cases required <;> simp
  | some v =>
    cases hn : C.isNone v with
    | true => cases required <;> simp [hn]
    | false =>
      simp only [hn, Bool.false_eq_true, if_false, validate_same (hk v hv)]
      constructor
      · rintro ⟨s', h⟩
        refine .inr ⟨v, ?_⟩
        split at h
        · cases h
        · rename_i he
          exact ⟨_, rfl, hn, he⟩
        · cases h
      · rintro (⟨h, _⟩ | ⟨v', s', h1, _, h2⟩)
        · rw [h v rfl] at hn; cases hn
        · cases h1
          exact ⟨s', by rw [h2]⟩

/-- C85: what is serialized is JSON data, and only plain data is. -/
theorem C85_serialize {C : AnyClass σ O} {F : PyFloat → PyStr} {v : O} {j : Val} (hn : C.isNone v = false) :
    serialize C F v = .ok j ↔ ∃ d, C.data v = some d ∧ jsonText F d = some j := by
  unfold serialize
  rw [hn]
  simp only [Bool.false_eq_true, if_false]
  constructor
  · intro h
    split at h
    · cases h
    · rename_i d hd
      split at h
      · rename_i hj; cases h; exact ⟨d, hd, hj⟩
      · cases h
  · rintro ⟨d, h1, h2⟩
    rw [h1]
    simp only [h2]

/-- C85: without a deserializer nothing that is serialized can be read, except
None. -/
theorem C85_no_return {C : AnyClass σ O} {F : PyFloat → PyStr} {v : O} {j : Val}
    (hd : ∀ d, C.data v = some d → d = .none → C.isNone v = true) (h : serialize C F v = .ok j) :
    deserialize j = if C.isNone v then .ok .none else .error .type := by
  cases hn : C.isNone v with
  | true =>
    unfold serialize at h
    rw [hn] at h
    cases h
    rfl
  | false =>
    obtain ⟨d, h1, h2⟩ := (C85_serialize hn).1 h
    have : j ≠ .none := by
      rintro rfl
      obtain ⟨_, h⟩ := C84_read h2
      cases h
      rw [hd _ h1 rfl] at hn
      cases hn
    cases j <;> first | exact absurd rfl this | rfl

/-! ## Examples -/

/-- `str`, of texts, None and the like: calling it makes a text of anything. -/
def c85Str : AnyClass Nat Val where
  isInst v := match v with | .str _ => true | _ => false
  one v n := match v with
    | .none => (.ok (.str (s% "None")), n + 1)
    | .int i => (.ok (.str (intText i)), n + 1)
    | .opq 0 => (.error .value, n + 1)
    | .opq 1 => (.error .overflow, n + 1)
    | _ => (.ok (.str (s% "object")), n + 1)
  kw l n := if l.isEmpty then (.ok (.str []), n + 1) else (.error .type, n + 1)
  eq a b n := (.ok (pyEq a b), n)
  asDict v := match v with | .dict kvs => some kvs | _ => none
  text v := match v with | .str s => some s | _ => none
  isNone v := match v with | .none => true | _ => false
  data := some

/-- The class of the example makes instances.  Assigning None does not unset the
property: the class is called with it, and the text 'None' is stored.  An empty
dictionary is a call without arguments, one with a number for a key is refused, and
an OverflowError of the class comes through. -/
theorem C85_example : MakesInstances c85Str ∧
    (assign c85Str 0 .none ⟨fun _ => none, 0⟩).2.at_ 0 = some (.str (s% "None")) ∧
    validate c85Str (.str (s% "x")) 0 = (.ok (.str (s% "x")), 0) ∧
    validate c85Str (.dict []) 0 = (.ok (.str []), 1) ∧
    validate c85Str (.dict [(.int 1, .int 2)]) 0 = (.error .validation, 0) ∧
    validate c85Str (.opq 0) 0 = (.error .validation, 1) ∧
    validate c85Str (.opq 1) 0 = (.error .overflow, 1) := by
  refine ⟨⟨fun v s x s' h => ?_, fun v s x s' h => ?_⟩, rfl, rfl, rfl, rfl, rfl, rfl⟩
  · unfold c85Str at h
    simp only [] at h
    split at h <;> cases h <;> rfl
  · unfold c85Str at h
    simp only [] at h
    split at h <;> cases h
    rfl

/-- A class like an array: the truth value of `a == b` is a ValueError. -/
def c85Array : AnyClass Unit Nat where
  isInst _ := true
  one v s := (.ok v, s)
  kw _ s := (.error .type, s)
  eq _ _ s := (.error .value, s)
  asDict _ := none
  text _ := none
  isNone _ := false
  data _ := none

/-- The second assignment of an array raises a ValueError and stores the array;
`assert_valid` of any array raises it too. -/
theorem C85_array : MakesInstances c85Array ∧
    (let w := (assign c85Array 0 5 ⟨fun _ => none, ()⟩).2
     (assign c85Array 0 6 w).1 = .error .value ∧ (assign c85Array 0 6 w).2.at_ 0 = some 6 ∧
     (assertValid c85Array true 0 w).1 = .error .value) :=
  ⟨⟨fun _ _ _ _ _ => rfl, fun _ _ _ _ _ => rfl⟩, rfl, rfl, rfl⟩

end Verif.AnyInst
