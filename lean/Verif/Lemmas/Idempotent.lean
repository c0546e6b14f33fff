import Verif.Spec.Idempotent
import Verif.Lemmas.Typed
import Verif.Props.C01
import Verif.Spec.Serialize
import Verif.Lemmas.Keeps

/-!
# Validating a validated value
-/

namespace Verif
open Spec

theorem runHook_any {α : Type} {E : Env} {rec : Rec} {reason prop : Option PyStr}
    {inst : Option Nat} {w w' : World} {a : α} (h : raiseVal E rec reason prop inst w = (.ok a, w')) :
    False := by
  unfold raiseVal at h
  cases inst with
  | none => cases h
  | some r =>
    dsimp only at h
    obtain ⟨o, w1, _, h2⟩ := bind_ok_inv h
    split at h2
    · obtain ⟨u, w2, _, h3⟩ := bind_ok_inv h2
      cases h3
    · cases h2

/-- `self.error(...)` does not return. -/
theorem propError_raises {α : Type} {E : Env} {rec : Rec} {nm : PyStr} {inst : Option Nat}
    {w w' : World} {a : α} (h : propError E rec nm inst w = (.ok a, w')) : False :=
  runHook_any h

theorem catchIf_ok_inv {α : Type} {pred : ErrKind → Bool} {m : M α} {f : PyErr → M α} {w w' : World}
    {a : α} (h : M.catchIf pred m f w = (.ok a, w')) :
    m w = (.ok a, w') ∨ ∃ e w1, m w = (.error e, w1) ∧ f e w1 = (.ok a, w') := by
  unfold M.catchIf at h
  split at h
  · rename_i hm
    cases h
    exact .inl hm
  · rename_i e w1 hm
    split at h
    · exact .inr ⟨e, w1, hm, h⟩
    · cases h

/-! ## Scalars -/

theorem trimmed_strip {cs t : PyStr} (h : Trimmed cs t) : strip cs t = t :=
  ((strip_spec cs t t).1 ⟨[], [], by simp, by simp, by simp, h.1, h.2⟩).symm

theorem strip_trimmed (cs s : PyStr) : Trimmed cs (strip cs s) := by
  obtain ⟨_, _, _, _, _, h1, h2⟩ := (strip_spec cs s _).2 rfl
  exact ⟨h1, h2⟩

theorem inBoundsF_of_within {mn mx : Option Rat} {f : PyFloat} (h : FloatWithin mn mx f) :
    inBoundsF mn mx f = true := by
  cases f with
  | fin q => exact (inBounds_iff ..).2 h
  | nan => unfold inBoundsF; cases mn <;> cases mx <;> rfl
  | pinf => cases (h : mx = none); unfold inBoundsF; cases mn <;> rfl
  | ninf => cases (h : mn = none); unfold inBoundsF; cases mx <;> rfl

theorem scalar_fixed {E : Env} {k k' : Nat} {ty : PropTy} {v x : Val} {u : Bool} (hr : RepeatableTy E u ty)
    (h : scalarValidate E k ty v = some (.ok x)) : scalarValidate E k' ty x = some (.ok x) := by
  have ha : Admits E {} ty x := scalar_admits _ h rfl
  cases ty with
  | any => rfl
  | boolean c => cases ha; cases c <;> (unfold scalarValidate boolValidate; simp [Val.truthy])
  | integer c mn mx =>
    cases ha with
    | integer _ _ _ i hi =>
      have h0 : ratAbs ((i : Rat) - i) > TOL ↔ False := by
        rw [sub_self]; simp only [ratAbs, TOL]; norm_num
      unfold scalarValidate intValidate
      simp only [pyInt, intFar, h0, decide_false, (inBounds_iff mn mx i).2 hi, if_true]
      cases c <;> rfl
  | float c mn mx =>
    cases ha with
    | float _ _ _ f hf =>
      unfold scalarValidate floatValidate
      simp only [pyFloat, Val.isStr, Bool.false_and, Bool.false_eq_true, if_false,
        inBoundsF_of_within hf, if_true]
  | complex c =>
    cases ha
    unfold scalarValidate complexValidate
    simp [pyComplex, Val.isStr]
  | string cs m regex =>
    unfold scalarValidate stringValidate at h ⊢
    simp only [Option.some.injEq] at h ⊢
    split at h
    · rename_i s
      split at h
      · rename_i hx
        cases h
        simp only
        have hf : regexOk E regex (changeCase E m (strip cs s)) = true := by
          cases regex with
          | none => rfl
          | some r =>
            rw [changeCase_eq]
            exact hr.found s _ (fun k hk => by cases hk; exact hx) ((strip_spec ..).2 rfl) r rfl
        rw [hf, if_pos rfl]
        simp only [changeCase_eq]
        rw [trimmed_strip (hr.trim _ (strip_trimmed ..)), hr.recase]
      · cases h
    · cases h
  | choice kvs b =>
    obtain ⟨d, hd⟩ := hr
    cases ha with
    | choice _ _ key vs hm =>
      have := C05_choice_fixed E 0 b d kvs hd none key (List.mem_map.2 ⟨_, hm, rfl⟩) {}
      rw [validated_choice] at this
      obtain ⟨s, k2, h1, h2, h3⟩ := this
      cases h1; cases h2
      unfold scalarValidate choiceValidate
      simp only [h3]
  | color =>
    cases ha with
    | color _ hv =>
      obtain ⟨a, b, c, rfl, _, _, _⟩ := hv
      have := (colorOfItems_iff [a, b, c] (.tup [a, b, c])).2 ⟨rfl, a, b, c, rfl, by assumption, by assumption, by assumption⟩
      exact congrArg some this
  | datetime => cases ha; rfl
  | uuid => cases ha; rfl
  | seq => cases h
  | dict => cases h
  | inst => cases h
  | union => cases h

theorem liftScalar_ok_inv {E : Env} {rec : Rec} {nm : PyStr} {inst : Option Nat}
    {y : Except SErr Val} {w w' : World} {x : Val}
    (h : liftScalar E rec nm inst y w = (.ok x, w')) : y = .ok x := by
  unfold liftScalar at h
  split at h
  · cases h; rfl
  · cases h
  · rcases catchIf_ok_inv h with h | ⟨_, _, _, h⟩
    · exact (propError_raises h).elim
    · exact (propError_raises h).elim
  · exact (propError_raises h).elim

/-! ## Sets and dictionaries of distinct items -/

theorem setFold_distinct : ∀ (xs acc : List Val), acc.Pairwise (fun a b => pyEq a b = false) →
    (xs.foldl (fun acc x => if acc.any (fun y => pyEq y x) then acc else acc ++ [x]) acc).Pairwise
      (fun a b => pyEq a b = false)
  | [], _, h => h
  | x :: xs, acc, h => by
    refine setFold_distinct xs _ ?_
    dsimp only
    split
    · exact h
    · rename_i hx
      rw [List.pairwise_append]
      refine ⟨h, by simp, fun a ha b hb => ?_⟩
      simp only [List.mem_singleton] at hb
      subst hb
      simp only [List.any_eq_true, not_exists, not_and, Bool.not_eq_true] at hx
      exact hx a ha

theorem setOfList_distinct (xs : List Val) : (setOfList xs).Pairwise (fun a b => pyEq a b = false) :=
  setFold_distinct xs [] .nil

theorem setFold_same : ∀ (xs acc : List Val), (acc ++ xs).Pairwise (fun a b => pyEq a b = false) →
    xs.foldl (fun acc x => if acc.any (fun y => pyEq y x) then acc else acc ++ [x]) acc = acc ++ xs
  | [], acc, _ => by simp
  | x :: xs, acc, h => by
    rw [List.foldl_cons, if_neg, setFold_same xs (acc ++ [x]) (by simpa using h)]
    · simp
    · simp only [List.any_eq_true, not_exists, not_and, Bool.not_eq_true]
      intro a ha
      exact (List.pairwise_append.1 h).2.2 a ha x (by simp)

theorem setOfList_same {xs : List Val} (h : xs.Pairwise (fun a b => pyEq a b = false)) :
    setOfList xs = xs := setFold_same xs [] h

theorem hashableL_all_iff : ∀ {xs : List Val}, hashableL xs = true ↔ ∀ x ∈ xs, x.hashable = true
  | [] => by simp [hashableL]
  | x :: xs => by unfold hashableL; rw [Bool.and_eq_true, hashableL_all_iff]; simp

/-- The keys are distinct and hashable. -/
def DistinctKeys (kvs : List (Val × Val)) : Prop :=
  (kvs.map (·.1)).Pairwise (fun a b => pyEq a b = false) ∧ ∀ kv ∈ kvs, kv.1.hashable = true

theorem dictSet_distinct : ∀ {d : List (Val × Val)} {k v : Val}, DistinctKeys d → k.hashable = true →
    DistinctKeys (dictSet d k v)
  | [], k, v, _, hk => ⟨by simp [dictSet], by simp [dictSet, hk]⟩
  | (k', v') :: d, k, v, ⟨h1, h2⟩, hk => by
    unfold dictSet
    split
    · refine ⟨by simpa using h1, fun kv hkv => ?_⟩
      rcases List.mem_cons.1 hkv with rfl | hkv
      · exact h2 (k', v') (by simp)
      · exact h2 kv (by simp [hkv])
    · rename_i hne
      rw [List.map_cons, List.pairwise_cons] at h1
      have ih := dictSet_distinct (d := d) (k := k) (v := v)
        ⟨h1.2, fun kv hkv => h2 kv (by simp [hkv])⟩ hk
      refine ⟨?_, fun kv hkv => ?_⟩
      · rw [List.map_cons, List.pairwise_cons]
        refine ⟨fun a ha => ?_, ih.1⟩
        obtain ⟨kv, hkv, rfl⟩ := List.mem_map.1 ha
        rcases dictSet_mem hkv with h | ⟨_, h | ⟨x, h⟩⟩
        · exact h1.1 _ (List.mem_map_of_mem h)
        · rw [h]; simpa using hne
        · exact h1.1 _ (List.mem_map.2 ⟨_, h, rfl⟩)
      · rcases List.mem_cons.1 hkv with rfl | hkv
        · exact h2 (k', v') (by simp)
        · exact ih.2 kv hkv

theorem dictSet_new : ∀ {d : List (Val × Val)} {k v : Val}, (∀ kv ∈ d, pyEq kv.1 k = false) →
    dictSet d k v = d ++ [(k, v)]
  | [], _, _, _ => rfl
  | (k', v') :: d, k, v, h => by
    unfold dictSet
    rw [if_neg (by rw [h (k', v') (by simp)]; simp), dictSet_new fun kv hkv => h kv (by simp [hkv])]
    rfl

/-! ## All types -/

/-- The value is validated to itself, in this state and later ones. -/
def FixedPoint (E : Env) (u : Bool) (m : Nat) (nm : PyStr) (p : PropSpec) (inst : Option Nat) (y : Val)
    (w : World) : Prop :=
  ∀ w', ClsKept w w' → (u = true → Silent w' inst) → run E m (.validate nm p inst y) w' = (.ok y, w')

theorem fixed_later {E : Env} {u : Bool} {m : Nat} {nm : PyStr} {p : PropSpec} {inst : Option Nat} {y : Val}
    {w w' : World} (h : FixedPoint E u m nm p inst y w) (hk : ClsKept w w') :
    FixedPoint E u m nm p inst y w' :=
  fun w2 h2 => h w2 fun r c hr => h2 r c (hk r c hr)

theorem item_ok_inv {E : Env} {n : Nat} {nm : PyStr} {p : PropSpec} {inst : Option Nat} {x y : Val}
    {w w' : World}
    (h : M.catchIf ErrKind.isValueError (run E n (.validate nm p inst x))
      (fun _ => propError E (run E n) nm inst) w = (.ok y, w')) :
    run E n (.validate nm p inst x) w = (.ok y, w') := by
  rcases catchIf_ok_inv h with h | ⟨_, _, _, h⟩
  · exact h
  · exact (propError_raises h).elim

theorem run_clsKept {E : Env} {n : Nat} {c : Call} {w w' : World} {x : Except PyErr Val}
    (h : run E n c w = (x, w')) : ClsKept w w' := by
  have := (run_restored E n c w).clsKept
  rwa [h] at this

theorem clsKept_refl (w : World) : ClsKept w w := fun _ _ h => h

theorem mapML_fixed {E : Env} {n : Nat} {nm : PyStr} {p : PropSpec} {inst : Option Nat}
    {F : Val → World → Prop} (hF : ∀ y w w', F y w → ClsKept w w' → F y w')
    (H : ∀ x w y w', run E n (.validate nm p inst x) w = (.ok y, w') → F y w') :
    ∀ {xs ys : List Val} {w w' : World}, mapML (fun x =>
      M.catchIf ErrKind.isValueError (run E n (.validate nm p inst x))
        (fun _ => propError E (run E n) nm inst)) xs w = (.ok ys, w') →
      ClsKept w w' ∧ ∀ y ∈ ys, F y w'
  | [], ys, w, w', h => by cases h; exact ⟨clsKept_refl _, by simp⟩
  | x :: xs, ys, w, w', h => by
    unfold mapML at h
    obtain ⟨y, w1, h1, h⟩ := bind_ok_inv h
    obtain ⟨zs, w2, h2, h⟩ := bind_ok_inv h
    cases h
    have hx := item_ok_inv h1
    obtain ⟨hk, hz⟩ := mapML_fixed hF H h2
    have hk1 := run_clsKept hx
    refine ⟨fun r c hr => hk r c (hk1 r c hr), fun z hz' => ?_⟩
    rcases List.mem_cons.1 hz' with rfl | hz'
    · exact hF _ _ _ (H _ _ _ _ hx) hk
    · exact hz z hz'

theorem mapML_id {E : Env} {m : Nat} {nm : PyStr} {p : PropSpec} {inst : Option Nat} {w : World} :
    ∀ {ys : List Val}, (∀ y ∈ ys, run E m (.validate nm p inst y) w = (.ok y, w)) →
      mapML (fun x => M.catchIf ErrKind.isValueError (run E m (.validate nm p inst x))
        (fun _ => propError E (run E m) nm inst)) ys w = (.ok ys, w)
  | [], _ => rfl
  | y :: ys, h => by
    unfold mapML
    rw [bind_ok (catchIf_ok (h y (by simp))), bind_ok (mapML_id fun z hz => h z (by simp [hz]))]
    rfl

/-- One item of a Dictionary. -/
def dictItem (E : Env) (rec : Rec) (nm : PyStr) (inst : Option Nat) (kp vp : PropSpec)
    (d : List (Val × Val)) (kv : Val × Val) : M (List (Val × Val)) := do
  let key ← M.catchIf ErrKind.isValueError (rec (.validate nm kp inst kv.1))
    (fun _ => propError E rec nm inst)
  let val ← M.catchIf ErrKind.isValueError (rec (.validate nm vp inst kv.2))
    (fun _ => propError E rec nm inst)
  if key.hashable then pure (dictSet d key val) else raiseK .type

theorem dictFold_fixed {E : Env} {n : Nat} {nm : PyStr} {kp vp : PropSpec} {inst : Option Nat}
    {F G : Val → World → Prop} (hF : ∀ y w w', F y w → ClsKept w w' → F y w')
    (hG : ∀ y w w', G y w → ClsKept w w' → G y w')
    (HF : ∀ x w y w', run E n (.validate nm kp inst x) w = (.ok y, w') → F y w')
    (HG : ∀ x w y w', run E n (.validate nm vp inst x) w = (.ok y, w') → G y w') :
    ∀ {kvs d out : List (Val × Val)} {w w' : World},
      foldML (dictItem E (run E n) nm inst kp vp) d kvs w = (.ok out, w') →
      DistinctKeys d → (∀ kv ∈ d, F kv.1 w ∧ G kv.2 w) →
      DistinctKeys out ∧ ∀ kv ∈ out, F kv.1 w' ∧ G kv.2 w'
  | [], d, out, w, w', h, hd, hk => by cases h; exact ⟨hd, hk⟩
  | kv :: kvs, d, out, w, w', h, hd, hk => by
    unfold foldML at h
    obtain ⟨d', w1, h1, h⟩ := bind_ok_inv h
    unfold dictItem at h1
    obtain ⟨key, w2, h2, h1⟩ := bind_ok_inv h1
    obtain ⟨val, w3, h3, h1⟩ := bind_ok_inv h1
    have e2 := item_ok_inv h2
    have e3 := item_ok_inv h3
    split at h1
    · rename_i hh
      cases h1
      refine dictFold_fixed hF hG HF HG h (dictSet_distinct hd hh) fun x hx => ?_
      have k2 := run_clsKept e2
      have k3 := run_clsKept e3
      have old : ∀ y ∈ d, F y.1 w1 ∧ G y.2 w1 := fun y hy =>
        ⟨hF _ _ _ (hF _ _ _ (hk y hy).1 k2) k3, hG _ _ _ (hG _ _ _ (hk y hy).2 k2) k3⟩
      have hkey : F key w1 := hF _ _ _ (HF _ _ _ _ e2) k3
      have hval : G val w1 := HG _ _ _ _ e3
      rcases dictSet_mem hx with h | ⟨h1, h | ⟨y, h⟩⟩
      · exact old x h
      · rw [h, h1]; exact ⟨hkey, hval⟩
      · rw [h1]; exact ⟨(old _ h).1, hval⟩
    · cases h1

theorem dictFold_id {E : Env} {m : Nat} {nm : PyStr} {kp vp : PropSpec} {inst : Option Nat} {w : World} :
    ∀ {kvs d : List (Val × Val)}, DistinctKeys (d ++ kvs) →
      (∀ kv ∈ kvs, run E m (.validate nm kp inst kv.1) w = (.ok kv.1, w) ∧
        run E m (.validate nm vp inst kv.2) w = (.ok kv.2, w)) →
      foldML (dictItem E (run E m) nm inst kp vp) d kvs w = (.ok (d ++ kvs), w)
  | [], d, _, _ => by simp [foldML]
  | kv :: kvs, d, hd, h => by
    unfold foldML
    have hi : dictItem E (run E m) nm inst kp vp d kv w = (.ok (d ++ [kv]), w) := by
      unfold dictItem
      rw [bind_ok (catchIf_ok (h kv (by simp)).1), bind_ok (catchIf_ok (h kv (by simp)).2),
        if_pos (hd.2 kv (by simp)), dictSet_new]
      · rfl
      · intro x hx
        have := hd.1
        rw [List.map_append, List.pairwise_append] at this
        exact this.2.2 x.1 (List.mem_map_of_mem hx) kv.1 (by simp)
    rw [bind_ok hi, dictFold_id (by simpa using hd) fun x hx => h x (by simp [hx])]
    simp

/-- The last case of `validate`. -/
def liftOpt (E : Env) (rec : Rec) (nm : PyStr) (inst : Option Nat) : Option (Except SErr Val) → M Val
  | some x => liftScalar E rec nm inst x
  | none => raiseK .type

theorem liftOpt_inv {E : Env} {rec : Rec} {nm : PyStr} {inst : Option Nat}
    {y : Option (Except SErr Val)} {w w' : World} {x : Val}
    (h : liftOpt E rec nm inst y w = (.ok x, w')) :
    ∃ z, y = some z ∧ liftScalar E rec nm inst z w = (.ok x, w') := by
  cases y with
  | none => cases h
  | some z => exact ⟨z, rfl, h⟩

theorem validateBody_scalar {E : Env} {rec : Rec} {nm : PyStr} {inst : Option Nat} {v : Val} {rq : Bool}
    {se de : Option FnId} {df : Dflt} {ty : PropTy} (h : ScalarTy ty) (hc : ty ≠ .color) :
    validateBody E rec nm (.mk rq se de df ty) inst v = liftOpt E rec nm inst (scalarValidate E 0 ty v) := by
  cases ty <;> first | rfl | exact h.elim | exact absurd rfl hc

theorem repeatableAll_mem {E : Env} {u : Bool} : ∀ {ps : List PropSpec}, RepeatableAll E u ps →
    ∀ {q : PropSpec}, q ∈ ps → Repeatable E u q
  | [], _, _, h => by cases h
  | p :: ps, ⟨h1, h2⟩, q, h => by
    rcases List.mem_cons.1 h with rfl | h
    · exact h1
    · exact repeatableAll_mem h2 h

/-- The first alternative that accepts. -/
theorem tryProps_ok {E : Env} {n : Nat} {nm : PyStr} {inst : Option Nat} {v x : Val} {w1 : World} :
    ∀ (ps : List PropSpec) (w : World),
    tryProps E (run E n) nm inst (fun q => .validate nm q inst v) ps w = (.ok x, w1) →
    ∃ pre q post wq, ps = pre ++ q :: post ∧ run E n (.validate nm q inst v) wq = (.ok x, w1)
  | [], w, h => (propError_raises h).elim
  | p :: ps, w, h => by
    unfold tryProps at h
    rcases catchIf_ok_inv h with h | ⟨e, w2, _, h⟩
    · exact ⟨[], p, ps, w, rfl, h⟩
    · obtain ⟨pre, q, post, wq, h1, h2⟩ := tryProps_ok ps w2 h
      exact ⟨p :: pre, q, post, wq, by rw [h1]; rfl, h2⟩

/-- Alternatives that keep the value, then one that returns it. -/
theorem tryProps_kept {E : Env} {m : Nat} {nm : PyStr} {inst : Option Nat} {x : Val} {w : World}
    {q : PropSpec} {post : List PropSpec} (hx : run E m (.validate nm q inst x) w = (.ok x, w)) :
    ∀ (pre : List PropSpec), (∀ p ∈ pre, KeptBy E m nm p inst x w) →
    tryProps E (run E m) nm inst (fun q => .validate nm q inst x) (pre ++ q :: post) w = (.ok x, w)
  | [], _ => by
    show tryProps E (run E m) nm inst _ (q :: post) w = _
    unfold tryProps
    exact catchIf_ok hx
  | p :: pre, h => by
    show tryProps E (run E m) nm inst _ (p :: (pre ++ q :: post)) w = _
    unfold tryProps
    rcases h p (by simp) with h1 | ⟨e, he, h1⟩
    · exact catchIf_ok h1
    · rw [catchIf_err h1 he]
      exact tryProps_kept hx pre fun p hp => h p (by simp [hp])

theorem tryProps_fixed {E : Env} {u : Bool} {n : Nat} {nm nm' : PyStr} {inst inst' : Option Nat} {v x : Val}
    {w w1 w' : World} (hq : Silent w' inst') (ps : List PropSpec) (hset : Settled E ps)
    (ih : ∀ q ∈ ps, ∀ v x w w1, run E n (.validate nm q inst v) w = (.ok x, w1) →
      ∀ m, n ≤ m → FixedPoint E u m nm' q inst' x w1)
    (h : tryProps E (run E n) nm inst (fun q => .validate nm q inst v) ps w = (.ok x, w1))
    (hk : ClsKept w1 w') (m : Nat) (hm : n ≤ m) :
    tryProps E (run E m) nm' inst' (fun q => .validate nm' q inst' x) ps w' = (.ok x, w') := by
  obtain ⟨pre, q, post, wq, rfl, hx⟩ := tryProps_ok ps w h
  have hadm := C01_validated_value_admitted E _ nm q inst v wq x w1 hx
  obtain ⟨k, rfl⟩ : ∃ k, m = k + 1 := by
    cases n with
    | zero => cases hx
    | succ n => exact ⟨m - 1, by omega⟩
  refine tryProps_kept (ih q (by simp) v x wq w1 hx _ hm w' hk fun _ => hq) pre fun p hp => ?_
  exact kept hq ((List.pairwise_append.1 hset).2.2 p hp q (by simp) w1 x hadm) k

/-- A validated value is validated to itself. -/
theorem validate_fixed {E : Env} {u : Bool} : ∀ (n : Nat) (p : PropSpec) (nm nm' : PyStr) (inst inst' : Option Nat)
    (v x : Val) (w w1 : World), Repeatable E u p → run E n (.validate nm p inst v) w = (.ok x, w1) →
    ∀ m, n ≤ m → FixedPoint E u m nm' p inst' x w1 := by
  intro n
  induction n with
  | zero => intro p nm nm' inst inst' v x w w1 _ h; cases h
  | succ n ih =>
    intro p nm nm' inst inst' v x w w1 hr h m hm w' hk hq
    obtain ⟨m, rfl⟩ : ∃ k, m = k + 1 := ⟨m - 1, by omega⟩
    have hm' : n ≤ m := by omega
    have hadm := C01_validated_value_admitted E _ nm p inst v w x w1 h
    obtain ⟨rq, se, de, df, ty⟩ := p
    have hr' : RepeatableTy E u ty := hr
    change validateBody E (run E n) nm (.mk rq se de df ty) inst v w = _ at h
    show validateBody E (run E m) nm' (.mk rq se de df ty) inst' x w' = _
    have hsc : ScalarTy ty → ty ≠ .color →
        validateBody E (run E m) nm' (.mk rq se de df ty) inst' x w' = (.ok x, w') := by
      intro h1 h2
      rw [validateBody_scalar h1 h2] at h ⊢
      obtain ⟨y, hy, h3⟩ := liftOpt_inv h
      rw [scalar_fixed (k' := 0) hr' (hy.trans (congrArg some (liftScalar_ok_inv h3)))]
      rfl
    unfold validateBody at h hsc ⊢
    simp only [PropSpec.ty] at h hadm hsc ⊢
    cases ty with
    | seq k item lo hi co =>
      simp only at h ⊢
      have hri : Repeatable E u item := hr'
      unfold seqValidate at h ⊢
      split at h
      · obtain ⟨_, _, h1, _⟩ := bind_ok_inv h
        exact (propError_raises h1).elim
      obtain ⟨out, w3, h2, h⟩ := bind_ok_inv h
      obtain ⟨_, hfix⟩ := mapML_fixed (F := fun y w => FixedPoint E u m nm' item inst' y w)
        (fun _ _ _ h hk => fixed_later h hk)
        (fun x w y w' h => ih item nm nm' inst inst' x y w w' hri h m hm') h2
      have again : ∀ ys : List Val, (∀ y ∈ ys, y ∈ out) → w3 = w1 →
          mapML (fun x => M.catchIf ErrKind.isValueError (run E m (.validate nm' item inst' x))
            (fun _ => propError E (run E m) nm' inst')) ys w' = (.ok ys, w') := by
        intro ys hys e
        refine mapML_id fun y hy => ?_
        subst e
        exact hfix y (hys y hy) w' hk hq
      cases k with
      | tup =>
        cases h
        have := again out (fun _ h => h) rfl
        simp only [SeqKind.matches, Bool.not_true, Bool.and_false, Bool.false_eq_true, if_false,
          Val.isContainer, if_true, Val.items]
        rw [bind_ok this]
        rfl
      | list =>
        cases h
        have := again out (fun _ h => h) rfl
        simp only [SeqKind.matches, Bool.not_true, Bool.and_false, Bool.false_eq_true, if_false,
          Val.isContainer, if_true, Val.items]
        rw [bind_ok this]
        rfl
      | set =>
        unfold mkSeq at h
        simp only at h
        split at h
        · rename_i hh
          cases h
          have := again (setOfList out) (setOfList_sub out) rfl
          simp only [SeqKind.matches, Bool.not_true, Bool.and_false, Bool.false_eq_true, if_false,
            Val.isContainer, if_true, Val.items]
          rw [bind_ok this]
          have hh' : hashableL (setOfList out) = true := by
            rw [hashableL_all_iff] at hh ⊢
            exact fun x hx => hh x (setOfList_sub out x hx)
          unfold mkSeq
          simp only [hh', if_true, setOfList_same (setOfList_distinct out)]
          rfl
        · cases h
    | dict kp vp co =>
      simp only at h ⊢
      obtain ⟨hrk, hrv⟩ : Repeatable E u kp ∧ Repeatable E u vp := hr'
      unfold dictValidate at h ⊢
      obtain ⟨items, w2, _, h⟩ := bind_ok_inv h
      obtain ⟨out, w3, h2, h⟩ := bind_ok_inv h
      cases h
      obtain ⟨hdk, hfix⟩ := dictFold_fixed (F := fun y w => FixedPoint E u m nm' kp inst' y w)
        (G := fun y w => FixedPoint E u m nm' vp inst' y w)
        (fun _ _ _ h hk => fixed_later h hk) (fun _ _ _ h hk => fixed_later h hk)
        (fun x w y w' h => ih kp nm nm' inst inst' x y w w' hrk h m hm')
        (fun x w y w' h => ih vp nm nm' inst inst' x y w w' hrv h m hm')
        (kvs := items) (d := []) h2 ⟨.nil, by simp⟩ (by simp)
      have hitems : (match (if co = true then dictCoerce? (.dict out) else
          match Val.dict out with | .dict kvs => some kvs | _ => none) with
        | some kvs => (pure kvs : M _)
        | none => propError E (run E m) nm' inst') = pure out := by cases co <;> rfl
      refine (congrFun (congrArg (· >>= _) hitems) w').trans ?_
      rw [bind_ok (pure_apply _ _)]
      have hfold := dictFold_id (E := E) (m := m) (nm := nm') (kp := kp) (vp := vp) (inst := inst')
        (w := w') (kvs := out) (d := []) hdk fun kv hkv => ⟨(hfix kv hkv).1 w' hk hq, (hfix kv hkv).2 w' hk hq⟩
      exact bind_ok hfold
    | inst c =>
      cases hadm with
      | inst _ r hi =>
        obtain ⟨o, ho, hc⟩ := hi
        obtain ⟨o', ho', hc'⟩ := hk r o.cls ⟨o, ho, rfl⟩
        show instValidate E (run E m) nm' inst' c (.obj r) w' = _
        unfold instValidate
        simp only
        rw [bind_ok (getObj_some ho'), if_pos ((isSub_iff (E := E)).2 (by rw [hc']; exact hc.imp_left id))]
        rfl
    | union ps st =>
      obtain ⟨hu, hset, hall⟩ : u = true ∧ Settled E ps ∧ RepeatableAll E u ps := hr'
      refine tryProps_fixed (u := u) (hq hu) ps hset (fun q hq2 => ?_) h hk m hm'
      exact fun v x w w1 h => ih q nm nm' inst inst' v x w w1 (repeatableAll_mem hall hq2) h
    | color =>
      obtain ⟨a, b, c, rfl, _⟩ := (by cases hadm; assumption : IsRGB x)
      have hx : ∃ k, scalarValidate E k .color v = some (.ok (.tup [a, b, c])) := by
        unfold colorBody at h
        cases v with
        | str s =>
          obtain ⟨k, w2, _, h⟩ := bind_ok_inv h
          exact ⟨k, congrArg some (liftScalar_ok_inv h)⟩
        | _ => exact ⟨0, congrArg some (liftScalar_ok_inv h)⟩
      obtain ⟨k, hx⟩ := hx
      have h2 := scalar_fixed (k' := 0) hr' hx
      have h3 : colorValidate E 0 (.tup [a, b, c]) = .ok (.tup [a, b, c]) := Option.some.inj h2
      show liftScalar E (run E m) nm' inst' (colorValidate E 0 (.tup [a, b, c])) w' = _
      rw [h3]; rfl
    | _ => exact hsc trivial (by simp)

end Verif
