import Verif.Core.Interp
import Verif.Spec.Exceptions

/-!
# The exceptions computations end with

`Errs Z m`: whenever `m` raises, the class of the exception satisfies `Z`.
`run_errs` is the induction over the recursion limit.
-/

set_option linter.unusedSectionVars false

namespace Verif
open Spec.Exc

/-- Results satisfy `P`, exceptions are of classes `Z`. -/
def Outs {α : Type} (Z : ErrKind → Prop) (P : α → Prop) (m : M α) : Prop :=
  ∀ w, (∀ a, (m w).1 = .ok a → P a) ∧ ∀ e, (m w).1 = .error e → Z e.kind

/-- Exceptions are of classes `Z`. -/
def Errs {α : Type} (Z : ErrKind → Prop) (m : M α) : Prop :=
  ∀ w e, (m w).1 = .error e → Z e.kind

theorem Outs.errs {α : Type} {Z : ErrKind → Prop} {P : α → Prop} {m : M α} (h : Outs Z P m) :
    Errs Z m := fun w e he => (h w).2 e he

theorem Errs.outs {α : Type} {Z : ErrKind → Prop} {m : M α} (h : Errs Z m) :
    Outs Z (fun _ => True) m := fun w => ⟨fun _ _ => trivial, h w⟩

theorem Errs.weaken {α : Type} {Y Z : ErrKind → Prop} {m : M α} (h : Errs Y m)
    (hYZ : ∀ k, Y k → Z k) : Errs Z m := fun w e he => hYZ _ (h w e he)

section
variable {Z : ErrKind → Prop}

theorem errs_pure {α : Type} (a : α) : Errs Z (pure a : M α) := fun _ _ h => by cases h
theorem errs_ret {α : Type} (a : α) : Errs Z (M.ret a) := fun _ _ h => by cases h
theorem errs_get : Errs Z M.get := fun _ _ h => by cases h
theorem errs_modify (f : World → World) : Errs Z (M.modify f) := fun _ _ h => by cases h
theorem errs_raise {α : Type} (e : PyErr) (h : Z e.kind) : Errs Z (M.raise e : M α) :=
  fun _ _ he => by cases he; exact h
theorem errs_raiseK {α : Type} (k : ErrKind) (h : Z k) : Errs Z (raiseK k : M α) :=
  fun _ _ he => by cases he; exact h
theorem errs_modObj (r : Nat) (f : Obj → Obj) : Errs Z (modObj r f) := fun _ _ h => by cases h
theorem errs_raiseWhen (b : Bool) (k : ErrKind) (h : Z k) : Errs Z (raiseWhen b k) := by
  unfold raiseWhen; split
  · exact errs_raiseK _ h
  · exact errs_pure _
theorem errs_getObj (r : Nat) (h : Z .attr) : Errs Z (getObj r) := by
  intro w e he
  unfold getObj at he
  split at he <;> cases he
  exact h
theorem errs_liftK {α : Type} (x : Except ErrKind α) (h : ∀ k, x = .error k → Z k) :
    Errs Z (liftK x) := by
  cases x with
  | ok a => exact errs_pure _
  | error k => exact errs_raiseK _ (h k rfl)

theorem outs_bind {α β : Type} {P : α → Prop} {Q : β → Prop} {m : M α} {f : α → M β}
    (hm : Outs Z P m) (hf : ∀ a, P a → Outs Z Q (f a)) : Outs Z Q (m >>= f) := by
  intro w
  have h1 := hm w
  have e : (m >>= f) w = M.bind m f w := rfl
  rw [e]
  unfold M.bind
  split
  · rename_i a w' heq; rw [heq] at h1; exact hf a (h1.1 a rfl) w'
  · rename_i e w' heq; rw [heq] at h1
    exact ⟨fun _ h => (by cases h), fun e' h => (by cases h; exact h1.2 e rfl)⟩

theorem outs_pure {α : Type} {P : α → Prop} {a : α} (h : P a) : Outs Z P (pure a : M α) :=
  fun _ => ⟨fun _ h' => (by cases h'; exact h), fun _ h' => (by cases h')⟩

theorem outs_raise {α : Type} {P : α → Prop} {e : PyErr} (h : Z e.kind) :
    Outs Z P (M.raise e : M α) :=
  fun _ => ⟨fun _ h' => (by cases h'), fun _ h' => (by cases h'; exact h)⟩

theorem errs_bind {α β : Type} {m : M α} {f : α → M β} (hm : Errs Z m)
    (hf : ∀ a, Errs Z (f a)) : Errs Z (m >>= f) :=
  (outs_bind hm.outs fun a _ => (hf a).outs).errs

theorem errs_catchIf {α : Type} {pred : ErrKind → Bool} {m : M α} {k : PyErr → M α}
    (hm : Errs Z m) (hk : ∀ e, Z e.kind → Errs Z (k e)) : Errs Z (M.catchIf pred m k) := by
  intro w e he
  have h1 := hm w
  unfold M.catchIf at he
  split at he
  · cases he
  · rename_i e' w' heq
    rw [heq] at h1
    split at he
    · exact hk e' (h1 e' rfl) w' e he
    · exact h1 e he

/-- Exceptions that are caught do not count. -/
theorem errs_catchIf_sharp {α : Type} {Y : ErrKind → Prop} {pred : ErrKind → Bool} {m : M α}
    {k : PyErr → M α} (hm : Errs Y m) (hY : ∀ x, Y x → pred x = false → Z x)
    (hk : ∀ e, Errs Z (k e)) : Errs Z (M.catchIf pred m k) := by
  intro w e he
  have h1 := hm w
  unfold M.catchIf at he
  split at he
  · cases he
  · rename_i e' w' heq
    rw [heq] at h1
    split at he
    · exact hk e' w' e he
    · rename_i hp
      cases he
      exact hY _ (h1 _ rfl) (by simpa using hp)

theorem outs_attempt {α : Type} {Y : ErrKind → Prop} {m : M α} (hm : Errs Z m) :
    Outs Y (fun r => ∀ e, r = .error e → Z e.kind) (M.attempt m) :=
  fun w => ⟨fun r h e he => (by cases h; exact hm w e he), fun _ h => (by cases h)⟩

theorem errs_attempt {α β : Type} {m : M α} {f : Except PyErr α → M β} (hm : Errs Z m)
    (hf : ∀ r, (∀ e, r = .error e → Z e.kind) → Errs Z (f r)) : Errs Z (M.attempt m >>= f) :=
  (outs_bind (outs_attempt hm) fun r h => (hf r h).outs).errs

theorem errs_mapML {α β : Type} {f : α → M β} (hf : ∀ a, Errs Z (f a)) :
    ∀ xs, Errs Z (mapML f xs)
  | [] => errs_pure _
  | x :: xs => errs_bind (hf x) fun _ => errs_bind (errs_mapML hf xs) fun _ => errs_pure _

theorem outs_mapML {α β : Type} {P : β → Prop} {f : α → M β} : ∀ xs,
    (∀ a ∈ xs, Outs Z P (f a)) → Outs Z (fun ys => ∀ y ∈ ys, P y) (mapML f xs)
  | [], _ => outs_pure (by simp)
  | x :: xs, hf => outs_bind (hf x (by simp)) fun y hy =>
      outs_bind (outs_mapML xs fun a ha => hf a (by simp [ha])) fun ys hys => outs_pure (by
        intro z hz
        rcases List.mem_cons.1 hz with rfl | hz
        · exact hy
        · exact hys z hz)

theorem errs_forML {α : Type} {f : α → M Unit} (hf : ∀ a, Errs Z (f a)) :
    ∀ xs, Errs Z (forML f xs)
  | [] => errs_pure _
  | x :: xs => errs_bind (hf x) fun _ => errs_forML hf xs

theorem errs_forML_mem {α : Type} {f : α → M Unit} : ∀ xs, (∀ a ∈ xs, Errs Z (f a)) →
    Errs Z (forML f xs)
  | [], _ => errs_pure _
  | x :: xs, hf => errs_bind (hf x (by simp)) fun _ =>
      errs_forML_mem xs fun a ha => hf a (by simp [ha])

theorem errs_foldML {α β : Type} {f : β → α → M β} (hf : ∀ b a, Errs Z (f b a)) :
    ∀ xs b, Errs Z (foldML f b xs)
  | [], _ => errs_pure _
  | x :: xs, b => errs_bind (hf b x) fun b' => errs_foldML hf xs b'

theorem outs_foldML {α β : Type} {P : β → Prop} {f : β → α → M β}
    (hf : ∀ b a, P b → Outs Z P (f b a)) : ∀ xs b, P b → Outs Z P (foldML f b xs)
  | [], _, h => outs_pure h
  | x :: xs, b, h => outs_bind (hf b x h) fun b' h' => outs_foldML hf xs b' h'

theorem errs_fin {α : Type} {m : M α} {f : World → World} (hm : Errs Z m) : Errs Z (M.fin m f) :=
  fun w e he => hm w e he

theorem errs_withDisabled {α : Type} (q : Quar) {m : M α} (hm : Errs Z m) :
    Errs Z (withDisabled q m) := fun w e he => hm _ e he

end

/-- The calls made by a method end with their own exceptions and those of user
code, and user code raises no others. -/
structure ErrOk (E : Env) (U : ErrKind → Prop) (rec : Rec) : Prop where
  fns : ∀ f args, Raises U (E.fn f args)
  calls : ∀ c, Errs (fun k => own c k ∨ U k) (rec c)

section
variable {E : Env} {U Z : ErrKind → Prop} {rec : Rec} (H : ErrOk E U rec)
  (hZ : ∀ k, access k ∨ U k → Z k)
include H

theorem errs_execProg : ∀ p, Raises U p → Errs U (execProg rec p)
  | .ret v, _ => errs_ret v
  | .raise e, h => errs_raise e h
  | .call c k, h => fun w e he =>
      errs_execProg (k _) (h _ fun e' he' => H.calls c w e' he') _ e he
  | .disabled q body k, h => fun w e he =>
      errs_execProg (k _) (h.2 _ fun e' he' => errs_execProg body h.1 _ e' he') _ e he

include hZ

theorem errs_callFn (f : FnId) (args : List Val) : Errs Z (callFn E rec f args) :=
  (errs_execProg H _ (H.fns f args)).weaken fun k hk => hZ k (.inr hk)

theorem errs_rec (c : Call) (h : ∀ k, own c k → Z k) : Errs Z (rec c) :=
  (H.calls c).weaken fun k hk => hk.elim (h k) fun hu => hZ k (.inr hu)

end

syntax "errs1" term "," term : tactic
macro_rules | `(tactic| errs1 $H, $hZ) => `(tactic| first
  | with_reducible exact errs_pure _
  | with_reducible exact errs_ret _
  | with_reducible exact errs_get
  | with_reducible exact errs_modify _
  | with_reducible exact errs_modObj _ _
  | with_reducible exact errs_raiseK _ ($hZ _ (Or.inl (by with_unfolding_all exact trivial)))
  | with_reducible exact errs_raiseK _ (by assumption)
  | with_reducible exact errs_raise _ ($hZ _ (Or.inl (by with_unfolding_all exact trivial)))
  | with_reducible exact errs_raise _ (by assumption)
  | with_reducible exact errs_raiseWhen _ _ ($hZ _ (Or.inl (by with_unfolding_all exact trivial)))
  | with_reducible exact errs_getObj _ ($hZ _ (Or.inl (by with_unfolding_all exact trivial)))
  | with_reducible exact errs_callFn $H $hZ _ _
  | exact errs_rec $H $hZ _ (by first
      | exact fun k hk => $hZ k (Or.inl hk)
      | assumption)
  | with_reducible assumption
  | with_reducible refine errs_attempt ?_ (fun _ _ => ?_)
  | with_reducible refine errs_bind ?_ (fun _ => ?_)
  | with_reducible refine errs_catchIf ?_ (fun _ _ => ?_)
  | with_reducible refine errs_mapML (fun _ => ?_) _
  | with_reducible refine errs_forML (fun _ => ?_) _
  | with_reducible refine errs_foldML (fun _ _ => ?_) _ _
  | with_reducible refine errs_fin ?_
  | with_reducible refine errs_withDisabled _ ?_
  | split
  | dsimp only)

macro "errs" H:term "," hZ:term : tactic => `(tactic| repeat' (errs1 $H, $hZ))

theorem pyIndex_kind {a k : Val} {x : ErrKind} (h : pyIndex a k = .error x) :
    x = .index ∨ x = .key ∨ x = .type := by
  unfold pyIndex at h
  dsimp only at h
  repeat' split at h
  all_goals first | (cases h; done) | (cases h; simp; done)

theorem pyPop_kind {a k : Val} {x : ErrKind} (h : pyPop a k = .error x) :
    x = .index ∨ x = .key ∨ x = .type := by
  unfold pyPop at h
  dsimp only at h
  repeat' split at h
  all_goals first | (cases h; done) | (cases h; simp; done)

theorem floatOfInt_kind {E : Env} {i : Int} {x : ErrKind} (h : floatOfInt E i = .error x) :
    x = .overflow := by
  unfold floatOfInt at h
  split at h <;> cases h
  rfl

theorem toFloat_kind {E : Env} {a : RealNum} {x : ErrKind} (h : a.toFloat E = .error x) :
    x = .overflow := by
  cases a with
  | int i => exact floatOfInt_kind h
  | flt f => cases h

theorem realClose_kind {E : Env} {a b : RealNum} {x : ErrKind} (h : realClose E a b = .error x) :
    x = .overflow := by
  unfold realClose at h
  split at h
  · cases h
  · split at h
    · cases h; exact toFloat_kind (by assumption)
    · split at h
      · cases h; exact toFloat_kind (by assumption)
      · cases h

theorem floatEqual_kind {E : Env} {a b : Val} {x : ErrKind} (h : floatEqual E a b = .error x) :
    x = .overflow := by
  unfold floatEqual at h
  split at h
  · exact realClose_kind h
  · split at h <;> cases h

theorem complexEqual_kind {E : Env} {a b : Val} {x : ErrKind} (h : complexEqual E a b = .error x) :
    x = .overflow := by
  unfold complexEqual at h
  split at h
  · split at h
    · cases h; exact realClose_kind (by assumption)
    · split at h
      · cases h; exact realClose_kind (by assumption)
      · cases h
  · cases h

theorem scalarEqual_kind {E : Env} {ty : PropTy} {a b : Val} {x : ErrKind}
    (h : scalarEqual E ty a b = some (.error x)) : x = .overflow := by
  cases ty <;> simp only [scalarEqual, Option.some.injEq] at h <;>
    first | cases h; done | exact floatEqual_kind h | exact complexEqual_kind h

theorem pyInt_kind {E : Env} {v : Val} {x : ErrKind} (h : pyInt E v = .error x) :
    x = .value ∨ x = .overflow ∨ x = .type := by
  unfold pyInt at h
  repeat' split at h
  all_goals first | (cases h; done) | (cases h; simp; done)

theorem pyFloat_kind {E : Env} {v : Val} {x : ErrKind} (h : pyFloat E v = .error x) :
    x = .value ∨ x = .overflow ∨ x = .type := by
  unfold pyFloat at h
  repeat' split at h
  all_goals first
    | (cases h; done)
    | (cases h; simp; done)
    | (have := floatOfInt_kind h; simp [this])

theorem map_kind {α β : Type} {y : Except ErrKind α} {f : α → β} {x : ErrKind}
    (h : y.map f = .error x) : y = .error x := by
  cases y with
  | ok a => cases h
  | error k => cases h; rfl

theorem pyComplex_kind {E : Env} {v : Val} {x : ErrKind} (h : pyComplex E v = .error x) :
    x = .value ∨ x = .overflow ∨ x = .type := by
  unfold pyComplex at h
  repeat' split at h
  all_goals first
    | (cases h; done)
    | (cases h; simp; done)
    | (have := floatOfInt_kind (map_kind h); simp [this])

theorem scalarToJson_kind {E : Env} {ty : PropTy} {v : Val} {x : ErrKind}
    (h : scalarToJson E ty v = some (.error x)) : x = .type ∨ x = .attr := by
  cases ty <;> simp only [scalarToJson, Option.some.injEq] at h <;>
    first
    | (cases h; done)
    | (repeat' split at h
       all_goals first | (cases h; done) | (cases h; simp; done))

theorem boolFromJson_kind {E : Env} {v : Val} {x : ErrKind} (h : boolFromJson E v = .error x) :
    x = .value := by
  unfold boolFromJson at h
  repeat' split at h
  all_goals (cases h; try rfl)

theorem scalarFromJson_kind {E : Env} {ty : PropTy} {v : Val} {x : ErrKind}
    (h : scalarFromJson E ty v = some (.error x)) :
    x = .value ∨ x = .overflow ∨ x = .type ∨ x = .attr := by
  cases ty <;> simp only [scalarFromJson, Option.some.injEq] at h <;>
    first
    | (cases h; done)
    | exact .inl (boolFromJson_kind h)
    | (rcases pyInt_kind (map_kind h) with h | h | h <;> simp [h]; done)
    | (rcases pyFloat_kind (map_kind h) with h | h | h <;> simp [h]; done)
    | (rcases pyComplex_kind (map_kind h) with h | h | h <;> simp [h]; done)
    | (repeat' split at h
       all_goals first | (cases h; done) | (cases h; simp; done))

theorem scalarValidate_kind {E : Env} {n : Nat} {ty : PropTy} {v : Val} {x : ErrKind}
    (h : scalarValidate E n ty v = some (.error (.raw x))) :
    x = .overflow ∧ ((∃ c lo hi, ty = .integer c lo hi) ∨ (∃ c lo hi, ty = .float c lo hi) ∨
      ∃ c, ty = .complex c) := by
  cases ty <;> simp only [scalarValidate, Option.some.injEq] at h
  all_goals first | (cases h; done) | skip
  case integer c lo hi =>
    refine ⟨?_, .inl ⟨_, _, _, rfl⟩⟩
    unfold intValidate at h
    cases hp : pyInt E v with
    | ok i =>
      rw [hp] at h
      dsimp only at h
      repeat' split at h
      all_goals first | (cases h; done) | skip
      rename_i e he
      cases h
      repeat' split at he
      all_goals cases he
    | error k =>
      rw [hp] at h
      rcases pyInt_kind hp with rfl | rfl | rfl <;> cases h
      rfl
  case float c lo hi =>
    refine ⟨?_, .inr (.inl ⟨_, _, _, rfl⟩)⟩
    unfold floatValidate at h
    cases hp : pyFloat E v with
    | ok i =>
      rw [hp] at h
      dsimp only at h
      repeat' split at h
      all_goals cases h
    | error k =>
      rw [hp] at h
      rcases pyFloat_kind hp with rfl | rfl | rfl <;> cases h
      rfl
  case complex c =>
    refine ⟨?_, .inr (.inr ⟨_, rfl⟩)⟩
    unfold complexValidate at h
    cases hp : pyComplex E v with
    | ok i =>
      rw [hp] at h
      dsimp only at h
      repeat' split at h
      all_goals cases h
    | error k =>
      rw [hp] at h
      rcases pyComplex_kind hp with rfl | rfl | rfl <;> cases h
      rfl
  case color =>
    exfalso
    have h1 : ∀ xs y, colorOfItems xs ≠ .error (.raw y) := fun xs y h => by
      unfold colorOfItems at h
      repeat' split at h
      all_goals cases h
    have h2 : ∀ u y, hexPairs u ≠ .error (.raw y) := fun u y h => by
      unfold hexPairs at h
      repeat' split at h
      all_goals cases h
    unfold colorValidate at h
    split at h
    · dsimp only at h
      split at h
      · exact h1 _ _ h
      · cases h
        exact h2 _ _ (by assumption)
    · exact h1 _ _ h
    · exact h1 _ _ h
    · cases h
  all_goals
    exfalso
    simp only [boolValidate, stringValidate, choiceValidate, dtValidate, uuidValidate] at h
    repeat' split at h
    all_goals cases h

section
variable {E : Env} {U Z : ErrKind → Prop} {rec : Rec} (H : ErrOk E U rec)
  (hZ : ∀ k, access k ∨ U k → Z k)
include H hZ

theorem errs_runHook (r : Nat) (ts : List ErrTuple) : Errs Z (runHook E rec r ts) := by
  unfold runHook; errs H, hZ
macro_rules | `(tactic| errs1 $H, $hZ) => `(tactic| with_reducible exact errs_runHook $H $hZ _ _)

theorem errs_raiseVal {α : Type} (reason prop : Option PyStr) (inst : Option Nat) :
    Errs Z (raiseVal E rec reason prop inst : M α) := by
  unfold raiseVal; errs H, hZ
macro_rules | `(tactic| errs1 $H, $hZ) => `(tactic| with_reducible exact errs_raiseVal $H $hZ _ _ _)

theorem errs_propError {α : Type} (nm : PyStr) (inst : Option Nat) :
    Errs Z (propError E rec nm inst : M α) := errs_raiseVal H hZ _ _ _
macro_rules | `(tactic| errs1 $H, $hZ) => `(tactic| with_reducible exact errs_propError $H $hZ _ _)

theorem errs_liftScalar (nm : PyStr) (inst : Option Nat) (x : Except SErr Val)
    (hx : ∀ k, x = .error (.raw k) → k = .overflow) : Errs Z (liftScalar E rec nm inst x) := by
  unfold liftScalar
  split
  · errs H, hZ
  · have := hx _ rfl
    subst this
    errs H, hZ
  · errs H, hZ
  · errs H, hZ

omit H in
theorem errs_mkSeq (k : SeqKind) (xs : List Val) : Errs Z (mkSeq k xs) := by
  unfold mkSeq
  repeat' (first | exact errs_pure _ | exact errs_raiseK _ (hZ _ (.inl trivial)) | split)
macro_rules | `(tactic| errs1 $_H, $hZ) => `(tactic| with_reducible exact errs_mkSeq $hZ _ _)

omit H in
theorem errs_mkDict (xs : List (Val × Val)) : Errs Z (mkDict xs) := by
  unfold mkDict
  repeat' (first | exact errs_pure _ | exact errs_raiseK _ (hZ _ (.inl trivial)) | split)
macro_rules | `(tactic| errs1 $_H, $hZ) => `(tactic| with_reducible exact errs_mkDict $hZ _)

theorem errs_tryProps (nm : PyStr) (inst : Option Nat) (f : PropSpec → Call)
    (hf : ∀ p k, own (f p) k → Z k) : ∀ ps, Errs Z (tryProps E rec nm inst f ps)
  | [] => by unfold tryProps; errs H, hZ
  | p :: ps => by
      unfold tryProps
      exact errs_catchIf (errs_rec H hZ _ (hf _)) fun _ _ => errs_tryProps nm inst f hf ps

theorem errs_colorBody (nm : PyStr) (inst : Option Nat) (v : Val) :
    Errs Z (colorBody E rec nm inst v) := by
  have hc : ∀ n x k, colorValidate E n x = .error (.raw k) → k = .overflow := fun n x k h =>
    (scalarValidate_kind (ty := .color) (n := n) (congrArg some h)).1
  unfold colorBody
  split
  · refine errs_bind ?_ fun n => errs_liftScalar H hZ _ _ _ (hc _ _)
    split
    · intro w e he; cases he
    · exact errs_pure _
  · exact errs_liftScalar H hZ _ _ _ (hc _ _)

theorem errs_validateBody (nm : PyStr) (p : PropSpec) (inst : Option Nat) (v : Val) :
    Errs Z (validateBody E rec nm p inst v) := by
  unfold validateBody
  split
  · unfold seqValidate; errs H, hZ
  · unfold dictValidate; errs H, hZ
  · unfold instValidate; errs H, hZ
  · exact errs_tryProps H hZ nm inst (fun p => .validate nm p inst v) (fun p k hk => hZ k (.inl hk)) _
  · exact errs_colorBody H hZ _ _ _
  · split
    · rename_i x hx
      exact errs_liftScalar H hZ _ _ _ fun k hk => (scalarValidate_kind (hk ▸ hx)).1
    · errs H, hZ

theorem errs_zipEqual (p : PropSpec) : ∀ xs ys, Errs Z (zipEqual rec p xs ys) := by
  intro xs
  induction xs with
  | nil => intro ys; unfold zipEqual; errs H, hZ
  | cons x xs ih =>
    intro ys
    cases ys with
    | nil => unfold zipEqual; errs H, hZ
    | cons y ys =>
      have := ih ys
      unfold zipEqual
      errs H, hZ

theorem errs_setRemove (p : PropSpec) (a : Val) : ∀ ys, Errs Z (setRemove rec p a ys)
  | [] => by unfold setRemove; errs H, hZ
  | y :: ys => by
      have ih := errs_setRemove p a ys
      unfold setRemove
      errs H, hZ

theorem errs_unionEqual (a b : Val) : ∀ ps, Errs Z (unionEqual rec a b ps)
  | [] => by unfold unionEqual; errs H, hZ
  | p :: ps => by
      have ih := errs_unionEqual a b ps
      unfold unionEqual
      errs H, hZ

/-- KeyError is caught inside the comparison of dictionaries. -/
theorem errs_dictEqual (vp : PropSpec) (a b : Val) : Errs Z (dictEqual rec vp a b) := by
  have hZ' : ∀ k, access k ∨ U k → Z k ∨ k = .key := fun k hk => .inl (hZ k hk)
  have h1 : ∀ {x : Except ErrKind Val}, (∀ k, x = .error k → k = .index ∨ k = .key ∨ k = .type) →
      Errs (fun k => Z k ∨ k = .key) (liftK x) := fun hx => errs_liftK _ fun k hk => by
    rcases hx k hk with rfl | rfl | rfl
    · exact hZ' _ (.inl trivial)
    · exact .inr rfl
    · exact hZ' _ (.inl trivial)
  have h2 : ∀ x y, Errs (fun k => Z k ∨ k = .key) (liftK (pyIndex x y)) := fun x y =>
    h1 fun k => pyIndex_kind
  have h3 : ∀ x y, Errs (fun k => Z k ∨ k = .key) (liftK (pyPop x y)) := fun x y =>
    h1 fun k => pyPop_kind
  unfold dictEqual
  refine errs_catchIf_sharp (Y := fun k => Z k ∨ k = .key) ?_ ?_ ?_
  · repeat' (first | exact h2 _ _ | exact h3 _ _ | errs1 H, hZ')
  · intro x hx hp
    rcases hx with hx | rfl
    · exact hx
    · cases hp
  · intro _; errs H, hZ

theorem errs_propEqualBody (p : PropSpec) (a b : Val) :
    Errs Z (propEqualBody E rec p a b) := by
  have h1 := errs_zipEqual H hZ
  have h2 := errs_setRemove H hZ
  have h3 := errs_unionEqual H hZ
  unfold propEqualBody
  split
  · unfold setEqual; repeat' (first | exact h2 _ _ _ | errs1 H, hZ)
  · unfold tupEqual; repeat' (first | exact h1 _ _ _ | errs1 H, hZ)
  · exact errs_dictEqual H hZ _ _ _
  · errs H, hZ
  · exact h3 _ _ _
  · split
    · rename_i x hx
      refine errs_bind (errs_liftK _ fun k hk => ?_) fun _ => errs_pure _
      have := scalarEqual_kind (hk ▸ hx)
      subst this
      exact hZ _ (.inl trivial)
    · errs H, hZ

theorem errs_getStored (r : Nat) (name : PyStr) : Errs Z (getStored r name) := by
  unfold getStored; errs H, hZ
macro_rules | `(tactic| errs1 $H, $hZ) => `(tactic| with_reducible exact errs_getStored $H $hZ _ _)

theorem errs_entryOf (r : Nat) (name : PyStr) : Errs Z (entryOf E r name) := by
  unfold entryOf; errs H, hZ
macro_rules | `(tactic| errs1 $H, $hZ) => `(tactic| with_reducible exact errs_entryOf $H $hZ _ _)

theorem errs_getattrBody (r : Nat) (name : PyStr) : Errs Z (getattrBody E rec r name) := by
  unfold getattrBody; errs H, hZ

theorem errs_notify (r : Nat) (mode : Mode) (name : PyStr) (prev v : Val) :
    Errs Z (notify E rec r mode name prev v) := by
  unfold notify
  repeat' (first | (with_reducible unfold notifyOne) | errs1 H, hZ)
macro_rules | `(tactic| errs1 $H, $hZ) => `(tactic| with_reducible exact errs_notify $H $hZ _ _ _ _ _)

theorem errs_setBody (r : Nat) (name : PyStr) (p : PropSpec) (v : Val) :
    Errs Z (setBody E rec r name p v) := by
  unfold setBody writeStored; errs H, hZ
macro_rules | `(tactic| errs1 $H, $hZ) => `(tactic| with_reducible exact errs_setBody $H $hZ _ _ _ _)

theorem errs_assignBody (r : Nat) (name : PyStr) (p : PropSpec) (v : Val) :
    Errs Z (assignBody E rec r name p v) := by
  unfold assignBody; errs H, hZ
macro_rules | `(tactic| errs1 $H, $hZ) => `(tactic| with_reducible exact errs_assignBody $H $hZ _ _ _ _)

theorem errs_setattrBody (r : Nat) (name : PyStr) (v : Val) :
    Errs Z (setattrBody E rec r name v) := by
  unfold setattrBody setBackend; errs H, hZ

theorem errs_delattrBody (r : Nat) (name : PyStr) : Errs Z (delattrBody E rec r name) := by
  unfold delattrBody; errs H, hZ

theorem errs_evalDflt (d : Dflt) : Errs Z (evalDflt E rec d) := by
  unfold evalDflt
  split
  case h_5 => intro w e he; cases he
  all_goals errs H, hZ
macro_rules | `(tactic| errs1 $H, $hZ) => `(tactic| with_reducible exact errs_evalDflt $H $hZ _)

theorem errs_entryValidate (name : PyStr) (e : Entry) (inst : Option Nat) (v : Val) :
    Errs Z (entryValidate rec name e inst v) := by
  unfold entryValidate; errs H, hZ
macro_rules | `(tactic| errs1 $H, $hZ) => `(tactic| with_reducible exact errs_entryValidate $H $hZ _ _ _ _)

theorem errs_entryEqual (e : Entry) (a b : Val) : Errs Z (entryEqual rec e a b) := by
  unfold entryEqual; errs H, hZ
macro_rules | `(tactic| errs1 $H, $hZ) => `(tactic| with_reducible exact errs_entryEqual $H $hZ _ _ _)

theorem errs_resetBody (r : Nat) (name : Option PyStr) : Errs Z (resetBody E rec r name) := by
  unfold resetBody; errs H, hZ

theorem errs_addErrs (r : Nat) (ts : List ErrTuple) : Errs Z (addErrs r ts) := by
  unfold addErrs; errs H, hZ
macro_rules | `(tactic| errs1 $H, $hZ) => `(tactic| with_reducible exact errs_addErrs $H $hZ _ _)

/-- The remembered error is one that occurred. -/
theorem outs_collect {α : Type} (r : Nat) (nv : Option PyErr) {m : M α}
    {f : Except PyErr α → M (Option PyErr)}
    (hnv : ∀ e, nv = some e → Z e.kind) (hm : Errs Z m) (hok : ∀ a, f (.ok a) = pure nv)
    (herr : ∀ e, f (.error e) = if e.kind = .validation then do
            addErrs r e.tuples
            pure nv
          else if e.kind.isGeneric then pure (nv.or (some e))
          else M.raise e) :
    Outs Z (fun nv' => ∀ e, nv' = some e → Z e.kind) (M.attempt m >>= f) := by
  refine outs_bind (outs_attempt hm) fun res hres => ?_
  cases res with
  | ok a => rw [hok]; exact outs_pure hnv
  | error e =>
    have he := hres e rfl
    rw [herr]
    split
    · exact outs_bind (errs_addErrs H hZ _ _).outs fun _ _ => outs_pure hnv
    · split
      · refine outs_pure ?_
        intro e' he'
        cases nv with
        | none => cases he'; exact he
        | some x => cases he'; exact hnv _ rfl
      · exact outs_raise he

theorem outs_initStep (r : Nat) (c : ClassDef) (nv : Option PyErr) (kv : PyStr × Val)
    (hnv : ∀ e, nv = some e → Z e.kind) :
    Outs Z (fun nv' => ∀ e, nv' = some e → Z e.kind) (initStep rec r c nv kv) := by
  unfold initStep
  have h1 : Errs Z (rec (.setattr r kv.1 kv.2)) := errs_rec H hZ _ fun k hk => hZ k (.inl hk)
  have h2 : Errs Z (raiseK .attr : M Unit) := errs_raiseK _ (hZ _ (.inl trivial))
  dsimp only
  split
  · split
    · exact outs_collect H hZ r nv hnv h1 (fun _ => rfl) (fun _ => rfl)
    · exact outs_bind h2.outs fun _ _ => outs_collect H hZ r nv hnv h1 (fun _ => rfl) (fun _ => rfl)
  · exact outs_bind h2.outs fun _ _ => outs_collect H hZ r nv hnv h1 (fun _ => rfl) (fun _ => rfl)
  · exact outs_collect H hZ r nv hnv h1 (fun _ => rfl) (fun _ => rfl)

theorem errs_raiseCollected (r : Nat) (nv : Option PyErr) (hnv : ∀ e, nv = some e → Z e.kind) :
    Errs Z (raiseCollected E rec r nv) := by
  unfold raiseCollected
  refine errs_bind (by errs H, hZ) fun o => ?_
  dsimp only
  split
  · errs H, hZ
  · cases nv with
    | none => errs H, hZ
    | some e => exact errs_raise _ (hnv e rfl)

theorem errs_initBody (r : Nat) (c : ClassDef) (kw : List (PyStr × Val)) :
    Errs Z (initBody E rec r c kw) := by
  unfold initBody
  refine errs_bind (by errs H, hZ) fun _ => errs_bind (by errs H, hZ) fun _ => errs_fin ?_
  exact (outs_bind (outs_foldML (fun nv kv h => outs_initStep H hZ r c nv kv h) kw none
    (fun _ h => by cases h)) fun nv h => (errs_raiseCollected H hZ r nv h).outs).errs
macro_rules | `(tactic| errs1 $H, $hZ) => `(tactic| with_reducible exact errs_initBody $H $hZ _ _ _)

theorem errs_constructBody (c : ClsId) (kw : List (PyStr × Val)) :
    Errs Z (constructBody E rec c kw) := by
  unfold constructBody
  refine errs_bind (by errs H, hZ) fun _ => ?_
  refine errs_bind (fun w e he => (by cases he)) fun r => ?_
  refine errs_bind (errs_forML (fun kv => ?_) _) fun _ => by errs H, hZ
  unfold gettableDefault putStored
  errs H, hZ

theorem outs_validatorStep (r : Nat) (nv : Option PyErr) (val : Option FnId)
    (hnv : ∀ e, nv = some e → Z e.kind) :
    Outs Z (fun nv' => ∀ e, nv' = some e → Z e.kind) (validatorStep E rec r nv val) := by
  unfold validatorStep
  refine outs_collect H hZ r nv hnv ?_ (fun _ => rfl) (fun _ => rfl)
  errs H, hZ

theorem errs_hpValidateBody (r : Nat) : Errs Z (hpValidateBody E rec r) := by
  unfold hpValidateBody
  refine errs_bind (by errs H, hZ) fun o => ?_
  split
  · errs H, hZ
  · refine errs_bind (by errs H, hZ) fun _ => errs_fin ?_
    exact (outs_bind (outs_foldML (fun nv v h => outs_validatorStep H hZ r nv v h) _ none
      (fun _ h => by cases h)) fun nv h =>
        (errs_bind (errs_raiseCollected H hZ r nv h) fun _ => errs_pure _).outs).errs

theorem errs_validatePropsBody (r : Nat) : Errs Z (validatePropsBody E rec r) := by
  unfold validatePropsBody
  refine errs_bind (by errs H, hZ) fun o => errs_bind (errs_forML (fun kv => ?_) _) fun _ => errs_pure _
  unfold validatePropStep entryAssert gettableAssert
  errs H, hZ

theorem errs_baseAssert (nm : PyStr) (p : PropSpec) (r : Nat) (v : Val) :
    Errs Z (baseAssert E rec nm p r v) := by
  unfold baseAssert; errs H, hZ
macro_rules | `(tactic| errs1 $H, $hZ) => `(tactic| with_reducible exact errs_baseAssert $H $hZ _ _ _ _)

theorem errs_assertItems (nm : PyStr) (item : PropSpec) (r : Nat) : ∀ xs,
    Errs Z (assertItems rec nm item r xs)
  | [] => by unfold assertItems; errs H, hZ
  | x :: xs => by
      have ih := errs_assertItems nm item r xs
      unfold assertItems
      errs H, hZ
macro_rules | `(tactic| errs1 $H, $hZ) => `(tactic| with_reducible exact errs_assertItems $H $hZ _ _ _ _)

theorem errs_assertValidBody (nm : PyStr) (p : PropSpec) (r : Nat) (v : Val) :
    Errs Z (assertValidBody E rec nm p r v) := by
  have h1 := errs_tryProps H hZ nm (some r) (fun p => .assertValid nm p r v)
    (fun p k hk => hZ k (.inl hk))
  have h2 : ∀ v ps, Errs Z (tryProps E rec nm (some r) (fun p => .assertValid nm p r v) ps) :=
    fun v => errs_tryProps H hZ nm (some r) (fun p => .assertValid nm p r v)
      (fun p k hk => hZ k (.inl hk))
  unfold assertValidBody
  repeat' (first | exact h2 _ _ | errs1 H, hZ)

theorem errs_callWrapped (f : FnId) (v : Val) (kw : List Val) :
    Errs Z (callWrapped E rec f v kw) := by
  unfold callWrapped; errs H, hZ
macro_rules | `(tactic| errs1 $H, $hZ) => `(tactic| with_reducible exact errs_callWrapped $H $hZ _ _ _)

theorem errs_equalLoop (a b : Nat) : ∀ es, Errs Z (equalLoop rec a b es)
  | [] => by unfold equalLoop; errs H, hZ
  | (nm, e) :: rest => by
      have ih := errs_equalLoop a b rest
      unfold equalLoop
      errs H, hZ
macro_rules | `(tactic| errs1 $H, $hZ) => `(tactic| with_reducible exact errs_equalLoop $H $hZ _ _ _)

theorem errs_equalBody (a b : Val) : Errs Z (equalBody E rec a b) := by
  unfold equalBody; errs H, hZ

/-! ## Serialization -/

theorem errs_unionSerialize (nm : PyStr) (v : Val) (kw : SerKw)
    (hs : ∀ k, access k ∨ k = .key ∨ k = .selfRef → Z k) :
    ∀ ps, Errs Z (unionSerialize rec nm v kw ps)
  | [] => by
      have hs' : ∀ r k, own (.hpSerialize r kw) k → Z k := fun _ => hs
      unfold unionSerialize
      split
      · exact errs_rec H hZ _ (hs' _)
      · errs H, hZ
  | p :: ps => by
      have ih := errs_unionSerialize nm v kw hs ps
      unfold unionSerialize
      refine errs_attempt (errs_rec H hZ _ fun k hk => hZ k (.inl hk)) fun res hres => ?_
      cases res with
      | ok a => exact errs_rec H hZ _ hs
      | error e =>
        have := hres e rfl
        dsimp only
        errs H, hZ

theorem errs_serializeBody (nm : PyStr) (p : PropSpec) (v : Val) (kw : SerKw)
    (hs : ∀ k, access k ∨ k = .key ∨ k = .selfRef → Z k) :
    Errs Z (serializeBody E rec nm p v kw) := by
  have h1 : ∀ q x, Errs Z (rec (.serializeP nm q x kw)) := fun q x => errs_rec H hZ _ hs
  have h2 : ∀ r, Errs Z (rec (.hpSerialize r kw)) := fun r => errs_rec H hZ _ hs
  have h3 := errs_unionSerialize H hZ nm v kw hs
  unfold serializeBody
  split
  · errs H, hZ
  · split
    · errs H, hZ
    · split
      · repeat' (first | exact h1 _ _ | errs1 H, hZ)
      · repeat' (first | exact h1 _ _ | errs1 H, hZ)
      · repeat' (first | exact h2 _ | errs1 H, hZ)
      · exact h3 _
      · split
        · rename_i x hx
          refine errs_liftK _ fun k hk => ?_
          rcases scalarToJson_kind (hk ▸ hx) with rfl | rfl <;> exact hZ _ (.inl trivial)
        · errs H, hZ

theorem errs_hpSerializeBody (r : Nat) (kw : SerKw)
    (hs : ∀ k, access k ∨ k = .key ∨ k = .selfRef → Z k) :
    Errs Z (hpSerializeBody E rec r kw) := by
  have h1 : ∀ nm q x, Errs Z (rec (.serializeP nm q x kw)) := fun nm q x => errs_rec H hZ _ hs
  have h2 : Z .key := hs _ (.inr (.inl rfl))
  have h3 : Z .selfRef := hs _ (.inr (.inr rfl))
  unfold hpSerializeBody entrySerialize
  repeat' (first | exact h1 _ _ _ | errs1 H, hZ)

/-! ## Deserialization -/

theorem errs_deserializeClass (c : ClsId) (nm : Val) (t s : Bool) (hv : Z .value) :
    Errs Z (deserializeClass E c nm t s) := by
  unfold deserializeClass; errs H, hZ

theorem errs_unionDeserialize (nm : PyStr) (v : Val) (kw : DeKw)
    (hd : ∀ k, access k ∨ k = .value → Z k) : ∀ ps, Errs Z (unionDeserialize rec nm v kw ps)
  | [] => by unfold unionDeserialize; errs H, hZ
  | p :: ps => by
      have ih := errs_unionDeserialize nm v kw hd ps
      have h1 : ∀ q x, Errs Z (rec (.deserializeP nm q x kw)) := fun q x => errs_rec H hZ _ hd
      unfold unionDeserialize
      repeat' (first | exact h1 _ _ | errs1 H, hZ)

theorem errs_deserializeBody (nm : PyStr) (p : PropSpec) (v : Val) (kw : DeKw)
    (hd : ∀ k, access k ∨ k = .value → Z k) : Errs Z (deserializeBody E rec nm p v kw) := by
  have h1 : ∀ q x kw, Errs Z (rec (.deserializeP nm q x kw)) := fun q x kw => errs_rec H hZ _ hd
  have h2 : ∀ c x kw, Errs Z (rec (.hpDeserialize c x kw)) := fun c x kw => errs_rec H hZ _ hd
  have h3 : ∀ kw ps, Errs Z (unionDeserialize rec nm v kw ps) := fun kw =>
    errs_unionDeserialize H hZ nm v kw hd
  unfold deserializeBody
  split
  · errs H, hZ
  · split
    · errs H, hZ
    · split
      · repeat' (first | exact h1 _ _ _ | errs1 H, hZ)
      · repeat' (first | exact h1 _ _ _ | errs1 H, hZ)
      · exact h2 _ _ _
      · dsimp only
        split
        · exact h1 _ _ _
        · exact h3 _ _
      · split
        · rename_i x hx
          refine errs_liftK _ fun k hk => ?_
          rcases scalarFromJson_kind (hk ▸ hx) with rfl | rfl | rfl | rfl
          · exact hd _ (.inr rfl)
          all_goals exact hZ _ (.inl trivial)
        · errs H, hZ

omit H hZ in
theorem propState_known (props : List (PyStr × Entry)) : ∀ kvs, ∀ kv ∈ propState props kvs,
    (lookupS kv.1 props).isSome = true
  | [], kv, h => by simp [propState] at h
  | (k, v) :: rest, kv, h => by
      have ih := propState_known props rest kv
      cases k <;> simp only [propState] at h
      case str s =>
        split at h
        · rename_i hs
          rcases List.mem_cons.1 h with rfl | h
          · exact hs
          · exact ih h
        · exact ih h
      all_goals exact ih h

theorem errs_hpDeserializeBody (c : ClsId) (v : Val) (kw : DeKw)
    (hd : ∀ k, access k ∨ k = .value → Z k) : Errs Z (hpDeserializeBody E rec c v kw) := by
  have hv : Z .value := hd _ (.inr rfl)
  unfold hpDeserializeBody
  split
  · rename_i kvs
    refine errs_bind (errs_deserializeClass H hZ _ _ _ _ hv) fun outc => ?_
    dsimp only
    refine errs_bind (errs_raiseWhen _ _ ?_) fun _ => ?_
    · split
      · exact hv
      · exact hZ _ (.inl trivial)
    · refine (outs_bind (Q := fun _ => True) (outs_mapML (P := fun kv => (lookupS kv.1 (E.classes outc).props).isSome = true)
        _ fun kv hkv => ?_) fun st hst => ?_).errs
      · have hk := propState_known _ _ kv hkv
        unfold deserEntry
        split
        · rename_i hl; rw [hl] at hk; cases hk
        · rename_i e hl
          refine outs_bind (P := fun _ => True) (Errs.outs ?_) fun x _ => outs_pure hk
          unfold entryDeserialize
          repeat' (first | exact errs_rec H hZ _ hd | errs1 H, hZ)
      · refine Errs.outs (errs_bind (by errs H, hZ) fun inst => ?_)
        unfold deserFinish
        split
        · refine errs_bind (errs_forML_mem _ fun kv hkv => ?_) fun _ => ?_
          · have hk := hst kv (List.mem_filter.1 hkv).1
            unfold setImmutable
            split
            · rename_i hl; rw [hl] at hk; cases hk
            · unfold putStored; errs H, hZ
          · unfold assertBuilt; errs H, hZ
        · errs H, hZ
  · errs H, hZ

theorem errs_copyBody (v : Val) (skw : SerKw) (dkw : DeKw)
    (hc : ∀ k, access k ∨ k = .key ∨ k = .selfRef ∨ k = .value → Z k) :
    Errs Z (copyBody rec v skw dkw) := by
  have hv : Z .value := hc _ (.inr (.inr (.inr rfl)))
  have hs : ∀ k, access k ∨ k = .key ∨ k = .selfRef → Z k := fun k hk => hc k (by
    rcases hk with h | h | h <;> simp [h])
  have hd : ∀ k, access k ∨ k = .value → Z k := fun k hk => hc k (by
    rcases hk with h | h <;> simp [h])
  unfold copyBody
  split
  · exact errs_bind (by errs H, hZ) fun _ => errs_bind (errs_rec H hZ _ hs) fun _ => errs_rec H hZ _ hd
  · errs H, hZ

end

theorem step_errs {E : Env} {U : ErrKind → Prop} {rec : Rec} (H : ErrOk E U rec) (c : Call) :
    Errs (fun k => own c k ∨ U k) (step E rec c) := by
  have hA : ∀ k, access k ∨ U k → access k ∨ U k := fun _ h => h
  cases c with
  | validate nm p inst v => exact errs_validateBody H hA _ _ _ _
  | propEqual p a b => exact errs_propEqualBody H hA _ _ _
  | assertValid nm p r v => exact errs_assertValidBody H hA _ _ _ _
  | serializeP nm p v kw =>
    exact errs_serializeBody H (fun k hk => hk.imp .inl id) _ _ _ _ fun k hk => .inl hk
  | deserializeP nm p v kw =>
    exact errs_deserializeBody H (fun k hk => hk.imp .inl id) _ _ _ _ fun k hk => .inl hk
  | construct c kw => exact errs_constructBody H hA _ _
  | reset r name => exact errs_resetBody H hA _ _
  | getattr r name => exact errs_getattrBody H hA _ _
  | setattr r name v => exact errs_setattrBody H hA _ _ _
  | delattr r name => exact errs_delattrBody H hA _ _
  | hpValidate r => exact errs_hpValidateBody H hA _
  | validateProps r => exact errs_validatePropsBody H hA _
  | hpSerialize r kw =>
    exact errs_hpSerializeBody H (fun k hk => hk.imp .inl id) _ _ fun k hk => .inl hk
  | hpDeserialize c v kw =>
    exact errs_hpDeserializeBody H (fun k hk => hk.imp .inl id) _ _ _ fun k hk => .inl hk
  | equal a b => exact errs_equalBody H hA _ _
  | copy v skw dkw =>
    exact errs_copyBody H (fun k hk => hk.imp .inl id) _ _ _ fun k hk => .inl hk
  | observe r names mode fn =>
    show Errs _ (observeBody E r names mode fn)
    unfold observeBody
    exact errs_bind (errs_getObj _ (.inl (.inl rfl))) fun _ => errs_bind (errs_modObj _ _) fun _ =>
      errs_pure _
  | userGet => intro w e he; cases he
  | userPut v => intro w e he; cases he

theorem own_recursion (c : Call) : own c .recursion := by
  cases c <;> simp [own, access]

theorem run_errs {E : Env} {U : ErrKind → Prop} (hU : ∀ f args, Raises U (E.fn f args)) :
    ∀ n, ErrOk E U (run E n)
  | 0 => ⟨hU, fun c => errs_raiseK _ (.inl (own_recursion c))⟩
  | n + 1 => ⟨hU, fun c => step_errs (run_errs hU n) c⟩

end Verif
