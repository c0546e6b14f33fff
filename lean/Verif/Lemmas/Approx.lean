import Verif.Core.Interp
import Verif.Spec.Recursion

/-!
# Approximation: equal, unless the first one overflows
-/

set_option linter.unusedSectionVars false

namespace Verif
open Spec

/-- `m'` gives what `m` gives, wherever `m` does not overflow. -/
def Approx {α : Type} (m m' : M α) : Prop := ∀ w, Overflows (m w) ∨ m w = m' w

theorem approx_refl {α : Type} (m : M α) : Approx m m := fun _ => .inr rfl

theorem approx_bind {α β : Type} {m m' : M α} {f f' : α → M β} (hm : Approx m m')
    (hf : ∀ a, Approx (f a) (f' a)) : Approx (m >>= f) (m' >>= f') := by
  intro w
  show Overflows (M.bind m f w) ∨ M.bind m f w = M.bind m' f' w
  unfold M.bind
  rcases hm w with ⟨e, h, k⟩ | h
  · left
    cases hw : m w with
    | mk a b => rw [hw] at h; cases h; exact ⟨e, rfl, k⟩
  · rw [← h]
    cases m w with
    | mk a b => cases a with
      | error e => exact .inr rfl
      | ok a => exact hf a b

theorem approx_catchIf {α : Type} {pred : ErrKind → Bool} {m m' : M α} {k k' : PyErr → M α}
    (hp : pred .recursion = false) (hm : Approx m m') (hk : ∀ e, Approx (k e) (k' e)) :
    Approx (M.catchIf pred m k) (M.catchIf pred m' k') := by
  intro w
  unfold M.catchIf
  rcases hm w with ⟨e, h, h'⟩ | h
  · left
    cases hw : m w with
    | mk a b => rw [hw] at h; cases h; simp only [h', hp]; exact ⟨e, rfl, h'⟩
  · rw [← h]
    cases m w with
    | mk a b => cases a with
      | ok a => exact .inr rfl
      | error e =>
        dsimp only
        split
        · exact hk e b
        · exact .inr rfl

theorem approx_fin {α : Type} {m m' : M α} {f : World → World} (hm : Approx m m') :
    Approx (M.fin m f) (M.fin m' f) := by
  intro w
  unfold M.fin
  rcases hm w with ⟨e, h, h'⟩ | h
  · exact .inl ⟨e, h, h'⟩
  · rw [h]; exact .inr rfl

theorem approx_withDisabled {α : Type} {m m' : M α} (q : Quar) (hm : Approx m m') :
    Approx (withDisabled q m) (withDisabled q m') := by
  intro w
  unfold withDisabled
  rcases hm { w with quar := w.quar.union q } with ⟨e, h, h'⟩ | h
  · exact .inl ⟨e, h, h'⟩
  · rw [h]; exact .inr rfl

theorem approx_attempt_bind {α β : Type} {m m' : M α} {f f' : Except PyErr α → M β}
    (hm : Approx m m') (hf : ∀ a, Approx (f a) (f' a))
    (hr : ∀ e w, e.kind = .recursion → f (.error e) w = (.error e, w)) :
    Approx (M.attempt m >>= f) (M.attempt m' >>= f') := by
  intro w
  show Overflows (M.bind _ f w) ∨ M.bind _ f w = M.bind _ f' w
  unfold M.bind M.attempt
  rcases hm w with ⟨e, h, k⟩ | h
  · left
    dsimp only
    rw [h, hr e _ k]
    exact ⟨e, rfl, k⟩
  · rw [← h]; exact hf _ _

theorem approx_mapML {α β : Type} {f f' : α → M β} (hf : ∀ a, Approx (f a) (f' a)) :
    ∀ xs, Approx (mapML f xs) (mapML f' xs)
  | [] => approx_refl _
  | x :: xs => approx_bind (hf x) fun _ => approx_bind (approx_mapML hf xs) fun _ => approx_refl _

theorem approx_forML {α : Type} {f f' : α → M Unit} (hf : ∀ a, Approx (f a) (f' a)) :
    ∀ xs, Approx (forML f xs) (forML f' xs)
  | [] => approx_refl _
  | x :: xs => approx_bind (hf x) fun _ => approx_forML hf xs

theorem approx_foldML {α β : Type} {f f' : β → α → M β} (hf : ∀ b a, Approx (f b a) (f' b a)) :
    ∀ xs b, Approx (foldML f b xs) (foldML f' b xs)
  | [], _ => approx_refl _
  | x :: xs, b => approx_bind (hf b x) fun b' => approx_foldML hf xs b'

section
variable {rec rec' : Rec} (H : ∀ c, Approx (rec c) (rec' c))
include H

theorem approx_execProg : ∀ p, Transparent p → Approx (execProg rec p) (execProg rec' p)
  | .ret _, _ => approx_refl _
  | .raise _, _ => approx_refl _
  | .call c k, h => fun w => by
      unfold execProg
      rcases H c w with ⟨e, h1, h2⟩ | h1
      · left
        dsimp only
        rw [h1, h.1 e h2]
        exact ⟨e, rfl, h2⟩
      · rw [h1]; exact approx_execProg (k _) (h.2 _) _
  | .disabled q body k, h => fun w => by
      unfold execProg
      rcases approx_execProg body h.1 { w with quar := w.quar.union q } with ⟨e, h1, h2⟩ | h1
      · left
        dsimp only
        rw [h1, h.2.1 e h2]
        exact ⟨e, rfl, h2⟩
      · rw [h1]; exact approx_execProg (k _) (h.2.2 _) _

end

section
variable {E : Env} (hE : ∀ f args, Transparent (E.fn f args)) {rec rec' : Rec}
  (H : ∀ c, Approx (rec c) (rec' c))
include hE H

theorem approx_callFn (f : FnId) (args : List Val) :
    Approx (callFn E rec f args) (callFn E rec' f args) := approx_execProg H _ (hE f args)

end

/-- Proof search for `Approx` goals. -/
syntax "approx1" term "," term : tactic
macro_rules | `(tactic| approx1 $hE, $H) => `(tactic| first
  | with_reducible exact approx_refl _
  | with_reducible exact $H _
  | with_reducible exact approx_callFn $hE $H _ _
  | with_reducible assumption
  | with_reducible refine approx_bind ?_ (fun _ => ?_)
  | with_reducible refine approx_catchIf (by with_unfolding_all rfl) ?_ (fun _ => ?_)
  | with_reducible refine approx_fin ?_
  | with_reducible refine approx_withDisabled _ ?_
  | with_reducible refine approx_mapML (fun _ => ?_) _
  | with_reducible refine approx_forML (fun _ => ?_) _
  | with_reducible refine approx_foldML (fun _ _ => ?_) _ _
  | split
  | dsimp only)

macro "approx" hE:term "," H:term : tactic => `(tactic| repeat' (approx1 $hE, $H))

section
variable {E : Env} (hE : ∀ f args, Transparent (E.fn f args)) {rec rec' : Rec}
  (H : ∀ c, Approx (rec c) (rec' c))
include hE H

theorem approx_runHook (r : Nat) (ts : List ErrTuple) :
    Approx (runHook E rec r ts) (runHook E rec' r ts) := by unfold runHook; approx hE, H
macro_rules | `(tactic| approx1 $S, $H) => `(tactic| with_reducible exact approx_runHook $S $H _ _)

theorem approx_raiseVal {α : Type} (reason prop : Option PyStr) (inst : Option Nat) :
    Approx (raiseVal E rec reason prop inst : M α) (raiseVal E rec' reason prop inst) := by
  unfold raiseVal; approx hE, H
macro_rules | `(tactic| approx1 $S, $H) => `(tactic| with_reducible exact approx_raiseVal $S $H _ _ _)

theorem approx_propError {α : Type} (nm : PyStr) (inst : Option Nat) :
    Approx (propError E rec nm inst : M α) (propError E rec' nm inst) := approx_raiseVal hE H _ _ _
macro_rules | `(tactic| approx1 $S, $H) => `(tactic| with_reducible exact approx_propError $S $H _ _)

theorem approx_liftScalar (nm : PyStr) (inst : Option Nat) (x : Except SErr Val) :
    Approx (liftScalar E rec nm inst x) (liftScalar E rec' nm inst x) := by
  unfold liftScalar; approx hE, H
macro_rules | `(tactic| approx1 $S, $H) => `(tactic| with_reducible exact approx_liftScalar $S $H _ _ _)

theorem approx_tryProps (nm : PyStr) (inst : Option Nat) (f : PropSpec → Call) :
    ∀ ps, Approx (tryProps E rec nm inst f ps) (tryProps E rec' nm inst f ps)
  | [] => approx_propError hE H _ _
  | p :: ps => approx_catchIf rfl (H _) fun _ => approx_tryProps nm inst f ps
macro_rules | `(tactic| approx1 $S, $H) => `(tactic| with_reducible exact approx_tryProps $S $H _ _ _ _)

theorem approx_validateBody (nm : PyStr) (p : PropSpec) (inst : Option Nat) (v : Val) :
    Approx (validateBody E rec nm p inst v) (validateBody E rec' nm p inst v) := by
  unfold validateBody
  split
  · unfold seqValidate; approx hE, H
  · unfold dictValidate; approx hE, H
  · unfold instValidate; approx hE, H
  · approx hE, H
  · unfold colorBody; approx hE, H
  · approx hE, H

omit hE in
theorem approx_zipEqual (p : PropSpec) : ∀ xs ys, Approx (zipEqual rec p xs ys) (zipEqual rec' p xs ys)
  | [], _ => approx_refl _
  | _ :: _, [] => approx_refl _
  | _ :: xs, _ :: ys => approx_bind (H _) fun _ => approx_bind (approx_zipEqual p xs ys) fun _ =>
      approx_refl _

theorem approx_setRemove (p : PropSpec) (a : Val) :
    ∀ ys, Approx (setRemove rec p a ys) (setRemove rec' p a ys)
  | [] => approx_refl _
  | y :: ys => by
      have ih := approx_setRemove p a ys
      unfold setRemove
      approx hE, H

theorem approx_unionEqual (a b : Val) : ∀ ps, Approx (unionEqual rec a b ps) (unionEqual rec' a b ps)
  | [] => approx_refl _
  | p :: ps => by
      have ih := approx_unionEqual a b ps
      unfold unionEqual
      approx hE, H

theorem approx_propEqualBody (p : PropSpec) (a b : Val) :
    Approx (propEqualBody E rec p a b) (propEqualBody E rec' p a b) := by
  have h1 := approx_zipEqual H
  have h2 := approx_setRemove hE H
  have h3 := approx_unionEqual hE H
  unfold propEqualBody
  split
  · unfold setEqual; repeat' (first | exact h2 _ _ _ | approx1 hE, H)
  · unfold tupEqual; repeat' (first | exact h1 _ _ _ | approx1 hE, H)
  · unfold dictEqual; approx hE, H
  · approx hE, H
  · exact h3 _ _ _
  · approx hE, H

theorem approx_getattrBody (r : Nat) (name : PyStr) :
    Approx (getattrBody E rec r name) (getattrBody E rec' r name) := by
  unfold getattrBody; approx hE, H

theorem approx_notify (r : Nat) (mode : Mode) (name : PyStr) (prev v : Val) :
    Approx (notify E rec r mode name prev v) (notify E rec' r mode name prev v) := by
  unfold notify notifyOne; approx hE, H
macro_rules | `(tactic| approx1 $S, $H) => `(tactic| with_reducible exact approx_notify $S $H _ _ _ _ _)

theorem approx_setBody (r : Nat) (name : PyStr) (p : PropSpec) (v : Val) :
    Approx (setBody E rec r name p v) (setBody E rec' r name p v) := by
  unfold setBody; approx hE, H
macro_rules | `(tactic| approx1 $S, $H) => `(tactic| with_reducible exact approx_setBody $S $H _ _ _ _)

theorem approx_setattrBody (r : Nat) (name : PyStr) (v : Val) :
    Approx (setattrBody E rec r name v) (setattrBody E rec' r name v) := by
  unfold setattrBody assignBody; approx hE, H

theorem approx_delattrBody (r : Nat) (name : PyStr) :
    Approx (delattrBody E rec r name) (delattrBody E rec' r name) := by
  unfold delattrBody; approx hE, H

theorem approx_evalDflt (d : Dflt) : Approx (evalDflt E rec d) (evalDflt E rec' d) := by
  unfold evalDflt
  split
  case h_5 => exact approx_refl _
  all_goals approx hE, H
macro_rules | `(tactic| approx1 $S, $H) => `(tactic| with_reducible exact approx_evalDflt $S $H _)

theorem approx_entryValidate (name : PyStr) (e : Entry) (inst : Option Nat) (v : Val) :
    Approx (entryValidate rec name e inst v) (entryValidate rec' name e inst v) := by
  unfold entryValidate; approx hE, H
macro_rules | `(tactic| approx1 $S, $H) => `(tactic| with_reducible exact approx_entryValidate $S $H _ _ _ _)

theorem approx_resetBody (r : Nat) (name : Option PyStr) :
    Approx (resetBody E rec r name) (resetBody E rec' r name) := by
  unfold resetBody; approx hE, H

theorem approx_initStep (r : Nat) (c : ClassDef) (nv : Option PyErr) (kv : PyStr × Val) :
    Approx (initStep rec r c nv kv) (initStep rec' r c nv kv) := by
  have key : Approx (M.attempt (rec (.setattr r kv.1 kv.2)) >>= fun res => match res with
      | .ok _ => pure nv
      | .error e =>
        if e.kind = .validation then do
          addErrs r e.tuples
          pure nv
        else if e.kind.isGeneric then pure (nv.or (some e))
        else M.raise e) (M.attempt (rec' (.setattr r kv.1 kv.2)) >>= fun res => match res with
      | .ok _ => pure nv
      | .error e =>
        if e.kind = .validation then do
          addErrs r e.tuples
          pure nv
        else if e.kind.isGeneric then pure (nv.or (some e))
        else M.raise e) :=
    approx_attempt_bind (H _) (fun _ => approx_refl _) fun e w he => by simp [he, ErrKind.isGeneric, M.raise]
  unfold initStep
  dsimp only
  repeat' (first | exact key | exact approx_bind (approx_refl _) fun _ => key | split)
macro_rules | `(tactic| approx1 $S, $H) => `(tactic| with_reducible exact approx_initStep $S $H _ _ _ _)

theorem approx_raiseCollected (r : Nat) (nv : Option PyErr) :
    Approx (raiseCollected E rec r nv) (raiseCollected E rec' r nv) := by
  unfold raiseCollected; approx hE, H
macro_rules | `(tactic| approx1 $S, $H) => `(tactic| with_reducible exact approx_raiseCollected $S $H _ _)

theorem approx_constructBody (c : ClsId) (kw : List (PyStr × Val)) :
    Approx (constructBody E rec c kw) (constructBody E rec' c kw) := by
  unfold constructBody initBody gettableDefault; approx hE, H

theorem approx_validatorStep (r : Nat) (nv : Option PyErr) (val : Option FnId) :
    Approx (validatorStep E rec r nv val) (validatorStep E rec' r nv val) := by
  unfold validatorStep
  refine approx_attempt_bind ?_ (fun _ => approx_refl _) fun e w he => by
    simp [he, ErrKind.isGeneric, M.raise]
  approx hE, H
macro_rules | `(tactic| approx1 $S, $H) => `(tactic| with_reducible exact approx_validatorStep $S $H _ _ _)

theorem approx_hpValidateBody (r : Nat) : Approx (hpValidateBody E rec r) (hpValidateBody E rec' r) := by
  unfold hpValidateBody; approx hE, H

theorem approx_entryEqual (e : Entry) (a b : Val) :
    Approx (entryEqual rec e a b) (entryEqual rec' e a b) := by
  unfold entryEqual; approx hE, H
macro_rules | `(tactic| approx1 $S, $H) => `(tactic| with_reducible exact approx_entryEqual $S $H _ _ _)

theorem approx_entryAssert (nm : PyStr) (e : Entry) (r : Nat) :
    Approx (entryAssert E rec nm e r) (entryAssert E rec' nm e r) := by
  unfold entryAssert gettableAssert; approx hE, H
macro_rules | `(tactic| approx1 $S, $H) => `(tactic| with_reducible exact approx_entryAssert $S $H _ _ _)

theorem approx_validatePropsBody (r : Nat) :
    Approx (validatePropsBody E rec r) (validatePropsBody E rec' r) := by
  unfold validatePropsBody validatePropStep; approx hE, H

theorem approx_assertItems (nm : PyStr) (item : PropSpec) (r : Nat) :
    ∀ xs, Approx (assertItems rec nm item r xs) (assertItems rec' nm item r xs)
  | [] => approx_refl _
  | x :: xs => by
      have ih := approx_assertItems nm item r xs
      unfold assertItems; approx hE, H
macro_rules | `(tactic| approx1 $S, $H) => `(tactic| with_reducible exact approx_assertItems $S $H _ _ _ _)

theorem approx_assertValidBody (nm : PyStr) (p : PropSpec) (r : Nat) (v : Val) :
    Approx (assertValidBody E rec nm p r v) (assertValidBody E rec' nm p r v) := by
  unfold assertValidBody baseAssert; approx hE, H

theorem approx_callWrapped (f : FnId) (v : Val) (kw : List Val) :
    Approx (callWrapped E rec f v kw) (callWrapped E rec' f v kw) := by
  unfold callWrapped; approx hE, H
macro_rules | `(tactic| approx1 $S, $H) => `(tactic| with_reducible exact approx_callWrapped $S $H _ _ _)

theorem approx_unionSerialize (nm : PyStr) (v : Val) (kw : SerKw) :
    ∀ ps, Approx (unionSerialize rec nm v kw ps) (unionSerialize rec' nm v kw ps)
  | [] => by unfold unionSerialize; approx hE, H
  | p :: ps => by
      have ih := approx_unionSerialize nm v kw ps
      unfold unionSerialize
      refine approx_attempt_bind (H _) (fun _ => ?_) fun e w he => by
        simp [he, ErrKind.isGeneric, M.raise]
      approx hE, H
macro_rules | `(tactic| approx1 $S, $H) => `(tactic| with_reducible exact approx_unionSerialize $S $H _ _ _ _)

theorem approx_serializeBody (nm : PyStr) (p : PropSpec) (v : Val) (kw : SerKw) :
    Approx (serializeBody E rec nm p v kw) (serializeBody E rec' nm p v kw) := by
  unfold serializeBody; approx hE, H

theorem approx_hpSerializeBody (r : Nat) (kw : SerKw) :
    Approx (hpSerializeBody E rec r kw) (hpSerializeBody E rec' r kw) := by
  unfold hpSerializeBody entrySerialize; approx hE, H

theorem approx_hpDeserializeBody (c : ClsId) (v : Val) (kw : DeKw) :
    Approx (hpDeserializeBody E rec c v kw) (hpDeserializeBody E rec' c v kw) := by
  unfold hpDeserializeBody deserEntry entryDeserialize deserFinish setImmutable assertBuilt
  approx hE, H

theorem approx_unionDeserialize (nm : PyStr) (v : Val) (kw : DeKw) :
    ∀ ps, Approx (unionDeserialize rec nm v kw ps) (unionDeserialize rec' nm v kw ps)
  | [] => approx_refl _
  | p :: ps => by
      have ih := approx_unionDeserialize nm v kw ps
      unfold unionDeserialize; approx hE, H
macro_rules | `(tactic| approx1 $S, $H) => `(tactic| with_reducible exact approx_unionDeserialize $S $H _ _ _ _)

theorem approx_deserializeBody (nm : PyStr) (p : PropSpec) (v : Val) (kw : DeKw) :
    Approx (deserializeBody E rec nm p v kw) (deserializeBody E rec' nm p v kw) := by
  unfold deserializeBody; approx hE, H

theorem approx_equalLoop (a b : Nat) : ∀ ps, Approx (equalLoop rec a b ps) (equalLoop rec' a b ps)
  | [] => approx_refl _
  | (nm, e) :: ps => by
      have ih := approx_equalLoop a b ps
      unfold equalLoop; approx hE, H
macro_rules | `(tactic| approx1 $S, $H) => `(tactic| with_reducible exact approx_equalLoop $S $H _ _ _)

theorem approx_equalBody (a b : Val) : Approx (equalBody E rec a b) (equalBody E rec' a b) := by
  unfold equalBody; approx hE, H

theorem approx_copyBody (v : Val) (skw : SerKw) (dkw : DeKw) :
    Approx (copyBody rec v skw dkw) (copyBody rec' v skw dkw) := by
  unfold copyBody; approx hE, H

theorem approx_step (c : Call) : Approx (step E rec c) (step E rec' c) := by
  cases c
  · exact approx_validateBody hE H _ _ _ _
  · exact approx_propEqualBody hE H _ _ _
  · exact approx_assertValidBody hE H _ _ _ _
  · exact approx_serializeBody hE H _ _ _ _
  · exact approx_deserializeBody hE H _ _ _ _
  · exact approx_constructBody hE H _ _
  · exact approx_resetBody hE H _ _
  · exact approx_getattrBody hE H _ _
  · exact approx_setattrBody hE H _ _ _
  · exact approx_delattrBody hE H _ _
  · exact approx_hpValidateBody hE H _
  · exact approx_validatePropsBody hE H _
  · exact approx_hpSerializeBody hE H _ _
  · exact approx_hpDeserializeBody hE H _ _ _
  · exact approx_equalBody hE H _ _
  · exact approx_copyBody hE H _ _ _
  all_goals exact approx_refl _

end

/-- A larger recursion limit refines a smaller one. -/
theorem run_approx {E : Env} (hE : ∀ f args, Transparent (E.fn f args)) :
    ∀ n k c, Approx (run E n c) (run E (n + k) c)
  | 0, _, _ => fun w => .inl ⟨{ kind := .recursion }, rfl, rfl⟩
  | n + 1, k, c => by
      rw [Nat.succ_add]
      exact approx_step hE (run_approx hE n k) c

end Verif
