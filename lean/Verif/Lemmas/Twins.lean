import Verif.Spec.Twins
import Verif.Lemmas.Notify

/-!
# Nothing depends on the order of the stored entries
-/

set_option linter.unusedSectionVars false

namespace Verif
open Spec

/-- `m` gives the same result in states that differ in the order of the stored
entries only, and leaves such states. -/
def OrderBlind {α : Type} (m : M α) : Prop :=
  ∀ w w', SameWorld w w' → (m w).1 = (m w').1 ∧ SameWorld (m w).2 (m w').2

theorem blind_of {α : Type} {m : M α} (g : World → Except PyErr α) (h : World → World)
    (hm : ∀ w, m w = (g w, h w)) (h1 : ∀ w w', SameWorld w w' → g w = g w')
    (h2 : ∀ w w', SameWorld w w' → SameWorld (h w) (h w')) : OrderBlind m := by
  intro w w' hs
  rw [hm, hm]
  exact ⟨h1 w w' hs, h2 w w' hs⟩

theorem blind_pure {α : Type} (a : α) : OrderBlind (pure a : M α) := fun _ _ h => ⟨rfl, h⟩
theorem blind_ret (a : Val) : OrderBlind (M.ret a : M Val) := fun _ _ h => ⟨rfl, h⟩
theorem blind_raise {α : Type} (e : PyErr) : OrderBlind (M.raise e : M α) := fun _ _ h => ⟨rfl, h⟩
theorem blind_raiseK {α : Type} (k : ErrKind) : OrderBlind (raiseK k : M α) := fun _ _ h => ⟨rfl, h⟩
theorem blind_liftK {α : Type} (x : Except ErrKind α) : OrderBlind (liftK x) := by
  cases x
  · exact blind_raiseK _
  · exact blind_pure _
theorem blind_raiseWhen (b : Bool) (k : ErrKind) : OrderBlind (raiseWhen b k) := by
  unfold raiseWhen
  split
  · exact blind_raiseK _
  · exact blind_pure _

theorem blind_bind {α β : Type} {m : M α} {f : α → M β} (hm : OrderBlind m)
    (hf : ∀ a, OrderBlind (f a)) : OrderBlind (m >>= f) := by
  intro w w' hs
  show (M.bind m f w).1 = (M.bind m f w').1 ∧ SameWorld (M.bind m f w).2 (M.bind m f w').2
  unfold M.bind
  obtain ⟨h1, h2⟩ := hm w w' hs
  cases hw : m w with
  | mk a u => cases hw' : m w' with
    | mk a' u' =>
      rw [hw, hw'] at h1 h2
      cases h1
      cases a with
      | error e => exact ⟨rfl, h2⟩
      | ok a => exact hf a u u' h2

theorem blind_catchIf {α : Type} {pred : ErrKind → Bool} {m : M α} {k : PyErr → M α}
    (hm : OrderBlind m) (hk : ∀ e, OrderBlind (k e)) : OrderBlind (M.catchIf pred m k) := by
  intro w w' hs
  unfold M.catchIf
  obtain ⟨h1, h2⟩ := hm w w' hs
  cases hw : m w with
  | mk a u => cases hw' : m w' with
    | mk a' u' =>
      rw [hw, hw'] at h1 h2
      cases h1
      cases a with
      | ok a => exact ⟨rfl, h2⟩
      | error e =>
        dsimp only
        split
        · exact hk e u u' h2
        · exact ⟨rfl, h2⟩

theorem blind_attempt {α : Type} {m : M α} (hm : OrderBlind m) : OrderBlind (M.attempt m) := by
  intro w w' hs
  unfold M.attempt
  obtain ⟨h1, h2⟩ := hm w w' hs
  exact ⟨congrArg Except.ok h1, h2⟩

theorem blind_fin {α : Type} {m : M α} {f : World → World} (hm : OrderBlind m)
    (hf : ∀ w w', SameWorld w w' → SameWorld (f w) (f w')) : OrderBlind (M.fin m f) := by
  intro w w' hs
  unfold M.fin
  obtain ⟨h1, h2⟩ := hm w w' hs
  exact ⟨h1, hf _ _ h2⟩

theorem same_quar {w w' : World} (h : SameWorld w w') (q : Quar) :
    SameWorld { w with quar := q } { w' with quar := q } := by
  obtain ⟨os, rfl, h⟩ := h
  exact ⟨os, rfl, h⟩

theorem blind_withDisabled {α : Type} {m : M α} (q : Quar) (hm : OrderBlind m) : OrderBlind (withDisabled q m) := by
  intro w w' hs
  unfold withDisabled
  have hq : w'.quar = w.quar := by obtain ⟨os, rfl, _⟩ := hs; rfl
  rw [hq]
  obtain ⟨h1, h2⟩ := hm _ _ (same_quar hs (w.quar.union q))
  exact ⟨h1, same_quar h2 _⟩

theorem blind_mapML {α β : Type} {f : α → M β} (hf : ∀ a, OrderBlind (f a)) :
    ∀ xs, OrderBlind (mapML f xs)
  | [] => blind_pure _
  | x :: xs => blind_bind (hf x) fun _ => blind_bind (blind_mapML hf xs) fun _ => blind_pure _

theorem blind_forML {α : Type} {f : α → M Unit} (hf : ∀ a, OrderBlind (f a)) :
    ∀ xs, OrderBlind (forML f xs)
  | [] => blind_pure _
  | x :: xs => blind_bind (hf x) fun _ => blind_forML hf xs

theorem blind_foldML {α β : Type} {f : β → α → M β} (hf : ∀ b a, OrderBlind (f b a)) :
    ∀ xs b, OrderBlind (foldML f b xs)
  | [], _ => blind_pure _
  | x :: xs, b => blind_bind (hf b x) fun b' => blind_foldML hf xs b'

/-! ## Looking at and changing instances -/

theorem blind_getObj {α : Type} {r : Nat} {f : Obj → M α} (hf : ∀ o, OrderBlind (f o))
    (he : ∀ o b, (∀ k, lookupS k b = lookupS k o.backend) → f { o with backend := b } = f o) :
    OrderBlind (getObj r >>= f) := by
  intro w w' hs
  obtain ⟨os, rfl, hl, ho⟩ := id hs
  cases hw : w.objs[r]? with
  | none =>
    have hn : os[r]? = none := by
      rw [List.getElem?_eq_none_iff] at hw ⊢; omega
    have e1 : getObj r w = (.error { kind := .attr }, w) := by simp [getObj, hw]
    have e2 : getObj r { w with objs := os } = (.error { kind := .attr }, { w with objs := os }) := by
      simp [getObj, hn]
    have k1 : (getObj r >>= f) w = (.error { kind := .attr }, w) := by
      show M.bind _ _ _ = _
      unfold M.bind
      rw [e1]
    have k2 : (getObj r >>= f) { w with objs := os } = (.error { kind := .attr }, { w with objs := os }) := by
      show M.bind _ _ _ = _
      unfold M.bind
      rw [e2]
    rw [k1, k2]
    exact ⟨rfl, hs⟩
  | some o =>
    obtain ⟨o', h1, b, rfl, hb⟩ := ho r o hw
    have e1 : getObj r w = (.ok o, w) := by simp [getObj, hw]
    have e2 : getObj r { w with objs := os } = (.ok { o with backend := b }, { w with objs := os }) := by
      simp [getObj, h1]
    have k1 : (getObj r >>= f) w = f o w := by
      show M.bind _ _ _ = _
      unfold M.bind
      rw [e1]
    have k2 : (getObj r >>= f) { w with objs := os } = f o { w with objs := os } := by
      show M.bind _ _ _ = _
      unfold M.bind
      rw [e2]
      dsimp only
      rw [he o b hb]
    rw [k1, k2]
    exact hf o w _ hs

theorem blind_get {α : Type} {f : World → M α} (hf : ∀ w, OrderBlind (f w))
    (he : ∀ w os, f { w with objs := os } = f w) : OrderBlind (M.get >>= f) := by
  intro w w' hs
  obtain ⟨os, rfl, _⟩ := id hs
  show (f w w).1 = (f { w with objs := os } { w with objs := os }).1 ∧
    SameWorld (f w w).2 (f { w with objs := os } { w with objs := os }).2
  rw [he w os]
  exact hf w w _ hs

theorem same_setObj {w w' : World} (h : SameWorld w w') (r : Nat) {f : Obj → Obj}
    (hf : ∀ o b, (∀ k, lookupS k b = lookupS k o.backend) → SameObj (f o) (f { o with backend := b })) :
    SameWorld (w.setObj r f) (w'.setObj r f) := by
  obtain ⟨os, rfl, hl, ho⟩ := h
  refine ⟨os.modify r f, rfl, by simp [World.setObj, hl], fun i o hi => ?_⟩
  simp only [World.setObj, List.getElem?_modify] at hi ⊢
  cases hw : w.objs[i]? with
  | none => rw [hw] at hi; simp at hi
  | some o1 =>
    obtain ⟨o', h1, b, rfl, hb⟩ := ho i o1 hw
    rw [hw] at hi
    simp only [Option.map_eq_map, Option.map_some, Option.some.injEq] at hi
    rw [h1]
    refine ⟨_, rfl, ?_⟩
    subst hi
    by_cases hr : r = i
    · simp only [hr, if_true]; exact hf _ _ hb
    · simp only [hr, if_false]; exact ⟨b, rfl, hb⟩

theorem blind_modObj (r : Nat) {f : Obj → Obj}
    (hf : ∀ o b, (∀ k, lookupS k b = lookupS k o.backend) → SameObj (f o) (f { o with backend := b })) :
    OrderBlind (modObj r f) := fun _ _ hs => ⟨rfl, same_setObj hs r hf⟩

theorem blind_modify {f : World → World} (hf : ∀ w w', SameWorld w w' → SameWorld (f w) (f w')) :
    OrderBlind (M.modify f) := fun w w' hs => ⟨rfl, hf w w' hs⟩

theorem twin_clear (r : Nat) (w w' : World) (h : SameWorld w w') :
    SameWorld (clearValidating r w) (clearValidating r w') :=
  same_setObj h r fun _ b hb => ⟨b, rfl, hb⟩

theorem lookupS_both {k k' : PyStr} {v : Val} {b b' : List (PyStr × Val)}
    (h : ∀ k, lookupS k b = lookupS k b') :
    lookupS k' (setS k v b) = lookupS k' (setS k v b') ∧ lookupS k' (eraseS k b) = lookupS k' (eraseS k b') := by
  by_cases hk : k' = k
  · subst hk; simp only [lookupS_setS, lookupS_eraseS, and_self]
  · rw [lookupS_setS_ne hk, lookupS_setS_ne hk, lookupS_eraseS_ne hk, lookupS_eraseS_ne hk]
    exact ⟨h _, h _⟩

theorem blind_writeStored (r : Nat) (name : PyStr) (v : Val) : OrderBlind (writeStored r name v) := by
  refine blind_modObj r fun o b hb => ⟨_, rfl, fun k => ?_⟩
  dsimp only
  split
  · exact (lookupS_both (v := v) hb).2
  · exact (lookupS_both hb).1

theorem blind_putStored (r : Nat) (name : PyStr) (v : Val) : OrderBlind (putStored r name v) :=
  blind_modObj r fun o b hb => ⟨_, rfl, fun k => (lookupS_both hb).1⟩

theorem blind_setBackend (r : Nat) (v : Val) : OrderBlind (setBackend r v) := by
  unfold setBackend
  refine blind_bind (blind_modify fun w w' h => ?_) fun _ => ?_
  · obtain ⟨os, rfl, h⟩ := h; exact ⟨os, rfl, h⟩
  · split
    · exact blind_modObj r fun o b hb => ⟨_, rfl, fun k => rfl⟩
    · exact blind_modObj r fun o b hb => ⟨_, rfl, fun k => rfl⟩

theorem blind_entryOf (E : Env) (r : Nat) (name : PyStr) : OrderBlind (entryOf E r name) :=
  blind_getObj (fun _ => blind_pure _) fun _ _ _ => rfl

theorem blind_getStored (r : Nat) (name : PyStr) : OrderBlind (getStored r name) :=
  blind_getObj (fun _ => blind_pure _) fun o b hb => by simp only [hb]

theorem blind_addErrs (r : Nat) (ts : List ErrTuple) : OrderBlind (addErrs r ts) := by
  refine blind_getObj (fun o => ?_) fun _ _ _ => rfl
  split
  · exact blind_modObj r fun o b hb => ⟨b, rfl, hb⟩
  · exact blind_raiseK _

theorem blind_alloc (o : Obj) : OrderBlind (alloc o) := by
  intro w w' hs
  obtain ⟨os, rfl, hl, ho⟩ := hs
  refine ⟨by simp only [alloc, hl], os ++ [o], rfl, by simp [alloc, hl], fun i o1 hi => ?_⟩
  simp only [alloc] at hi
  by_cases h : i < w.objs.length
  · rw [List.getElem?_append_left h] at hi
    rw [List.getElem?_append_left (by omega)]
    exact ho i o1 hi
  · rw [List.getElem?_append_right (by omega)] at hi
    rw [List.getElem?_append_right (by omega), hl]
    exact ⟨o1, hi, o1.backend, rfl, fun _ => rfl⟩

theorem blind_draw (E : Env) : OrderBlind (draw E) := by
  rintro w _ ⟨os, rfl, h⟩
  exact ⟨rfl, os, rfl, h⟩

theorem blind_mkSeq (k : SeqKind) (xs : List Val) : OrderBlind (mkSeq k xs) := by
  unfold mkSeq
  repeat' first | exact blind_pure _ | exact blind_raiseK _ | split

theorem blind_mkDict (kvs : List (Val × Val)) : OrderBlind (mkDict kvs) := by
  unfold mkDict
  repeat' first | exact blind_pure _ | exact blind_raiseK _ | split

theorem blind_deserializeClass (E : Env) (c : ClsId) (nm : Val) (t s : Bool) :
    OrderBlind (deserializeClass E c nm t s) := by
  unfold deserializeClass
  dsimp only
  repeat' first | exact blind_pure _ | exact blind_raiseK _ | split

theorem blind_hookLog (t : Nat × List ErrTuple) :
    OrderBlind (M.modify (fun w => { w with hooks := w.hooks ++ [t] })) :=
  blind_modify fun w w' h => by obtain ⟨os, rfl, h⟩ := h; exact ⟨os, rfl, h⟩

theorem blind_trace (t : Event) :
    OrderBlind (M.modify (fun w => { w with trace := w.trace ++ [t] })) :=
  blind_modify fun w w' h => by obtain ⟨os, rfl, h⟩ := h; exact ⟨os, rfl, h⟩

section
variable {rec : Rec} (H : ∀ c, Orderless c → OrderBlind (rec c))
include H

theorem blind_execProg : ∀ p, OrderlessProg p → OrderBlind (execProg rec p)
  | .ret _, _ => blind_ret _
  | .raise _, _ => blind_raise _
  | .call c k, h => fun w w' hs => by
      unfold execProg
      obtain ⟨h1, h2⟩ := H c h.1 w w' hs
      dsimp only
      rw [h1]
      exact blind_execProg (k _) (h.2 _) _ _ h2
  | .disabled q body k, h => fun w w' hs => by
      unfold execProg
      have hq : w'.quar = w.quar := by obtain ⟨os, rfl, _⟩ := hs; rfl
      obtain ⟨h1, h2⟩ := blind_execProg body h.1 _ _ (same_quar hs (w.quar.union q))
      dsimp only
      rw [hq, h1]
      exact blind_execProg (k _) (h.2 _) _ _ (same_quar h2 _)

end

section
variable {E : Env} (hE : ∀ f args, OrderlessProg (E.fn f args)) {rec : Rec}
  (H : ∀ c, Orderless c → OrderBlind (rec c))
include hE H

theorem blind_callFn (f : FnId) (args : List Val) :
    OrderBlind (callFn E rec f args) := blind_execProg H _ (hE f args)

end

/-- Proof search for `OrderBlind` goals. -/
syntax "blind1" term "," term : tactic
macro_rules | `(tactic| blind1 $hE, $H) => `(tactic| first
  | with_reducible exact blind_pure _
  | with_reducible exact blind_raise _
  | with_reducible exact blind_raiseK _
  | with_reducible exact blind_liftK _
  | with_reducible exact blind_raiseWhen _ _
  | ((with_reducible refine $H _ ?_); first | exact True.intro | assumption)
  | with_reducible exact blind_callFn $hE $H _ _
  | with_reducible exact blind_entryOf _ _ _
  | with_reducible exact blind_getStored _ _
  | with_reducible exact blind_writeStored _ _ _
  | with_reducible exact blind_putStored _ _ _
  | with_reducible exact blind_setBackend _ _
  | with_reducible exact blind_addErrs _ _
  | with_reducible exact blind_alloc _
  | with_reducible exact blind_draw _
  | with_reducible exact blind_hookLog _
  | with_reducible exact blind_trace _
  | with_reducible assumption
  | with_reducible refine blind_getObj (fun _ => ?_) (by intros; rfl)
  | with_reducible refine blind_getObj (fun _ => ?_) (by intro o b hb; simp only [hb])
  | with_reducible refine blind_get (fun _ => ?_) (by intros; rfl)
  | with_reducible refine blind_bind ?_ (fun _ => ?_)
  | with_reducible refine blind_catchIf ?_ (fun _ => ?_)
  | with_reducible refine blind_attempt ?_
  | with_reducible refine blind_fin ?_ (twin_clear _)
  | ((with_reducible refine blind_fin ?_ ?_); rotate_left; exact fun w w' h => same_setObj h _ fun _ b hb => ⟨b, rfl, hb⟩)
  | ((with_reducible refine blind_modObj _ ?_); exact fun _ b hb => ⟨b, rfl, hb⟩)
  | with_reducible exact blind_mkSeq _ _
  | with_reducible exact blind_mkDict _
  | with_reducible exact blind_deserializeClass _ _ _ _ _
  | with_reducible refine blind_withDisabled _ ?_
  | with_reducible refine blind_mapML (fun _ => ?_) _
  | with_reducible refine blind_forML (fun _ => ?_) _
  | with_reducible refine blind_foldML (fun _ _ => ?_) _ _
  | split
  | dsimp only)

macro "blind" hE:term "," H:term : tactic => `(tactic| repeat' (blind1 $hE, $H))

section
variable {E : Env} (hE : ∀ f args, OrderlessProg (E.fn f args)) {rec : Rec}
  (H : ∀ c, Orderless c → OrderBlind (rec c))
include hE H

theorem blind_runHook (r : Nat) (ts : List ErrTuple) :
    OrderBlind (runHook E rec r ts) := by unfold runHook; blind hE, H
macro_rules | `(tactic| blind1 $S, $H) => `(tactic| with_reducible exact blind_runHook $S $H _ _)

theorem blind_raiseVal {α : Type} (reason prop : Option PyStr) (inst : Option Nat) :
    OrderBlind (raiseVal E rec reason prop inst : M α) := by
  unfold raiseVal; blind hE, H
macro_rules | `(tactic| blind1 $S, $H) => `(tactic| with_reducible exact blind_raiseVal $S $H _ _ _)

theorem blind_propError {α : Type} (nm : PyStr) (inst : Option Nat) :
    OrderBlind (propError E rec nm inst : M α) := blind_raiseVal hE H _ _ _
macro_rules | `(tactic| blind1 $S, $H) => `(tactic| with_reducible exact blind_propError $S $H _ _)

theorem blind_liftScalar (nm : PyStr) (inst : Option Nat) (x : Except SErr Val) :
    OrderBlind (liftScalar E rec nm inst x) := by
  unfold liftScalar; blind hE, H
macro_rules | `(tactic| blind1 $S, $H) => `(tactic| with_reducible exact blind_liftScalar $S $H _ _ _)

theorem blind_tryProps (nm : PyStr) (inst : Option Nat) (f : PropSpec → Call) (hf : ∀ p, Orderless (f p)) :
    ∀ ps, OrderBlind (tryProps E rec nm inst f ps)
  | [] => blind_propError hE H _ _
  | p :: ps => blind_catchIf (H _ (hf p)) fun _ => blind_tryProps nm inst f hf ps
macro_rules | `(tactic| blind1 $S, $H) => `(tactic| (with_reducible refine blind_tryProps $S $H _ _ _ ?_ _); exact fun _ => True.intro)

theorem blind_validateBody (nm : PyStr) (p : PropSpec) (inst : Option Nat) (v : Val) :
    OrderBlind (validateBody E rec nm p inst v) := by
  unfold validateBody
  split
  · unfold seqValidate; blind hE, H
  · unfold dictValidate; blind hE, H
  · unfold instValidate; blind hE, H
  · blind hE, H
  · unfold colorBody; blind hE, H
  · blind hE, H

omit hE in
theorem blind_zipEqual (p : PropSpec) : ∀ xs ys, OrderBlind (zipEqual rec p xs ys)
  | [], _ => blind_pure _
  | _ :: _, [] => blind_pure _
  | _ :: xs, _ :: ys => blind_bind (H _ trivial) fun _ => blind_bind (blind_zipEqual p xs ys) fun _ =>
      blind_pure _

theorem blind_setRemove (p : PropSpec) (a : Val) :
    ∀ ys, OrderBlind (setRemove rec p a ys)
  | [] => blind_pure _
  | y :: ys => by
      have ih := blind_setRemove p a ys
      unfold setRemove
      blind hE, H

theorem blind_unionEqual (a b : Val) : ∀ ps, OrderBlind (unionEqual rec a b ps)
  | [] => blind_pure _
  | p :: ps => by
      have ih := blind_unionEqual a b ps
      unfold unionEqual
      blind hE, H

theorem blind_propEqualBody (p : PropSpec) (a b : Val) :
    OrderBlind (propEqualBody E rec p a b) := by
  have h1 := blind_zipEqual H
  have h2 := blind_setRemove hE H
  have h3 := blind_unionEqual hE H
  unfold propEqualBody
  split
  · unfold setEqual; repeat' (first | exact h2 _ _ _ | blind1 hE, H)
  · unfold tupEqual; repeat' (first | exact h1 _ _ _ | blind1 hE, H)
  · unfold dictEqual; blind hE, H
  · blind hE, H
  · exact h3 _ _ _
  · blind hE, H

theorem blind_getattrBody (r : Nat) (name : PyStr) :
    OrderBlind (getattrBody E rec r name) := by
  unfold getattrBody; blind hE, H

theorem blind_notify (r : Nat) (mode : Mode) (name : PyStr) (prev v : Val) :
    OrderBlind (notify E rec r mode name prev v) := by
  unfold notify notifyOne; blind hE, H
macro_rules | `(tactic| blind1 $S, $H) => `(tactic| with_reducible exact blind_notify $S $H _ _ _ _ _)

theorem blind_setBody (r : Nat) (name : PyStr) (p : PropSpec) (v : Val) :
    OrderBlind (setBody E rec r name p v) := by
  unfold setBody; blind hE, H
macro_rules | `(tactic| blind1 $S, $H) => `(tactic| with_reducible exact blind_setBody $S $H _ _ _ _)

theorem blind_setattrBody (r : Nat) (name : PyStr) (v : Val) :
    OrderBlind (setattrBody E rec r name v) := by
  unfold setattrBody assignBody; blind hE, H

theorem blind_delattrBody (r : Nat) (name : PyStr) :
    OrderBlind (delattrBody E rec r name) := by
  unfold delattrBody; blind hE, H

theorem blind_evalDflt (d : Dflt) : OrderBlind (evalDflt E rec d) := by
  unfold evalDflt
  split
  case h_5 =>
    rintro w _ ⟨os, rfl, h⟩
    exact ⟨rfl, os, rfl, h⟩
  all_goals blind hE, H
macro_rules | `(tactic| blind1 $S, $H) => `(tactic| with_reducible exact blind_evalDflt $S $H _)

theorem blind_entryValidate (name : PyStr) (e : Entry) (inst : Option Nat) (v : Val) :
    OrderBlind (entryValidate rec name e inst v) := by
  unfold entryValidate; blind hE, H
macro_rules | `(tactic| blind1 $S, $H) => `(tactic| with_reducible exact blind_entryValidate $S $H _ _ _ _)

theorem blind_resetBody (r : Nat) (name : Option PyStr) :
    OrderBlind (resetBody E rec r name) := by
  unfold resetBody; blind hE, H

theorem blind_initStep (r : Nat) (c : ClassDef) (nv : Option PyErr) (kv : PyStr × Val) :
    OrderBlind (initStep rec r c nv kv) := by
  unfold initStep; blind hE, H
macro_rules | `(tactic| blind1 $S, $H) => `(tactic| with_reducible exact blind_initStep $S $H _ _ _ _)

theorem blind_raiseCollected (r : Nat) (nv : Option PyErr) :
    OrderBlind (raiseCollected E rec r nv) := by
  unfold raiseCollected; blind hE, H
macro_rules | `(tactic| blind1 $S, $H) => `(tactic| with_reducible exact blind_raiseCollected $S $H _ _)

theorem blind_constructBody (c : ClsId) (kw : List (PyStr × Val)) :
    OrderBlind (constructBody E rec c kw) := by
  unfold constructBody initBody gettableDefault; blind hE, H

theorem blind_validatorStep (r : Nat) (nv : Option PyErr) (val : Option FnId) :
    OrderBlind (validatorStep E rec r nv val) := by
  unfold validatorStep
  blind hE, H
macro_rules | `(tactic| blind1 $S, $H) => `(tactic| with_reducible exact blind_validatorStep $S $H _ _ _)

theorem blind_hpValidateBody (r : Nat) : OrderBlind (hpValidateBody E rec r) := by
  unfold hpValidateBody; blind hE, H

theorem blind_entryEqual (e : Entry) (a b : Val) :
    OrderBlind (entryEqual rec e a b) := by
  unfold entryEqual; blind hE, H
macro_rules | `(tactic| blind1 $S, $H) => `(tactic| with_reducible exact blind_entryEqual $S $H _ _ _)

theorem blind_entryAssert (nm : PyStr) (e : Entry) (r : Nat) :
    OrderBlind (entryAssert E rec nm e r) := by
  unfold entryAssert gettableAssert; blind hE, H
macro_rules | `(tactic| blind1 $S, $H) => `(tactic| with_reducible exact blind_entryAssert $S $H _ _ _)

theorem blind_validatePropsBody (r : Nat) :
    OrderBlind (validatePropsBody E rec r) := by
  unfold validatePropsBody validatePropStep; blind hE, H

theorem blind_assertItems (nm : PyStr) (item : PropSpec) (r : Nat) :
    ∀ xs, OrderBlind (assertItems rec nm item r xs)
  | [] => blind_pure _
  | x :: xs => by
      have ih := blind_assertItems nm item r xs
      unfold assertItems; blind hE, H
macro_rules | `(tactic| blind1 $S, $H) => `(tactic| with_reducible exact blind_assertItems $S $H _ _ _ _)

theorem blind_assertValidBody (nm : PyStr) (p : PropSpec) (r : Nat) (v : Val) :
    OrderBlind (assertValidBody E rec nm p r v) := by
  unfold assertValidBody baseAssert; blind hE, H

theorem blind_callWrapped (f : FnId) (v : Val) (kw : List Val) :
    OrderBlind (callWrapped E rec f v kw) := by
  unfold callWrapped; blind hE, H
macro_rules | `(tactic| blind1 $S, $H) => `(tactic| with_reducible exact blind_callWrapped $S $H _ _ _)

theorem blind_unionSerialize (nm : PyStr) (v : Val) (kw : SerKw) (hk : kw.saveDynamic = true) :
    ∀ ps, OrderBlind (unionSerialize rec nm v kw ps)
  | [] => by unfold unionSerialize; blind hE, H
  | p :: ps => by
      have ih := blind_unionSerialize nm v kw hk ps
      unfold unionSerialize
      blind hE, H
macro_rules | `(tactic| blind1 $S, $H) => `(tactic| with_reducible exact blind_unionSerialize $S $H _ _ _ (by assumption) _)

theorem blind_serializeBody (nm : PyStr) (p : PropSpec) (v : Val) (kw : SerKw) (hk : kw.saveDynamic = true) :
    OrderBlind (serializeBody E rec nm p v kw) := by
  unfold serializeBody; blind hE, H

theorem blind_hpSerializeBody (r : Nat) (kw : SerKw) (hk : kw.saveDynamic = true) :
    OrderBlind (hpSerializeBody E rec r kw) := by
  unfold hpSerializeBody entrySerialize; simp only [hk, if_true]; blind hE, H

theorem blind_hpDeserializeBody (c : ClsId) (v : Val) (kw : DeKw) :
    OrderBlind (hpDeserializeBody E rec c v kw) := by
  unfold hpDeserializeBody deserEntry entryDeserialize deserFinish setImmutable assertBuilt
  blind hE, H

theorem blind_unionDeserialize (nm : PyStr) (v : Val) (kw : DeKw) :
    ∀ ps, OrderBlind (unionDeserialize rec nm v kw ps)
  | [] => blind_pure _
  | p :: ps => by
      have ih := blind_unionDeserialize nm v kw ps
      unfold unionDeserialize; blind hE, H
macro_rules | `(tactic| blind1 $S, $H) => `(tactic| with_reducible exact blind_unionDeserialize $S $H _ _ _ _)

theorem blind_deserializeBody (nm : PyStr) (p : PropSpec) (v : Val) (kw : DeKw) :
    OrderBlind (deserializeBody E rec nm p v kw) := by
  unfold deserializeBody; blind hE, H

theorem blind_equalLoop (a b : Nat) : ∀ ps, OrderBlind (equalLoop rec a b ps)
  | [] => blind_pure _
  | (nm, e) :: ps => by
      have ih := blind_equalLoop a b ps
      unfold equalLoop; blind hE, H
macro_rules | `(tactic| blind1 $S, $H) => `(tactic| with_reducible exact blind_equalLoop $S $H _ _ _)

theorem blind_equalBody (a b : Val) : OrderBlind (equalBody E rec a b) := by
  unfold equalBody; blind hE, H

theorem blind_copyBody (v : Val) (skw : SerKw) (dkw : DeKw) (hk : skw.saveDynamic = true) :
    OrderBlind (copyBody rec v skw dkw) := by
  unfold copyBody; blind hE, H

theorem blind_observeBody (r : Nat) (names : ObsNames) (mode : Mode) (fn : FnId) :
    OrderBlind (observeBody E r names mode fn) := by
  unfold observeBody; blind hE, H

theorem blind_step (c : Call) (h : Orderless c) : OrderBlind (step E rec c) := by
  cases c
  · exact blind_validateBody hE H _ _ _ _
  · exact blind_propEqualBody hE H _ _ _
  · exact blind_assertValidBody hE H _ _ _ _
  · exact blind_serializeBody hE H _ _ _ _ h
  · exact blind_deserializeBody hE H _ _ _ _
  · exact blind_constructBody hE H _ _
  · exact blind_resetBody hE H _ _
  · exact blind_getattrBody hE H _ _
  · exact blind_setattrBody hE H _ _ _
  · exact blind_delattrBody hE H _ _
  · exact blind_hpValidateBody hE H _
  · exact blind_validatePropsBody hE H _
  · exact blind_hpSerializeBody hE H _ _ h
  · exact blind_hpDeserializeBody hE H _ _ _
  · exact blind_equalBody hE H _ _
  · exact blind_copyBody hE H _ _ _ h
  · exact blind_observeBody hE H _ _ _ _
  · rintro w _ ⟨os, rfl, h⟩
    exact ⟨rfl, os, rfl, h⟩
  · rintro w _ ⟨os, rfl, h⟩
    exact ⟨rfl, os, rfl, h⟩

end

/-- Nothing depends on the order of the stored entries. -/
theorem run_blind {E : Env} (hE : ∀ f args, OrderlessProg (E.fn f args)) :
    ∀ n c, Orderless c → OrderBlind (run E n c)
  | 0, _, _ => blind_raiseK _
  | n + 1, c, h => blind_step hE (run_blind hE n) c h

end Verif
