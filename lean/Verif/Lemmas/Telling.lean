import Verif.Core.Interp
import Verif.Lemmas.Errs
import Verif.Spec.Telling

/-!
# What the ValidationErrors of computations say

`Tell T m`: from states with proper error tuples `m` leads to such states, and
a ValidationError it ends with has error tuples.  `run_tell` is the induction
over the recursion limit.
-/

set_option linter.unusedSectionVars false

namespace Verif
open Spec.Tell

/-- As `Tell`, and results satisfy `P`. -/
def TOuts {α : Type} (T : ErrTuple → Prop) (P : α → Prop) (m : M α) : Prop :=
  ∀ w, Kept T w → Kept T (m w).2 ∧ (∀ a, (m w).1 = .ok a → P a) ∧
    ∀ e, (m w).1 = .error e → Tells T e

def Tell {α : Type} (T : ErrTuple → Prop) (m : M α) : Prop :=
  ∀ w, Kept T w → Kept T (m w).2 ∧ ∀ e, (m w).1 = .error e → Tells T e

theorem TOuts.tell {α : Type} {T : ErrTuple → Prop} {P : α → Prop} {m : M α} (h : TOuts T P m) :
    Tell T m := fun w hw => ⟨(h w hw).1, (h w hw).2.2⟩

theorem Tell.touts {α : Type} {T : ErrTuple → Prop} {m : M α} (h : Tell T m) :
    TOuts T (fun _ => True) m := fun w hw => ⟨(h w hw).1, fun _ _ => trivial, (h w hw).2⟩

theorem tells_other {T : ErrTuple → Prop} {e : PyErr} (h : e.kind ≠ .validation) : Tells T e :=
  fun h' => absurd h' h

section
variable {T : ErrTuple → Prop}

theorem kept_setObj {w : World} (h : Kept T w) (r : Nat) (f : Obj → Obj)
    (hf : ∀ o, (∀ es, o.errs = some es → ∀ t ∈ es, T t) → ∀ es, (f o).errs = some es → ∀ t ∈ es, T t) :
    Kept T (w.setObj r f) := by
  refine ⟨fun o ho => ?_, h.2⟩
  obtain ⟨i, hi⟩ := List.mem_iff_getElem?.1 ho
  simp only [World.setObj, List.getElem?_modify] at hi
  cases hx : w.objs[i]? with
  | none => rw [hx] at hi; cases hi
  | some x =>
    rw [hx] at hi
    have hm : x ∈ w.objs := List.mem_of_getElem? hx
    have : o = if r = i then f x else x := (Option.some.inj hi).symm
    subst this
    split
    · exact hf x (h.1 x hm)
    · exact h.1 x hm

theorem tell_pure {α : Type} (a : α) : Tell T (pure a : M α) := fun _ h => ⟨h, fun _ h => by cases h⟩
theorem tell_ret {α : Type} (a : α) : Tell T (M.ret a) := fun _ h => ⟨h, fun _ h => by cases h⟩
theorem tell_get : Tell T M.get := fun _ h => ⟨h, fun _ h => by cases h⟩
/-- Changes that leave instances and the calls of hooks alone. -/
theorem tell_modify (f : World → World) (h1 : ∀ w, (f w).objs = w.objs)
    (h2 : ∀ w, (f w).hooks = w.hooks) : Tell T (M.modify f) := fun w h =>
  ⟨⟨fun o ho => h.1 o (h1 w ▸ ho), fun x hx => h.2 x (h2 w ▸ hx)⟩, fun _ h => by cases h⟩
theorem tell_raise {α : Type} (e : PyErr) (h : Tells T e) : Tell T (M.raise e : M α) :=
  fun _ hw => ⟨hw, fun _ he => by cases he; exact h⟩
theorem tell_raiseK {α : Type} (k : ErrKind) (h : k ≠ .validation) : Tell T (raiseK k : M α) :=
  fun _ hw => ⟨hw, fun _ he => by cases he; exact tells_other h⟩
theorem tell_modObj' (r : Nat) (f : Obj → Obj)
    (hf : ∀ o, (∀ es, o.errs = some es → ∀ t ∈ es, T t) → ∀ es, (f o).errs = some es → ∀ t ∈ es, T t) :
    Tell T (modObj r f) := fun _ hw => ⟨kept_setObj hw r f hf, fun _ h => by cases h⟩
theorem tell_modObj (r : Nat) (f : Obj → Obj) (hf : ∀ o, (f o).errs = o.errs) :
    Tell T (modObj r f) := tell_modObj' r f fun o h es he => h es (hf o ▸ he)
theorem tell_begin (r : Nat) :
    Tell T (modObj r (fun o => { o with gv := some true, errs := some [] })) :=
  tell_modObj' r _ fun o _ es he t ht => by cases he; cases ht
theorem tell_raiseWhen (b : Bool) (k : ErrKind) (h : k ≠ .validation) : Tell T (raiseWhen b k) := by
  unfold raiseWhen; split
  · exact tell_raiseK _ h
  · exact tell_pure _
theorem tell_getObj (r : Nat) : Tell T (getObj r) := by
  intro w hw
  refine ⟨?_, fun e he => ?_⟩
  · unfold getObj; split <;> exact hw
  · unfold getObj at he
    split at he <;> cases he
    exact tells_other (by decide)
theorem touts_getObj (r : Nat) :
    TOuts T (fun o => ∀ es, o.errs = some es → ∀ t ∈ es, T t) (getObj r) := by
  intro w hw
  refine ⟨(tell_getObj r w hw).1, fun o ho => ?_, (tell_getObj r w hw).2⟩
  unfold getObj at ho
  split at ho
  · rename_i x hx
    cases ho
    exact hw.1 _ (List.mem_of_getElem? hx)
  · cases ho
theorem tell_liftK {α : Type} (x : Except ErrKind α) (h : ∀ k, x = .error k → k ≠ .validation) :
    Tell T (liftK x) := by
  cases x with
  | ok a => exact tell_pure _
  | error k => exact tell_raiseK _ (h k rfl)

theorem touts_bind {α β : Type} {P : α → Prop} {Q : β → Prop} {m : M α} {f : α → M β}
    (hm : TOuts T P m) (hf : ∀ a, P a → TOuts T Q (f a)) : TOuts T Q (m >>= f) := by
  intro w hw
  have h1 := hm w hw
  have e : (m >>= f) w = M.bind m f w := rfl
  rw [e]
  unfold M.bind
  split
  · rename_i a w' heq; rw [heq] at h1; exact hf a (h1.2.1 a rfl) w' h1.1
  · rename_i e w' heq; rw [heq] at h1
    exact ⟨h1.1, fun _ h => (by cases h), fun e' h => (by cases h; exact h1.2.2 e rfl)⟩

theorem touts_pure {α : Type} {P : α → Prop} {a : α} (h : P a) : TOuts T P (pure a : M α) :=
  fun _ hw => ⟨hw, fun _ h' => (by cases h'; exact h), fun _ h' => (by cases h')⟩

theorem touts_raise {α : Type} {P : α → Prop} {e : PyErr} (h : Tells T e) :
    TOuts T P (M.raise e : M α) :=
  fun _ hw => ⟨hw, fun _ h' => (by cases h'), fun _ h' => (by cases h'; exact h)⟩

theorem tell_bind {α β : Type} {m : M α} {f : α → M β} (hm : Tell T m)
    (hf : ∀ a, Tell T (f a)) : Tell T (m >>= f) :=
  (touts_bind hm.touts fun a _ => (hf a).touts).tell

theorem tell_catchIf {α : Type} {pred : ErrKind → Bool} {m : M α} {k : PyErr → M α}
    (hm : Tell T m) (hk : ∀ e, Tells T e → pred e.kind = true → Tell T (k e)) :
    Tell T (M.catchIf pred m k) := by
  intro w hw
  have h1 := hm w hw
  unfold M.catchIf
  split
  · rename_i a w' heq; rw [heq] at h1; exact ⟨h1.1, fun _ h => (by cases h)⟩
  · rename_i e' w' heq
    rw [heq] at h1
    split
    · rename_i hp; exact hk e' (h1.2 e' rfl) hp w' h1.1
    · exact h1

theorem touts_attempt {α : Type} {m : M α} (hm : Tell T m) :
    TOuts T (fun r => ∀ e, r = .error e → Tells T e) (M.attempt m) :=
  fun w hw => ⟨(hm w hw).1, fun r h e he => (by cases h; exact (hm w hw).2 e he),
    fun _ h => (by cases h)⟩

theorem tell_attempt {α β : Type} {m : M α} {f : Except PyErr α → M β} (hm : Tell T m)
    (hf : ∀ r, (∀ e, r = .error e → Tells T e) → Tell T (f r)) : Tell T (M.attempt m >>= f) :=
  (touts_bind (touts_attempt hm) fun r h => (hf r h).touts).tell

theorem tell_mapML {α β : Type} {f : α → M β} (hf : ∀ a, Tell T (f a)) :
    ∀ xs, Tell T (mapML f xs)
  | [] => tell_pure _
  | x :: xs => tell_bind (hf x) fun _ => tell_bind (tell_mapML hf xs) fun _ => tell_pure _

theorem tell_forML {α : Type} {f : α → M Unit} (hf : ∀ a, Tell T (f a)) :
    ∀ xs, Tell T (forML f xs)
  | [] => tell_pure _
  | x :: xs => tell_bind (hf x) fun _ => tell_forML hf xs

theorem tell_foldML {α β : Type} {f : β → α → M β} (hf : ∀ b a, Tell T (f b a)) :
    ∀ xs b, Tell T (foldML f b xs)
  | [], _ => tell_pure _
  | x :: xs, b => tell_bind (hf b x) fun b' => tell_foldML hf xs b'

theorem touts_foldML {α β : Type} {P : β → Prop} {f : β → α → M β}
    (hf : ∀ b a, P b → TOuts T P (f b a)) : ∀ xs b, P b → TOuts T P (foldML f b xs)
  | [], _, h => touts_pure h
  | x :: xs, b, h => touts_bind (hf b x h) fun b' h' => touts_foldML hf xs b' h'

theorem tell_fin' {α : Type} {m : M α} {f : World → World} (hm : Tell T m)
    (hf : ∀ w, Kept T w → Kept T (f w)) : Tell T (M.fin m f) :=
  fun w hw => ⟨hf _ (hm w hw).1, (hm w hw).2⟩

theorem tell_fin {α : Type} {m : M α} {r : Nat} {f : Obj → Obj} (hm : Tell T m)
    (hf : ∀ o, (f o).errs = o.errs) : Tell T (M.fin m (fun w => w.setObj r f)) :=
  tell_fin' hm fun _ hw => kept_setObj hw r f fun o h es he => h es (hf o ▸ he)

theorem tell_finClear {α : Type} {m : M α} {r : Nat} (hm : Tell T m) :
    Tell T (M.fin m (clearValidating r)) :=
  tell_fin' hm fun _ hw => kept_setObj hw r _ fun o h es he => by cases he

theorem tell_withDisabled {α : Type} (q : Quar) {m : M α} (hm : Tell T m) :
    Tell T (withDisabled q m) := fun w hw =>
  have h := hm { w with quar := w.quar.union q } ⟨hw.1, hw.2⟩
  ⟨⟨h.1.1, h.1.2⟩, h.2⟩

end

/-- The calls made by a method tell, user code is honest. -/
structure TellOk (E : Env) (T : ErrTuple → Prop) (rec : Rec) : Prop where
  form : ∀ t, Form t → T t
  fns : ∀ f args, Honest T (E.fn f args)
  calls : ∀ c, Tell T (rec c)

section
variable {E : Env} {T : ErrTuple → Prop} {rec : Rec} (H : TellOk E T rec)
include H

theorem tell_execProg : ∀ p, Honest T p → Tell T (execProg rec p)
  | .ret v, _ => tell_ret v
  | .raise e, h => tell_raise e h
  | .call c k, h => fun w hw =>
      tell_execProg (k _) (h _ fun e' he' => (H.calls c w hw).2 e' he') _ (H.calls c w hw).1
  | .disabled q body k, h => fun w hw =>
      have h1 := tell_execProg body h.1 { w with quar := w.quar.union q } ⟨hw.1, hw.2⟩
      tell_execProg (k _) (h.2 _ fun e' he' => h1.2 e' he') _ ⟨h1.1.1, h1.1.2⟩

theorem tell_callFn (f : FnId) (args : List Val) : Tell T (callFn E rec f args) :=
  tell_execProg H _ (H.fns f args)

theorem tell_rec (c : Call) : Tell T (rec c) := H.calls c

end

syntax "tell1" term : tactic
macro_rules | `(tactic| tell1 $H) => `(tactic| first
  | with_reducible exact tell_pure _
  | with_reducible exact tell_ret _
  | with_reducible exact tell_get
  | with_reducible exact tell_modify _ (fun _ => rfl) (fun _ => rfl)
  | with_reducible exact tell_modObj _ _ (fun _ => rfl)
  | with_reducible exact tell_begin _
  | with_reducible exact tell_raiseK _ (by decide)
  | with_reducible exact tell_raise _ (by assumption)
  | with_reducible exact tell_raiseWhen _ _ (by decide)
  | with_reducible exact tell_getObj _
  | with_reducible exact tell_callFn $H _ _
  | exact tell_rec $H _
  | with_reducible assumption
  | with_reducible refine tell_attempt ?_ (fun _ _ => ?_)
  | with_reducible refine tell_bind ?_ (fun _ => ?_)
  | with_reducible refine tell_catchIf ?_ (fun _ _ _ => ?_)
  | with_reducible refine tell_mapML (fun _ => ?_) _
  | with_reducible refine tell_forML (fun _ => ?_) _
  | with_reducible refine tell_foldML (fun _ _ => ?_) _ _
  | with_reducible refine tell_finClear ?_
  | with_reducible refine tell_fin ?_ (fun _ => rfl)
  | with_reducible refine tell_withDisabled _ ?_
  | split
  | dsimp only)

macro "tell" H:term : tactic => `(tactic| repeat' (tell1 $H))

section
variable {E : Env} {T : ErrTuple → Prop} {rec : Rec} (H : TellOk E T rec)
include H

theorem tell_runHook (r : Nat) (ts : List ErrTuple) (hts : Says T ts) :
    Tell T (runHook E rec r ts) := by
  unfold runHook
  refine tell_bind (tell_getObj _) fun _ => tell_bind (fun w hw => ⟨⟨hw.1, ?_⟩, fun _ h => (by cases h)⟩) fun _ => (by tell H)
  intro x hx
  rcases List.mem_append.1 hx with hx | hx
  · exact hw.2 x hx
  · rcases List.mem_singleton.1 hx with rfl
    exact hts

theorem tell_raiseVal' {α : Type} (reason prop : Option PyStr) (inst : Option Nat)
    (ht : T ⟨reason, prop, inst⟩) : Tell T (raiseVal E rec reason prop inst : M α) := by
  have hts : Says T [⟨reason, prop, inst⟩] := ⟨by simp, by simpa using ht⟩
  have he : Tells T ⟨.validation, [⟨reason, prop, inst⟩]⟩ := fun _ => hts
  have h1 := fun r => tell_runHook H r _ hts
  unfold raiseVal
  dsimp only
  repeat' (first | exact h1 _ | tell1 H)

theorem tell_invalid {α : Type} (nm : PyStr) (inst : Option Nat) :
    Tell T (raiseVal E rec (some (s% "invalid")) (some nm) inst : M α) :=
  tell_raiseVal' H _ _ _ (H.form _ (.inr (.inl ⟨rfl, rfl⟩)))
macro_rules | `(tactic| tell1 $H) => `(tactic| with_reducible exact tell_invalid $H _ _)

theorem tell_missing {α : Type} (nm : PyStr) (r : Nat) :
    Tell T (raiseVal E rec (some (s% "missing")) (some nm) (some r) : M α) :=
  tell_raiseVal' H _ _ _ (H.form _ (.inl ⟨rfl, rfl, rfl⟩))
macro_rules | `(tactic| tell1 $H) => `(tactic| with_reducible exact tell_missing $H _ _)

theorem tell_failed {α : Type} (i : Option Nat) : Tell T (raiseVal E rec none none i : M α) :=
  tell_raiseVal' H _ _ _ (H.form _ (.inr (.inr ⟨rfl, rfl⟩)))
macro_rules | `(tactic| tell1 $H) => `(tactic| with_reducible exact tell_failed $H _)

theorem tell_propError {α : Type} (nm : PyStr) (inst : Option Nat) :
    Tell T (propError E rec nm inst : M α) := tell_invalid H _ _
macro_rules | `(tactic| tell1 $H) => `(tactic| with_reducible exact tell_propError $H _ _)

theorem tell_liftScalar (nm : PyStr) (inst : Option Nat) (x : Except SErr Val)
    (hx : ∀ k, x = .error (.raw k) → k = .overflow) : Tell T (liftScalar E rec nm inst x) := by
  unfold liftScalar
  split
  · tell H
  · have := hx _ rfl
    subst this
    tell H
  · tell H
  · tell H

omit H in
theorem tell_mkSeq (k : SeqKind) (xs : List Val) : Tell T (mkSeq k xs) := by
  unfold mkSeq
  repeat' (first | exact tell_pure _ | exact tell_raiseK _ (by decide) | split)
macro_rules | `(tactic| tell1 $H) => `(tactic| with_reducible exact tell_mkSeq _ _)

omit H in
theorem tell_mkDict (xs : List (Val × Val)) : Tell T (mkDict xs) := by
  unfold mkDict
  repeat' (first | exact tell_pure _ | exact tell_raiseK _ (by decide) | split)
macro_rules | `(tactic| tell1 $H) => `(tactic| with_reducible exact tell_mkDict _)

theorem tell_tryProps (nm : PyStr) (inst : Option Nat) (f : PropSpec → Call) : ∀ ps, Tell T (tryProps E rec nm inst f ps)
  | [] => by unfold tryProps; tell H
  | p :: ps => by
      unfold tryProps
      exact tell_catchIf (tell_rec H _) fun _ _ _ => tell_tryProps nm inst f ps

theorem tell_colorBody (nm : PyStr) (inst : Option Nat) (v : Val) :
    Tell T (colorBody E rec nm inst v) := by
  have hc : ∀ n x k, colorValidate E n x = .error (.raw k) → k = .overflow := fun n x k h =>
    (scalarValidate_kind (ty := .color) (n := n) (congrArg some h)).1
  unfold colorBody
  split
  · refine tell_bind ?_ fun n => tell_liftScalar H _ _ _ (hc _ _)
    split
    · exact fun w hw => ⟨⟨hw.1, hw.2⟩, fun _ h => (by cases h)⟩
    · exact tell_pure _
  · exact tell_liftScalar H _ _ _ (hc _ _)

theorem tell_validateBody (nm : PyStr) (p : PropSpec) (inst : Option Nat) (v : Val) :
    Tell T (validateBody E rec nm p inst v) := by
  unfold validateBody
  split
  · unfold seqValidate; tell H
  · unfold dictValidate; tell H
  · unfold instValidate; tell H
  · exact tell_tryProps H nm inst (fun p => .validate nm p inst v) _
  · exact tell_colorBody H _ _ _
  · split
    · rename_i x hx
      exact tell_liftScalar H _ _ _ fun k hk => (scalarValidate_kind (hk ▸ hx)).1
    · tell H

theorem tell_zipEqual (p : PropSpec) : ∀ xs ys, Tell T (zipEqual rec p xs ys) := by
  intro xs
  induction xs with
  | nil => intro ys; unfold zipEqual; tell H
  | cons x xs ih =>
    intro ys
    cases ys with
    | nil => unfold zipEqual; tell H
    | cons y ys =>
      have := ih ys
      unfold zipEqual
      tell H

theorem tell_setRemove (p : PropSpec) (a : Val) : ∀ ys, Tell T (setRemove rec p a ys)
  | [] => by unfold setRemove; tell H
  | y :: ys => by
      have ih := tell_setRemove p a ys
      unfold setRemove
      tell H

theorem tell_unionEqual (a b : Val) : ∀ ps, Tell T (unionEqual rec a b ps)
  | [] => by unfold unionEqual; tell H
  | p :: ps => by
      have ih := tell_unionEqual a b ps
      unfold unionEqual
      tell H

theorem tell_dictEqual (vp : PropSpec) (a b : Val) : Tell T (dictEqual rec vp a b) := by
  have h1 : ∀ {x : Except ErrKind Val}, (∀ k, x = .error k → k = .index ∨ k = .key ∨ k = .type) →
      Tell T (liftK x) := fun hx => tell_liftK _ fun k hk => by
    rcases hx k hk with rfl | rfl | rfl <;> decide
  have h2 : ∀ x y, Tell T (liftK (pyIndex x y)) := fun x y => h1 fun k => pyIndex_kind
  have h3 : ∀ x y, Tell T (liftK (pyPop x y)) := fun x y => h1 fun k => pyPop_kind
  unfold dictEqual
  repeat' (first | exact h2 _ _ | exact h3 _ _ | tell1 H)

theorem tell_propEqualBody (p : PropSpec) (a b : Val) :
    Tell T (propEqualBody E rec p a b) := by
  have h1 := tell_zipEqual H
  have h2 := tell_setRemove H
  have h3 := tell_unionEqual H
  unfold propEqualBody
  split
  · unfold setEqual; repeat' (first | exact h2 _ _ _ | tell1 H)
  · unfold tupEqual; repeat' (first | exact h1 _ _ _ | tell1 H)
  · exact tell_dictEqual H _ _ _
  · tell H
  · exact h3 _ _ _
  · split
    · rename_i x hx
      refine tell_bind (tell_liftK _ fun k hk => ?_) fun _ => tell_pure _
      have := scalarEqual_kind (hk ▸ hx)
      subst this
      decide
    · tell H

theorem tell_getStored (r : Nat) (name : PyStr) : Tell T (getStored r name) := by
  unfold getStored; tell H
macro_rules | `(tactic| tell1 $H) => `(tactic| with_reducible exact tell_getStored $H _ _)

theorem tell_entryOf (r : Nat) (name : PyStr) : Tell T (entryOf E r name) := by
  unfold entryOf; tell H
macro_rules | `(tactic| tell1 $H) => `(tactic| with_reducible exact tell_entryOf $H _ _)

theorem tell_getattrBody (r : Nat) (name : PyStr) : Tell T (getattrBody E rec r name) := by
  unfold getattrBody; tell H

theorem tell_notify (r : Nat) (mode : Mode) (name : PyStr) (prev v : Val) :
    Tell T (notify E rec r mode name prev v) := by
  unfold notify
  repeat' (first | (with_reducible unfold notifyOne) | tell1 H)
macro_rules | `(tactic| tell1 $H) => `(tactic| with_reducible exact tell_notify $H _ _ _ _ _)

theorem tell_setBody (r : Nat) (name : PyStr) (p : PropSpec) (v : Val) :
    Tell T (setBody E rec r name p v) := by
  unfold setBody writeStored; tell H
macro_rules | `(tactic| tell1 $H) => `(tactic| with_reducible exact tell_setBody $H _ _ _ _)

theorem tell_assignBody (r : Nat) (name : PyStr) (p : PropSpec) (v : Val) :
    Tell T (assignBody E rec r name p v) := by
  unfold assignBody; tell H
macro_rules | `(tactic| tell1 $H) => `(tactic| with_reducible exact tell_assignBody $H _ _ _ _)

theorem tell_setattrBody (r : Nat) (name : PyStr) (v : Val) :
    Tell T (setattrBody E rec r name v) := by
  unfold setattrBody setBackend; tell H

theorem tell_delattrBody (r : Nat) (name : PyStr) : Tell T (delattrBody E rec r name) := by
  unfold delattrBody; tell H

theorem tell_evalDflt (d : Dflt) : Tell T (evalDflt E rec d) := by
  unfold evalDflt
  split
  case h_5 => exact fun w hw => ⟨⟨hw.1, hw.2⟩, fun _ h => (by cases h)⟩
  all_goals tell H
macro_rules | `(tactic| tell1 $H) => `(tactic| with_reducible exact tell_evalDflt $H _)

theorem tell_entryValidate (name : PyStr) (e : Entry) (inst : Option Nat) (v : Val) :
    Tell T (entryValidate rec name e inst v) := by
  unfold entryValidate; tell H
macro_rules | `(tactic| tell1 $H) => `(tactic| with_reducible exact tell_entryValidate $H _ _ _ _)

theorem tell_entryEqual (e : Entry) (a b : Val) : Tell T (entryEqual rec e a b) := by
  unfold entryEqual; tell H
macro_rules | `(tactic| tell1 $H) => `(tactic| with_reducible exact tell_entryEqual $H _ _ _)

theorem tell_resetBody (r : Nat) (name : Option PyStr) : Tell T (resetBody E rec r name) := by
  unfold resetBody; tell H

theorem tell_addErrs (r : Nat) (ts : List ErrTuple) (hts : ∀ t ∈ ts, T t) :
    Tell T (addErrs r ts) := by
  unfold addErrs
  refine (touts_bind (Q := fun _ => True) (touts_getObj r) fun o ho => Tell.touts ?_).tell
  split
  · rename_i es hes
    refine tell_modObj' r _ fun o' _ es' he t ht => ?_
    cases he
    rcases List.mem_append.1 ht with ht | ht
    · exact ho es hes t ht
    · exact hts t ht
  · tell H

/-- The remembered error is one that occurred. -/
theorem touts_collect {α : Type} (r : Nat) (nv : Option PyErr) {m : M α}
    {f : Except PyErr α → M (Option PyErr)}
    (hnv : ∀ e, nv = some e → Tells T e) (hm : Tell T m) (hok : ∀ a, f (.ok a) = pure nv)
    (herr : ∀ e, f (.error e) = if e.kind = .validation then do
            addErrs r e.tuples
            pure nv
          else if e.kind.isGeneric then pure (nv.or (some e))
          else M.raise e) :
    TOuts T (fun nv' => ∀ e, nv' = some e → Tells T e) (M.attempt m >>= f) := by
  refine touts_bind (touts_attempt hm) fun res hres => ?_
  cases res with
  | ok a => rw [hok]; exact touts_pure hnv
  | error e =>
    have he := hres e rfl
    rw [herr]
    split
    · rename_i hk
      exact touts_bind (tell_addErrs H _ _ (he hk).2).touts fun _ _ => touts_pure hnv
    · split
      · refine touts_pure ?_
        intro e' he'
        cases nv with
        | none => cases he'; exact he
        | some x => cases he'; exact hnv _ rfl
      · exact touts_raise he

theorem touts_initStep (r : Nat) (c : ClassDef) (nv : Option PyErr) (kv : PyStr × Val)
    (hnv : ∀ e, nv = some e → Tells T e) :
    TOuts T (fun nv' => ∀ e, nv' = some e → Tells T e) (initStep rec r c nv kv) := by
  unfold initStep
  have h1 : Tell T (rec (.setattr r kv.1 kv.2)) := tell_rec H _
  have h2 : Tell T (raiseK .attr : M Unit) := tell_raiseK _ (by decide)
  dsimp only
  split
  · split
    · exact touts_collect H r nv hnv h1 (fun _ => rfl) (fun _ => rfl)
    · exact touts_bind h2.touts fun _ _ => touts_collect H r nv hnv h1 (fun _ => rfl) (fun _ => rfl)
  · exact touts_bind h2.touts fun _ _ => touts_collect H r nv hnv h1 (fun _ => rfl) (fun _ => rfl)
  · exact touts_collect H r nv hnv h1 (fun _ => rfl) (fun _ => rfl)

theorem tell_raiseCollected (r : Nat) (nv : Option PyErr) (hnv : ∀ e, nv = some e → Tells T e) :
    Tell T (raiseCollected E rec r nv) := by
  unfold raiseCollected
  refine (touts_bind (Q := fun _ => True) (touts_getObj r) fun o ho => Tell.touts ?_).tell
  dsimp only
  split
  · rename_i hne
    have hs : Says T (o.errs.getD []) := by
      refine ⟨hne, fun t ht => ?_⟩
      cases he : o.errs with
      | none => rw [he] at ht; cases ht
      | some es => rw [he] at ht; exact ho es he t ht
    exact tell_bind (tell_runHook H _ _ hs) fun _ => tell_raise _ fun _ => hs
  · cases nv with
    | none => tell H
    | some e => exact tell_raise _ (hnv e rfl)

theorem tell_initBody (r : Nat) (c : ClassDef) (kw : List (PyStr × Val)) :
    Tell T (initBody E rec r c kw) := by
  unfold initBody
  refine tell_bind (by tell H) fun _ => tell_bind (by tell H) fun _ => tell_finClear ?_
  exact (touts_bind (touts_foldML (fun nv kv h => touts_initStep H r c nv kv h) kw none
    (fun _ h => by cases h)) fun nv h => (tell_raiseCollected H r nv h).touts).tell
macro_rules | `(tactic| tell1 $H) => `(tactic| with_reducible exact tell_initBody $H _ _ _)

theorem tell_constructBody (c : ClsId) (kw : List (PyStr × Val)) :
    Tell T (constructBody E rec c kw) := by
  unfold constructBody
  refine tell_bind (by tell H) fun _ => ?_
  refine tell_bind (fun w hw => ⟨⟨fun o ho => ?_, hw.2⟩, fun _ h => (by cases h)⟩) fun r => ?_
  · rcases List.mem_append.1 ho with ho | ho
    · exact hw.1 o ho
    · rcases List.mem_singleton.1 ho with rfl
      intro es he; cases he
  refine tell_bind (tell_forML (fun kv => ?_) _) fun _ => by tell H
  unfold gettableDefault putStored
  tell H

theorem touts_validatorStep (r : Nat) (nv : Option PyErr) (val : Option FnId)
    (hnv : ∀ e, nv = some e → Tells T e) :
    TOuts T (fun nv' => ∀ e, nv' = some e → Tells T e) (validatorStep E rec r nv val) := by
  unfold validatorStep
  refine touts_collect H r nv hnv ?_ (fun _ => rfl) (fun _ => rfl)
  tell H

theorem tell_hpValidateBody (r : Nat) : Tell T (hpValidateBody E rec r) := by
  unfold hpValidateBody
  refine tell_bind (by tell H) fun o => ?_
  split
  · tell H
  · refine tell_bind (by tell H) fun _ => tell_finClear ?_
    exact (touts_bind (touts_foldML (fun nv v h => touts_validatorStep H r nv v h) _ none
      (fun _ h => by cases h)) fun nv h =>
        (tell_bind (tell_raiseCollected H r nv h) fun _ => tell_pure _).touts).tell

theorem tell_validatePropsBody (r : Nat) : Tell T (validatePropsBody E rec r) := by
  unfold validatePropsBody
  refine tell_bind (by tell H) fun o => tell_bind (tell_forML (fun kv => ?_) _) fun _ => tell_pure _
  unfold validatePropStep entryAssert gettableAssert
  refine tell_catchIf (by tell H) fun e he hk => tell_bind (by tell H) fun o => ?_
  split
  · exact tell_addErrs H _ _ (he (by simpa using hk)).2
  · exact tell_raise _ he

theorem tell_baseAssert (nm : PyStr) (p : PropSpec) (r : Nat) (v : Val) :
    Tell T (baseAssert E rec nm p r v) := by
  unfold baseAssert; tell H
macro_rules | `(tactic| tell1 $H) => `(tactic| with_reducible exact tell_baseAssert $H _ _ _ _)

theorem tell_assertItems (nm : PyStr) (item : PropSpec) (r : Nat) : ∀ xs,
    Tell T (assertItems rec nm item r xs)
  | [] => by unfold assertItems; tell H
  | x :: xs => by
      have ih := tell_assertItems nm item r xs
      unfold assertItems
      tell H
macro_rules | `(tactic| tell1 $H) => `(tactic| with_reducible exact tell_assertItems $H _ _ _ _)

theorem tell_assertValidBody (nm : PyStr) (p : PropSpec) (r : Nat) (v : Val) :
    Tell T (assertValidBody E rec nm p r v) := by
  have h1 := tell_tryProps H nm (some r) (fun p => .assertValid nm p r v)
  have h2 : ∀ v ps, Tell T (tryProps E rec nm (some r) (fun p => .assertValid nm p r v) ps) :=
    fun v => tell_tryProps H nm (some r) (fun p => .assertValid nm p r v)
  unfold assertValidBody
  repeat' (first | exact h2 _ _ | tell1 H)

theorem tell_callWrapped (f : FnId) (v : Val) (kw : List Val) :
    Tell T (callWrapped E rec f v kw) := by
  unfold callWrapped; tell H
macro_rules | `(tactic| tell1 $H) => `(tactic| with_reducible exact tell_callWrapped $H _ _ _)

theorem tell_equalLoop (a b : Nat) : ∀ es, Tell T (equalLoop rec a b es)
  | [] => by unfold equalLoop; tell H
  | (nm, e) :: rest => by
      have ih := tell_equalLoop a b rest
      unfold equalLoop
      tell H
macro_rules | `(tactic| tell1 $H) => `(tactic| with_reducible exact tell_equalLoop $H _ _ _)

theorem tell_equalBody (a b : Val) : Tell T (equalBody E rec a b) := by
  unfold equalBody; tell H

/-! ## Serialization -/

theorem tell_unionSerialize (nm : PyStr) (v : Val) (kw : SerKw) :
    ∀ ps, Tell T (unionSerialize rec nm v kw ps)
  | [] => by unfold unionSerialize; tell H
  | p :: ps => by
      have ih := tell_unionSerialize nm v kw ps
      unfold unionSerialize
      refine tell_attempt (tell_rec H _) fun res hres => ?_
      cases res with
      | ok a => exact tell_rec H _
      | error e =>
        have := hres e rfl
        dsimp only
        tell H

theorem tell_serializeBody (nm : PyStr) (p : PropSpec) (v : Val) (kw : SerKw) :
    Tell T (serializeBody E rec nm p v kw) := by
  have h3 := tell_unionSerialize H nm v kw
  unfold serializeBody
  split
  · tell H
  · split
    · tell H
    · split
      · tell H
      · tell H
      · tell H
      · exact h3 _
      · split
        · rename_i x hx
          refine tell_liftK _ fun k hk => ?_
          rcases scalarToJson_kind (hk ▸ hx) with rfl | rfl <;> decide
        · tell H

theorem tell_hpSerializeBody (r : Nat) (kw : SerKw) : Tell T (hpSerializeBody E rec r kw) := by
  unfold hpSerializeBody entrySerialize
  tell H

/-! ## Deserialization -/

theorem tell_deserializeClass (c : ClsId) (nm : Val) (t s : Bool) :
    Tell T (deserializeClass E c nm t s) := by
  unfold deserializeClass; tell H

theorem tell_unionDeserialize (nm : PyStr) (v : Val) (kw : DeKw) :
    ∀ ps, Tell T (unionDeserialize rec nm v kw ps)
  | [] => by unfold unionDeserialize; tell H
  | p :: ps => by
      have ih := tell_unionDeserialize nm v kw ps
      unfold unionDeserialize
      tell H

theorem tell_deserializeBody (nm : PyStr) (p : PropSpec) (v : Val) (kw : DeKw) :
    Tell T (deserializeBody E rec nm p v kw) := by
  have h3 : ∀ kw ps, Tell T (unionDeserialize rec nm v kw ps) := fun kw =>
    tell_unionDeserialize H nm v kw
  unfold deserializeBody
  split
  · tell H
  · split
    · tell H
    · split
      · tell H
      · tell H
      · exact tell_rec H _
      · dsimp only
        split
        · exact tell_rec H _
        · exact h3 _ _
      · split
        · rename_i x hx
          refine tell_liftK _ fun k hk => ?_
          rcases scalarFromJson_kind (hk ▸ hx) with rfl | rfl | rfl | rfl <;> decide
        · tell H

theorem tell_hpDeserializeBody (c : ClsId) (v : Val) (kw : DeKw) :
    Tell T (hpDeserializeBody E rec c v kw) := by
  unfold hpDeserializeBody
  split
  · refine tell_bind (tell_deserializeClass H _ _ _ _) fun outc => ?_
    dsimp only
    refine tell_bind (tell_raiseWhen _ _ ?_) fun _ => tell_bind (tell_mapML (fun kv => ?_) _) fun st => ?_
    · split <;> decide
    · unfold deserEntry entryDeserialize; tell H
    · refine tell_bind (by tell H) fun inst => ?_
      unfold deserFinish assertBuilt setImmutable putStored
      tell H
  · tell H

theorem tell_copyBody (v : Val) (skw : SerKw) (dkw : DeKw) : Tell T (copyBody rec v skw dkw) := by
  unfold copyBody; tell H

end

theorem step_tell {E : Env} {T : ErrTuple → Prop} {rec : Rec} (H : TellOk E T rec) (c : Call) :
    Tell T (step E rec c) := by
  cases c with
  | validate nm p inst v => exact tell_validateBody H _ _ _ _
  | propEqual p a b => exact tell_propEqualBody H _ _ _
  | assertValid nm p r v => exact tell_assertValidBody H _ _ _ _
  | serializeP nm p v kw => exact tell_serializeBody H _ _ _ _
  | deserializeP nm p v kw => exact tell_deserializeBody H _ _ _ _
  | construct c kw => exact tell_constructBody H _ _
  | reset r name => exact tell_resetBody H _ _
  | getattr r name => exact tell_getattrBody H _ _
  | setattr r name v => exact tell_setattrBody H _ _ _
  | delattr r name => exact tell_delattrBody H _ _
  | hpValidate r => exact tell_hpValidateBody H _
  | validateProps r => exact tell_validatePropsBody H _
  | hpSerialize r kw => exact tell_hpSerializeBody H _ _
  | hpDeserialize c v kw => exact tell_hpDeserializeBody H _ _ _
  | equal a b => exact tell_equalBody H _ _
  | copy v skw dkw => exact tell_copyBody H _ _ _
  | observe r names mode fn =>
    show Tell _ (observeBody E r names mode fn)
    unfold observeBody
    tell H
  | userGet => exact fun w hw => ⟨hw, fun _ h => (by cases h)⟩
  | userPut v => exact fun w hw => ⟨⟨hw.1, hw.2⟩, fun _ h => (by cases h)⟩

theorem run_tell {E : Env} {T : ErrTuple → Prop} (hT : ∀ t, Form t → T t)
    (hU : ∀ f args, Honest T (E.fn f args)) : ∀ n, TellOk E T (run E n)
  | 0 => ⟨hT, hU, fun c => tell_raiseK _ (by decide)⟩
  | n + 1 => ⟨hT, hU, fun c => step_tell (run_tell hT hU n) c⟩

end Verif
