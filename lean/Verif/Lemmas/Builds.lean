import Verif.Lemmas.Pres
import Verif.Lemmas.Monad
import Verif.Spec.Untrusted

/-!
# Which classes get instances
-/

set_option linter.unusedSectionVars false
set_option linter.unusedVariables false

namespace Verif
open Spec

/-- Every instance is of a class in `D`. -/
def AllIn (D : ClsId → Prop) (w : World) : Prop := ∀ o ∈ w.objs, D o.cls

/-- A computation that creates instances of classes in `D` only. -/
abbrev Bd (D : ClsId → Prop) {α : Type} (m : M α) : Prop := Pres (AllIn D) (fun _ => AllIn D) m

theorem bdPre (D : ClsId → Prop) : Preord (AllIn D) (fun _ => AllIn D) :=
  ⟨fun _ h => h, fun _ h => h, fun h _ => h⟩

/-- The calls a method makes. -/
def RecB (D : ClsId → Prop) (rec : Rec) : Prop := ∀ c, Sober D c → Bd D (rec c)

/-- `D` is closed under the declarations, and user code stays in it. -/
structure ClosedD (E : Env) (D : ClsId → Prop) : Prop where
  named : ∀ d c, D d → RefersTo E d c → D c
  fns : ∀ f args, SoberProg D (E.fn f args)

theorem allIn_setObj {D : ClsId → Prop} {w : World} (h : AllIn D w) (r : Nat) (f : Obj → Obj)
    (hf : ∀ o, (f o).cls = o.cls) : AllIn D (w.setObj r f) := by
  intro o ho
  obtain ⟨i, hi⟩ := List.mem_iff_getElem?.1 ho
  unfold World.setObj at hi
  rw [List.getElem?_modify] at hi
  cases hx : w.objs[i]? with
  | none => rw [hx] at hi; cases hi
  | some o' =>
    rw [hx] at hi
    have := h o' (List.mem_of_getElem? hx)
    cases hi
    dsimp only
    split
    · rw [hf]; exact this
    · exact this

theorem bd_modObj {D : ClsId → Prop} (r : Nat) (f : Obj → Obj) (hf : ∀ o, (f o).cls = o.cls) :
    Bd D (modObj r f) := fun _ hw => allIn_setObj hw r f hf

theorem bd_modify {D : ClsId → Prop} (f : World → World) (hf : ∀ w, (f w).objs = w.objs) :
    Bd D (M.modify f) := fun w hw => by
  show AllIn D (f w)
  unfold AllIn; rw [hf]; exact hw

theorem bd_getObj_bind {D : ClsId → Prop} {α : Type} (r : Nat) {f : Obj → M α}
    (hf : ∀ o, D o.cls → Bd D (f o)) : Bd D (getObj r >>= f) := by
  intro w hw
  cases ho : w.objs[r]? with
  | none => simp only [bind, M.bind, getObj, ho]; exact hw
  | some o =>
    simp only [bind, M.bind, getObj, ho]
    exact hf o (hw o (List.mem_of_getElem? ho)) w hw

theorem bd_fin {D : ClsId → Prop} {α : Type} {m : M α} {f : World → World} (hm : Bd D m)
    (hf : ∀ w, AllIn D w → AllIn D (f w)) : Bd D (M.fin m f) := fun w hw => hf _ (hm w hw)

theorem bd_withDisabled {D : ClsId → Prop} {α : Type} {q : Quar} {m : M α} (hm : Bd D m) :
    Bd D (withDisabled q m) := fun w hw => hm { w with quar := w.quar.union q } hw

theorem bd_draw {D : ClsId → Prop} (E : Env) : Bd D (draw E) := fun _ hw => hw

theorem bd_execProg {D : ClsId → Prop} {rec : Rec} (H : RecB D rec) :
    ∀ p, SoberProg D p → Bd D (execProg rec p)
  | .ret _, _ => fun _ hw => hw
  | .raise _, _ => fun _ hw => hw
  | .call c k, h => fun w hw => bd_execProg H (k _) (h.2 _) _ (H c h.1 w hw)
  | .disabled q body k, h => fun w hw =>
      bd_execProg H (k _) (h.2 _) _ (bd_execProg H body h.1 { w with quar := w.quar.union q } hw)

theorem bd_callFn {E : Env} {D : ClsId → Prop} {rec : Rec} (C : ClosedD E D) (H : RecB D rec)
    (f : FnId) (args : List Val) : Bd D (callFn E rec f args) := bd_execProg H _ (C.fns f args)

theorem bd_rec {D : ClsId → Prop} {rec : Rec} (H : RecB D rec) (c : Call) (h : Sober D c) :
    Bd D (rec c) := H c h

/-- Proof that a call is sober. -/
macro "sober" : tactic => `(tactic| first
  | exact trivial | assumption | exact And.intro (by assumption) (by assumption))

syntax "bd1" term "," term : tactic
macro_rules | `(tactic| bd1 $C, $H) => `(tactic| first
  | with_reducible exact bd_rec $H _ (by with_unfolding_all sober)
  | with_reducible exact pres_pure (bdPre _) _
  | with_reducible exact pres_ret (bdPre _) _
  | with_reducible exact pres_raise (bdPre _) _
  | with_reducible exact pres_raiseK (bdPre _) _
  | with_reducible exact pres_get (bdPre _)
  | with_reducible exact pres_raiseWhen (bdPre _) _ _
  | with_reducible exact pres_liftK (bdPre _) _
  | with_reducible exact bd_callFn $C $H _ _
  | with_reducible exact bd_draw _
  | with_reducible exact bd_modObj _ _ (fun _ => rfl)
  | with_reducible exact bd_modify _ (fun _ => rfl)
  | with_reducible assumption
  | with_reducible refine bd_getObj_bind _ (fun _ _ => ?_)
  | with_reducible exact pres_getObj (bdPre _) _
  | with_reducible refine pres_bind (bdPre _) ?_ (fun _ => ?_)
  | with_reducible refine pres_catchIf (bdPre _) ?_ (fun _ => ?_)
  | with_reducible refine pres_attempt ?_
  | with_reducible refine pres_mapML (bdPre _) (fun _ => ?_) _
  | with_reducible refine pres_forML (bdPre _) (fun _ => ?_) _
  | with_reducible refine pres_foldML (bdPre _) (fun _ _ => ?_) _ _
  | with_reducible refine bd_withDisabled ?_
  | with_reducible refine bd_fin ?_ (fun _ h => allIn_setObj h _ _ (fun _ => rfl))
  | split
  | dsimp only)

macro "bd" C:term "," H:term : tactic => `(tactic| repeat' (bd1 $C, $H))

section
variable {E : Env} {D : ClsId → Prop} {rec : Rec} (C : ClosedD E D) (H : RecB D rec)
include C H

theorem bd_runHook (r : Nat) (ts : List ErrTuple) : Bd D (runHook E rec r ts) := by
  unfold runHook; bd C, H
macro_rules | `(tactic| bd1 $C, $H) => `(tactic| with_reducible exact bd_runHook $C $H _ _)

theorem bd_raiseVal {α : Type} (a b : Option PyStr) (inst : Option Nat) :
    Bd D (raiseVal E rec a b inst : M α) := by
  unfold raiseVal; bd C, H
macro_rules | `(tactic| bd1 $C, $H) => `(tactic| with_reducible exact bd_raiseVal $C $H _ _ _)

theorem bd_propError {α : Type} (nm : PyStr) (inst : Option Nat) :
    Bd D (propError E rec nm inst : M α) := bd_raiseVal C H _ _ _
macro_rules | `(tactic| bd1 $C, $H) => `(tactic| with_reducible exact bd_propError $C $H _ _)

theorem bd_liftScalar (nm : PyStr) (inst : Option Nat) (x : Except SErr Val) :
    Bd D (liftScalar E rec nm inst x) := by
  unfold liftScalar; bd C, H
macro_rules | `(tactic| bd1 $C, $H) => `(tactic| with_reducible exact bd_liftScalar $C $H _ _ _)

omit C H in
theorem bd_mkSeq (k : SeqKind) (xs : List Val) : Bd D (mkSeq k xs) := by
  unfold mkSeq; split
  · exact pres_pure (bdPre _) _
  · exact pres_pure (bdPre _) _
  · split
    · exact pres_pure (bdPre _) _
    · exact pres_raiseK (bdPre _) _
macro_rules | `(tactic| bd1 $C, $H) => `(tactic| with_reducible exact bd_mkSeq _ _)

omit C H in
theorem bd_mkDict (xs : List (Val × Val)) : Bd D (mkDict xs) := by
  unfold mkDict; split
  · exact pres_pure (bdPre _) _
  · exact pres_raiseK (bdPre _) _
macro_rules | `(tactic| bd1 $C, $H) => `(tactic| with_reducible exact bd_mkDict _)

theorem bd_seqValidate (nm : PyStr) (inst : Option Nat) (k : SeqKind) (item : PropSpec) (co : Bool)
    (v : Val) (hp : ∀ c, Names item c → D c) : Bd D (seqValidate E rec nm inst k item co v) := by
  unfold seqValidate; bd C, H

theorem bd_dictValidate (nm : PyStr) (inst : Option Nat) (kp vp : PropSpec) (co : Bool)
    (v : Val) (hk : ∀ c, Names kp c → D c) (hv : ∀ c, Names vp c → D c) :
    Bd D (dictValidate E rec nm inst kp vp co v) := by
  unfold dictValidate; bd C, H

theorem bd_instValidate (nm : PyStr) (inst : Option Nat) (c : ClsId) (v : Val) (hc : D c) :
    Bd D (instValidate E rec nm inst c v) := by
  unfold instValidate; bd C, H

theorem bd_tryProps (nm : PyStr) (inst : Option Nat) (f : PropSpec → Call) :
    ∀ ps : List PropSpec, (∀ p ∈ ps, Sober D (f p)) → Bd D (tryProps E rec nm inst f ps)
  | [], _ => by unfold tryProps; bd C, H
  | p :: ps, h => by
      unfold tryProps
      exact pres_catchIf (bdPre _) (H _ (h p (by simp)))
        (fun _ => bd_tryProps nm inst f ps (fun q hq => h q (by simp [hq])))

theorem bd_colorBody (nm : PyStr) (inst : Option Nat) (v : Val) :
    Bd D (colorBody E rec nm inst v) := by
  unfold colorBody; bd C, H

theorem bd_validateBody (nm : PyStr) (p : PropSpec) (inst : Option Nat) (v : Val)
    (hp : ∀ c, Names p c → D c) : Bd D (validateBody E rec nm p inst v) := by
  obtain ⟨r, s, d, df, ty⟩ := p
  unfold validateBody
  cases ty with
  | seq k item a b co =>
    exact bd_seqValidate C H _ _ _ _ _ _ fun c h => hp c (.item _ _ _ _ _ _ _ _ _ _ h)
  | dict kp vp co =>
    exact bd_dictValidate C H _ _ _ _ _ _ (fun c h => hp c (.key _ _ _ _ _ _ _ _ h))
      (fun c h => hp c (.value _ _ _ _ _ _ _ _ h))
  | inst c => exact bd_instValidate C H _ _ _ _ (hp c (.inst _ _ _ _ _))
  | union ps si =>
    exact bd_tryProps C H _ _ _ _ fun p hm c h => hp c (.alternative _ _ _ _ _ _ _ _ hm h)
  | color => exact bd_colorBody C H _ _ _
  | _ => dsimp only [PropSpec.ty]; bd C, H

theorem bd_zipEqual (p : PropSpec) : ∀ xs ys, Bd D (zipEqual rec p xs ys)
  | [], _ => by unfold zipEqual; bd C, H
  | _ :: _, [] => by unfold zipEqual; bd C, H
  | x :: xs, y :: ys => by
      unfold zipEqual
      have := bd_zipEqual p xs ys
      bd C, H
macro_rules | `(tactic| bd1 $C, $H) => `(tactic| with_reducible exact bd_zipEqual $C $H _ _ _)

theorem bd_setRemove (p : PropSpec) (a : Val) : ∀ ys, Bd D (setRemove rec p a ys)
  | [] => by unfold setRemove; bd C, H
  | y :: ys => by
      unfold setRemove
      have := bd_setRemove p a ys
      bd C, H
macro_rules | `(tactic| bd1 $C, $H) => `(tactic| with_reducible exact bd_setRemove $C $H _ _ _)

theorem bd_setEqual (p : PropSpec) (a b : Val) : Bd D (setEqual rec p a b) := by
  unfold setEqual; bd C, H
macro_rules | `(tactic| bd1 $C, $H) => `(tactic| with_reducible exact bd_setEqual $C $H _ _ _)

theorem bd_tupEqual (p : PropSpec) (a b : Val) : Bd D (tupEqual rec p a b) := by
  unfold tupEqual; bd C, H
macro_rules | `(tactic| bd1 $C, $H) => `(tactic| with_reducible exact bd_tupEqual $C $H _ _ _)

theorem bd_dictEqual (p : PropSpec) (a b : Val) : Bd D (dictEqual rec p a b) := by
  unfold dictEqual; bd C, H
macro_rules | `(tactic| bd1 $C, $H) => `(tactic| with_reducible exact bd_dictEqual $C $H _ _ _)

theorem bd_unionEqual (a b : Val) : ∀ ps, Bd D (unionEqual rec a b ps)
  | [] => by unfold unionEqual; bd C, H
  | p :: ps => by
      unfold unionEqual
      have := bd_unionEqual a b ps
      bd C, H
macro_rules | `(tactic| bd1 $C, $H) => `(tactic| with_reducible exact bd_unionEqual $C $H _ _ _)

theorem bd_propEqualBody (p : PropSpec) (a b : Val) : Bd D (propEqualBody E rec p a b) := by
  unfold propEqualBody; bd C, H

omit C H in
theorem lookupS_mem_props {α : Type} {k : PyStr} {e : α} : ∀ {l : List (PyStr × α)},
    lookupS k l = some e → (k, e) ∈ l
  | [], h => by cases h
  | (k', v) :: l, h => by
      unfold lookupS at h
      split at h
      · rename_i hk; cases h; subst hk; simp
      · exact List.mem_cons_of_mem _ (lookupS_mem_props h)

omit H in
theorem named_prop {d : ClsId} (hd : D d) {nm : PyStr} {e : Entry} {p : PropSpec}
    (hl : lookupS nm (E.classes d).props = some e) (hp : DeclaredIn e p) :
    ∀ c, Names p c → D c :=
  fun c hc => C.named d c hd (.prop nm e p c (lookupS_mem_props hl) hp hc)

theorem bd_getStored (r : Nat) (name : PyStr) : Bd D (getStored r name) := by
  unfold getStored; bd C, H
macro_rules | `(tactic| bd1 $C, $H) => `(tactic| with_reducible exact bd_getStored $C $H _ _)

omit C in
theorem bd_entryValidate (nm : PyStr) (e : Entry) (inst : Option Nat) (v : Val)
    (he : ∀ p, DeclaredIn e p → ∀ c, Names p c → D c) : Bd D (entryValidate rec nm e inst v) := by
  unfold entryValidate
  split
  · exact H _ (he _ (.mutable _))
  · exact H _ (he _ (.gettable _))
  · exact H _ (he _ (.dynamic _ _ _ _))
  · exact pres_pure (bdPre _) _

/-- Looking up a property of an instance. -/
theorem bd_entryOf {α : Type} (r : Nat) (nm : PyStr) (f : Option Entry → M α)
    (hn : Bd D (f none))
    (hf : ∀ e, (∀ p, DeclaredIn e p → ∀ c, Names p c → D c) → Bd D (f (some e))) :
    Bd D (entryOf E r nm >>= f) := by
  intro w hw
  unfold entryOf
  cases ho : w.objs[r]? with
  | none => simp only [bind, M.bind, getObj, ho]; exact hw
  | some o =>
    simp only [bind, M.bind, getObj, ho, pure, M.ret]
    have hd := hw o (List.mem_of_getElem? ho)
    cases hl : lookupS nm (E.classes o.cls).props with
    | none => exact hn w hw
    | some e => exact hf e (fun p hp => named_prop C hd hl hp) w hw

theorem bd_getattrBody (r : Nat) (nm : PyStr) : Bd D (getattrBody E rec r nm) := by
  unfold getattrBody
  refine bd_entryOf C H _ _ _ (by bd C, H) fun e he => ?_
  cases e with
  | dynamic p g s d =>
    have := he p (.dynamic _ _ _ _)
    dsimp only; bd C, H
  | _ => dsimp only; bd C, H

theorem bd_notifyOne (r : Nat) (m : Mode) (nm : PyStr) (a b : Val) (l : Listener) :
    Bd D (notifyOne E rec r m nm a b l) := by
  unfold notifyOne; bd C, H
macro_rules | `(tactic| bd1 $C, $H) => `(tactic| with_reducible exact bd_notifyOne $C $H _ _ _ _ _ _)

theorem bd_notify (r : Nat) (m : Mode) (nm : PyStr) (a b : Val) :
    Bd D (notify E rec r m nm a b) := by
  unfold notify; bd C, H
macro_rules | `(tactic| bd1 $C, $H) => `(tactic| with_reducible exact bd_notify $C $H _ _ _ _ _)

theorem bd_writeStored (r : Nat) (nm : PyStr) (v : Val) : Bd D (writeStored r nm v) :=
  bd_modObj _ _ fun _ => rfl
macro_rules | `(tactic| bd1 $C, $H) => `(tactic| with_reducible exact bd_writeStored $C $H _ _ _)

theorem bd_putStored (r : Nat) (nm : PyStr) (v : Val) : Bd D (putStored r nm v) :=
  bd_modObj _ _ fun _ => rfl
macro_rules | `(tactic| bd1 $C, $H) => `(tactic| with_reducible exact bd_putStored $C $H _ _ _)

theorem bd_setBody (r : Nat) (nm : PyStr) (p : PropSpec) (v : Val) :
    Bd D (setBody E rec r nm p v) := by
  unfold setBody; bd C, H
macro_rules | `(tactic| bd1 $C, $H) => `(tactic| with_reducible exact bd_setBody $C $H _ _ _ _)

theorem bd_setBackend (r : Nat) (v : Val) : Bd D (setBackend r v) := by
  unfold setBackend; bd C, H
macro_rules | `(tactic| bd1 $C, $H) => `(tactic| with_reducible exact bd_setBackend $C $H _ _)

theorem bd_setattrBody (r : Nat) (nm : PyStr) (v : Val) : Bd D (setattrBody E rec r nm v) := by
  unfold setattrBody
  refine bd_entryOf C H _ _ _ (by dsimp only; bd C, H) fun e he => ?_
  cases e with
  | dynamic p g s d =>
    have := he p (.dynamic _ _ _ _)
    dsimp only; bd C, H
  | mutable p =>
    have := he p (.mutable _)
    dsimp only; unfold assignBody; bd C, H
  | _ => dsimp only; bd C, H

theorem bd_delattrBody (r : Nat) (nm : PyStr) : Bd D (delattrBody E rec r nm) := by
  unfold delattrBody
  refine bd_entryOf C H _ _ _ (by bd C, H) fun e he => ?_
  cases e with
  | _ => dsimp only; bd C, H

theorem bd_evalDflt (d : Dflt) (hd : ∀ c, d = .cls c → D c) : Bd D (evalDflt E rec d) := by
  unfold evalDflt
  split
  · bd C, H
  · bd C, H
  · bd C, H
  · exact H _ (hd _ rfl)
  · exact fun _ hw => hw

omit C H in
mutual
theorem default_names : ∀ (p : PropSpec) (c : ClsId), p.default = .cls c → Names p c
  | .mk r s d df ty, c, h => by
      unfold PropSpec.default at h
      cases df with
      | undef => exact classDefault_names r s d .undef ty c h
      | cls c' => cases h; exact .default _ _ _ _ _
      | _ => cases h
theorem classDefault_names (r : Bool) (s d : Option FnId) (df : Dflt) :
    ∀ (ty : PropTy) (c : ClsId), ty.classDefault = .cls c → Names (.mk r s d df ty) c
  | .union ps si, c, h => by
      unfold PropTy.classDefault at h
      obtain ⟨p, hp, hn⟩ := firstDefault_names ps c h
      exact .alternative _ _ _ _ _ _ _ _ hp hn
  | .uuid, c, h => by cases h
  | .any, _, h => by cases h
  | .boolean .., _, h => by cases h
  | .integer .., _, h => by cases h
  | .float .., _, h => by cases h
  | .complex .., _, h => by cases h
  | .string .., _, h => by cases h
  | .choice .., _, h => by cases h
  | .color, _, h => by cases h
  | .datetime, _, h => by cases h
  | .seq .., _, h => by cases h
  | .dict .., _, h => by cases h
  | .inst _, _, h => by cases h
theorem firstDefault_names : ∀ (ps : List PropSpec) (c : ClsId), firstDefault ps = .cls c →
    ∃ p ∈ ps, Names p c
  | [], c, h => by cases h
  | p :: ps, c, h => by
      unfold firstDefault at h
      split at h
      · obtain ⟨q, hq, hn⟩ := firstDefault_names ps c h
        exact ⟨q, by simp [hq], hn⟩
      · exact ⟨p, by simp, default_names p c h⟩
end

omit H in
theorem classDefault_in {d : ClsId} (hd : D d) {nm : PyStr} {e : Entry}
    (he : (nm, e) ∈ (E.classes d).props) (c : ClsId) (h : classDefault E d nm e = .cls c) : D c := by
  unfold classDefault at h
  cases hl : lookupS nm (E.classes d).defaults with
  | some x =>
    rw [hl] at h
    simp only [Option.getD_some] at h
    subst h
    exact C.named d c hd (.default nm c (lookupS_mem_props hl))
  | none =>
    rw [hl] at h
    simp only [Option.getD_none] at h
    cases e with
    | mutable p => exact C.named d c hd (.prop nm _ p c he (.mutable p) (default_names p c h))
    | gettable p => exact C.named d c hd (.prop nm _ p c he (.gettable p) (default_names p c h))
    | _ => cases h

theorem bd_resetBody (r : Nat) (nm : Option PyStr) : Bd D (resetBody E rec r nm) := by
  unfold resetBody
  refine bd_getObj_bind _ fun o ho => ?_
  cases nm with
  | none => dsimp only; bd C, H
  | some nm =>
    dsimp only
    cases hl : lookupS nm (E.classes o.cls).props with
    | none => dsimp only; bd C, H
    | some e =>
      cases e with
      | mutable p =>
        have := bd_evalDflt C H (classDefault E o.cls nm (.mutable p))
          (fun c hc => classDefault_in C ho (lookupS_mem_props hl) c hc)
        dsimp only
        bd C, H
      | _ => dsimp only; bd C, H

theorem bd_addErrs (r : Nat) (ts : List ErrTuple) : Bd D (addErrs r ts) := by
  unfold addErrs; bd C, H
macro_rules | `(tactic| bd1 $C, $H) => `(tactic| with_reducible exact bd_addErrs $C $H _ _)

theorem bd_initStep (r : Nat) (c : ClassDef) (nv : Option PyErr) (kv : PyStr × Val) :
    Bd D (initStep rec r c nv kv) := by
  unfold initStep; bd C, H
macro_rules | `(tactic| bd1 $C, $H) => `(tactic| with_reducible exact bd_initStep $C $H _ _ _ _)

theorem bd_raiseCollected (r : Nat) (nv : Option PyErr) : Bd D (raiseCollected E rec r nv) := by
  unfold raiseCollected; bd C, H
macro_rules | `(tactic| bd1 $C, $H) => `(tactic| with_reducible exact bd_raiseCollected $C $H _ _)

theorem bd_initBody (r : Nat) (c : ClassDef) (kw : List (PyStr × Val)) :
    Bd D (initBody E rec r c kw) := by
  unfold initBody clearValidating; bd C, H
macro_rules | `(tactic| bd1 $C, $H) => `(tactic| with_reducible exact bd_initBody $C $H _ _ _)

theorem bd_gettableDefault (c : ClsId) (r : Nat) (kv : PyStr × Entry)
    (hm : kv ∈ (E.classes c).props) (hc : D c) : Bd D (gettableDefault E rec c r kv) := by
  unfold gettableDefault
  split
  · bd C, H
  · have hv : ∀ v, Bd D (entryValidate rec kv.1 kv.2 (some r) v) := fun v =>
      bd_entryValidate H _ _ _ _ fun p hp c' hn => C.named c c' hc (.prop kv.1 kv.2 p c' hm hp hn)
    have he := bd_evalDflt C H (classDefault E c kv.1 kv.2)
      (fun c' h' => classDefault_in C hc hm c' h')
    split
    · bd C, H
    · bd C, H
    · exact pres_bind (bdPre _) he fun v => pres_bind (bdPre _) (hv v) fun _ => by bd C, H

theorem bd_constructBody (c : ClsId) (kw : List (PyStr × Val)) (hc : D c) :
    Bd D (constructBody E rec c kw) := by
  unfold constructBody
  refine pres_bind (bdPre _) (pres_raiseWhen (bdPre _) _ _) fun _ => ?_
  dsimp only
  refine pres_bind (bdPre _) ?_ fun r => ?_
  · intro w hw o ho
    rcases List.mem_append.1 ho with h | h
    · exact hw o h
    · rw [List.mem_singleton.1 h]; exact hc
  · refine pres_bind (bdPre _) ?_ fun _ => ?_
    · exact pres_forML_mem (bdPre _) _ fun kv hm => bd_gettableDefault C H c r kv hm hc
    · bd C, H

theorem bd_validatorStep (r : Nat) (nv : Option PyErr) (f : Option FnId) :
    Bd D (validatorStep E rec r nv f) := by
  unfold validatorStep; bd C, H
macro_rules | `(tactic| bd1 $C, $H) => `(tactic| with_reducible exact bd_validatorStep $C $H _ _ _)

theorem bd_hpValidateBody (r : Nat) : Bd D (hpValidateBody E rec r) := by
  unfold hpValidateBody clearValidating; bd C, H

theorem bd_entryEqual (e : Entry) (a b : Val) : Bd D (entryEqual rec e a b) := by
  unfold entryEqual; bd C, H
macro_rules | `(tactic| bd1 $C, $H) => `(tactic| with_reducible exact bd_entryEqual $C $H _ _ _)

theorem bd_entryAssert (nm : PyStr) (e : Entry) (r : Nat)
    (he : ∀ p, DeclaredIn e p → ∀ c, Names p c → D c) : Bd D (entryAssert E rec nm e r) := by
  unfold entryAssert
  have hv : ∀ v, Bd D (entryValidate rec nm e (some r) v) := fun v => bd_entryValidate H _ _ _ _ he
  split
  · exact H _ (he _ (.mutable _))
  · unfold gettableAssert
    refine pres_bind (bdPre _) (by bd C, H) fun v => ?_
    split
    · bd C, H
    · exact pres_bind (bdPre _) (hv v) fun _ => by bd C, H

theorem bd_validatePropStep (r : Nat) (kv : PyStr × Entry)
    (he : ∀ p, DeclaredIn kv.2 p → ∀ c, Names p c → D c) :
    Bd D (validatePropStep E rec r kv) := by
  unfold validatePropStep
  have := bd_entryAssert C H kv.1 kv.2 r he
  bd C, H

theorem bd_validatePropsBody (r : Nat) : Bd D (validatePropsBody E rec r) := by
  unfold validatePropsBody
  refine bd_getObj_bind _ fun o ho => ?_
  refine pres_bind (bdPre _) ?_ fun _ => by bd C, H
  exact pres_forML_mem (bdPre _) _ fun kv hm => bd_validatePropStep C H r kv
    fun p hp c hn => C.named o.cls c ho (.prop kv.1 kv.2 p c hm hp hn)

theorem bd_baseAssert (nm : PyStr) (p : PropSpec) (r : Nat) (v : Val)
    (hp : ∀ c, Names p c → D c) : Bd D (baseAssert E rec nm p r v) := by
  unfold baseAssert; bd C, H

theorem bd_assertItems (nm : PyStr) (p : PropSpec) (r : Nat) (hp : ∀ c, Names p c → D c) :
    ∀ xs, Bd D (assertItems rec nm p r xs)
  | [] => by unfold assertItems; bd C, H
  | x :: xs => by
      unfold assertItems
      have := bd_assertItems nm p r hp xs
      bd C, H

theorem bd_assertValidBody (nm : PyStr) (p : PropSpec) (r : Nat) (v : Val)
    (hp : ∀ c, Names p c → D c) : Bd D (assertValidBody E rec nm p r v) := by
  unfold assertValidBody
  refine pres_bind (bdPre _) (bd_baseAssert C H nm p r v hp) fun _ => ?_
  obtain ⟨rq, s, d, df, ty⟩ := p
  cases ty with
  | seq k item a b co =>
    have := fun xs => bd_assertItems C H nm item r
      (fun c h => hp c (.item _ _ _ _ _ _ _ _ _ _ h)) xs
    dsimp only [PropSpec.ty]
    refine pres_bind (bdPre _) (by bd C, H) fun v => ?_
    split
    · bd C, H
    · split
      · bd C, H
      · split
        · exact this _
        · exact pres_bind (bdPre _) (bd_propError C H _ _) fun _ => this _
  | dict kp vp co =>
    have hk : ∀ c, Names kp c → D c := fun c h => hp c (.key _ _ _ _ _ _ _ _ h)
    have hv : ∀ c, Names vp c → D c := fun c h => hp c (.value _ _ _ _ _ _ _ _ h)
    dsimp only [PropSpec.ty]; bd C, H
  | union ps si =>
    dsimp only [PropSpec.ty]
    refine pres_bind (bdPre _) (by bd C, H) fun v => ?_
    split
    · bd C, H
    · exact bd_tryProps C H _ _ _ _ fun p hm c h => hp c (.alternative _ _ _ _ _ _ _ _ hm h)
  | _ => dsimp only [PropSpec.ty]; bd C, H

theorem bd_callWrapped (f : FnId) (v : Val) (kw : List Val) : Bd D (callWrapped E rec f v kw) := by
  unfold callWrapped; bd C, H
macro_rules | `(tactic| bd1 $C, $H) => `(tactic| with_reducible exact bd_callWrapped $C $H _ _ _)

theorem bd_unionSerialize (nm : PyStr) (v : Val) (kw : SerKw) :
    ∀ ps : List PropSpec, (∀ p ∈ ps, ∀ c, Names p c → D c) → Bd D (unionSerialize rec nm v kw ps)
  | [], _ => by unfold unionSerialize; bd C, H
  | p :: ps, h => by
      unfold unionSerialize
      have hp := h p (by simp)
      have := bd_unionSerialize nm v kw ps (fun q hq => h q (by simp [hq]))
      bd C, H

theorem bd_serializeBody (nm : PyStr) (p : PropSpec) (v : Val) (kw : SerKw)
    (hp : ∀ c, Names p c → D c) : Bd D (serializeBody E rec nm p v kw) := by
  obtain ⟨r, s, d, df, ty⟩ := p
  unfold serializeBody
  split
  · bd C, H
  · split
    · bd C, H
    · cases ty with
      | seq k item a b co =>
        have hi : ∀ c, Names item c → D c := fun c h => hp c (.item _ _ _ _ _ _ _ _ _ _ h)
        dsimp only [PropSpec.ty]; bd C, H
      | dict kp vp co =>
        have hk : ∀ c, Names kp c → D c := fun c h => hp c (.key _ _ _ _ _ _ _ _ h)
        have hv : ∀ c, Names vp c → D c := fun c h => hp c (.value _ _ _ _ _ _ _ _ h)
        dsimp only [PropSpec.ty]; bd C, H
      | union ps si =>
        exact bd_unionSerialize C H _ _ _ _ fun p hm c h => hp c (.alternative _ _ _ _ _ _ _ _ hm h)
      | _ => dsimp only [PropSpec.ty]; bd C, H

theorem bd_entrySerialize (nm : PyStr) (e : Entry) (v : Val) (kw : SerKw)
    (he : ∀ p, DeclaredIn e p → ∀ c, Names p c → D c) : Bd D (entrySerialize E rec nm e v kw) := by
  unfold entrySerialize
  split
  · exact H _ (he _ (.mutable _))
  · exact H _ (he _ (.gettable _))
  · bd C, H
  · bd C, H

theorem bd_hpSerializeBody (r : Nat) (kw : SerKw) : Bd D (hpSerializeBody E rec r kw) := by
  unfold hpSerializeBody
  refine bd_getObj_bind _ fun o ho => ?_
  split
  · bd C, H
  · refine pres_bind (bdPre _) (bd_modObj _ _ fun _ => rfl) fun _ => ?_
    refine bd_fin ?_ (fun _ h => allIn_setObj h _ _ (fun _ => rfl))
    dsimp only
    refine pres_bind (bdPre _) (pres_mapML (bdPre _) (fun key => ?_) _) fun _ => by bd C, H
    cases hl : lookupS key (E.classes o.cls).props with
    | none => dsimp only; bd C, H
    | some e =>
      have := fun v => bd_entrySerialize C H key e v kw (fun p hp => named_prop C ho hl hp)
      dsimp only
      exact pres_bind (bdPre _) (H _ trivial) fun v => pres_bind (bdPre _) (this v)
        fun _ => by bd C, H

theorem bd_entryDeserialize (nm : PyStr) (e : Entry) (v : Val) (kw : DeKw)
    (ht : kw.trusted = false) (he : ∀ p, DeclaredIn e p → ∀ c, Names p c → D c) :
    Bd D (entryDeserialize E rec nm e v kw) := by
  unfold entryDeserialize
  split
  · exact H _ ⟨he _ (.mutable _), ht⟩
  · exact H _ ⟨he _ (.gettable _), ht⟩
  · bd C, H
  · bd C, H

omit C H in
theorem deserializeClass_untrusted (c : ClsId) (nm : Val) (s : Bool) :
    deserializeClass E c nm false s = pure c ∨ deserializeClass E c nm false s = raiseK .value := by
  unfold deserializeClass
  split
  · exact .inl rfl
  · dsimp only
    rw [if_neg (by simp), if_neg (by simp)]
    cases s
    · exact .inl rfl
    · exact .inr rfl

theorem bd_hpDeserializeBody (c : ClsId) (v : Val) (kw : DeKw) (hc : D c)
    (ht : kw.trusted = false) : Bd D (hpDeserializeBody E rec c v kw) := by
  unfold hpDeserializeBody
  have hcls : ∀ d, D d → ∀ nm e, lookupS nm (E.classes d).props = some e →
      ∀ p, DeclaredIn e p → ∀ c, Names p c → D c := fun d hd nm e hl p hp => named_prop C hd hl hp
  split
  · rename_i kvs
    rw [ht]
    rcases deserializeClass_untrusted (E := E) c
      ((dictGet? kvs (.str (s% "__class__"))).getD .none) kw.strict with h | h
    · rw [h]
      change Bd D (_ : M Val)
      refine (show ∀ f : ClsId → M Val, Bd D (f c) → Bd D (pure c >>= f) from fun f h => h) _ ?_
      dsimp only
      refine pres_bind (bdPre _) (pres_raiseWhen (bdPre _) _ _) fun _ => ?_
      refine pres_bind (bdPre _) (pres_mapML (bdPre _) (fun kv => ?_) _) fun st => ?_
      · unfold deserEntry
        cases hl : lookupS kv.1 (E.classes c).props with
        | none => dsimp only; bd C, H
        | some e =>
          have := bd_entryDeserialize C H kv.1 e kv.2 ⟨false, kw.strict, false⟩ rfl (hcls c hc _ e hl)
          dsimp only
          exact pres_bind (bdPre _) this fun _ => by bd C, H
      · refine pres_bind (bdPre _) (by bd C, H) fun i => ?_
        unfold deserFinish
        split
        · refine pres_bind (bdPre _) (pres_forML (bdPre _) (fun kv => ?_) _) fun _ => ?_
          · unfold setImmutable
            cases hl : lookupS kv.1 (E.classes c).props with
            | none => dsimp only; bd C, H
            | some e =>
              have := bd_entryValidate H kv.1 e (some ‹Nat›) kv.2 (hcls c hc _ e hl)
              dsimp only
              exact pres_bind (bdPre _) this fun _ => by bd C, H
          · unfold assertBuilt; bd C, H
        · bd C, H
    · rw [h]
      exact (show ∀ f : ClsId → M Val, Bd D (raiseK .value >>= f) from fun f => pres_raiseK (bdPre _) _) _
  · bd C, H

theorem bd_unionDeserialize (nm : PyStr) (v : Val) (kw : DeKw) (ht : kw.trusted = false) :
    ∀ ps : List PropSpec, (∀ p ∈ ps, ∀ c, Names p c → D c) → Bd D (unionDeserialize rec nm v kw ps)
  | [], _ => by unfold unionDeserialize; bd C, H
  | p :: ps, h => by
      unfold unionDeserialize
      have hp := h p (by simp)
      have := bd_unionDeserialize nm v kw ht ps (fun q hq => h q (by simp [hq]))
      bd C, H

omit C H in
theorem namedAlternative_in {nm : Val} {q : PropSpec} : ∀ {ps : List PropSpec},
    namedAlternative E nm ps = some q → q ∈ ps
  | [], h => by cases h
  | p :: ps, h => by
      unfold namedAlternative at h
      split at h
      · split at h
        · cases h; simp
        · exact List.mem_cons_of_mem _ (namedAlternative_in h)
      · exact List.mem_cons_of_mem _ (namedAlternative_in h)

theorem bd_deserializeBody (nm : PyStr) (p : PropSpec) (v : Val) (kw : DeKw)
    (hp : ∀ c, Names p c → D c) (ht : kw.trusted = false) :
    Bd D (deserializeBody E rec nm p v kw) := by
  obtain ⟨r, s, d, df, ty⟩ := p
  unfold deserializeBody
  split
  · bd C, H
  · split
    · bd C, H
    · cases ty with
      | seq k item a b co =>
        have hi : ∀ c, Names item c → D c := fun c h => hp c (.item _ _ _ _ _ _ _ _ _ _ h)
        dsimp only [PropSpec.ty]; bd C, H
      | dict kp vp co =>
        have hk : ∀ c, Names kp c → D c := fun c h => hp c (.key _ _ _ _ _ _ _ _ h)
        have hv : ∀ c, Names vp c → D c := fun c h => hp c (.value _ _ _ _ _ _ _ _ h)
        dsimp only [PropSpec.ty]; bd C, H
      | inst c => exact H _ ⟨hp c (.inst _ _ _ _ _), ht⟩
      | union ps si =>
        have hps : ∀ p ∈ ps, ∀ c, Names p c → D c :=
          fun p hm c h => hp c (.alternative _ _ _ _ _ _ _ _ hm h)
        dsimp only [PropSpec.ty]
        split
        · rename_i hq
          refine H _ (show (∀ c, Names _ c → D c) ∧ _ from ⟨hps _ ?_, ht⟩)
          split at hq
          · split at hq
            · exact namedAlternative_in hq
            · cases hq
          · cases hq
        · exact bd_unionDeserialize C H _ _ ⟨kw.trusted, kw.strict || si, si⟩ ht _ hps
      | _ => dsimp only [PropSpec.ty]; bd C, H

theorem bd_equalLoop (a b : Nat) : ∀ l, Bd D (equalLoop rec a b l)
  | [] => by unfold equalLoop; bd C, H
  | (nm, e) :: l => by
      unfold equalLoop
      have := bd_equalLoop a b l
      bd C, H
macro_rules | `(tactic| bd1 $C, $H) => `(tactic| with_reducible exact bd_equalLoop $C $H _ _ _)

theorem bd_equalBody (a b : Val) : Bd D (equalBody E rec a b) := by
  unfold equalBody; bd C, H

theorem bd_copyBody (v : Val) (skw : SerKw) (kw : DeKw) (ht : kw.trusted = false) :
    Bd D (copyBody rec v skw kw) := by
  unfold copyBody; bd C, H

theorem bd_observeBody (r : Nat) (names : ObsNames) (m : Mode) (f : FnId) :
    Bd D (observeBody E r names m f) := by
  unfold observeBody; bd C, H

theorem bd_step : RecB D (step E rec) := by
  intro c hc
  cases c with
  | validate nm p inst v => exact bd_validateBody C H _ _ _ _ hc
  | propEqual p a b => exact bd_propEqualBody C H _ _ _
  | assertValid nm p r v => exact bd_assertValidBody C H _ _ _ _ hc
  | serializeP nm p v kw => exact bd_serializeBody C H _ _ _ _ hc
  | deserializeP nm p v kw => exact bd_deserializeBody C H _ _ _ _ hc.1 hc.2
  | construct c kw => exact bd_constructBody C H _ _ hc
  | reset r nm => exact bd_resetBody C H _ _
  | getattr r nm => exact bd_getattrBody C H _ _
  | setattr r nm v => exact bd_setattrBody C H _ _ _
  | delattr r nm => exact bd_delattrBody C H _ _
  | hpValidate r => exact bd_hpValidateBody C H _
  | validateProps r => exact bd_validatePropsBody C H _
  | hpSerialize r kw => exact bd_hpSerializeBody C H _ _
  | hpDeserialize c v kw => exact bd_hpDeserializeBody C H _ _ _ hc.1 hc.2
  | equal a b => exact bd_equalBody C H _ _
  | copy v s d => exact bd_copyBody C H _ _ _ hc
  | observe r n m f => exact bd_observeBody C H _ _ _ _
  | userGet => exact fun _ hw => hw
  | userPut v => exact fun _ hw => hw

end

theorem bd_run {E : Env} {D : ClsId → Prop} (C : ClosedD E D) : ∀ n, RecB D (run E n)
  | 0 => fun _ _ _ hw => hw
  | n + 1 => bd_step C (bd_run C n)

end Verif
