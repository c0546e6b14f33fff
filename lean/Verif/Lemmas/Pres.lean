import Verif.Core.Interp

/-!
# State relations kept by every computation

`Pres I R m`: started in a state with the invariant `I`, whatever the outcome
of `m`, its first and last state are related by `R`.  `Base` lists what `I` and
`R` have to satisfy at the places where the interpreter touches the state,
except for the writes of stored values; `Writer` is the requirement on the
methods that write them.  `run_ok` is the induction over the recursion limit
that follows.  `Stable` is the simple case in which every write is allowed.
-/

set_option linter.unusedSectionVars false

namespace Verif

/-- `m` relates every start state satisfying `I` to its end state. -/
def Pres {α : Type} (I : World → Prop) (R : World → World → Prop) (m : M α) : Prop :=
  ∀ w, I w → R w (m w).2

structure Preord (I : World → Prop) (R : World → World → Prop) : Prop where
  refl : ∀ w, I w → R w w
  trans : ∀ {a b c}, R a b → R b c → R a c
  keep : ∀ {w w'}, R w w' → I w → I w'

section
variable {I : World → Prop} {R : World → World → Prop} (h : Preord I R)
include h

theorem pres_pure {α : Type} (a : α) : Pres I R (pure a : M α) := fun w hw => h.refl w hw
theorem pres_ret {α : Type} (a : α) : Pres I R (M.ret a) := fun w hw => h.refl w hw
theorem pres_raise {α : Type} (e : PyErr) : Pres I R (M.raise e : M α) := fun w hw => h.refl w hw
theorem pres_raiseK {α : Type} (k : ErrKind) : Pres I R (raiseK k : M α) := fun w hw => h.refl w hw
theorem pres_get : Pres I R M.get := fun w hw => h.refl w hw

theorem pres_getObj (r : Nat) : Pres I R (getObj r) := by
  intro w hw; unfold getObj; split <;> exact h.refl w hw

theorem pres_bind {α β : Type} {m : M α} {f : α → M β} (hm : Pres I R m)
    (hf : ∀ a, Pres I R (f a)) : Pres I R (m >>= f) := by
  intro w hw
  have h1 := hm w hw
  show R w (M.bind m f w).2
  unfold M.bind
  split
  · rename_i a w' heq; rw [heq] at h1; exact h.trans h1 (hf a w' (h.keep h1 hw))
  · rename_i e w' heq; rw [heq] at h1; exact h1

theorem pres_catchIf {α : Type} {pred : ErrKind → Bool} {m : M α} {k : PyErr → M α}
    (hm : Pres I R m) (hk : ∀ e, Pres I R (k e)) : Pres I R (M.catchIf pred m k) := by
  intro w hw
  have h1 := hm w hw
  unfold M.catchIf
  split
  · rename_i a w' heq; rw [heq] at h1; exact h1
  · rename_i e w' heq; rw [heq] at h1
    split
    · exact h.trans h1 (hk e w' (h.keep h1 hw))
    · exact h1

omit h in
theorem pres_attempt {α : Type} {m : M α} (hm : Pres I R m) : Pres I R (M.attempt m) :=
  fun w hw => hm w hw

theorem pres_mapML {α β : Type} {f : α → M β} (hf : ∀ a, Pres I R (f a)) :
    ∀ xs, Pres I R (mapML f xs)
  | [] => pres_pure h _
  | x :: xs => pres_bind h (hf x) fun _ => pres_bind h (pres_mapML hf xs) fun _ => pres_pure h _

theorem pres_forML {α : Type} {f : α → M Unit} (hf : ∀ a, Pres I R (f a)) :
    ∀ xs, Pres I R (forML f xs)
  | [] => pres_pure h _
  | x :: xs => pres_bind h (hf x) fun _ => pres_forML hf xs

theorem pres_foldML {α β : Type} {f : β → α → M β} (hf : ∀ b a, Pres I R (f b a)) :
    ∀ xs b, Pres I R (foldML f b xs)
  | [], _ => pres_pure h _
  | x :: xs, b => pres_bind h (hf b x) fun b' => pres_foldML hf xs b'

theorem pres_liftK {α : Type} (x : Except ErrKind α) : Pres I R (liftK x) := by
  cases x
  · exact pres_raiseK h _
  · exact pres_pure h _

end

theorem Pres.weaken {α : Type} {I J : World → Prop} {R : World → World → Prop} {m : M α}
    (h : Pres I R m) (hJ : ∀ w, J w → I w) : Pres J R m := fun w hw => h w (hJ w hw)

/-- Facts that `R` keeps can be added to the invariant. -/
theorem Preord.with {I : World → Prop} {R : World → World → Prop} (h : Preord I R)
    {P : World → Prop} (hP : ∀ {w w'}, R w w' → P w → P w') : Preord (fun w => I w ∧ P w) R :=
  { refl := fun w hw => h.refl w hw.1
    trans := h.trans
    keep := fun r hw => ⟨h.keep r hw.1, hP r hw.2⟩ }

theorem pres_forML_mem {α : Type} {I : World → Prop} {R : World → World → Prop} (h : Preord I R)
    {f : α → M Unit} : ∀ xs, (∀ a ∈ xs, Pres I R (f a)) → Pres I R (forML f xs)
  | [], _ => pres_pure h _
  | x :: xs, hf => pres_bind h (hf x (by simp)) fun _ =>
      pres_forML_mem h xs (fun a ha => hf a (by simp [ha]))

theorem pres_raiseWhen {I : World → Prop} {R : World → World → Prop} (h : Preord I R) (b : Bool)
    (k : ErrKind) : Pres I R (raiseWhen b k) := by
  unfold raiseWhen
  split
  · exact pres_raiseK h _
  · exact pres_pure h _

/-! ## Allowed calls -/

/-- Calls that write (set, delete, reset, register listeners) only objects in
`W`; calls that register listeners only if `L`; calls that run validations and deserializations only if `V`; direct calls
of `_validate_props` only of objects in `C`. -/
def Call.Allowed (W : Nat → Prop) (V : Prop) (C : Nat → Prop) (L : Prop) : Call → Prop
  | .reset r _ => W r
  | .setattr r _ _ => W r
  | .delattr r _ => W r
  | .observe r _ _ _ => W r ∧ L
  | .assertValid .. => V
  | .hpValidate _ => V
  | .validateProps r => V ∧ C r
  | .deserializeP .. => V
  | .hpDeserialize .. => V
  | .copy .. => V
  | _ => True

/-- Programs all of whose calls are allowed. -/
def Prog.Uses (W : Nat → Prop) (V : Prop) (C : Nat → Prop) (L : Prop) : Prog → Prop
  | .ret _ => True
  | .raise _ => True
  | .call c k => c.Allowed W V C L ∧ ∀ x, (k x).Uses W V C L
  | .disabled _ body k => body.Uses W V C L ∧ ∀ x, (k x).Uses W V C L

theorem Call.Allowed.mono {W W' : Nat → Prop} {V V' : Prop} {C C' : Nat → Prop} {L L' : Prop}
    (hW : ∀ r, W r → W' r) (hV : V → V') (hC : ∀ r, C r → C' r) (hL : L → L')
    {c : Call} (h : c.Allowed W V C L) : c.Allowed W' V' C' L' := by
  cases c <;> first | exact hW _ h | exact hV h | exact ⟨hV h.1, hC _ h.2⟩ | exact ⟨hW _ h.1, hL h.2⟩ | exact h

theorem Prog.Uses.mono {W W' : Nat → Prop} {V V' : Prop} {C C' : Nat → Prop} {L L' : Prop}
    (hW : ∀ r, W r → W' r) (hV : V → V') (hC : ∀ r, C r → C' r) (hL : L → L') :
    ∀ {p : Prog}, p.Uses W V C L → p.Uses W' V' C' L'
  | .ret _, _ => trivial
  | .raise _, _ => trivial
  | .call _ _, h => ⟨h.1.mono hW hV hC hL, fun x => (h.2 x).mono hW hV hC hL⟩
  | .disabled _ _ _, h => ⟨h.1.mono hW hV hC hL, fun x => (h.2 x).mono hW hV hC hL⟩

theorem Call.allowed_all (c : Call) : c.Allowed (fun _ => True) True (fun _ => True) True := by
  cases c <;> first | trivial | exact ⟨trivial, trivial⟩

theorem Prog.uses_all : ∀ p : Prog, p.Uses (fun _ => True) True (fun _ => True) True
  | .ret _ => trivial
  | .raise _ => trivial
  | .call c k => ⟨c.allowed_all, fun x => (k x).uses_all⟩
  | .disabled _ b k => ⟨b.uses_all, fun x => (k x).uses_all⟩

/-- The object exists and has class `c`. -/
def HasCls (r : Nat) (c : ClsId) (w : World) : Prop := ∃ o, w.objs[r]? = some o ∧ o.cls = c

/-- The object exists and is not being validated. -/
def NotValidating (r : Nat) (w : World) : Prop :=
  ∃ o, w.objs[r]? = some o ∧ o.gv ≠ some true

/-- What `I` and `R` have to satisfy where the interpreter touches the state,
stored values excepted.  `W` are the objects that may be written, `F` those
that may be new, `V` tells whether validations may run, `C` are those that may
be collecting errors, `L` tells whether listeners may be registered. -/
structure Base (E : Env) (W : Nat → Prop) (V : Prop) (C : Nat → Prop) (L : Prop) (F : Nat → Prop) (I : World → Prop)
    (R : World → World → Prop) : Prop extends Preord I R where
  /-- user functions only make allowed calls -/
  fns : ∀ f args, (E.fn f args).Uses W V C L
  /-- a new object may be new, and what may be new may be written -/
  fresh : ∀ w, I w → F w.objs.length
  writable : ∀ r, F r → W r
  /-- recording a listener call of an enabled mode -/
  trace : ∀ w0 w e, I w0 → R w0 w → e.inst < w0.objs.length → w0.quar.has e.mode = false →
    (W e.inst ∨ (V ∧ e.mode = .validate)) → R w { w with trace := w.trace ++ [e] }
  /-- an object that is not being validated may begin to collect errors -/
  collects : ∀ w r, I w → NotValidating r w → C r
  /-- recording an error hook call -/
  hooks : ∀ w r ts, I w → (C r ∨ ∃ o, w.objs[r]? = some o ∧ o.gv = some false) →
    R w { w with hooks := w.hooks ++ [(r, ts)] }
  /-- drawing a random number -/
  tick : ∀ w, I w → R w { w with tick := w.tick + 1 }
  /-- user code writing its own state -/
  user : ∀ w v, I w → R w { w with user := v }
  /-- collecting errors -/
  errs : ∀ w r o es ts, I w → C r → w.objs[r]? = some o → o.errs = some es →
    R w (w.setObj r (fun o => { o with errs := some (es ++ ts) }))
  /-- registering listeners -/
  observe : ∀ w r ls, I w → W r → L →
    R w (w.setObj r (fun o => { o with listeners := o.listeners ++ ls }))
  /-- a new object -/
  alloc : ∀ w c, I w →
    R w { w with objs := w.objs ++ [{ cls := c, listeners := initListeners (E.classes c) }] }
  /-- a block with listeners disabled -/
  quar : ∀ w q, I w → I { w with quar := w.quar.union q }
  disabled : ∀ w w' q, I w → R { w with quar := w.quar.union q } w' →
    R w { w' with quar := w.quar }
  /-- classes do not change, an object that is not being validated stays so -/
  cls : ∀ {w w' r c}, R w w' → HasCls r c w → HasCls r c w'
  idle : ∀ {w w' r}, R w w' → NotValidating r w → NotValidating r w'
  /-- a validation or initialisation -/
  validatingI : ∀ w r, I w → NotValidating r w →
    I (w.setObj r (fun o => { o with gv := some true, errs := some [] }))
  validating : ∀ w w' r, I w → NotValidating r w →
    R (w.setObj r (fun o => { o with gv := some true, errs := some [] })) w' →
    R w (clearValidating r w')
  /-- a serialization -/
  serializingI : ∀ w r, I w → I (w.setObj r (fun o => { o with gs := true }))
  serializing : ∀ w w' r o, I w → w.objs[r]? = some o → o.gs = false →
    R (w.setObj r (fun o => { o with gs := true })) w' →
    R w (w'.setObj r (fun o => { o with gs := false }))
  /-- a comparison -/
  comparingI : ∀ w r, I w → I (w.setObj r (fun o => { o with te := true }))
  comparing : ∀ w w' r o, I w → w.objs[r]? = some o → o.te = false →
    R (w.setObj r (fun o => { o with te := true })) w' →
    R w (w'.setObj r (fun o => { o with te := false }))

/-- The calls made by a method keep `R`, and their results satisfy `Q`. -/
structure RecOk (W : Nat → Prop) (V : Prop) (C : Nat → Prop) (L : Prop) (I : World → Prop) (R : World → World → Prop)
    (Q : Call → Val → World → Prop) (rec : Rec) : Prop where
  pres : ∀ c, c.Allowed W V C L → Pres I R (rec c)
  post : ∀ c, c.Allowed W V C L → ∀ w, I w → ∀ v w', rec c w = (.ok v, w') → Q c v w'

section
variable {E : Env} {W : Nat → Prop} {V : Prop} {C : Nat → Prop} {L : Prop} {F : Nat → Prop} {I : World → Prop}
  {R : World → World → Prop} {Q : Call → Val → World → Prop} (S : Base E W V C L F I R) {rec : Rec}
  (H : RecOk W V C L I R Q rec)
include S H

theorem pres_execProg : ∀ p, p.Uses W V C L → Pres I R (execProg rec p)
  | .ret v, _ => pres_ret S.toPreord v
  | .raise e, _ => pres_raise S.toPreord e
  | .call c k, h => fun w hw =>
      have h1 := H.pres c h.1 w hw
      S.trans h1 (pres_execProg (k _) (h.2 _) _ (S.keep h1 hw))
  | .disabled q body k, h => fun w hw =>
      have h1 := S.disabled w _ q hw (pres_execProg body h.1 _ (S.quar w q hw))
      S.trans h1 (pres_execProg (k _) (h.2 _) _ (S.keep h1 hw))

theorem pres_callFn (f : FnId) (args : List Val) : Pres I R (callFn E rec f args) :=
  pres_execProg S H _ (S.fns f args)

omit S in
theorem pres_rec (c : Call) (h : c.Allowed W V C L) : Pres I R (rec c) := H.pres c h

end

/-- Proof that a call is allowed. -/
macro "allowed" : tactic => `(tactic| with_unfolding_all first | exact trivial | assumption)

/-- Proof search for `Pres` goals: structure of the code, then hypotheses. -/
syntax "pres1" term "," term : tactic
macro_rules | `(tactic| pres1 $S, $H) => `(tactic| first
  | with_reducible exact pres_rec $H _ (by allowed)
  | with_reducible exact pres_pure (Base.toPreord $S) _
  | with_reducible exact pres_ret (Base.toPreord $S) _
  | with_reducible exact pres_raise (Base.toPreord $S) _
  | with_reducible exact pres_raiseK (Base.toPreord $S) _
  | with_reducible exact pres_get (Base.toPreord $S)
  | with_reducible exact pres_raiseWhen (Base.toPreord $S) _ _
  | with_reducible exact pres_getObj (Base.toPreord $S) _
  | with_reducible exact pres_liftK (Base.toPreord $S) _
  | with_reducible exact pres_callFn $S $H _ _
  | with_reducible assumption
  | with_reducible refine pres_bind (Base.toPreord $S) ?_ (fun _ => ?_)
  | with_reducible refine pres_catchIf (Base.toPreord $S) ?_ (fun _ => ?_)
  | with_reducible refine pres_attempt ?_
  | with_reducible refine pres_mapML (Base.toPreord $S) (fun _ => ?_) _
  | with_reducible refine pres_forML (Base.toPreord $S) (fun _ => ?_) _
  | with_reducible refine pres_foldML (Base.toPreord $S) (fun _ _ => ?_) _ _
  | split
  | dsimp only)

macro "pres" S:term "," H:term : tactic => `(tactic| repeat' (pres1 $S, $H))

section
variable {E : Env} {W : Nat → Prop} {V : Prop} {C : Nat → Prop} {L : Prop} {F : Nat → Prop} {I : World → Prop}
  {R : World → World → Prop} {Q : Call → Val → World → Prop} (S : Base E W V C L F I R) {rec : Rec}
  (H : RecOk W V C L I R Q rec)
include S H

theorem pres_runHook_at (r : Nat) (ts : List ErrTuple) (w : World) (hw : I w)
    (h : C r ∨ ∃ o, w.objs[r]? = some o ∧ o.gv = some false) : R w (runHook E rec r ts w).2 := by
  unfold runHook
  cases ho : w.objs[r]? with
  | none => simp only [bind, M.bind, getObj, ho]; exact S.refl w hw
  | some o =>
    have h1 := S.hooks w r ts hw h
    rw [show ∀ f : Obj → M Unit, (getObj r >>= f) w = f o w from fun f => by
      simp only [bind, M.bind, getObj, ho]]
    exact S.trans h1 ((show Pres I R _ by pres S, H) _ (S.keep h1 hw))

theorem pres_runHook (r : Nat) (ts : List ErrTuple) (hC : C r) : Pres I R (runHook E rec r ts) :=
  fun w hw => pres_runHook_at S H r ts w hw (.inl hC)
macro_rules | `(tactic| pres1 $S, $H) => `(tactic| with_reducible exact pres_runHook $S $H _ _ (by assumption))

theorem pres_raiseVal {α : Type} (reason prop : Option PyStr) (inst : Option Nat) :
    Pres I R (raiseVal E rec reason prop inst : M α) := by
  unfold raiseVal
  cases inst with
  | none => pres S, H
  | some r =>
    intro w hw
    dsimp only
    cases ho : w.objs[r]? with
    | none => simp only [bind, M.bind, getObj, ho]; exact S.refl w hw
    | some o =>
      rw [show ∀ f : Obj → M α, (getObj r >>= f) w = f o w from fun f => by
        simp only [bind, M.bind, getObj, ho]]
      split
      · rename_i hg
        have h1 := pres_runHook_at S H r [⟨reason, prop, some r⟩] w hw (.inr ⟨o, ho, by simpa using hg⟩)
        show R w (M.bind _ _ w).2
        unfold M.bind
        split
        · rename_i a w' heq
          rw [heq] at h1
          exact S.trans h1 (pres_raise S.toPreord _ w' (S.keep h1 hw))
        · rename_i e w' heq
          rw [heq] at h1
          exact h1
      · exact (show Pres I R _ by pres S, H) w hw
macro_rules | `(tactic| pres1 $S, $H) => `(tactic| with_reducible exact pres_raiseVal $S $H _ _ _)

theorem pres_propError {α : Type} (nm : PyStr) (inst : Option Nat) :
    Pres I R (propError E rec nm inst : M α) := pres_raiseVal S H _ _ _
macro_rules | `(tactic| pres1 $S, $H) => `(tactic| with_reducible exact pres_propError $S $H _ _)

theorem pres_liftScalar (nm : PyStr) (inst : Option Nat) (x : Except SErr Val) :
    Pres I R (liftScalar E rec nm inst x) := by
  unfold liftScalar; pres S, H
macro_rules | `(tactic| pres1 $S, $H) => `(tactic| with_reducible exact pres_liftScalar $S $H _ _ _)

omit H in
theorem pres_mkSeq (k : SeqKind) (xs : List Val) : Pres I R (mkSeq k xs) := by
  unfold mkSeq
  repeat' (first | exact pres_pure S.toPreord _ | exact pres_raiseK S.toPreord _ | split)
macro_rules | `(tactic| pres1 $S, $_H) => `(tactic| with_reducible exact pres_mkSeq $S _ _)

omit H in
theorem pres_mkDict (xs : List (Val × Val)) : Pres I R (mkDict xs) := by
  unfold mkDict
  repeat' (first | exact pres_pure S.toPreord _ | exact pres_raiseK S.toPreord _ | split)
macro_rules | `(tactic| pres1 $S, $_H) => `(tactic| with_reducible exact pres_mkDict $S _)

theorem pres_tryProps (nm : PyStr) (inst : Option Nat) (f : PropSpec → Call)
    (hf : ∀ p, (f p).Allowed W V C L) : ∀ ps, Pres I R (tryProps E rec nm inst f ps)
  | [] => by unfold tryProps; pres S, H
  | p :: ps => by
      unfold tryProps
      exact pres_catchIf S.toPreord (H.pres _ (hf _)) fun _ => pres_tryProps nm inst f hf ps
macro_rules | `(tactic| pres1 $S, $H) => `(tactic| with_reducible exact pres_tryProps $S $H _ _ _ (fun _ => by allowed) _)

omit H in
theorem pres_draw : Pres I R (draw E) := fun w hw => S.tick w hw
macro_rules | `(tactic| pres1 $S, $_H) => `(tactic| with_reducible exact pres_draw $S)

theorem pres_validateBody (nm : PyStr) (p : PropSpec) (inst : Option Nat) (v : Val) :
    Pres I R (validateBody E rec nm p inst v) := by
  unfold validateBody
  split
  · unfold seqValidate; pres S, H
  · unfold dictValidate; pres S, H
  · unfold instValidate; pres S, H
  · pres S, H
  · unfold colorBody; pres S, H
  · pres S, H

theorem pres_zipEqual (p : PropSpec) : ∀ xs ys, Pres I R (zipEqual rec p xs ys) := by
  intro xs
  induction xs with
  | nil => intro ys; unfold zipEqual; pres S, H
  | cons x xs ih =>
    intro ys
    cases ys with
    | nil => unfold zipEqual; pres S, H
    | cons y ys => 
      unfold zipEqual
      exact pres_bind S.toPreord (H.pres _ (by allowed)) fun _ => pres_bind S.toPreord (ih ys) fun _ =>
        pres_pure S.toPreord _

theorem pres_setRemove (p : PropSpec) (a : Val) : ∀ ys, Pres I R (setRemove rec p a ys)
  | [] => by unfold setRemove; pres S, H
  | y :: ys => by
      have ih := pres_setRemove p a ys
      unfold setRemove
      pres S, H

theorem pres_unionEqual (a b : Val) : ∀ ps, Pres I R (unionEqual rec a b ps)
  | [] => by unfold unionEqual; pres S, H
  | p :: ps => by
      have ih := pres_unionEqual a b ps
      unfold unionEqual
      pres S, H

theorem pres_propEqualBody (p : PropSpec) (a b : Val) :
    Pres I R (propEqualBody E rec p a b) := by
  have h1 := pres_zipEqual S H
  have h2 := pres_setRemove S H
  have h3 := pres_unionEqual S H
  unfold propEqualBody
  split
  · unfold setEqual; repeat' (first | exact h2 _ _ _ | pres1 S, H)
  · unfold tupEqual; repeat' (first | exact h1 _ _ _ | pres1 S, H)
  · unfold dictEqual; pres S, H
  · pres S, H
  · exact h3 _ _ _
  · pres S, H

theorem pres_getStored (r : Nat) (name : PyStr) : Pres I R (getStored r name) := by
  unfold getStored; pres S, H
macro_rules | `(tactic| pres1 $S, $H) => `(tactic| with_reducible exact pres_getStored $S $H _ _)

theorem pres_entryOf (r : Nat) (name : PyStr) : Pres I R (entryOf E r name) := by
  unfold entryOf; pres S, H
macro_rules | `(tactic| pres1 $S, $H) => `(tactic| with_reducible exact pres_entryOf $S $H _ _)

theorem pres_getattrBody (r : Nat) (name : PyStr) : Pres I R (getattrBody E rec r name) := by
  unfold getattrBody; pres S, H

theorem pres_notify (r : Nat) (mode : Mode) (name : PyStr) (prev v : Val)
    (hm : W r ∨ (V ∧ mode = .validate)) : Pres I R (notify E rec r mode name prev v) := by
  intro w hw
  unfold notify
  cases ho : w.objs[r]? with
  | none => simp only [bind, M.bind, getObj, ho]; exact S.refl w hw
  | some o =>
    have e : notify E rec r mode name prev v w = foldML (notifyOne E rec r mode name prev) v
        (if w.quar.has mode then []
          else o.listeners.filter (fun l => l.name == name && l.mode == mode)) w := by
      unfold notify
      simp only [bind, M.bind, getObj, ho, M.get]
    refine (congrArg (fun x => R w x.2) e).mpr ?_
    split
    · exact S.refl w hw
    · rename_i hq
      have P := S.toPreord.with (P := R w) (fun h1 h2 => S.trans h2 h1)
      refine pres_foldML P (fun v l => ?_) _ _ w ⟨hw, S.refl w hw⟩
      unfold notifyOne
      refine pres_bind P (fun w' hw' => S.trace w w' _ hw hw'.2
        (List.getElem?_eq_some_iff.1 ho).1 (by simpa using hq) ?_) fun _ => ?_
      · exact hm
      · exact (pres_callFn S H _ _).weaken fun _ h => h.1

theorem pres_evalDflt (d : Dflt) : Pres I R (evalDflt E rec d) := by
  unfold evalDflt
  split
  case h_5 => exact fun w hw => S.tick w hw
  all_goals pres S, H
macro_rules | `(tactic| pres1 $S, $H) => `(tactic| with_reducible exact pres_evalDflt $S $H _)

theorem pres_entryValidate (name : PyStr) (e : Entry) (inst : Option Nat) (v : Val) :
    Pres I R (entryValidate rec name e inst v) := by
  unfold entryValidate; pres S, H
macro_rules | `(tactic| pres1 $S, $H) => `(tactic| with_reducible exact pres_entryValidate $S $H _ _ _ _)

theorem pres_resetBody (r : Nat) (name : Option PyStr) (hr : W r) :
    Pres I R (resetBody E rec r name) := by
  unfold resetBody; pres S, H

theorem pres_addErrs (r : Nat) (ts : List ErrTuple) (hC : C r) : Pres I R (addErrs r ts) := by
  intro w hw
  unfold addErrs getObj
  simp only [bind, M.bind]
  cases h : w.objs[r]? with
  | none => exact S.refl w hw
  | some o =>
    cases h2 : o.errs with
    | none => simp only [h2]; exact S.refl w hw
    | some es => simp only [h2]; exact S.errs w r o es ts hw hC h h2
macro_rules | `(tactic| pres1 $S, $H) => `(tactic| with_reducible exact pres_addErrs $S $H _ _ (by assumption))

theorem pres_initStep (r : Nat) (c : ClassDef) (nv : Option PyErr) (kv : PyStr × Val)
    (hr : W r) (hC : C r) : Pres I R (initStep rec r c nv kv) := by
  unfold initStep; pres S, H
macro_rules | `(tactic| pres1 $S, $H) => `(tactic| with_reducible exact pres_initStep $S $H _ _ _ _ (by assumption) (by assumption))

theorem pres_raiseCollected (r : Nat) (nv : Option PyErr) (hC : C r) :
    Pres I R (raiseCollected E rec r nv) := by
  unfold raiseCollected; pres S, H
macro_rules | `(tactic| pres1 $S, $H) => `(tactic| with_reducible exact pres_raiseCollected $S $H _ _ (by assumption))

omit H in
theorem pres_withDisabled {α : Type} (q : Quar) {m : M α} (hm : Pres I R m) :
    Pres I R (withDisabled q m) := fun w hw =>
  S.disabled w _ q hw (hm _ (S.quar w q hw))

end

/-- What the methods that write stored values have to satisfy. -/
structure Writer (E : Env) (W : Nat → Prop) (V : Prop) (C : Nat → Prop) (L : Prop) (F : Nat → Prop) (I : World → Prop)
    (R : World → World → Prop) (Q : Call → Val → World → Prop) : Prop where
  /-- assigning and deleting a mutable property -/
  assign : ∀ rec, RecOk W V C L I R Q rec → ∀ r c name p v, W r →
    lookupS name (E.classes c).props = some (.mutable p) →
    Pres (fun w => I w ∧ HasCls r c w) R (assignBody E rec r name p v)
  erase : ∀ rec, RecOk W V C L I R Q rec → ∀ r c name p, W r →
    lookupS name (E.classes c).props = some (.mutable p) →
    Pres (fun w => I w ∧ HasCls r c w) R (setBody E rec r name p .undef)
  /-- assigning `_backend` -/
  backend : ∀ r v, W r → Pres I R (setBackend r v)
  /-- setting an immutable default on a new object -/
  gettable : ∀ rec, RecOk W V C L I R Q rec → ∀ r c kv, F r → kv ∈ (E.classes c).props →
    Pres (fun w => I w ∧ HasCls r c w) R (gettableDefault E rec c r kv)
  /-- setting a deserialized immutable value on a new object -/
  immutable : ∀ rec, RecOk W V C L I R Q rec → ∀ r c kv, F r → isSettable E c kv = false →
    Pres (fun w => I w ∧ HasCls r c w) R (setImmutable E rec c r kv)
  /-- a constructor call gives a new object of the class -/
  construct : ∀ c kw v w, Q (.construct c kw) v w → ∃ r, v = .obj r ∧ F r ∧ HasCls r c w
section
variable {E : Env} {W : Nat → Prop} {V : Prop} {C : Nat → Prop} {L : Prop} {F : Nat → Prop} {I : World → Prop}
  {R : World → World → Prop} {Q : Call → Val → World → Prop} (S : Base E W V C L F I R)
  (T : Writer E W V C L F I R Q) {rec : Rec} (H : RecOk W V C L I R Q rec)
include S T H

theorem pres_setattrBody (r : Nat) (name : PyStr) (v : Val) (hr : W r) :
    Pres I R (setattrBody E rec r name v) := by
  intro w hw
  have e : setattrBody E rec r name v w = (getObj r >>= fun o =>
    (match lookupS name (E.classes o.cls).props with
      | some (.mutable p) => assignBody E rec r name p v
      | some (.gettable _) => raiseK .attr
      | some (.dynamic p _ setter _) => match setter with
          | none => raiseK .attr
          | some f => do
              let v' ← rec (.validate name p (some r) v)
              let _ ← callFn E rec f [.obj r, v']
              pure .none
      | some (.renamed new) => rec (.setattr r new v)
      | none => do
          if name = s% "_backend" then setBackend r v else pure ()
          pure .none)) w := by
    unfold setattrBody entryOf
    simp only [bind, M.bind, pure, M.ret]
    cases getObj r w with
    | mk a b => cases a <;> rfl
  rw [e]
  cases ho : w.objs[r]? with
  | none => simp only [bind, M.bind, getObj, ho]; exact S.refl w hw
  | some o =>
    rw [show ∀ f : Obj → M Val, (getObj r >>= f) w = f o w from fun f => by
      simp only [bind, M.bind, getObj, ho]]
    have hb := T.backend r v hr
    cases hl : lookupS name (E.classes o.cls).props with
    | none => exact (show Pres I R _ by dsimp only; pres S, H) w hw
    | some en =>
      cases en with
      | mutable p => exact T.assign rec H r o.cls name p v hr hl w ⟨hw, o, ho, rfl⟩
      | gettable p => exact S.refl w hw
      | dynamic p g st d => exact (show Pres I R _ by dsimp only; pres S, H) w hw
      | renamed new => exact (show Pres I R _ by dsimp only; pres S, H) w hw

theorem pres_delattrBody (r : Nat) (name : PyStr) (hr : W r) :
    Pres I R (delattrBody E rec r name) := by
  intro w hw
  have e : delattrBody E rec r name w = (getObj r >>= fun o =>
    (match lookupS name (E.classes o.cls).props with
      | some (.mutable p) => do
          setBody E rec r name p .undef
          pure .none
      | some (.gettable _) => raiseK .attr
      | some (.dynamic _ _ _ deleter) => match deleter with
          | none => raiseK .attr
          | some f => do
              let _ ← callFn E rec f [.obj r]
              pure .none
      | some (.renamed new) => rec (.delattr r new)
      | none => raiseK .attr)) w := by
    unfold delattrBody entryOf
    simp only [bind, M.bind, pure, M.ret]
    cases getObj r w with
    | mk a b => cases a <;> rfl
  rw [e]
  cases ho : w.objs[r]? with
  | none => simp only [bind, M.bind, getObj, ho]; exact S.refl w hw
  | some o =>
    rw [show ∀ f : Obj → M Val, (getObj r >>= f) w = f o w from fun f => by
      simp only [bind, M.bind, getObj, ho]]
    cases hl : lookupS name (E.classes o.cls).props with
    | none => exact S.refl w hw
    | some en =>
      cases en with
      | mutable p =>
        have P := S.toPreord.with (P := HasCls r o.cls) S.cls
        exact pres_bind P (T.erase rec H r o.cls name p hr hl) (fun _ => pres_pure P _) w
          ⟨hw, o, ho, rfl⟩
      | gettable p => exact S.refl w hw
      | dynamic p g st d => exact (show Pres I R _ by dsimp only; pres S, H) w hw
      | renamed new => exact (show Pres I R _ by dsimp only; pres S, H) w hw

omit T in
theorem pres_initBody (r : Nat) (c : ClassDef) (kw : List (PyStr × Val)) (hr : W r) :
    Pres (fun w => I w ∧ NotValidating r w) R (initBody E rec r c kw) := by
  have P := S.toPreord.with (P := NotValidating r) S.idle
  have h2 : Pres (fun w => I w ∧ NotValidating r w) R (do
      modObj r (fun o => { o with gv := some true, errs := some [] })
      M.fin (do
        let nv ← foldML (initStep rec r c) none kw
        raiseCollected E rec r nv) (clearValidating r)) := fun w hw =>
    have hC := S.collects w r hw.1 hw.2
    S.validating w _ r hw.1 hw.2 ((show Pres I R (do
        let nv ← foldML (initStep rec r c) none kw
        raiseCollected E rec r nv) by pres S, H) _ (S.validatingI w r hw.1 hw.2))
  unfold initBody
  exact pres_bind P (pres_raiseWhen P _ _) fun _ => h2

theorem pres_constructRest (w0 : World) (h0 : I w0) (c : ClsId) (kw : List (PyStr × Val)) :
    Pres (fun w' => (I w' ∧ HasCls w0.objs.length c w') ∧ NotValidating w0.objs.length w') R (do
        forML (gettableDefault E rec c w0.objs.length) (E.classes c).props
        let _ ← withDisabled Quar.all (rec (.reset w0.objs.length none))
        initBody E rec w0.objs.length (E.classes c) kw
        pure (Val.obj w0.objs.length) : M Val) := by
  have hF := S.fresh w0 h0
  have hW := S.writable _ hF
  have P := (S.toPreord.with (P := HasCls w0.objs.length c) S.cls).with
    (P := NotValidating w0.objs.length) (fun h => S.idle h)
  refine pres_bind P (pres_forML_mem P _ fun kv hkv =>
    (T.gettable rec H _ c kv hF hkv).weaken fun _ h => h.1) fun _ => ?_
  refine pres_bind P ((pres_withDisabled S _ (H.pres (.reset _ none) hW)).weaken
    fun _ h => h.1.1) fun _ => ?_
  exact pres_bind P ((pres_initBody S H _ _ _ hW).weaken fun _ h => ⟨h.1.1, h.2⟩) fun _ =>
    pres_pure P _

omit T H in
theorem constructBody_apply (c : ClsId) (kw : List (PyStr × Val)) (w : World) (hw : I w) :
    (∃ e, constructBody E rec c kw w = (.error e, w)) ∨
    ∃ w1, R w w1 ∧ (I w1 ∧ HasCls w.objs.length c w1) ∧ NotValidating w.objs.length w1 ∧
      constructBody E rec c kw w = (do
        forML (gettableDefault E rec c w.objs.length) (E.classes c).props
        let _ ← withDisabled Quar.all (rec (.reset w.objs.length none))
        initBody E rec w.objs.length (E.classes c) kw
        pure (Val.obj w.objs.length) : M Val) w1 := by
  by_cases hc : kw.any (fun kv => kv.1 == s% "cls") = true
  · left
    refine ⟨{ kind := .type }, ?_⟩
    unfold constructBody raiseWhen
    rw [if_pos hc]
    rfl
  · right
    have h1 := S.alloc w c hw
    refine ⟨_, h1, ⟨S.keep h1 hw, _, by simp; rfl, rfl⟩, ⟨_, by simp; rfl, by simp⟩, ?_⟩
    unfold constructBody raiseWhen
    rw [if_neg hc]
    rfl

theorem pres_constructBody (c : ClsId) (kw : List (PyStr × Val)) :
    Pres I R (constructBody E rec c kw) := by
  intro w hw
  rcases constructBody_apply S (rec := rec) c kw w hw with ⟨e, he⟩ | ⟨w1, h1, h2, h3, he⟩
  · rw [he]; exact S.refl w hw
  · rw [he]; exact S.trans h1 (pres_constructRest S T H w hw c kw w1 ⟨h2, h3⟩)

/-- The result of a constructor call is the object allocated first, of the
class. -/
theorem construct_result {c : ClsId} {kw : List (PyStr × Val)} {w w' : World} {v : Val}
    (hw : I w) (h : constructBody E rec c kw w = (.ok v, w')) :
    v = .obj w.objs.length ∧ HasCls w.objs.length c w' := by
  rcases constructBody_apply S (rec := rec) c kw w hw with ⟨e, he⟩ | ⟨w1, h1, h2, h3, he⟩
  · rw [he] at h; cases h
  · have hR := pres_constructRest S T H w hw c kw w1 ⟨h2, h3⟩
    rw [he] at h
    rw [h] at hR
    refine ⟨?_, S.cls hR h2.2⟩
    simp only [bind, M.bind] at h
    repeat' split at h
    all_goals first
      | (cases h; rfl)
      | (cases h; done)

end

section
variable {E : Env} {W : Nat → Prop} {V : Prop} {C : Nat → Prop} {L : Prop} {F : Nat → Prop} {I : World → Prop}
  {R : World → World → Prop} {Q : Call → Val → World → Prop} (S : Base E W V C L F I R)
  {rec : Rec} (H : RecOk W V C L I R Q rec) (hV : V)
include S H hV

theorem pres_validatorStep (r : Nat) (nv : Option PyErr) (val : Option FnId) (hC : C r) :
    Pres I R (validatorStep E rec r nv val) := by
  have hp := pres_rec H (.validateProps r) ⟨hV, hC⟩
  unfold validatorStep; pres S, H
macro_rules | `(tactic| pres1 $S, $H) => `(tactic| with_reducible exact pres_validatorStep $S $H (by assumption) _ _ _ (by assumption))

theorem pres_hpValidateBody (r : Nat) : Pres I R (hpValidateBody E rec r) := by
  intro w hw
  unfold hpValidateBody
  cases ho : w.objs[r]? with
  | none => simp only [bind, M.bind, getObj, ho]; exact S.refl w hw
  | some o =>
    simp only [bind, M.bind, getObj, ho]
    by_cases hg : o.gv = some true
    · simp only [hg, beq_self_eq_true, if_true]; exact S.refl w hw
    · have hg' : (o.gv == some true) = false := by simp [hg]
      simp only [hg', modObj]
      have hC := S.collects w r hw ⟨o, ho, hg⟩
      refine S.validating w _ r hw ⟨o, ho, hg⟩ ?_
      exact (show Pres I R (do
          let nv ← foldML (validatorStep E rec r) none (E.classes o.cls).validators
          raiseCollected E rec r nv
          pure (.bool true) : M Val) by pres S, H) _ (S.validatingI w r hw ⟨o, ho, hg⟩)

omit hV in
theorem pres_entryEqual (e : Entry) (a b : Val) : Pres I R (entryEqual rec e a b) := by
  unfold entryEqual; pres S, H
macro_rules | `(tactic| pres1 $S, $H) => `(tactic| with_reducible exact pres_entryEqual $S $H _ _ _)

theorem pres_gettableAssert (nm : PyStr) (e : Entry) (r : Nat) :
    Pres I R (gettableAssert E rec nm e r) := by
  unfold gettableAssert; pres S, H

theorem pres_entryAssert (nm : PyStr) (e : Entry) (r : Nat) :
    Pres I R (entryAssert E rec nm e r) := by
  unfold entryAssert
  split
  · exact H.pres _ hV
  · exact pres_gettableAssert S H hV _ _ _
macro_rules | `(tactic| pres1 $S, $H) => `(tactic| with_reducible exact pres_entryAssert $S $H (by assumption) _ _ _)

theorem pres_validatePropStep (r : Nat) (kv : PyStr × Entry) (hC : C r) :
    Pres I R (validatePropStep E rec r kv) := by
  have hn := fun name prev v => pres_notify S H r .validate name prev v (.inr ⟨hV, rfl⟩)
  unfold validatePropStep
  repeat' (first | with_reducible exact hn _ _ _ | pres1 S, H)
macro_rules | `(tactic| pres1 $S, $H) => `(tactic| with_reducible exact pres_validatePropStep $S $H (by assumption) _ _ (by assumption))

theorem pres_validatePropsBody (r : Nat) (hC : C r) : Pres I R (validatePropsBody E rec r) := by
  unfold validatePropsBody; pres S, H

theorem pres_baseAssert (nm : PyStr) (p : PropSpec) (r : Nat) (v : Val) :
    Pres I R (baseAssert E rec nm p r v) := by
  unfold baseAssert; pres S, H
macro_rules | `(tactic| pres1 $S, $H) => `(tactic| with_reducible exact pres_baseAssert $S $H (by assumption) _ _ _ _)

theorem pres_assertItems (nm : PyStr) (item : PropSpec) (r : Nat) :
    ∀ xs, Pres I R (assertItems rec nm item r xs)
  | [] => by unfold assertItems; pres S, H
  | x :: xs => by
      have ih := pres_assertItems nm item r xs
      unfold assertItems; pres S, H
macro_rules | `(tactic| pres1 $S, $H) => `(tactic| with_reducible exact pres_assertItems $S $H (by assumption) _ _ _ _)

theorem pres_assertValidBody (nm : PyStr) (p : PropSpec) (r : Nat) (v : Val) :
    Pres I R (assertValidBody E rec nm p r v) := by
  unfold assertValidBody; pres S, H

end

section
variable {E : Env} {W : Nat → Prop} {V : Prop} {C : Nat → Prop} {L : Prop} {F : Nat → Prop} {I : World → Prop}
  {R : World → World → Prop} {Q : Call → Val → World → Prop} (S : Base E W V C L F I R)
  {rec : Rec} (H : RecOk W V C L I R Q rec)
include S H

theorem pres_callWrapped (f : FnId) (v : Val) (kw : List Val) :
    Pres I R (callWrapped E rec f v kw) := by
  unfold callWrapped; pres S, H
macro_rules | `(tactic| pres1 $S, $H) => `(tactic| with_reducible exact pres_callWrapped $S $H _ _ _)

theorem pres_unionSerialize (nm : PyStr) (v : Val) (kw : SerKw) :
    ∀ ps, Pres I R (unionSerialize rec nm v kw ps)
  | [] => by unfold unionSerialize; pres S, H
  | p :: ps => by
      have ih := pres_unionSerialize nm v kw ps
      unfold unionSerialize; pres S, H
macro_rules | `(tactic| pres1 $S, $H) => `(tactic| with_reducible exact pres_unionSerialize $S $H _ _ _ _)

theorem pres_serializeBody (nm : PyStr) (p : PropSpec) (v : Val) (kw : SerKw) :
    Pres I R (serializeBody E rec nm p v kw) := by
  unfold serializeBody; pres S, H

theorem pres_entrySerialize (nm : PyStr) (e : Entry) (v : Val) (kw : SerKw) :
    Pres I R (entrySerialize E rec nm e v kw) := by
  unfold entrySerialize; pres S, H
macro_rules | `(tactic| pres1 $S, $H) => `(tactic| with_reducible exact pres_entrySerialize $S $H _ _ _ _)

theorem pres_hpSerializeBody (r : Nat) (kw : SerKw) : Pres I R (hpSerializeBody E rec r kw) := by
  intro w hw
  unfold hpSerializeBody
  cases ho : w.objs[r]? with
  | none => simp only [bind, M.bind, getObj, ho]; exact S.refl w hw
  | some o =>
    rw [show ∀ f : Obj → M Val, (getObj r >>= f) w = f o w from fun f => by
      simp only [bind, M.bind, getObj, ho]]
    by_cases hg : o.gs = true
    · simp only [hg, if_true]; exact S.refl w hw
    · have hg' : o.gs = false := by simpa using hg
      simp only [hg']
      refine S.serializing w _ r o hw ho hg' ?_
      dsimp only
      refine (show Pres I R _ from ?_) _ (S.serializingI w r hw)
      pres S, H

theorem pres_deserializeClass (c : ClsId) (nm : Val) (t s : Bool) :
    Pres I R (deserializeClass E c nm t s) := by
  unfold deserializeClass; pres S, H
macro_rules | `(tactic| pres1 $S, $H) => `(tactic| with_reducible exact pres_deserializeClass $S $H _ _ _ _)

theorem pres_equalLoop (a b : Nat) : ∀ ps, Pres I R (equalLoop rec a b ps)
  | [] => by unfold equalLoop; pres S, H
  | (nm, e) :: ps => by
      have ih := pres_equalLoop a b ps
      unfold equalLoop; pres S, H
macro_rules | `(tactic| pres1 $S, $H) => `(tactic| with_reducible exact pres_equalLoop $S $H _ _ _)

theorem pres_equalBody (a b : Val) : Pres I R (equalBody E rec a b) := by
  unfold equalBody
  split
  · rename_i r j
    intro w hw
    cases ho : w.objs[r]? with
    | none => simp only [bind, M.bind, getObj, ho]; exact S.refl w hw
    | some o =>
      rw [show ∀ f : Obj → M Val, (getObj r >>= f) w = f o w from fun f => by
        simp only [bind, M.bind, getObj, ho]]
      by_cases hg : o.te = true
      · simp only [hg, if_true]; exact S.refl w hw
      · have hg' : o.te = false := by simpa using hg
        simp only [hg']
        refine S.comparing w _ r o hw ho hg' ?_
        dsimp only
        refine (show Pres I R _ from ?_) _ (S.comparingI w r hw)
        pres S, H
  · pres S, H

theorem pres_observeBody (r : Nat) (names : ObsNames) (mode : Mode) (fn : FnId) (hr : W r ∧ L) :
    Pres I R (observeBody E r names mode fn) := by
  unfold observeBody
  exact pres_bind S.toPreord (pres_getObj S.toPreord _) fun o =>
    pres_bind S.toPreord (fun w hw => S.observe w r _ hw hr.1 hr.2) fun _ => pres_pure S.toPreord _

end

section
variable {E : Env} {W : Nat → Prop} {V : Prop} {C : Nat → Prop} {L : Prop} {F : Nat → Prop} {I : World → Prop}
  {R : World → World → Prop} {Q : Call → Val → World → Prop} (S : Base E W V C L F I R)
  {rec : Rec} (H : RecOk W V C L I R Q rec) (hV : V)
include S H hV

theorem pres_entryDeserialize (nm : PyStr) (e : Entry) (v : Val) (kw : DeKw) :
    Pres I R (entryDeserialize E rec nm e v kw) := by
  unfold entryDeserialize; pres S, H
macro_rules | `(tactic| pres1 $S, $H) => `(tactic| with_reducible exact pres_entryDeserialize $S $H (by assumption) _ _ _ _)

theorem pres_deserEntry (c : ClsId) (kw : DeKw) (kv : PyStr × Val) :
    Pres I R (deserEntry E rec c kw kv) := by
  unfold deserEntry; pres S, H
macro_rules | `(tactic| pres1 $S, $H) => `(tactic| with_reducible exact pres_deserEntry $S $H (by assumption) _ _ _)

theorem pres_hpDeserializeBody (T : Writer E W V C L F I R Q) (c : ClsId) (v : Val) (kw : DeKw) :
    Pres I R (hpDeserializeBody E rec c v kw) := by
  unfold hpDeserializeBody
  split
  · rename_i kvs
    refine pres_bind S.toPreord (by pres S, H) fun outc => ?_
    dsimp only
    refine pres_bind S.toPreord (by pres S, H) fun _ => ?_
    refine pres_bind S.toPreord (by pres S, H) fun newstate => ?_
    intro w hw
    have h1 := pres_withDisabled S Quar.all
      (H.pres (.construct outc (newstate.filter (isSettable E outc))) trivial) w hw
    show R w (M.bind _ _ w).2
    unfold M.bind
    split
    · rename_i inst w' heq
      rw [heq] at h1
      refine S.trans h1 ?_
      -- the result is a new object
      have hq : ∃ r, inst = .obj r ∧ F r ∧ HasCls r outc w' := by
        have hp := H.post (.construct outc (newstate.filter (isSettable E outc))) trivial
          { w with quar := w.quar.union Quar.all } (S.quar w _ hw)
        cases hr : rec (.construct outc (newstate.filter (isSettable E outc)))
            { w with quar := w.quar.union Quar.all } with
        | mk a b =>
          simp only [withDisabled, hr, Prod.mk.injEq] at heq
          obtain ⟨h3, h4⟩ := heq
          subst h3
          obtain ⟨r, e, hF, hc⟩ := T.construct _ _ _ _ (hp inst b hr)
          refine ⟨r, e, hF, ?_⟩
          rw [← h4]; exact hc
      obtain ⟨r, rfl, hF, hc⟩ := hq
      have P := S.toPreord.with (P := HasCls r outc) S.cls
      have hfin : Pres (fun w => I w ∧ HasCls r outc w) R (deserFinish E rec outc kw
          (newstate.filter (fun kv => !isSettable E outc kv)) (.obj r)) := by
        unfold deserFinish
        refine pres_bind P (pres_forML_mem P _ fun kv hkv =>
          T.immutable rec H r outc kv hF (by simpa using (List.mem_filter.1 hkv).2)) fun _ => ?_
        refine pres_bind P (Pres.weaken (I := I) (by unfold assertBuilt; pres S, H) fun _ h => h.1)
          fun _ => pres_pure P _
      exact hfin w' ⟨S.keep h1 hw, hc⟩
    · rename_i e w' heq; rw [heq] at h1; exact h1
  · exact pres_raiseK S.toPreord _

theorem pres_unionDeserialize (nm : PyStr) (v : Val) (kw : DeKw) :
    ∀ ps, Pres I R (unionDeserialize rec nm v kw ps)
  | [] => by unfold unionDeserialize; pres S, H
  | p :: ps => by
      have ih := pres_unionDeserialize nm v kw ps
      unfold unionDeserialize; pres S, H
macro_rules | `(tactic| pres1 $S, $H) => `(tactic| with_reducible exact pres_unionDeserialize $S $H (by assumption) _ _ _ _)

theorem pres_deserializeBody (nm : PyStr) (p : PropSpec) (v : Val) (kw : DeKw) :
    Pres I R (deserializeBody E rec nm p v kw) := by
  unfold deserializeBody; pres S, H

theorem pres_copyBody (v : Val) (skw : SerKw) (dkw : DeKw) : Pres I R (copyBody rec v skw dkw) := by
  unfold copyBody; pres S, H

end

/-- One level of the interpreter gives results as `Q` says if its calls do. -/
def Post (E : Env) (W : Nat → Prop) (V : Prop) (C : Nat → Prop) (L : Prop) (I : World → Prop) (R : World → World → Prop)
    (Q : Call → Val → World → Prop) : Prop :=
  ∀ rec, RecOk W V C L I R Q rec → ∀ c, c.Allowed W V C L → ∀ w, I w → ∀ v w',
    step E rec c w = (.ok v, w') → Q c v w'

section
variable {E : Env} {W : Nat → Prop} {V : Prop} {C : Nat → Prop} {L : Prop} {F : Nat → Prop} {I : World → Prop}
  {R : World → World → Prop} {Q : Call → Val → World → Prop} (S : Base E W V C L F I R)
  (T : Writer E W V C L F I R Q) {rec : Rec} (H : RecOk W V C L I R Q rec)
include S T H

theorem pres_step (c : Call) (hc : c.Allowed W V C L) : Pres I R (step E rec c) := by
  cases c
  · exact pres_validateBody S H _ _ _ _
  · exact pres_propEqualBody S H _ _ _
  · exact pres_assertValidBody S H hc _ _ _ _
  · exact pres_serializeBody S H _ _ _ _
  · exact pres_deserializeBody S H hc _ _ _ _
  · exact pres_constructBody S T H _ _
  · exact pres_resetBody S H _ _ hc
  · exact pres_getattrBody S H _ _
  · exact pres_setattrBody S T H _ _ _ hc
  · exact pres_delattrBody S T H _ _ hc
  · exact pres_hpValidateBody S H hc _
  · exact pres_validatePropsBody S H hc.1 _ hc.2
  · exact pres_hpSerializeBody S H _ _
  · exact pres_hpDeserializeBody S H hc T _ _ _
  · exact pres_equalBody S H _ _
  · exact pres_copyBody S H hc _ _ _
  · exact pres_observeBody S H _ _ _ _ hc
  · exact fun w hw => S.refl w hw
  · exact fun w hw => S.user w _ hw

omit rec H in
/-- Every allowed call, for every recursion limit, keeps `R` and has the
results `Q` says. -/
theorem run_ok (hq : Post E W V C L I R Q) : ∀ n, RecOk W V C L I R Q (run E n)
  | 0 => ⟨fun _ _ => pres_raiseK S.toPreord _, fun _ _ _ _ _ _ h => by cases h⟩
  | n + 1 => ⟨pres_step S T (run_ok hq n), hq _ (run_ok hq n)⟩

omit rec H in
/-- So does every program of allowed calls. -/
theorem runProg_pres (hq : Post E W V C L I R Q) (n : Nat) (p : Prog) (hp : p.Uses W V C L) :
    Pres I R (runProg E n p) :=
  pres_execProg S (run_ok S T hq n) p hp

end

/-- The simple case: every write to an object of `W` is allowed. -/
structure Stable (E : Env) (W : Nat → Prop) (V : Prop) (C : Nat → Prop) (L : Prop) (F : Nat → Prop) (I : World → Prop)
    (R : World → World → Prop) : Prop extends Base E W V C L F I R where
  /-- writing stored values -/
  stored : ∀ w r (f : List (PyStr × Val) → List (PyStr × Val)), I w → W r →
    R w (w.setObj r (fun o => { o with backend := f o.backend }))
  /-- assigning `_backend` -/
  bypass : ∀ w, I w → R w { w with bypass := true }

/-- Results of calls in the simple case. -/
def stableQ (F : Nat → Prop) : Call → Val → World → Prop
  | .construct c _, v, w => ∃ r, v = .obj r ∧ F r ∧ HasCls r c w
  | _, _, _ => True

section
variable {E : Env} {W : Nat → Prop} {V : Prop} {C : Nat → Prop} {L : Prop} {F : Nat → Prop} {I : World → Prop}
  {R : World → World → Prop} {Q : Call → Val → World → Prop} (S : Stable E W V C L F I R)
  {rec : Rec} (H : RecOk W V C L I R Q rec)

include S in
theorem Stable.pres_stored (r : Nat) (f : List (PyStr × Val) → List (PyStr × Val)) (hr : W r) :
    Pres I R (modObj r (fun o => { o with backend := f o.backend })) :=
  fun w hw => S.stored w r f hw hr

include S H in
theorem Stable.pres_setBody (r : Nat) (name : PyStr) (p : PropSpec) (v : Val) (hr : W r) :
    Pres I R (setBody E rec r name p v) := by
  have hn := fun mode prev v => pres_notify S.toBase H r mode name prev v (.inl hr)
  have hs : ∀ v : Val, Pres I R (writeStored r name v) := fun v =>
    S.pres_stored r (fun b => if v.isUndef then eraseS name b else setS name v b) hr
  unfold setBody
  repeat' (first | with_reducible exact hn _ _ _ | with_reducible exact hs _ | pres1 S.toBase, H)

include S H in
theorem Stable.pres_assignBody (r : Nat) (name : PyStr) (p : PropSpec) (v : Val) (hr : W r) :
    Pres I R (assignBody E rec r name p v) := by
  have hn := fun p v => S.pres_setBody H r name p v hr
  unfold assignBody
  repeat' (first | with_reducible exact hn _ _ | pres1 S.toBase, H)

include S in
theorem Stable.writer : Writer E W V C L F I R (stableQ F) where
  assign rec H r c name p v hr _ := (S.pres_assignBody H r name p v hr).weaken fun _ h => h.1
  erase rec H r c name p hr _ := (S.pres_setBody H r name p .undef hr).weaken fun _ h => h.1
  backend r v hr := by
    unfold setBackend
    refine pres_bind S.toPreord (fun w hw => S.bypass w hw) fun _ => ?_
    split
    · exact S.pres_stored r (fun _ => _) hr
    · exact S.pres_stored r (fun _ => _) hr
  gettable rec H r c kv hF _ := by
    have hs : ∀ name v, Pres I R (putStored r name v) :=
      fun name v => S.pres_stored r (setS name v) (S.writable r hF)
    refine Pres.weaken (I := I) ?_ fun _ h => h.1
    unfold gettableDefault
    repeat' (first | with_reducible exact hs _ _ | pres1 S.toBase, H)
  immutable rec H r c kv hF _ := by
    have hs : ∀ name v, Pres I R (putStored r name v) :=
      fun name v => S.pres_stored r (setS name v) (S.writable r hF)
    refine Pres.weaken (I := I) ?_ fun _ h => h.1
    unfold setImmutable
    repeat' (first | with_reducible exact hs _ _ | pres1 S.toBase, H)
  construct c kw v w h := h

include S in
theorem Stable.post : Post E W V C L I R (stableQ F) := by
  intro rec H c hc w hw v w' h
  cases c
  case construct c kw =>
    have := construct_result S.toBase S.writer H hw h
    exact ⟨w.objs.length, this.1, S.fresh w hw, this.2⟩
  all_goals trivial

include S in
theorem Stable.run_ok (n : Nat) : RecOk W V C L I R (stableQ F) (run E n) :=
  Verif.run_ok S.toBase S.writer S.post n

include S in
theorem Stable.runProg_pres (n : Nat) (p : Prog) (hp : p.Uses W V C L) : Pres I R (runProg E n p) :=
  Verif.runProg_pres S.toBase S.writer S.post n p hp

end

end Verif
