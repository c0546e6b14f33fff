import Verif.Lemmas.Ends

/-!
# Validation as a function

Validating a value without an instance (`prop.validate(None, value)`), or for
an instance that is being validated or initialised, is a function of the value
and of the classes of the instances in it, when no instance is built and no
colour drawn.  `pval` is that function; `run_pval` says so.
-/

namespace Verif
open Spec

/-- The class of instance `r`. -/
def clsAt (w : World) (r : Nat) : Option ClsId := w.objs[r]?.map (·.cls)

/-- Sequencing of results. -/
def bindE {α β ε : Type} (r : Except ε α) (f : α → Except ε β) : Except ε β :=
  match r with
  | .error e => .error e
  | .ok a => f a

@[simp] theorem bindE_ok {α β ε : Type} (a : α) (f : α → Except ε β) : bindE (.ok a) f = f a := rfl
@[simp] theorem bindE_error {α β ε : Type} (e : ε) (f : α → Except ε β) :
    bindE (.error e) f = .error e := rfl

theorem bindE_ok_inv {α β ε : Type} {r : Except ε α} {f : α → Except ε β} {b : β}
    (h : bindE r f = .ok b) : ∃ a, r = .ok a ∧ f a = .ok b := by
  cases r with
  | error e => cases h
  | ok a => exact ⟨a, rfl, h⟩

/-- `mapM` for results. -/
def mapE {α β ε : Type} (f : α → Except ε β) : List α → Except ε (List β)
  | [] => .ok []
  | x :: xs => bindE (f x) fun y => bindE (mapE f xs) fun ys => .ok (y :: ys)

/-- `foldM` for results. -/
def foldE {α β ε : Type} (f : β → α → Except ε β) : β → List α → Except ε β
  | b, [] => .ok b
  | b, x :: xs => bindE (f b x) fun b' => foldE f b' xs

/-- Who a value is validated for: property name and instance. -/
structure Ctx where
  nm : PyStr
  inst : Option Nat

/-- What `self.error(instance, value)` raises. -/
def verr (x : Ctx) : PyErr := ⟨.validation, [⟨some (s% "invalid"), some x.nm, x.inst⟩]⟩

/-- A ValueError of an item becomes an error of the container. -/
def wrapE (nm : Ctx) : Except PyErr Val → Except PyErr Val
  | .ok v => .ok v
  | .error e => if e.kind.isValueError then .error (verr nm) else .error e

/-- `liftScalar` without instance. -/
def liftE (nm : Ctx) : Except SErr Val → Except PyErr Val
  | .ok v => .ok v
  | .error (.raw k) => .error ⟨k, []⟩
  | .error (.invalid _) => .error (verr nm)

/-- `mkSeq` as a result. -/
def mkSeqE (k : SeqKind) (xs : List Val) : Except PyErr Val :=
  match k with
  | .tup => .ok (.tup xs)
  | .list => .ok (.list xs)
  | .set => if hashableL xs then .ok (.set (setOfList xs)) else .error ⟨.type, []⟩

/-- The items a container property looks at. -/
def itemsOf (v : Val) : List Val := if v.isContainer then v.items else [v]

/-- The pairs a Dictionary property looks at. -/
def pairsOf (co : Bool) (v : Val) : Option (List (Val × Val)) :=
  if co then dictCoerce? v else match v with | .dict kvs => some kvs | _ => none

/-- One pair of a Dictionary. -/
def pairE (nm : Ctx) (fk fv : Val → Except PyErr Val) (d : List (Val × Val)) (kv : Val × Val) :
    Except PyErr (List (Val × Val)) :=
  bindE (wrapE nm (fk kv.1)) fun key => bindE (wrapE nm (fv kv.2)) fun val =>
    if key.hashable then .ok (dictSet d key val) else .error ⟨.type, []⟩

/-- The result of a scalar type. -/
def ofScalar (nm : Ctx) : Option (Except SErr Val) → Except PyErr Val
  | some x => liftE nm x
  | none => .error ⟨.type, []⟩

mutual
/-- `prop.validate(instance, v)`. -/
def pval (E : Env) (cls : Nat → Option ClsId) (nm : Ctx) : PropSpec → Val → Except PyErr Val
  | .mk _ _ _ _ ty, v => pvalTy E cls nm ty v
def pvalTy (E : Env) (cls : Nat → Option ClsId) (nm : Ctx) : PropTy → Val → Except PyErr Val
  | .seq k item _ _ co, v =>
      if !co && !k.matches v then .error (verr nm)
      else bindE (mapE (fun x => wrapE nm (pval E cls nm item x)) (itemsOf v)) (mkSeqE k)
  | .dict kp vp co, v => match pairsOf co v with
      | none => .error (verr nm)
      | some kvs =>
        bindE (foldE (pairE nm (pval E cls nm kp) (pval E cls nm vp)) [] kvs) fun out =>
          .ok (.dict out)
  | .inst c, v => match v with
      | .obj r => match cls r with
        | none => .error ⟨.attr, []⟩
        | some d => if isSub E d c then .ok v else .error (verr nm)
      | _ => .error (verr nm)
  | .union ps _, v => pvalAll E cls nm ps v
  | .color, v => ofScalar nm (scalarValidate E 0 .color v)
  | .any, v => ofScalar nm (scalarValidate E 0 .any v)
  | .boolean c, v => ofScalar nm (scalarValidate E 0 (.boolean c) v)
  | .integer c a b, v => ofScalar nm (scalarValidate E 0 (.integer c a b) v)
  | .float c a b, v => ofScalar nm (scalarValidate E 0 (.float c a b) v)
  | .complex c, v => ofScalar nm (scalarValidate E 0 (.complex c) v)
  | .string s m r, v => ofScalar nm (scalarValidate E 0 (.string s m r) v)
  | .choice k c, v => ofScalar nm (scalarValidate E 0 (.choice k c) v)
  | .datetime, v => ofScalar nm (scalarValidate E 0 .datetime v)
  | .uuid, v => ofScalar nm (scalarValidate E 0 .uuid v)
def pvalAll (E : Env) (cls : Nat → Option ClsId) (nm : Ctx) : List PropSpec → Val → Except PyErr Val
  | [], _ => .error (verr nm)
  | p :: ps, v => match pval E cls nm p v with
    | .ok x => .ok x
    | .error e => if e.kind.isGeneric then pvalAll E cls nm ps v else .error e
end

/-- Errors for this context call no hook. -/
def Mute (x : Ctx) (w : World) : Prop :=
  ∀ r, x.inst = some r → ∃ o, w.objs[r]? = some o ∧ o.gv ≠ some false

/-- `m` is the function `g` of the classes and leaves the state alone; unless
`L`, it may also end with RecursionError. -/
def IsFn (L : Prop) (x : Ctx) {α : Type} (m : M α) (g : (Nat → Option ClsId) → Except PyErr α) :
    Prop :=
  ∀ w, Mute x w → m w = (g (clsAt w), w) ∨
    (¬ L ∧ ∃ e, m w = (.error e, w) ∧ e.kind = .recursion)

section
variable {L : Prop} {x : Ctx} {α β : Type}

theorem isFn_pure (a : α) : IsFn L x (pure a : M α) (fun _ => .ok a) := fun _ _ => .inl rfl

theorem isFn_raise (e : PyErr) : IsFn L x (M.raise e : M α) (fun _ => .error e) :=
  fun _ _ => .inl rfl

theorem propError_mute {x : Ctx} {w : World} (E : Env) (rec : Rec) (hw : Mute x w) :
    (propError E rec x.nm x.inst : M α) w = (.error (verr x), w) := by
  unfold propError raiseVal
  cases hi : x.inst with
  | none => simp only [verr, hi]; rfl
  | some r =>
    obtain ⟨o, ho, hg⟩ := hw r hi
    simp only
    rw [bind_ok (getObj_some ho)]
    have : (o.gv == some false) = false := by simpa using hg
    rw [this]
    simp only [verr, hi]
    rfl

theorem isFn_propError (E : Env) (rec : Rec) :
    IsFn L x (propError E rec x.nm x.inst : M α) (fun _ => .error (verr x)) :=
  fun _ hw => .inl (propError_mute E rec hw)

theorem isFn_bind {m : M α} {f : α → M β} {g : (Nat → Option ClsId) → Except PyErr α}
    {h : α → (Nat → Option ClsId) → Except PyErr β} (hm : IsFn L x m g)
    (hf : ∀ a, IsFn L x (f a) (h a)) :
    IsFn L x (m >>= f) (fun c => bindE (g c) fun a => h a c) := by
  intro w hw
  rcases hm w hw with h1 | ⟨hL, e, h1, he⟩
  · cases hg : g (clsAt w) with
    | error e => rw [hg] at h1; rw [bind_err h1]; simp [hg]
    | ok a =>
      rw [hg] at h1; rw [bind_ok h1]
      simp only [hg, bindE_ok]
      exact hf a w hw
  · exact .inr ⟨hL, e, bind_err h1, he⟩

theorem isFn_congr {m : M α} {g g' : (Nat → Option ClsId) → Except PyErr α} (hm : IsFn L x m g)
    (h : ∀ c, g c = g' c) : IsFn L x m g' := fun w hw => by rw [← h]; exact hm w hw

theorem isFn_mono {L' : Prop} {m : M α} {g : (Nat → Option ClsId) → Except PyErr α}
    (hm : IsFn L x m g) (h : L' → L) : IsFn L' x m g := fun w hw => by
  rcases hm w hw with h1 | ⟨hL, h1⟩
  · exact .inl h1
  · exact .inr ⟨fun h' => hL (h h'), h1⟩

theorem isFn_mapML {f : α → M β} {g : α → (Nat → Option ClsId) → Except PyErr β} :
    ∀ {xs : List α}, (∀ a ∈ xs, IsFn L x (f a) (g a)) →
      IsFn L x (mapML f xs) (fun c => mapE (fun a => g a c) xs)
  | [], _ => isFn_pure []
  | a :: xs, h => by
    unfold mapML
    refine isFn_congr (isFn_bind (h a (by simp)) fun y => isFn_bind
      (isFn_mapML fun z hz => h z (by simp [hz])) fun ys => isFn_pure _) fun c => rfl

theorem isFn_foldML {f : β → α → M β} {g : β → α → (Nat → Option ClsId) → Except PyErr β} :
    ∀ {xs : List α} (b : β), (∀ b, ∀ a ∈ xs, IsFn L x (f b a) (g b a)) →
      IsFn L x (foldML f b xs) (fun c => foldE (fun b a => g b a c) b xs)
  | [], b, _ => isFn_pure b
  | a :: xs, b, h => by
    unfold foldML
    refine isFn_congr (isFn_bind (h b a (by simp)) fun b' =>
      isFn_foldML b' fun d z hz => h d z (by simp [hz])) fun c => rfl

theorem isFn_wrap (E : Env) (rec : Rec) {m : M Val} {g : (Nat → Option ClsId) → Except PyErr Val}
    (hm : IsFn L x m g) :
    IsFn L x (M.catchIf ErrKind.isValueError m (fun _ => propError E rec x.nm x.inst))
      (fun c => wrapE x (g c)) := by
  intro w hw
  rcases hm w hw with h1 | ⟨hL, e, h1, he⟩
  · left
    cases hg : g (clsAt w) with
    | ok a => rw [hg] at h1; rw [catchIf_ok h1]; simp [wrapE, hg]
    | error e =>
      rw [hg] at h1
      cases hk : e.kind.isValueError with
      | true =>
        rw [catchIf_err h1 hk, propError_mute E rec hw]
        simp [wrapE, hk, hg]
      | false =>
        rw [catchIf_pass h1 hk]
        simp [wrapE, hk, hg]
  · exact .inr ⟨hL, e, catchIf_pass h1 (by rw [he]; rfl), he⟩

theorem isFn_liftScalar (E : Env) (rec : Rec) (r : Except SErr Val) :
    IsFn L x (liftScalar E rec x.nm x.inst r) (fun _ => liftE x r) := by
  intro w hw
  left
  unfold liftScalar
  split
  · rfl
  · rfl
  · have h1 := propError_mute (α := Val) E rec hw
    rw [catchIf_err h1 rfl]
    exact h1
  · rename_i k h
    exact propError_mute E rec hw

theorem isFn_mkSeq (k : SeqKind) (xs : List Val) :
    IsFn L x (mkSeq k xs) (fun _ => mkSeqE k xs) := by
  intro w _
  left
  unfold mkSeq mkSeqE
  split
  · rfl
  · rfl
  · split <;> rfl

end

theorem isFn_tryProps {L : Prop} {E : Env} {rec : Rec} {x : Ctx} {v : Val} :
    ∀ {ps : List PropSpec}, (∀ p ∈ ps, IsFn L x (rec (.validate x.nm p x.inst v))
        (fun c => pval E c x p v)) →
      IsFn L x (tryProps E rec x.nm x.inst (fun p => .validate x.nm p x.inst v) ps)
        (fun c => pvalAll E c x ps v)
  | [], _ => by unfold tryProps pvalAll; exact isFn_propError E rec
  | p :: ps, h => by
    intro w hw
    unfold tryProps pvalAll
    rcases h p (by simp) w hw with h1 | ⟨hL, e, h1, he⟩
    · replace h1 : rec (.validate x.nm p x.inst v) w = (pval E (clsAt w) x p v, w) := h1
      cases hg : pval E (clsAt w) x p v with
      | ok a => rw [hg] at h1; rw [catchIf_ok h1]; simp [hg]
      | error e =>
        rw [hg] at h1
        cases hk : e.kind.isGeneric with
        | true =>
          rw [catchIf_err h1 hk]
          simp only [hg, hk, if_true]
          exact isFn_tryProps (fun q hq => h q (by simp [hq])) w hw
        | false => rw [catchIf_pass h1 hk]; simp [hk, hg]
    · exact .inr ⟨hL, e, catchIf_pass h1 (by rw [he]; rfl), he⟩

theorem isFn_dictValidate {L : Prop} {E : Env} {rec : Rec} {x : Ctx} {v : Val} {kp vp : PropSpec} {co : Bool}
    {fk fv : (Nat → Option ClsId) → Val → Except PyErr Val}
    (h : ∀ kvs, pairsOf co v = some kvs → ∀ kv ∈ kvs,
      IsFn L x (M.catchIf ErrKind.isValueError (rec (.validate x.nm kp x.inst kv.1))
        (fun _ => propError E rec x.nm x.inst)) (fun c => wrapE x (fk c kv.1)) ∧
      IsFn L x (M.catchIf ErrKind.isValueError (rec (.validate x.nm vp x.inst kv.2))
        (fun _ => propError E rec x.nm x.inst)) (fun c => wrapE x (fv c kv.2))) :
    IsFn L x (dictValidate E rec x.nm x.inst kp vp co v) (fun c => match pairsOf co v with
      | none => .error (verr x)
      | some kvs => bindE (foldE (pairE x (fk c) (fv c)) [] kvs) fun out => .ok (.dict out)) := by
  have hd : dictValidate E rec x.nm x.inst kp vp co v = (match pairsOf co v with
      | some kvs => pure kvs
      | none => propError E rec x.nm x.inst) >>= fun items => foldML (fun d kv => do
          let key ← M.catchIf ErrKind.isValueError (rec (.validate x.nm kp x.inst kv.1))
            (fun _ => propError E rec x.nm x.inst)
          let val ← M.catchIf ErrKind.isValueError (rec (.validate x.nm vp x.inst kv.2))
            (fun _ => propError E rec x.nm x.inst)
          if key.hashable then pure (dictSet d key val) else raiseK .type) [] items >>=
            fun out => (pure (.dict out) : M Val) := rfl
  rw [hd]
  generalize pairsOf co v = y at h
  cases y with
  | none =>
    intro w hw
    exact .inl (bind_err (propError_mute (α := List (Val × Val)) E rec hw))
  | some kvs =>
    show IsFn L x (foldML _ [] kvs >>= _) _
    refine isFn_congr (isFn_bind (isFn_foldML
      (g := fun d kv c => pairE x (fk c) (fv c) d kv) [] fun d kv hkv => ?_)
      fun out => isFn_pure _) fun c => rfl
    have := h kvs rfl kv hkv
    refine isFn_congr (isFn_bind this.1 fun key => isFn_bind this.2
      (h := fun y _ => if key.hashable then .ok (dictSet d key y) else .error ⟨.type, []⟩)
      fun y => ?_) fun c => rfl
    split
    · exact isFn_pure _
    · exact isFn_raise _

/-- Validation is the function `pval`, given enough recursion depth. -/
theorem run_isFn {E : Env} {x : Ctx} : ∀ n p v, Still p v →
    IsFn (depth p ≤ n) x (run E n (.validate x.nm p x.inst v)) (fun c => pval E c x p v)
  | 0, p, v, _ => fun w _ => .inr ⟨by rw [depth_eq]; omega, _, rfl, rfl⟩
  | n + 1, p, v, hv => by
    have hr : ∀ q y, depth q ≤ depthTy p.ty → Still q y → IsFn (depth p ≤ n + 1) x
        (run E n (.validate x.nm q x.inst y)) (fun c => pval E c x q y) :=
      fun q y hq hy => isFn_mono (run_isFn n q y hy) fun h => by rw [depth_eq] at h; omega
    generalize (depth p ≤ n + 1) = L at hr
    replace hv := still_ty hv
    show IsFn L x (validateBody E (run E n) x.nm p x.inst v) _
    generalize hrec : run E n = rec at hr
    obtain ⟨rq, s, d, df, ty⟩ := p
    simp only [PropSpec.ty] at hr hv
    have item : ∀ q y, depth q ≤ depthTy ty → Still q y → IsFn L x (M.catchIf ErrKind.isValueError
        (rec (.validate x.nm q x.inst y)) (fun _ => propError E rec x.nm x.inst))
        (fun c => wrapE x (pval E c x q y)) := fun q y hq hy => isFn_wrap E rec (hr q y hq hy)
    unfold validateBody pval
    cases ty <;> simp only [PropSpec.ty]
    case seq k it lo hi co =>
      unfold StillTy at hv
      unfold depthTy at item
      unfold seqValidate
      simp only [pvalTy]
      split
      · rename_i h
        intro w hw
        exact .inl (by rw [bind_err (propError_mute (α := Unit) E rec hw)])
      · rename_i h
        refine isFn_congr (isFn_bind (isFn_mapML
          (g := fun y c => wrapE x (pval E c x it y)) fun y hy => ?_) fun out => isFn_mkSeq k out)
          fun c => ?_
        · refine item it y (Nat.le_refl _) ?_
          split at hy
          · exact hv.1 y hy
          · rename_i hc
            simp only [List.mem_singleton] at hy
            subst hy
            exact hv.2 (by simpa using hc)
        · rfl
    case dict kp vp co =>
      unfold StillTy at hv
      unfold depthTy at item
      simp only [pvalTy]
      refine isFn_dictValidate fun kvs hk kv hkv => ?_
      have hkvs : dictCoerce? v = some kvs := by
        unfold pairsOf at hk
        cases co with
        | true => simpa using hk
        | false =>
          simp only [Bool.false_eq_true, if_false] at hk
          split at hk
          · cases hk; rfl
          · cases hk
      have := hv kvs hkvs kv hkv
      exact ⟨item kp kv.1 (Nat.le_max_left _ _) this.1, item vp kv.2 (Nat.le_max_right _ _) this.2⟩
    case inst c =>
      unfold StillTy at hv
      unfold instValidate
      simp only [pvalTy]
      intro w hw
      left
      split
      · rename_i r
        cases ho : w.objs[r]? with
        | none => rw [bind_err (getObj_none ho)]; simp [clsAt, ho]
        | some o =>
          rw [bind_ok (getObj_some ho)]
          simp only [clsAt, ho, Option.map_some]
          split
          · rfl
          · exact propError_mute E rec hw
      · rename_i kvs; exact absurd rfl (hv kvs)
      · rename_i h1 h2
        rw [propError_mute E rec hw]
        split
        · rename_i r; exact absurd rfl (h1 r)
        · rfl
    case union ps st =>
      unfold StillTy at hv
      unfold depthTy at hr
      simp only [pvalTy]
      exact isFn_tryProps fun p hp => hr p v (depthAll_le hp) (stillAll_iff.1 hv p hp)
    case color =>
      unfold StillTy at hv
      simp only [pvalTy]
      unfold colorBody
      split
      · rename_i s; exact absurd rfl (hv s)
      · simp only [scalarValidate, ofScalar]
        exact isFn_liftScalar E rec _
    all_goals
      simp only [pvalTy, scalarValidate, ofScalar]
      exact isFn_liftScalar E rec _

/-- Validation is the function `pval` of the classes. -/
theorem run_pval {E : Env} {nm : PyStr} {inst : Option Nat} {n : Nat} {p : PropSpec} {v : Val}
    {w : World} (hd : depth p ≤ n) (hv : Still p v) (hm : Mute ⟨nm, inst⟩ w) :
    run E n (.validate nm p inst v) w = (pval E (clsAt w) ⟨nm, inst⟩ p v, w) :=
  (run_isFn (x := ⟨nm, inst⟩) n p v hv w hm).resolve_right fun h => h.1 hd

/-- With too little recursion depth there may also be a RecursionError. -/
theorem run_pval_or {E : Env} {nm : PyStr} {inst : Option Nat} {n : Nat} {p : PropSpec} {v : Val}
    {w : World} (hv : Still p v) (hm : Mute ⟨nm, inst⟩ w) :
    run E n (.validate nm p inst v) w = (pval E (clsAt w) ⟨nm, inst⟩ p v, w) ∨
    (¬ depth p ≤ n ∧ ∃ e, run E n (.validate nm p inst v) w = (.error e, w) ∧ e.kind = .recursion) :=
  run_isFn (x := ⟨nm, inst⟩) n p v hv w hm

end Verif
