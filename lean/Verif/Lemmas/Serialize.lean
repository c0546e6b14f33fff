import Verif.Lemmas.PureVal
import Verif.Lemmas.Access
import Verif.Spec.Serialize
import Mathlib.Data.List.Forall2

/-!
# serialize() computes the serialized form

One induction over the interpreter shows that `serialize()` leaves the state
alone, ends, gives the form specified by `SerO` and fails, when all values can
be serialized, only because of a cycle.
-/

namespace Verif
open Spec

/-! ## Errors of validation -/

theorem wrapE_error {x : Ctx} {r : Except PyErr Val} {e : PyErr} (h : wrapE x r = .error e) :
    e = verr x ∨ r = .error e := by
  cases r with
  | ok v => cases h
  | error e' =>
    unfold wrapE at h
    dsimp only at h
    split at h <;> cases h
    · exact .inl rfl
    · exact .inr rfl

theorem mapE_error {α β ε : Type} {f : α → Except ε β} {e : ε} : ∀ {xs : List α},
    mapE f xs = .error e → ∃ x ∈ xs, f x = .error e
  | [], h => by cases h
  | x :: xs, h => by
    unfold mapE at h
    cases hx : f x with
    | error e' => rw [hx] at h; cases h; exact ⟨x, by simp, hx⟩
    | ok y =>
      rw [hx, bindE_ok] at h
      cases hm : mapE f xs with
      | error e' =>
        rw [hm] at h; cases h
        obtain ⟨z, hz, h2⟩ := mapE_error hm
        exact ⟨z, by simp [hz], h2⟩
      | ok ys => rw [hm] at h; cases h

theorem foldE_error {α β ε : Type} {f : β → α → Except ε β} {e : ε} : ∀ {xs : List α} {b : β},
    foldE f b xs = .error e → ∃ x ∈ xs, ∃ b', f b' x = .error e
  | [], _, h => by cases h
  | x :: xs, b, h => by
    unfold foldE at h
    cases hx : f b x with
    | error e' => rw [hx] at h; cases h; exact ⟨x, by simp, b, hx⟩
    | ok y =>
      rw [hx, bindE_ok] at h
      obtain ⟨z, hz, h2⟩ := foldE_error h
      exact ⟨z, by simp [hz], h2⟩

theorem ofScalar_noRec {E : Env} {x : Ctx} {ty : PropTy} {v : Val} {e : PyErr}
    (h : ofScalar x (scalarValidate E 0 ty v) = .error e) : e.kind ≠ .recursion := by
  cases hs : scalarValidate E 0 ty v with
  | none => rw [hs] at h; cases h; simp
  | some r =>
    rw [hs] at h
    unfold ofScalar liftE at h
    cases r with
    | ok v => cases h
    | error s =>
      cases s with
      | raw k => cases h; rw [scalar_raw hs]; simp
      | invalid _ => cases h; simp [verr]

mutual
theorem pval_noRec {E : Env} {cls : Nat → Option ClsId} {x : Ctx} : ∀ (p : PropSpec) (v : Val)
    (e : PyErr), pval E cls x p v = .error e → e.kind ≠ .recursion
  | .mk _ _ _ _ ty, v, e, h => by
    unfold pval at h
    exact pvalTy_noRec ty v e h
theorem pvalTy_noRec {E : Env} {cls : Nat → Option ClsId} {x : Ctx} : ∀ (ty : PropTy) (v : Val)
    (e : PyErr), pvalTy E cls x ty v = .error e → e.kind ≠ .recursion
  | .seq k item _ _ co, v, e, h => by
    unfold pvalTy at h
    split at h
    · cases h; simp [verr]
    · cases hm : mapE (fun y => wrapE x (pval E cls x item y)) (itemsOf v) with
      | error e' =>
        rw [hm] at h; cases h
        obtain ⟨y, _, hy⟩ := mapE_error hm
        rcases wrapE_error hy with rfl | hy
        · simp [verr]
        · exact pval_noRec item y _ hy
      | ok out =>
        rw [hm, bindE_ok] at h
        unfold mkSeqE at h
        split at h
        · cases h
        · cases h
        · split at h <;> cases h
          simp
  | .dict kp vp co, v, e, h => by
    unfold pvalTy at h
    split at h
    · cases h; simp [verr]
    · rename_i kvs _
      cases hm : foldE (pairE x (pval E cls x kp) (pval E cls x vp)) [] kvs with
      | ok out => rw [hm] at h; cases h
      | error e' =>
        rw [hm] at h; cases h
        obtain ⟨kv, _, d, hy⟩ := foldE_error hm
        unfold pairE at hy
        cases h1 : wrapE x (pval E cls x kp kv.1) with
        | error e1 =>
          rw [h1] at hy; cases hy
          rcases wrapE_error h1 with rfl | h1
          · simp [verr]
          · exact pval_noRec kp _ _ h1
        | ok key =>
          rw [h1, bindE_ok] at hy
          cases h2 : wrapE x (pval E cls x vp kv.2) with
          | error e1 =>
            rw [h2] at hy; cases hy
            rcases wrapE_error h2 with rfl | h2
            · simp [verr]
            · exact pval_noRec vp _ _ h2
          | ok val =>
            rw [h2, bindE_ok] at hy
            split at hy <;> cases hy
            simp
  | .inst c, v, e, h => by
    unfold pvalTy at h
    split at h
    · split at h
      · cases h; simp
      · split at h <;> cases h
        simp [verr]
    · cases h; simp [verr]
  | .union ps _, v, e, h => by unfold pvalTy at h; exact pvalAll_noRec ps v e h
  | .color, v, e, h => by unfold pvalTy at h; exact ofScalar_noRec h
  | .any, v, e, h => by unfold pvalTy at h; exact ofScalar_noRec h
  | .boolean _, v, e, h => by unfold pvalTy at h; exact ofScalar_noRec h
  | .integer _ _ _, v, e, h => by unfold pvalTy at h; exact ofScalar_noRec h
  | .float _ _ _, v, e, h => by unfold pvalTy at h; exact ofScalar_noRec h
  | .complex _, v, e, h => by unfold pvalTy at h; exact ofScalar_noRec h
  | .string _ _ _, v, e, h => by unfold pvalTy at h; exact ofScalar_noRec h
  | .choice _ _, v, e, h => by unfold pvalTy at h; exact ofScalar_noRec h
  | .datetime, v, e, h => by unfold pvalTy at h; exact ofScalar_noRec h
  | .uuid, v, e, h => by unfold pvalTy at h; exact ofScalar_noRec h
theorem pvalAll_noRec {E : Env} {cls : Nat → Option ClsId} {x : Ctx} : ∀ (ps : List PropSpec)
    (v : Val) (e : PyErr), pvalAll E cls x ps v = .error e → e.kind ≠ .recursion
  | [], v, e, h => by cases h; simp [verr]
  | p :: ps, v, e, h => by
    unfold pvalAll at h
    split at h
    · cases h
    · rename_i e' he
      split at h
      · exact pvalAll_noRec ps v e h
      · cases h; exact pval_noRec p v _ he
end

/-! ## Alternatives of a Union -/

theorem accepts_iff {E : Env} {w : World} {nm : PyStr} {v : Val} {q : PropSpec} (hv : Still q v) :
    Accepts E w nm v q ↔ ∃ x, pval E (clsAt w) ⟨nm, none⟩ q v = .ok x := by
  have hm : Mute ⟨nm, none⟩ w := fun r hr => by cases hr
  constructor
  · rintro ⟨N, x, h⟩
    refine ⟨x, ?_⟩
    have := h (max N (depth q)) (Nat.le_max_left _ _)
    rwa [run_pval (Nat.le_max_right _ _) hv hm] at this
  · rintro ⟨x, h⟩
    refine ⟨depth q, x, fun n hn => ?_⟩
    rw [run_pval hn hv hm]; exact h

theorem rejects_iff {E : Env} {w : World} {nm : PyStr} {v : Val} {q : PropSpec} (hv : Still q v) :
    Rejects E w nm v q ↔ ∃ e, e.kind.isGeneric = true ∧ pval E (clsAt w) ⟨nm, none⟩ q v = .error e := by
  have hm : Mute ⟨nm, none⟩ w := fun r hr => by cases hr
  constructor
  · rintro ⟨N, x, hx, h⟩
    refine ⟨x, hx, ?_⟩
    have := h (max N (depth q)) (Nat.le_max_left _ _)
    rwa [run_pval (Nat.le_max_right _ _) hv hm] at this
  · rintro ⟨x, hx, h⟩
    refine ⟨depth q, x, hx, fun n hn => ?_⟩
    rw [run_pval hn hv hm]; exact h

theorem picks_det {E : Env} {w : World} {nm : PyStr} {v : Val} {ps : List PropSpec}
    {a b : Option PropSpec} (hs : ∀ q ∈ ps, Still q v) (ha : Picks E w nm v ps a)
    (hb : Picks E w nm v ps b) : a = b := by
  induction ha generalizing b with
  | nil => cases hb; rfl
  | here q ps h =>
    cases hb with
    | here => rfl
    | later _ _ _ h2 =>
      obtain ⟨x, hx⟩ := (accepts_iff (hs q (by simp))).1 h
      obtain ⟨e, _, he⟩ := (rejects_iff (hs q (by simp))).1 h2
      rw [hx] at he; cases he
  | later q ps o h _ ih =>
    cases hb with
    | here _ _ h2 =>
      obtain ⟨x, hx⟩ := (accepts_iff (hs q (by simp))).1 h2
      obtain ⟨e, _, he⟩ := (rejects_iff (hs q (by simp))).1 h
      rw [hx] at he; cases he
    | later _ _ _ _ h2 => exact ih (fun q hq => hs q (by simp [hq])) h2

theorem picks_mem {E : Env} {w : World} {nm : PyStr} {v : Val} {ps : List PropSpec}
    {q : PropSpec} (h : Picks E w nm v ps (some q)) : q ∈ ps := by
  generalize ho : some q = o at h
  induction h with
  | nil => cases ho
  | here => cases ho; simp
  | later _ _ _ _ _ ih => simp [ih ho]

theorem tameAll_iff {E : Env} {ps : List PropSpec} {v : Val} :
    TameAll E ps v ↔ ∀ p ∈ ps, Still p v ∧ Tame E p v := by
  induction ps with
  | nil => simp [TameAll]
  | cons p ps ih => simp [TameAll, ih]

theorem tame_cases {E : Env} {p : PropSpec} {v : Val} (h : Tame E p v) :
    (p.ser = none ∧ TameTy E p.ty v) ∨ ∃ f, p.ser = some f ∧ Computes E f v := by
  obtain ⟨r, s, d, df, ty⟩ := p
  unfold Tame at h
  exact h

/-! ## Registered serializers and deserializers -/

theorem answers_det {E : Env} {f : FnId} {v : Val} {kw : List Val} {a b : Val}
    (ha : Answers E f v kw a) (hb : Answers E f v kw b) : a = b := by
  cases ha with
  | full _ h1 => cases hb with
    | full _ h2 => rw [h1] at h2; cases h2; rfl
    | short e _ h2 => rw [h1] at h2; cases h2
  | short e _ h1 _ h3 => cases hb with
    | full _ h2 => rw [h1] at h2; cases h2
    | short e _ _ _ h2 => rw [h3] at h2; cases h2; rfl

theorem answers_not_raises {E : Env} {f : FnId} {v : Val} {kw : List Val} {a : Val} {e : PyErr}
    (ha : Answers E f v kw a) (hb : Raises E f v kw e) : False := by
  cases ha with
  | full _ h1 => cases hb with
    | full _ h2 => rw [h1] at h2; cases h2
    | short e _ h2 => rw [h1] at h2; cases h2
  | short e _ h1 ht h3 => cases hb with
    | full _ h2 h4 => rw [h1] at h2; cases h2; exact h4 ht
    | short e _ _ _ h2 => rw [h3] at h2; cases h2

theorem callWrapped_answers {E : Env} {rec : Rec} {f : FnId} {v : Val} {kw : List Val} {j : Val}
    (h : Answers E f v kw j) (w : World) : callWrapped E rec f v kw w = (.ok j, w) := by
  unfold callWrapped callFn
  cases h with
  | full _ h1 => rw [h1]; exact catchIf_ok rfl
  | short e _ h1 ht h2 =>
    rw [h1, h2]
    exact (catchIf_err (e := e) (w' := w) rfl (by rw [ht]; rfl)).trans rfl

theorem callWrapped_raises {E : Env} {rec : Rec} {f : FnId} {v : Val} {kw : List Val} {e : PyErr}
    (h : Raises E f v kw e) (w : World) : callWrapped E rec f v kw w = (.error e, w) := by
  unfold callWrapped callFn
  cases h with
  | full _ h1 ht =>
    rw [h1]
    exact catchIf_pass rfl (by cases hk : e.kind <;> first | rfl | exact absurd hk ht)
  | short e1 _ h1 ht h2 =>
    rw [h1, h2]
    exact (catchIf_err (e := e1) (w' := w) rfl (by rw [ht]; rfl)).trans rfl

/-! ## Calls that leave the state alone -/

/-- `m` leaves `ws` alone and its result satisfies `Q`. -/
def Res (ws : World) {α : Type} (m : M α) (Q : Except PyErr α → Prop) : Prop :=
  ∃ x, m ws = (x, ws) ∧ Q x

section
variable {ws : World} {α β : Type}

theorem res_bind {m : M α} {f : α → M β} {Q1 : Except PyErr α → Prop} {Q : Except PyErr β → Prop}
    (hm : Res ws m Q1) (hf : ∀ a, Q1 (.ok a) → Res ws (f a) Q)
    (he : ∀ e, Q1 (.error e) → Q (.error e)) : Res ws (m >>= f) Q := by
  obtain ⟨x, hx, hq⟩ := hm
  cases x with
  | error e => exact ⟨_, bind_err hx, he e hq⟩
  | ok a =>
    obtain ⟨y, hy, hQ⟩ := hf a hq
    exact ⟨y, by rw [bind_ok hx]; exact hy, hQ⟩

theorem res_weaken {m : M α} {Q Q' : Except PyErr α → Prop} (hm : Res ws m Q)
    (h : ∀ x, Q x → Q' x) : Res ws m Q' := by
  obtain ⟨x, hx, hq⟩ := hm; exact ⟨x, hx, h x hq⟩

theorem res_pure (a : α) {Q : Except PyErr α → Prop} (h : Q (.ok a)) : Res ws (pure a : M α) Q :=
  ⟨_, rfl, h⟩

theorem res_raise (e : PyErr) {Q : Except PyErr α → Prop} (h : Q (.error e)) :
    Res ws (M.raise e : M α) Q := ⟨_, rfl, h⟩

theorem res_mapML {f : α → M β} {Q : α → Except PyErr β → Prop} : ∀ {xs : List α},
    (∀ x ∈ xs, Res ws (f x) (Q x)) →
    Res ws (mapML f xs) (fun r => match r with
      | .ok ys => List.Forall₂ (fun x y => Q x (.ok y)) xs ys
      | .error e => ∃ x ∈ xs, Q x (.error e))
  | [], _ => ⟨_, rfl, .nil⟩
  | x :: xs, h => by
    unfold mapML
    refine res_bind (h x (by simp)) (fun y hy => ?_) fun e he => ⟨x, by simp, he⟩
    refine res_bind (res_mapML (fun z hz => h z (by simp [hz]))) (fun ys hys => ?_) fun e he => ?_
    · exact res_pure _ (.cons hy hys)
    · obtain ⟨z, hz, h2⟩ := he
      exact ⟨z, by simp [hz], h2⟩
end

/-! ## serialize() -/

/-- The states have the same instances with the same classes and stored
values. -/
def SameCore (w0 ws : World) : Prop :=
  ∀ r : Nat, ws.objs[r]?.map (fun o => (o.cls, o.backend)) =
    w0.objs[r]?.map (fun o => (o.cls, o.backend))

theorem sameCore_refl (w : World) : SameCore w w := fun _ => rfl

theorem sameCore_cls {w0 ws : World} (h : SameCore w0 ws) : clsAt ws = clsAt w0 := by
  funext r
  have := congrArg (Option.map Prod.fst) (h r)
  simpa [clsAt, Option.map_map, Function.comp_def] using this

theorem sameCore_some {w0 ws : World} (h : SameCore w0 ws) {r : Nat} {o : Obj}
    (ho : ws.objs[r]? = some o) : ∃ o', w0.objs[r]? = some o' ∧ o'.cls = o.cls ∧
      o'.backend = o.backend := by
  have h1 := h r
  rw [ho] at h1
  cases h0 : w0.objs[r]? with
  | none => rw [h0] at h1; cases h1
  | some o' =>
    rw [h0] at h1
    simp only [Option.map_some, Option.some.injEq, Prod.mk.injEq] at h1
    exact ⟨o', rfl, h1.1.symm, h1.2.symm⟩

theorem sameCore_none {w0 ws : World} (h : SameCore w0 ws) {r : Nat}
    (ho : ws.objs[r]? = none) : w0.objs[r]? = none := by
  have h1 := h r
  rw [ho] at h1
  cases h0 : w0.objs[r]? with
  | none => rfl
  | some o' => rw [h0] at h1; cases h1

/-- `r` is being serialized. -/
def Marked (ws : World) (r : Nat) : Prop := ∃ o, ws.objs[r]? = some o ∧ o.gs = true

/-- From `s` one comes to an instance being serialized or to a cycle. -/
def Loops (E : Env) (w0 ws : World) (s : Nat) : Prop :=
  ∃ t, Reaches E w0 s t ∧ (Marked ws t ∨ OnCycle E w0 t)

/-- What may be said of an error raised while serializing: not a RecursionError
given enough recursion depth (`L`), and a SelfReferenceError if everything can
be serialized (`F`). -/
def Trouble (E : Env) (w0 ws : World) (L F : Prop) (src : Nat → Prop) (e : PyErr) : Prop :=
  (L → e.kind ≠ .recursion) ∧ (F → e.kind = .selfRef ∧ ∃ s, src s ∧ Loops E w0 ws s)

/-- What may be said of the result of serializing a value. -/
def PostP (E : Env) (w0 ws : World) (L F : Prop) (ic : Bool) (nm : PyStr) (p : PropSpec) (v : Val) :
    Except PyErr Val → Prop
  | .ok j => SerP E w0 ic nm p v j
  | .error e => Trouble E w0 ws L (F ∧ Fine E w0 ic nm p v) (Visits E w0 nm p v) e

/-- What may be said of the result of serializing an instance. -/
def PostO (E : Env) (w0 ws : World) (L F : Prop) (ic : Bool) (r : Nat) : Except PyErr Val → Prop
  | .ok j => SerO E w0 ic r j
  | .error e => Trouble E w0 ws L (F ∧ ∃ o, w0.objs[r]? = some o) (· = r) e

theorem scalarToJson_noRec {E : Env} {ty : PropTy} {v : Val} {k : ErrKind}
    (h : scalarToJson E ty v = some (.error k)) : k ≠ .recursion := by
  unfold scalarToJson at h
  split at h <;> (try cases h) <;>
  · simp only [Option.some.injEq] at h
    split at h <;> cases h <;> simp

theorem serL_of {E : Env} {w : World} {ic : Bool} {nm : PyStr} {p : PropSpec} {xs js : List Val}
    (h : List.Forall₂ (fun x j => SerP E w ic nm p x j) xs js) : SerL E w ic nm p xs js := by
  induction h with
  | nil => exact .nil nm p
  | cons h _ ih => exact .cons nm p _ _ _ _ h ih

theorem serD_of {E : Env} {w : World} {ic : Bool} {nm : PyStr} {kp vp : PropSpec}
    {kvs jvs : List (Val × Val)}
    (h : List.Forall₂ (fun kv jv => SerP E w ic nm kp kv.1 jv.1 ∧ SerP E w ic nm vp kv.2 jv.2) kvs jvs) :
    SerD E w ic nm kp vp kvs jvs := by
  induction h with
  | nil => exact .nil nm kp vp
  | cons h _ ih => exact .cons nm kp vp _ _ _ _ _ _ h.1 h.2 ih

theorem forall₂_right {α β : Type} {R : α → β → Prop} {xs : List α} {ys : List β} {y : β}
    (h : List.Forall₂ R xs ys) (hy : y ∈ ys) : ∃ x ∈ xs, R x y := by
  induction h with
  | nil => cases hy
  | cons h1 _ ih =>
    rcases List.mem_cons.1 hy with rfl | hy
    · exact ⟨_, by simp, h1⟩
    · obtain ⟨x, hx, h2⟩ := ih hy
      exact ⟨x, by simp [hx], h2⟩

/-- The serialized form by the alternative that accepts the value. -/
def SerPick (E : Env) (w : World) (ic : Bool) (nm : PyStr) (v j : Val) : Option PropSpec → Prop
  | some q => SerP E w ic nm q v j
  | none => (∃ r, v = .obj r ∧ SerO E w ic r j) ∨ ((∀ r, v ≠ .obj r) ∧ j = v)

def FinePick (E : Env) (w : World) (ic : Bool) (nm : PyStr) (v : Val) : Option PropSpec → Prop
  | some q => Fine E w ic nm q v
  | none => ∀ r, v = .obj r → ∃ o, w.objs[r]? = some o

def VisitPick (E : Env) (w : World) (nm : PyStr) (v : Val) (s : Nat) : Option PropSpec → Prop
  | some q => Visits E w nm q v s
  | none => v = .obj s

def PostU (E : Env) (w0 ws : World) (L F : Prop) (ic : Bool) (nm : PyStr) (v : Val)
    (ps : List PropSpec) : Except PyErr Val → Prop
  | .ok j => ∃ o, Picks E w0 nm v ps o ∧ SerPick E w0 ic nm v j o
  | .error e => Trouble E w0 ws L (F ∧ ∃ o, Picks E w0 nm v ps o ∧ FinePick E w0 ic nm v o)
      (fun s => ∃ o, Picks E w0 nm v ps o ∧ VisitPick E w0 nm v s o) e

theorem unionSerialize_res {E : Env} {w0 ws : World} {L F : Prop} {kw : SerKw} {nm : PyStr} {v : Val}
    {n : Nat} (hw : SameCore w0 ws) (hFL : F → L)
    (ho : ∀ r, Res ws (run E n (.hpSerialize r kw)) (PostO E w0 ws L F kw.includeClass r)) :
    ∀ ps : List PropSpec, (∀ q ∈ ps, Still q v ∧ (L → depth q ≤ n)) →
    (∀ q ∈ ps, Res ws (run E n (.serializeP nm q v kw)) (PostP E w0 ws L F kw.includeClass nm q v)) →
    Res ws (unionSerialize (run E n) nm v kw ps) (PostU E w0 ws L F kw.includeClass nm v ps)
  | [], hs, hq => by
    unfold unionSerialize
    split
    · rename_i r
      refine res_weaken (ho r) fun x hx => ?_
      cases x with
      | ok j => exact ⟨none, .nil, .inl ⟨r, rfl, hx⟩⟩
      | error e =>
        refine ⟨hx.1, fun ⟨hF, o, hp, hf⟩ => ?_⟩
        cases hp
        obtain ⟨h1, s, rfl, h2⟩ := hx.2 ⟨hF, hf r rfl⟩
        exact ⟨h1, s, ⟨none, .nil, rfl⟩, h2⟩
    · rename_i h
      exact res_pure _ ⟨none, .nil, .inr ⟨fun r hr => h r hr, rfl⟩⟩
  | p :: ps, hs, hq => by
    unfold unionSerialize
    have hm : Mute ⟨nm, none⟩ ws := fun r hr => by cases hr
    rcases run_pval_or (E := E) (n := n) (hs p (by simp)).1 hm with hp | ⟨hd, e, hp, he⟩
    rotate_left
    · refine res_bind (Q1 := fun x => x = .ok (.error e)) ⟨_, by rw [attempt_apply, hp], rfl⟩
        (fun a ha => ?_) fun e he => by cases he
      cases ha
      dsimp only
      have hg : e.kind.isGeneric = false := by rw [he]; rfl
      rw [hg]
      refine res_raise e ⟨fun hL => absurd ((hs p (by simp)).2 hL) hd, fun ⟨hF, _⟩ => ?_⟩
      exact absurd ((hs p (by simp)).2 (hFL hF)) hd
    rw [sameCore_cls hw] at hp
    cases hr : pval E (clsAt w0) ⟨nm, none⟩ p v with
    | ok y =>
      rw [hr] at hp
      have hacc : Accepts E w0 nm v p := (accepts_iff (hs p (by simp)).1).2 ⟨y, hr⟩
      refine res_bind (Q1 := fun x => x = .ok (.ok y)) ⟨_, by rw [attempt_apply, hp], rfl⟩
        (fun a ha => ?_) fun e he => by cases he
      cases ha
      refine res_weaken (hq p (by simp)) fun x hx => ?_
      cases x with
      | ok j => exact ⟨some p, .here p ps hacc, hx⟩
      | error e =>
        refine ⟨hx.1, fun ⟨hF, o, hpk, hf⟩ => ?_⟩
        have : o = some p := picks_det (fun q hq => (hs q hq).1) hpk (.here p ps hacc)
        subst this
        obtain ⟨h1, s, hv, h2⟩ := hx.2 ⟨hF, hf⟩
        exact ⟨h1, s, ⟨some p, hpk, hv⟩, h2⟩
    | error e =>
      rw [hr] at hp
      refine res_bind (Q1 := fun x => x = .ok (.error e)) ⟨_, by rw [attempt_apply, hp], rfl⟩
        (fun a ha => ?_) fun e he => by cases he
      cases ha
      dsimp only
      split
      · rename_i hg
        have hrej : Rejects E w0 nm v p := (rejects_iff (hs p (by simp)).1).2 ⟨e, hg, hr⟩
        refine res_weaken (unionSerialize_res hw hFL ho ps (fun q h => hs q (by simp [h]))
          fun q h => hq q (by simp [h])) fun x hx => ?_
        cases x with
        | ok j =>
          obtain ⟨o, hpk, h2⟩ := hx
          exact ⟨o, .later p ps o hrej hpk, h2⟩
        | error e' =>
          refine ⟨hx.1, fun ⟨hF, o, hpk, hf⟩ => ?_⟩
          cases hpk with
          | here _ _ h2 =>
            obtain ⟨x, hx⟩ := (accepts_iff (hs p (by simp)).1).1 h2
            rw [hr] at hx; cases hx
          | later _ _ _ _ h2 =>
            obtain ⟨h1, s, ⟨o', hpk', hv⟩, h3⟩ := hx.2 ⟨hF, o, h2, hf⟩
            exact ⟨h1, s, ⟨o', .later p ps o' hrej hpk', hv⟩, h3⟩
      · rename_i hg
        refine res_raise e ⟨fun _ => pval_noRec _ _ _ hr, fun ⟨hF, o, hpk, hf⟩ => ?_⟩
        cases hpk with
        | here _ _ h2 =>
          obtain ⟨x, hx⟩ := (accepts_iff (hs p (by simp)).1).1 h2
          rw [hr] at hx; cases hx
        | later _ _ _ h1 h2 =>
          obtain ⟨x, hx1, hx⟩ := (rejects_iff (hs p (by simp)).1).1 h1
          rw [hr] at hx; cases hx; exact absurd hx1 hg

/-- What `Fine` means for a value that is not None, by type. -/
def FineBody (E : Env) (w : World) (ic : Bool) (nm : PyStr) (ty : PropTy) (v : Val) : Prop :=
  match ty with
  | .seq _ it _ _ _ => ∃ xs, v.iter? = some xs ∧ ∀ x ∈ xs, Fine E w ic nm it x
  | .dict kp vp _ => ∃ kvs, v = .dict kvs ∧ (∀ kv ∈ kvs, Fine E w ic nm kp kv.1) ∧
      (∀ kv ∈ kvs, Fine E w ic nm vp kv.2) ∧
      ∀ kv ∈ kvs, ∀ j, SerP E w ic nm kp kv.1 j → j.hashable = true
  | .inst _ => (∃ r o, v = .obj r ∧ w.objs[r]? = some o) ∨
      ((∀ r, v ≠ .obj r) ∧ ∃ j, E.jsonCopy v = some j)
  | .union ps _ => ∃ o, Picks E w nm v ps o ∧ FinePick E w ic nm v o
  | ty => ∃ j, scalarToJson E ty v = some (.ok j)

theorem fine_inv {E : Env} {w : World} {ic : Bool} {nm : PyStr} {p : PropSpec} {v : Val}
    (h : Fine E w ic nm p v) (hser : p.ser = none) (hv : v ≠ .none) : FineBody E w ic nm p.ty v := by
  cases h
  case custom f _ h _ => rw [hser] at h; cases h
  case none => exact absurd rfl hv
  case scalar j _ h =>
    cases hty : p.ty <;> rw [hty] at h <;> first | exact ⟨j, h⟩ | cases h
  case seq => rename p.ty = _ => hty; rw [hty]; exact ⟨_, by assumption, by assumption⟩
  case dict =>
    rename p.ty = _ => hty
    rw [hty]; exact ⟨_, rfl, by assumption, by assumption, by assumption⟩
  case inst => rename p.ty = _ => hty; rw [hty]; exact .inl ⟨_, _, rfl, by assumption⟩
  case copy =>
    rename p.ty = _ => hty; rw [hty]; exact .inr ⟨by assumption, _, by assumption⟩
  case union => rename p.ty = _ => hty; rw [hty]; exact ⟨some _, by assumption, by assumption⟩
  case unionObj =>
    rename p.ty = _ => hty
    rw [hty]; exact ⟨none, by assumption, fun r hr => by cases hr; exact ⟨_, by assumption⟩⟩
  case unionAsIs =>
    rename p.ty = _ => hty
    rename ∀ r, _ => hh
    rw [hty]; exact ⟨none, by assumption, fun r hr => absurd hr (hh r)⟩

theorem fine_seq_inv {E : Env} {w : World} {ic : Bool} {nm : PyStr} {p it : PropSpec} {k : SeqKind}
    {lo hi : Option Nat} {c : Bool} {v : Val} (hty : p.ty = .seq k it lo hi c) (hser : p.ser = none) (hv : v ≠ .none)
    (h : Fine E w ic nm p v) : ∃ xs, v.iter? = some xs ∧ ∀ x ∈ xs, Fine E w ic nm it x := by
  have := fine_inv h hser hv
  rw [hty] at this
  exact this

theorem fine_dict_inv {E : Env} {w : World} {ic : Bool} {nm : PyStr} {p kp vp : PropSpec}
    {c : Bool} {v : Val} (hty : p.ty = .dict kp vp c) (hser : p.ser = none) (hv : v ≠ .none)
    (h : Fine E w ic nm p v) : ∃ kvs, v = .dict kvs ∧ (∀ kv ∈ kvs, Fine E w ic nm kp kv.1) ∧
      (∀ kv ∈ kvs, Fine E w ic nm vp kv.2) ∧
      ∀ kv ∈ kvs, ∀ j, SerP E w ic nm kp kv.1 j → j.hashable = true := by
  have := fine_inv h hser hv
  rw [hty] at this
  exact this

theorem fine_inst_inv {E : Env} {w : World} {ic : Bool} {nm : PyStr} {p : PropSpec} {c : ClsId}
    {v : Val} (hty : p.ty = .inst c) (hser : p.ser = none) (hv : v ≠ .none) (h : Fine E w ic nm p v) :
    (∃ r o, v = .obj r ∧ w.objs[r]? = some o) ∨
    ((∀ r, v ≠ .obj r) ∧ ∃ j, E.jsonCopy v = some j) := by
  have := fine_inv h hser hv
  rw [hty] at this
  exact this

theorem fine_union_inv {E : Env} {w : World} {ic : Bool} {nm : PyStr} {p : PropSpec}
    {ps : List PropSpec} {s : Bool} {v : Val} (hty : p.ty = .union ps s) (hser : p.ser = none) (hv : v ≠ .none)
    (h : Fine E w ic nm p v) : ∃ o, Picks E w nm v ps o ∧ FinePick E w ic nm v o := by
  have := fine_inv h hser hv
  rw [hty] at this
  exact this

theorem fine_scalar_inv {E : Env} {w : World} {ic : Bool} {nm : PyStr} {p : PropSpec}
    {v : Val} {x : Except ErrKind Val} (hx : scalarToJson E p.ty v = some x) (hser : p.ser = none) (hv : v ≠ .none)
    (h : Fine E w ic nm p v) : ∃ j, x = .ok j := by
  have := fine_inv h hser hv
  cases hty : p.ty <;> rw [hty] at this hx <;> first
    | (obtain ⟨j, hj⟩ := this; rw [hx] at hj; cases hj; exact ⟨j, rfl⟩)
    | cases hx

/-- Serializing a value, if serializing instances is as it should be. -/
theorem serializeP_res {E : Env} {w0 ws : World} {L F : Prop} {kw : SerKw} {nm : PyStr} {B : Nat}
    (hw : SameCore w0 ws) (hsd : kw.saveDynamic = false) (hFL : F → L)
    (ho : ∀ n, (L → B ≤ n) → ∀ r, Res ws (run E n (.hpSerialize r kw))
      (PostO E w0 ws L F kw.includeClass r)) :
    ∀ n p v, (L → depth p + B ≤ n) → Tame E p v →
      Res ws (run E n (.serializeP nm p v kw)) (PostP E w0 ws L F kw.includeClass nm p v)
  | 0, p, v, hd, _ => by
    rw [depth_eq] at hd
    exact ⟨_, rfl, fun hL => by have := hd hL; omega, fun ⟨hF, _⟩ => by have := hd (hFL hF); omega⟩
  | n + 1, p, v, hd, ht => by
    have hr : ∀ q x, depth q ≤ depthTy p.ty → Tame E q x → Res ws (run E n (.serializeP nm q x kw))
        (PostP E w0 ws L F kw.includeClass nm q x) :=
      fun q y hq hy => serializeP_res hw hsd hFL ho n q y
        (fun hL => by have := hd hL; rw [depth_eq] at this; omega) hy
    have hB : L → B ≤ n := fun hL => by have := hd hL; rw [depth_eq] at this; omega
    show Res ws (serializeBody E (run E n) nm p v kw) _
    unfold serializeBody
    rcases tame_cases ht with ⟨hser, htt⟩ | ⟨f, hser, hcomp⟩
    rotate_left
    · rw [hser]
      dsimp only
      have hkw : kw.args = serOpts kw.includeClass := by
        unfold SerKw.args serOpts; rw [hsd]
      rw [hkw]
      rcases hcomp kw.includeClass with ⟨j, hj⟩ | ⟨e, he, hk⟩
      · exact ⟨_, callWrapped_answers hj ws, .custom nm p f v j hser hj⟩
      · refine ⟨_, callWrapped_raises he ws, fun _ => hk, fun ⟨_, hf⟩ => ?_⟩
        cases hf <;> rename_i h1 h2 <;> first
          | (rw [hser] at h1; cases h1; exact absurd he (fun he => answers_not_raises h2 he))
          | (exfalso; simp_all; done)
    rw [hser]
    dsimp only
    split
    · rename_i hv
      have : v = .none := by cases v <;> simp_all [Val.isNone]
      subst this
      exact res_pure _ (.none nm p hser)
    · rename_i hv0
      have hv : v ≠ .none := fun h => hv0 (by rw [h]; rfl)
      clear hv0
      split <;> rename_i hty
      · rename_i k it lo hi c
        rw [hty] at htt
        unfold TameTy at htt
        split <;> rename_i hi
        · refine res_raise _ ⟨by simp, fun ⟨_, hf⟩ => ?_⟩
          obtain ⟨xs, h, _⟩ := fine_seq_inv hty hser hv hf
          rw [hi] at h; cases h
        · rename_i xs
          refine res_bind (res_mapML fun x hx => hr it x (by rw [hty]; exact Nat.le_refl _)
            (htt xs hi x hx)) (fun out hout => ?_) fun e he => ?_
          · exact res_pure _ (.seq nm p it k lo _ c v xs out hser hv hty hi (serL_of hout))
          · obtain ⟨x, hx, he⟩ := he
            refine ⟨he.1, fun ⟨hF, hf⟩ => ?_⟩
            obtain ⟨xs', h, hf⟩ := fine_seq_inv hty hser hv hf
            rw [hi] at h; cases h
            obtain ⟨h1, s, hs, h2⟩ := he.2 ⟨hF, hf x hx⟩
            exact ⟨h1, s, .item nm p it k lo _ c v x xs s hser hty hi hx hs, h2⟩
      · rename_i kp vp c
        rw [hty] at htt
        unfold TameTy at htt
        split
        · rename_i kvs
          have htt := htt kvs rfl
          have hk : ∀ x, Tame E kp x → _ := fun x => hr kp x (by rw [hty]; exact Nat.le_max_left _ _)
          have hx : ∀ x, Tame E vp x → _ := fun x => hr vp x (by rw [hty]; exact Nat.le_max_right _ _)
          refine res_bind (res_mapML (Q := fun kv r => match r with
              | .ok jv => SerP E w0 kw.includeClass nm kp kv.1 jv.1 ∧
                  SerP E w0 kw.includeClass nm vp kv.2 jv.2
              | .error e => Trouble E w0 ws L (F ∧ Fine E w0 kw.includeClass nm kp kv.1 ∧
                  Fine E w0 kw.includeClass nm vp kv.2) (fun s => Visits E w0 nm kp kv.1 s ∨
                  Visits E w0 nm vp kv.2 s) e) fun kv hkv => ?_) (fun out hout => ?_) fun e he => ?_
          · refine res_bind (hk kv.1 (htt kv hkv).1) (fun a ha => ?_) fun e he => ?_
            · refine res_bind (hx kv.2 (htt kv hkv).2) (fun b hb => ?_) fun e he => ?_
              · exact res_pure _ ⟨ha, hb⟩
              · refine ⟨he.1, fun ⟨hF, hf⟩ => ?_⟩
                obtain ⟨h1, s, hs, h2⟩ := he.2 ⟨hF, hf.2⟩
                exact ⟨h1, s, .inr hs, h2⟩
            · refine ⟨he.1, fun ⟨hF, hf⟩ => ?_⟩
              obtain ⟨h1, s, hs, h2⟩ := he.2 ⟨hF, hf.1⟩
              exact ⟨h1, s, .inl hs, h2⟩
          · dsimp only at hout
            unfold mkDict
            split
            · rename_i hh
              refine res_pure _ (.dict nm p kp vp c kvs out hser hty (serD_of hout) ?_)
              simpa using hh
            · rename_i hh
              refine res_raise _ ⟨by simp, fun ⟨_, hf⟩ => ?_⟩
              obtain ⟨kvs', h, _, _, hf⟩ := fine_dict_inv hty hser hv hf
              cases h
              exfalso
              apply hh
              simp only [List.all_eq_true]
              intro jv hjv
              obtain ⟨kv, hkv, h1⟩ := forall₂_right hout hjv
              exact hf kv hkv _ h1.1
          · obtain ⟨kv, hkv, he⟩ := he
            refine ⟨he.1, fun ⟨hF, hf⟩ => ?_⟩
            obtain ⟨kvs', h, hf1, hf2, _⟩ := fine_dict_inv hty hser hv hf
            cases h
            obtain ⟨h1, s, hs, h2⟩ := he.2 ⟨hF, hf1 kv hkv, hf2 kv hkv⟩
            refine ⟨h1, s, ?_, h2⟩
            rcases hs with hs | hs
            · exact .key nm p kp vp c kvs kv s hser hty hkv hs
            · exact .value nm p kp vp c kvs kv s hser hty hkv hs
        · rename_i h
          refine res_raise _ ⟨by simp, fun ⟨_, hf⟩ => ?_⟩
          obtain ⟨kvs', h', _⟩ := fine_dict_inv hty hser hv hf
          exact absurd h' (h kvs')
      · rename_i c
        split
        · rename_i r
          refine res_weaken (ho n hB r) fun x hx => ?_
          cases x with
          | ok j => exact .inst nm p c r j hser hty hx
          | error e =>
            refine ⟨hx.1, fun ⟨hF, hf⟩ => ?_⟩
            rcases fine_inst_inv hty hser hv hf with ⟨r', o, h, h2⟩ | ⟨h, _⟩
            · cases h
              obtain ⟨h1, s, rfl, h3⟩ := hx.2 ⟨hF, o, h2⟩
              exact ⟨h1, s, .inst nm p c s hser hty, h3⟩
            · exact absurd rfl (h r)
        · rename_i h
          split <;> rename_i hj
          · rename_i j
            exact res_pure _ (.copy nm p c v j hser hty hv (fun r hr => h r hr) hj)
          · refine res_raise _ ⟨by simp, fun ⟨_, hf⟩ => ?_⟩
            rcases fine_inst_inv hty hser hv hf with ⟨r', o, h', h2⟩ | ⟨_, j, h'⟩
            · exact absurd h' (h r')
            · rw [hj] at h'; cases h'
      · rename_i ps st
        rw [hty] at htt
        unfold TameTy at htt
        have htt := tameAll_iff.1 htt
        have hdq : ∀ q ∈ ps, depth q ≤ depthTy p.ty := fun q hq => by
          rw [hty]; exact depthAll_le hq
        refine res_weaken (unionSerialize_res hw hFL (ho n hB) ps
          (fun q hq => ⟨(htt q hq).1, fun hL => by
            have := hdq q hq; have := hd hL; rw [depth_eq] at this; omega⟩)
          fun q hq => hr q v (hdq q hq) (htt q hq).2) fun x hx => ?_
        cases x with
        | ok j =>
          obtain ⟨o, hpk, hs⟩ := hx
          cases o with
          | some q => exact .union nm p ps st v q j hser hv hty hpk hs
          | none =>
            rcases hs with ⟨r, rfl, hs⟩ | ⟨h1, rfl⟩
            · exact .unionObj nm p ps st r j hser hty hpk hs
            · exact .unionAsIs nm p ps st _ hser hv hty hpk h1
        | error e =>
          refine ⟨hx.1, fun ⟨hF, hf⟩ => ?_⟩
          obtain ⟨h1, s, ⟨o, hpk, hs⟩, h2⟩ := hx.2 ⟨hF, fine_union_inv hty hser hv hf⟩
          refine ⟨h1, s, ?_, h2⟩
          cases o with
          | some q => exact .union nm p ps st v q s hser hty hpk hs
          | none =>
            have : v = .obj s := hs
            subst this
            exact .unionObj nm p ps st s hser hty hpk
      · rename_i h1 h2 h3
        have h4 := hty
        clear hty
        split <;> rename_i hj
        · rename_i x
          cases x with
          | ok j => exact res_pure _ (.scalar nm p v j hser hv hj)
          | error k =>
            refine res_raise _ ⟨fun _ => scalarToJson_noRec hj, fun ⟨_, hf⟩ => ?_⟩
            obtain ⟨j, hj2⟩ := fine_scalar_inv hj hser hv hf
            cases hj2
        · exfalso
          cases hty : p.ty <;> rw [hty] at hj <;> first
            | (cases hj; done)
            | exact h1 _ _ _ _ _ hty
            | exact h2 _ _ _ hty
            | exact h3 _ hty
            | exact h4 _ _ hty

/-- Instances that are not being serialized. -/
def idleGs (w : World) : Nat := w.objs.countP (fun o => !o.gs)

theorem idleGs_mark {w : World} {i : Nat} {o : Obj} (ho : w.objs[i]? = some o) (ht : o.gs = false) :
    idleGs (w.setObj i (fun o => { o with gs := true })) + 1 = idleGs w := by
  unfold idleGs
  exact countP_modify ho (by simp [ht]) rfl

/-- Recursion depth needed to serialize with `k` unmarked instances and
declarations nested at most `D` deep. -/
def serDepth (D k : Nat) : Nat := 1 + k * (D + 2)


theorem serDepth_succ (D k : Nat) : serDepth D (k + 1) = serDepth D k + (D + 2) := by
  unfold serDepth; rw [Nat.add_mul]; omega

theorem mem_lookupS {α : Type} {k : PyStr} {v : α} : ∀ {l : List (PyStr × α)},
    (l.map (·.1)).Nodup → (k, v) ∈ l → lookupS k l = some v
  | (k', v') :: rest, hn, h => by
    unfold lookupS
    rw [List.map_cons, List.nodup_cons] at hn
    rcases List.mem_cons.1 h with h | h
    · cases h; simp
    · rw [if_neg, mem_lookupS hn.2 h]
      rintro rfl
      exact hn.1 (List.mem_map.2 ⟨_, h, rfl⟩)

theorem serF_of {E : Env} {w : World} {ic : Bool} {c : ClsId} {b : List (PyStr × Val)}
    {data : List (Val × Val)}
    (h : List.Forall₂ (fun nv d => d.1 = .str nv.1 ∧ ∃ e p, lookupS nv.1 (E.classes c).props = some e ∧
      OwnSpec e p ∧ SerP E w ic nv.1 p nv.2 d.2) b data) : SerF E w ic c b data := by
  induction h with
  | nil => exact .nil c
  | cons h _ ih =>
    rename_i a b _ _ _
    obtain ⟨nm, v⟩ := a
    obtain ⟨d, j⟩ := b
    obtain ⟨h1, e, p, h2, h3, h4⟩ := h
    have h1 : d = .str nm := h1
    subst h1
    exact .cons c nm v e p j _ _ h2 h3 h4 ih

theorem mapML_map {α β γ : Type} (f : β → M γ) (g : α → β) : ∀ xs : List α,
    mapML f (xs.map g) = mapML (fun x => f (g x)) xs
  | [] => rfl
  | x :: xs => by rw [List.map_cons]; unfold mapML; rw [mapML_map f g xs]

theorem marked_setObj {w : World} {r t : Nat}
    (h : Marked (w.setObj r (fun o => { o with gs := true })) t) : Marked w t ∨ t = r := by
  by_cases hr : t = r
  · exact .inr hr
  · obtain ⟨o, ho, hg⟩ := h
    left
    refine ⟨o, ?_, hg⟩
    unfold World.setObj at ho
    rw [List.getElem?_modify] at ho
    have hrt : ¬ r = t := fun h => hr h.symm
    simpa [hrt] using ho

theorem reaches_trans {E : Env} {w : World} {r s t : Nat} (h : Reaches E w r s)
    (h2 : Reaches E w s t) : Reaches E w r t := by
  induction h with
  | refl => exact h2
  | step _ _ _ h1 _ ih => exact .step _ _ _ h1 (ih h2)

theorem sameCore_mark {w0 ws : World} (h : SameCore w0 ws) (r : Nat) :
    SameCore w0 (ws.setObj r (fun o => { o with gs := true })) := by
  intro s
  rw [← h s]
  unfold World.setObj
  rw [List.getElem?_modify]
  cases ws.objs[s]? with
  | none => rfl
  | some o =>
    by_cases hrs : r = s
    · simp [hrs]
    · simp [hrs]

/-- Serializing an instance. -/
theorem hpSerialize_res {E : Env} {D : Nat} {w0 : World} {L F : Prop} {kw : SerKw} (hFL : F → L)
    (hs : kw.saveDynamic = false) (ht : TameWorld E D w0)
    (hf : F → FineWorld E kw.includeClass w0) : ∀ k ws, SameCore w0 ws → idleGs ws ≤ k →
    ∀ n, (L → serDepth D k ≤ n) → ∀ r, Res ws (run E n (.hpSerialize r kw))
      (PostO E w0 ws L F kw.includeClass r) := by
  obtain ⟨ic, sd⟩ := kw
  simp only at hs hf
  subst hs
  intro k
  induction k with
  | zero =>
    intro ws hw hk n hn r
    cases n with
    | zero =>
      unfold serDepth at hn
      exact ⟨_, rfl, fun hL => by have := hn hL; omega,
        fun ⟨hF, _⟩ => by have := hn (hFL hF); omega⟩
    | succ m =>
      show Res ws (hpSerializeBody E (run E m) r ⟨ic, false⟩) _
      unfold hpSerializeBody
      cases ho : ws.objs[r]? with
      | none =>
        refine ⟨_, bind_err (getObj_none ho), ?_, fun ⟨_, o, h⟩ => ?_⟩
        · simp
        · rw [sameCore_none hw ho] at h; cases h
      | some o =>
        refine res_bind (Q1 := fun x => x = .ok o) ⟨_, getObj_some ho, rfl⟩ (fun a ha => ?_)
          fun e he => by cases he
        cases ha
        cases hg : o.gs with
        | true =>
          refine res_raise _ ⟨by simp, fun _ => ⟨rfl, r, rfl, r, .refl r, .inl ⟨o, ho, hg⟩⟩⟩
        | false => have := idleGs_mark ho hg; omega
  | succ k ih =>
    intro ws hw hk n hn r
    cases n with
    | zero =>
      unfold serDepth at hn
      exact ⟨_, rfl, fun hL => by have := hn hL; omega,
        fun ⟨hF, _⟩ => by have := hn (hFL hF); omega⟩
    | succ m =>
      show Res ws (hpSerializeBody E (run E m) r ⟨ic, false⟩) _
      unfold hpSerializeBody
      cases ho : ws.objs[r]? with
      | none =>
        refine ⟨_, bind_err (getObj_none ho), ?_, fun ⟨_, o, h⟩ => ?_⟩
        · simp
        · rw [sameCore_none hw ho] at h; cases h
      | some o =>
        refine res_bind (Q1 := fun x => x = .ok o) ⟨_, getObj_some ho, rfl⟩ (fun a ha => ?_)
          fun e he => by cases he
        cases ha
        cases hg : o.gs with
        | true =>
          refine res_raise _ ⟨by simp, fun _ => ⟨rfl, r, rfl, r, .refl r, .inl ⟨o, ho, hg⟩⟩⟩
        | false =>
          have hidle := idleGs_mark ho hg
          obtain ⟨o0, ho0, hc0, hb0⟩ := sameCore_some hw ho
          obtain ⟨hnd, hstored⟩ := ht r o0 ho0
          have hw1 := sameCore_mark hw r
          have hback : (ws.setObj r (fun o => { o with gs := true })).setObj r
              (fun o => { o with gs := false }) = ws := by
            rw [setObj_setObj]
            exact setObj_id ho (by cases o; cases hg; rfl)
          generalize hws1 : ws.setObj r (fun o => { o with gs := true }) = ws1 at hidle hw1 hback
          have ho1 : ws1.objs[r]? = some { o with gs := true } := by
            rw [← hws1]; unfold World.setObj; rw [List.getElem?_modify]; simp [ho]
          simp only [Bool.false_eq_true, if_false]
          unfold Res
          rw [bind_ok (modObj_apply _ _ _), hws1]
          have key : Res ws1 (do
              let data ← mapML (fun key => do
                match lookupS key (E.classes o.cls).props with
                | none => raiseK .key
                | some e => do
                    let v ← run E m (.getattr r key)
                    let j ← entrySerialize E (run E m) key e v ⟨ic, false⟩
                    pure (Val.str key, j)) (o.backend.map (·.1))
              pure (.dict (complete ic (E.classes o.cls).name data)))
              (PostO E w0 ws L F ic r) := by
            rw [mapML_map]
            refine res_bind (res_mapML (Q := fun nv x => match x with
              | .ok d => d.1 = .str nv.1 ∧ ∃ e p, lookupS nv.1 (E.classes o.cls).props = some e ∧
                  OwnSpec e p ∧ SerP E w0 ic nv.1 p nv.2 d.2
              | .error e => Trouble E w0 ws L F (· = r) e) fun nv hnv => ?_) (fun data hd => ?_)
              fun e he => ?_
            · obtain ⟨nm, v⟩ := nv
              obtain ⟨e, p, hl, hown, htame, hdp⟩ := hstored nm v (by rw [hb0]; exact hnv)
              have hl' : lookupS nm (E.classes o.cls).props = some e := by rw [← hc0]; exact hl
              simp only [hl']
              have hv : (lookupS nm o.backend).getD .none = v := by
                rw [mem_lookupS (by rw [← hb0]; exact hnd) hnv]; rfl
              cases m with
              | zero =>
                have hnL : ¬ L := fun hL => by
                  have := hn hL; rw [serDepth_succ] at this; unfold serDepth at this; omega
                exact ⟨_, bind_err rfl, fun hL => absurd hL hnL, fun hF => absurd (hFL hF) hnL⟩
              | succ m' =>
              have hget : run E (m' + 1) (.getattr r nm) ws1 = (.ok v, ws1) := by
                show getattrBody E (run E m') r nm ws1 = _
                rcases hown with rfl | rfl
                · rw [getattr_mutable ho1 hl']; exact congrArg (fun v => (Except.ok v, ws1)) hv
                · rw [getattr_gettable ho1 hl']; exact congrArg (fun v => (Except.ok v, ws1)) hv
              refine res_bind (Q1 := fun x => x = .ok v) ⟨_, hget, rfl⟩ (fun a ha => ?_)
                fun e he => by cases he
              cases ha
              have hser := serializeP_res (nm := nm) hw1 rfl hFL
                (fun n hn => ih ws1 hw1 (by omega) n hn) (m' + 1) p v
                (fun hL => by have := hn hL; rw [serDepth_succ] at this; omega) htame
              have hent : entrySerialize E (run E (m' + 1)) nm e v ⟨ic, false⟩ =
                  run E (m' + 1) (.serializeP nm p v ⟨ic, false⟩) := by
                rcases hown with rfl | rfl <;> rfl
              rw [hent]
              refine res_bind hser (fun j hj => res_pure _ ⟨rfl, e, p, rfl, hown, hj⟩) fun er he => ?_
              refine ⟨he.1, fun hF => ?_⟩
              obtain ⟨h1, s, hvis, t, hst, htt⟩ := he.2 ⟨hF, hf hF r o0 ho0 nm v (by rw [hb0]; exact hnv)
                e p hl hown⟩
              have href : RefersOn E w0 r s :=
                ⟨o0, nm, v, e, p, ho0, by rw [hb0]; exact hnv, hl, hown, hvis⟩
              refine ⟨h1, r, rfl, ?_⟩
              rcases htt with htt | htt
              · rw [← hws1] at htt
                rcases marked_setObj htt with htt | rfl
                · exact ⟨t, .step r s t href hst, .inl htt⟩
                · exact ⟨t, .refl t, .inr ⟨s, href, hst⟩⟩
              · exact ⟨t, .step r s t href hst, .inr htt⟩
            · refine res_pure _ ?_
              show SerO E w0 ic r _
              rw [← hc0]
              refine .mk r o0 data ho0 ?_
              rw [hc0, hb0]
              exact serF_of hd
            · obtain ⟨nv, _, he⟩ := he
              exact ⟨he.1, fun ⟨hF, _⟩ => he.2 hF⟩
          obtain ⟨x, hx, hq⟩ := key
          refine ⟨x, ?_, hq⟩
          refine (congrArg (fun q : Except PyErr Val × World =>
            (q.1, q.2.setObj r (fun o => { o with gs := false }))) hx).trans ?_
          rw [hback]

end Verif
