import Verif.Lemmas.PureVal
import Verif.Lemmas.Scalar

/-!
# Validation as a function, with error hooks

`run_pval` for an instance that is not being validated or initialised: a
refusal calls the error hook of the instance.  With the default hook the calls
are recorded and nothing else changes.
-/

namespace Verif
open Spec

/-- `m` is the function `g` of the classes and changes the record of hook calls
at most; unless `L`, it may also end with RecursionError. -/
def QFn (E : Env) (L : Prop) (x : Ctx) {α : Type} (m : M α)
    (g : (Nat → Option ClsId) → Except PyErr α) : Prop :=
  ∀ w, QuietInst E w x.inst → (∃ hs, m w = (g (clsAt w), { w with hooks := hs })) ∨
    (¬ L ∧ ∃ e w', m w = (.error e, w') ∧ e.kind = .recursion)

section
variable {E : Env} {L : Prop} {x : Ctx} {α β : Type}

theorem qfn_pure (a : α) : QFn E L x (pure a : M α) (fun _ => .ok a) := fun w _ => .inl ⟨w.hooks, rfl⟩

theorem qfn_raise (e : PyErr) : QFn E L x (M.raise e : M α) (fun _ => .error e) :=
  fun w _ => .inl ⟨w.hooks, rfl⟩

theorem qfn_propError (rec : Rec) :
    QFn E L x (propError E rec x.nm x.inst : M α) (fun _ => .error (verr x)) :=
  fun w hw => .inl (raiseVal_quiet E rec _ _ _ w hw)

theorem qfn_bind {m : M α} {f : α → M β} {g : (Nat → Option ClsId) → Except PyErr α}
    {h : α → (Nat → Option ClsId) → Except PyErr β} (hm : QFn E L x m g)
    (hf : ∀ a, QFn E L x (f a) (h a)) :
    QFn E L x (m >>= f) (fun c => bindE (g c) fun a => h a c) := by
  intro w hw
  rcases hm w hw with ⟨hs, h1⟩ | ⟨hL, e, w', h1, he⟩
  · cases hg : g (clsAt w) with
    | error e => rw [hg] at h1; rw [bind_err h1]; exact .inl ⟨hs, by simp [hg]⟩
    | ok a =>
      rw [hg] at h1; rw [bind_ok h1]
      simp only [hg, bindE_ok]
      exact hf a { w with hooks := hs } hw
  · exact .inr ⟨hL, e, w', bind_err h1, he⟩

theorem qfn_congr {m : M α} {g g' : (Nat → Option ClsId) → Except PyErr α} (hm : QFn E L x m g)
    (h : ∀ c, g c = g' c) : QFn E L x m g' := fun w hw => by rw [← h]; exact hm w hw

theorem qfn_mono {L' : Prop} {m : M α} {g : (Nat → Option ClsId) → Except PyErr α}
    (hm : QFn E L x m g) (h : L' → L) : QFn E L' x m g := fun w hw => by
  rcases hm w hw with h1 | ⟨hL, h1⟩
  · exact .inl h1
  · exact .inr ⟨fun h' => hL (h h'), h1⟩

theorem qfn_mapML {f : α → M β} {g : α → (Nat → Option ClsId) → Except PyErr β} :
    ∀ {xs : List α}, (∀ a ∈ xs, QFn E L x (f a) (g a)) →
      QFn E L x (mapML f xs) (fun c => mapE (fun a => g a c) xs)
  | [], _ => qfn_pure []
  | a :: xs, h => by
    unfold mapML
    refine qfn_congr (qfn_bind (h a (by simp)) fun y => qfn_bind
      (qfn_mapML fun z hz => h z (by simp [hz])) fun ys => qfn_pure _) fun c => rfl

theorem qfn_foldML {f : β → α → M β} {g : β → α → (Nat → Option ClsId) → Except PyErr β} :
    ∀ {xs : List α} (b : β), (∀ b, ∀ a ∈ xs, QFn E L x (f b a) (g b a)) →
      QFn E L x (foldML f b xs) (fun c => foldE (fun b a => g b a c) b xs)
  | [], b, _ => qfn_pure b
  | a :: xs, b, h => by
    unfold foldML
    refine qfn_congr (qfn_bind (h b a (by simp)) fun b' =>
      qfn_foldML b' fun d z hz => h d z (by simp [hz])) fun c => rfl

/-- Catching some errors. -/
theorem qfn_catch {pred : ErrKind → Bool} {m : M α} {k : PyErr → M α}
    {g : (Nat → Option ClsId) → Except PyErr α}
    {g' : PyErr → (Nat → Option ClsId) → Except PyErr α} (hr : pred .recursion = false)
    (hm : QFn E L x m g) (hk : ∀ e, QFn E L x (k e) (g' e)) :
    QFn E L x (M.catchIf pred m k) (fun c => match g c with
      | .ok a => .ok a
      | .error e => if pred e.kind then g' e c else .error e) := by
  intro w hw
  rcases hm w hw with ⟨hs, h1⟩ | ⟨hL, e, w', h1, he⟩
  · cases hg : g (clsAt w) with
    | ok a => rw [hg] at h1; rw [catchIf_ok h1]; exact .inl ⟨hs, by simp [hg]⟩
    | error e =>
      rw [hg] at h1
      cases hp : pred e.kind with
      | true =>
        rw [catchIf_err h1 hp]
        simp only [hg, hp, if_true]
        exact hk e { w with hooks := hs } hw
      | false =>
        rw [catchIf_pass h1 hp]
        exact .inl ⟨hs, by simp [hg, hp]⟩
  · exact .inr ⟨hL, e, w', catchIf_pass h1 (by rw [he]; exact hr), he⟩

theorem qfn_wrap (rec : Rec) {m : M Val} {g : (Nat → Option ClsId) → Except PyErr Val}
    (hm : QFn E L x m g) :
    QFn E L x (M.catchIf ErrKind.isValueError m (fun _ => propError E rec x.nm x.inst))
      (fun c => wrapE x (g c)) :=
  qfn_congr (qfn_catch rfl hm fun _ => qfn_propError rec) fun c => by
    cases g c <;> rfl

theorem qfn_liftScalar (rec : Rec) (r : Except SErr Val) :
    QFn E L x (liftScalar E rec x.nm x.inst r) (fun _ => liftE x r) := by
  unfold liftScalar
  split
  · exact qfn_pure _
  · exact qfn_raise _
  · exact qfn_congr (qfn_catch rfl (qfn_propError rec) fun _ => qfn_propError rec) fun c => rfl
  · exact qfn_propError rec

theorem qfn_mkSeq (k : SeqKind) (xs : List Val) : QFn E L x (mkSeq k xs) (fun _ => mkSeqE k xs) := by
  intro w _
  refine .inl ⟨w.hooks, ?_⟩
  unfold mkSeq mkSeqE
  split
  · rfl
  · rfl
  · split <;> rfl

theorem qfn_tryProps {rec : Rec} {v : Val} :
    ∀ {ps : List PropSpec}, (∀ p ∈ ps, QFn E L x (rec (.validate x.nm p x.inst v))
        (fun c => pval E c x p v)) →
      QFn E L x (tryProps E rec x.nm x.inst (fun p => .validate x.nm p x.inst v) ps)
        (fun c => pvalAll E c x ps v)
  | [], _ => by unfold tryProps pvalAll; exact qfn_propError rec
  | p :: ps, h => by
    unfold tryProps
    refine qfn_congr (qfn_catch rfl (h p (by simp)) fun _ =>
      qfn_tryProps (ps := ps) fun q hq => h q (by simp [hq])) fun c => ?_
    simp only [pvalAll]
    cases pval E c x p v <;> rfl

theorem qfn_dictValidate {rec : Rec} {v : Val} {kp vp : PropSpec} {co : Bool}
    {fk fv : (Nat → Option ClsId) → Val → Except PyErr Val}
    (h : ∀ kvs, pairsOf co v = some kvs → ∀ kv ∈ kvs,
      QFn E L x (M.catchIf ErrKind.isValueError (rec (.validate x.nm kp x.inst kv.1))
        (fun _ => propError E rec x.nm x.inst)) (fun c => wrapE x (fk c kv.1)) ∧
      QFn E L x (M.catchIf ErrKind.isValueError (rec (.validate x.nm vp x.inst kv.2))
        (fun _ => propError E rec x.nm x.inst)) (fun c => wrapE x (fv c kv.2))) :
    QFn E L x (dictValidate E rec x.nm x.inst kp vp co v) (fun c => match pairsOf co v with
      | none => .error (verr x)
      | some kvs => bindE (foldE (pairE x (fk c) (fv c)) [] kvs) fun out => .ok (.dict out)) := by
  have hd : dictValidate E rec x.nm x.inst kp vp co v = (match pairsOf co v with
      | some kvs => pure kvs
      | none => propError E rec x.nm x.inst) >>= fun items => foldML (fun d kv => do
          let key ← M.catchIf ErrKind.isValueError (rec (.validate x.nm kp x.inst kv.1))
            (fun _ => propError E rec x.nm x.inst)
          let val ← M.catchIf ErrKind.isValueError (rec (.validate x.nm vp x.inst kv.2))
            (fun _ => propError E rec x.nm x.inst)
          if key.hashable then pure (dictSet d key val) else raiseK .type) [] items >>=
            fun out => (pure (.dict out) : M Val) := rfl
  rw [hd]
  generalize pairsOf co v = y at h
  cases y with
  | none =>
    intro w hw
    obtain ⟨hs, h1⟩ := raiseVal_quiet (α := List (Val × Val)) E rec (some (s% "invalid")) (some x.nm) x.inst w hw
    exact .inl ⟨hs, bind_err h1⟩
  | some kvs =>
    show QFn E L x (foldML _ [] kvs >>= _) _
    refine qfn_congr (qfn_bind (qfn_foldML
      (g := fun d kv c => pairE x (fk c) (fv c) d kv) [] fun d kv hkv => ?_)
      fun out => qfn_pure _) fun c => rfl
    have := h kvs rfl kv hkv
    refine qfn_congr (qfn_bind this.1 fun key => qfn_bind this.2
      (h := fun y _ => if key.hashable then .ok (dictSet d key y) else .error ⟨.type, []⟩)
      fun y => ?_) fun c => rfl
    split
    · exact qfn_pure _
    · exact qfn_raise _

end

/-- Validation is the function `pval`, given enough recursion depth. -/
theorem run_qfn {E : Env} {x : Ctx} : ∀ n p v, Still p v →
    QFn E (depth p ≤ n) x (run E n (.validate x.nm p x.inst v)) (fun c => pval E c x p v)
  | 0, p, v, _ => fun w _ => .inr ⟨by rw [depth_eq]; omega, _, _, rfl, rfl⟩
  | n + 1, p, v, hv => by
    have hr : ∀ q y, depth q ≤ depthTy p.ty → Still q y → QFn E (depth p ≤ n + 1) x
        (run E n (.validate x.nm q x.inst y)) (fun c => pval E c x q y) :=
      fun q y hq hy => qfn_mono (run_qfn n q y hy) fun h => by rw [depth_eq] at h; omega
    generalize (depth p ≤ n + 1) = L at hr
    replace hv := still_ty hv
    show QFn E L x (validateBody E (run E n) x.nm p x.inst v) _
    generalize hrec : run E n = rec at hr
    obtain ⟨rq, s, d, df, ty⟩ := p
    simp only [PropSpec.ty] at hr hv
    have item : ∀ q y, depth q ≤ depthTy ty → Still q y → QFn E L x (M.catchIf ErrKind.isValueError
        (rec (.validate x.nm q x.inst y)) (fun _ => propError E rec x.nm x.inst))
        (fun c => wrapE x (pval E c x q y)) := fun q y hq hy => qfn_wrap rec (hr q y hq hy)
    unfold validateBody pval
    cases ty <;> simp only [PropSpec.ty]
    case seq k it lo hi co =>
      unfold StillTy at hv
      unfold depthTy at item
      unfold seqValidate
      simp only [pvalTy]
      split
      · rename_i h
        intro w hw
        obtain ⟨hs, h1⟩ := raiseVal_quiet (α := Unit) E rec (some (s% "invalid")) (some x.nm) x.inst w hw
        exact .inl ⟨hs, bind_err h1⟩
      · rename_i h
        refine qfn_congr (qfn_bind (qfn_mapML
          (g := fun y c => wrapE x (pval E c x it y)) fun y hy => ?_) fun out => qfn_mkSeq k out)
          fun c => ?_
        · refine item it y (Nat.le_refl _) ?_
          split at hy
          · exact hv.1 y hy
          · rename_i hc
            simp only [List.mem_singleton] at hy
            subst hy
            exact hv.2 (by simpa using hc)
        · rfl
    case dict kp vp co =>
      unfold StillTy at hv
      unfold depthTy at item
      simp only [pvalTy]
      refine qfn_dictValidate fun kvs hk kv hkv => ?_
      have hkvs : dictCoerce? v = some kvs := by
        unfold pairsOf at hk
        cases co with
        | true => simpa using hk
        | false =>
          simp only [Bool.false_eq_true, if_false] at hk
          split at hk
          · cases hk; rfl
          · cases hk
      have := hv kvs hkvs kv hkv
      exact ⟨item kp kv.1 (Nat.le_max_left _ _) this.1, item vp kv.2 (Nat.le_max_right _ _) this.2⟩
    case inst c =>
      unfold StillTy at hv
      unfold instValidate
      simp only [pvalTy]
      intro w hw
      left
      have hq := raiseVal_quiet (α := Val) E rec (some (s% "invalid")) (some x.nm) x.inst w hw
      split
      · rename_i r
        cases ho : w.objs[r]? with
        | none => rw [bind_err (getObj_none ho)]; exact ⟨w.hooks, by simp [clsAt, ho]⟩
        | some o =>
          rw [bind_ok (getObj_some ho)]
          simp only [clsAt, ho, Option.map_some]
          split
          · exact ⟨w.hooks, rfl⟩
          · exact hq
      · rename_i kvs; exact absurd rfl (hv kvs)
      · rename_i h1 h2
        obtain ⟨hs, hq⟩ := hq
        refine ⟨hs, hq.trans ?_⟩
        split
        · rename_i r; exact absurd rfl (h1 r)
        · rfl
    case union ps st =>
      unfold StillTy at hv
      unfold depthTy at hr
      simp only [pvalTy]
      exact qfn_tryProps fun p hp => hr p v (depthAll_le hp) (stillAll_iff.1 hv p hp)
    case color =>
      unfold StillTy at hv
      simp only [pvalTy]
      unfold colorBody
      split
      · rename_i s; exact absurd rfl (hv s)
      · simp only [scalarValidate, ofScalar]
        exact qfn_liftScalar rec _
    all_goals
      simp only [pvalTy, scalarValidate, ofScalar]
      exact qfn_liftScalar rec _

/-- Validation is the function `pval` of the classes; hook calls are recorded. -/
theorem run_quiet {E : Env} {nm : PyStr} {inst : Option Nat} {n : Nat} {p : PropSpec} {v : Val}
    {w : World} (hd : depth p ≤ n) (hv : Still p v) (hm : QuietInst E w inst) :
    ∃ hs, run E n (.validate nm p inst v) w =
      (pval E (clsAt w) ⟨nm, inst⟩ p v, { w with hooks := hs }) :=
  (run_qfn (x := ⟨nm, inst⟩) n p v hv w hm).resolve_right fun h => h.1 hd

end Verif
