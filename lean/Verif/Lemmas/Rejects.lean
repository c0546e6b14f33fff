import Verif.Lemmas.Errs
import Verif.Lemmas.Restored
import Verif.Lemmas.Locality
import Verif.Lemmas.Idempotent

/-!
# What validation raises

`Grows N Z m`: from a heap with at least `N` instances, `m` ends with at least
`N`, and its exceptions are of classes `Z`.
-/

namespace Verif
open Spec Spec.Exc

def Grows {α : Type} (N : Nat) (Z : ErrKind → Prop) (m : M α) : Prop :=
  ∀ w, N ≤ w.objs.length → N ≤ (m w).2.objs.length ∧ ∀ e, (m w).1 = .error e → Z e.kind

section
variable {N : Nat} {Z : ErrKind → Prop}

theorem grows_pure {α : Type} (a : α) : Grows N Z (pure a : M α) :=
  fun _ hw => ⟨hw, fun _ h => (by cases h)⟩

theorem grows_raise {α : Type} (e : PyErr) (h : Z e.kind) : Grows N Z (M.raise e : M α) :=
  fun _ hw => ⟨hw, fun _ h' => (by cases h'; exact h)⟩

theorem grows_raiseK {α : Type} (k : ErrKind) (h : Z k) : Grows N Z (raiseK k : M α) :=
  grows_raise _ h

/-- Results satisfy `P`. -/
def Yields {α : Type} (P : α → Prop) (m : M α) : Prop := ∀ w a, (m w).1 = .ok a → P a

theorem grows_bind_of {α β : Type} {P : α → Prop} {m : M α} {f : α → M β} (hm : Grows N Z m)
    (hP : Yields P m) (hf : ∀ a, P a → Grows N Z (f a)) :
    Grows N Z (m >>= f) := by
  intro w hw
  have h1 := hm w hw
  have e : (m >>= f) w = M.bind m f w := rfl
  rw [e]
  unfold M.bind
  split
  · rename_i a w' heq; rw [heq] at h1; exact hf a (hP w a (by rw [heq])) w' h1.1
  · rename_i e w' heq; rw [heq] at h1
    exact ⟨h1.1, fun e' h => (by cases h; exact h1.2 e rfl)⟩

theorem grows_bind {α β : Type} {m : M α} {f : α → M β} (hm : Grows N Z m)
    (hf : ∀ a, Grows N Z (f a)) : Grows N Z (m >>= f) :=
  grows_bind_of (P := fun _ => True) hm (fun _ _ _ => trivial) fun a _ => hf a

theorem grows_catchIf {α : Type} {Y : ErrKind → Prop} {pred : ErrKind → Bool} {m : M α}
    {k : PyErr → M α} (hm : Grows N Y m) (hY : ∀ x, Y x → pred x = false → Z x)
    (hk : ∀ e, Grows N Z (k e)) : Grows N Z (M.catchIf pred m k) := by
  intro w hw
  have h1 := hm w hw
  unfold M.catchIf
  split
  · rename_i a w' heq; rw [heq] at h1; exact ⟨h1.1, fun _ h => (by cases h)⟩
  · rename_i e w' heq; rw [heq] at h1
    split
    · exact hk e w' h1.1
    · rename_i hp
      exact ⟨h1.1, fun e' h => (by cases h; exact hY _ (h1.2 _ rfl) (by simpa using hp))⟩

theorem grows_mapML {α β : Type} {f : α → M β} : ∀ xs, (∀ a ∈ xs, Grows N Z (f a)) →
    Grows N Z (mapML f xs)
  | [], _ => grows_pure _
  | x :: xs, hf => grows_bind (hf x (by simp)) fun _ =>
      grows_bind (grows_mapML xs fun a ha => hf a (by simp [ha])) fun _ => grows_pure _

theorem grows_foldML {α β : Type} {f : β → α → M β} : ∀ xs b,
    (∀ b, ∀ a ∈ xs, Grows N Z (f b a)) → Grows N Z (foldML f b xs)
  | [], _, _ => grows_pure _
  | x :: xs, b, hf => grows_bind (hf b x (by simp)) fun b' =>
      grows_foldML xs b' fun b a ha => hf b a (by simp [ha])

theorem grows_getObj (r : Nat) (h : r < N) : Grows N Z (getObj r) := by
  intro w hw
  have : w.objs[r]? = some w.objs[r] := List.getElem?_eq_getElem (by omega)
  unfold getObj
  rw [this]
  exact ⟨hw, fun _ h => (by cases h)⟩

end

/-- What the calls of a method satisfy. -/
structure Calls (E : Env) (U : ErrKind → Prop) (rec : Rec) : Prop where
  ok : ErrOk E U rec
  len : ∀ p w, w.objs.length ≤ (execProg rec p w).2.objs.length
  lenC : ∀ c w, w.objs.length ≤ (rec c w).2.objs.length
  validate : ∀ N nm p inst v, (∀ r, inst = some r → r < N) → Only (· < N) v →
    Grows N (fun k => rejects p k ∨ U k) (rec (.validate nm p inst v))

section
variable {E : Env} {U Z : ErrKind → Prop} {rec : Rec} {N : Nat} {inst : Option Nat}
  (H : Calls E U rec) (hv : Z .validation) (hU : ∀ k, U k → Z k)
  (hi : ∀ r, inst = some r → r < N)
include H

theorem grows_callFn (hU : ∀ k, U k → Z k) (f : FnId) (args : List Val) :
    Grows N Z (callFn E rec f args) := fun w hw =>
  ⟨Nat.le_trans hw (H.len _ w), fun e he => hU _ (errs_execProg H.ok _ (H.ok.fns f args) w e he)⟩

include hv hU hi

theorem grows_propError {α : Type} (nm : PyStr) : Grows N Z (propError E rec nm inst : M α) := by
  unfold propError raiseVal
  cases inst with
  | none => exact grows_raise _ hv
  | some r =>
    have hr := hi r rfl
    refine grows_bind (grows_getObj r hr) fun o => ?_
    have hh : Grows N Z (runHook E rec r [⟨some (s% "invalid"), some nm, some r⟩]) := by
      unfold runHook
      refine grows_bind (grows_getObj r hr) fun o => ?_
      refine grows_bind (fun w hw => ⟨hw, fun _ h => (by cases h)⟩) fun _ => ?_
      split
      · exact grows_pure _
      · exact grows_bind (grows_callFn H hU _ _) fun _ => grows_pure _
    dsimp only
    split
    · exact grows_bind hh fun _ => grows_raise _ hv
    · exact grows_raise _ hv

theorem grows_liftScalar (nm : PyStr) (x : Except SErr Val)
    (hx : ∀ k, x = .error (.raw k) → Z k) : Grows N Z (liftScalar E rec nm inst x) := by
  have hp : Grows N Z (propError E rec nm inst : M Val) := grows_propError H hv hU hi nm
  unfold liftScalar
  split
  · exact grows_pure _
  · exact grows_raiseK _ (hx _ rfl)
  · exact grows_catchIf hp (fun _ h _ => h) fun _ => hp
  · exact hp

end

theorem rejects_converts {p : PropSpec} {k : ErrKind} (h : k = .overflow) (hp : Converts p) :
    rejects p k := .inr (.inr (.inr (.inl ⟨h, hp⟩)))

theorem propError_fails {α : Type} {E : Env} {rec : Rec} {nm : PyStr} {inst : Option Nat}
    (w : World) (a : α) : (propError E rec nm inst w).1 ≠ .ok a := by
  intro h
  exact propError_raises (w' := (propError E rec nm inst w : Except PyErr α × World).2) (Prod.ext h rfl)

theorem validateBody_rejects {E : Env} {U : ErrKind → Prop} {rec : Rec} (H : Calls E U rec)
    {N : Nat} (nm : PyStr) (p : PropSpec) (inst : Option Nat) (v : Val)
    (hi : ∀ r, inst = some r → r < N) (ho : Only (· < N) v) :
    Grows N (fun k => rejects p k ∨ U k) (validateBody E rec nm p inst v) := by
  have hU : ∀ k, U k → rejects p k ∨ U k := fun _ h => .inr h
  have hv : rejects p .validation ∨ U .validation := .inl (.inl rfl)
  have hp : ∀ {α : Type}, Grows N (fun k => rejects p k ∨ U k) (propError E rec nm inst : M α) :=
    grows_propError (Z := fun k => rejects p k ∨ U k) H hv hU hi nm
  have hs : ∀ x : Except SErr Val, (∀ k, x = .error (.raw k) → k = .overflow ∧ Converts p) →
      Grows N (fun k => rejects p k ∨ U k) (liftScalar E rec nm inst x) := fun x hx =>
    grows_liftScalar (Z := fun k => rejects p k ∨ U k) H hv hU hi nm x fun k hk =>
      .inl (rejects_converts (hx k hk).1 (hx k hk).2)
  unfold validateBody
  split
  · rename_i k item lo hi' c hty
    unfold seqValidate
    have hitem : ∀ x, Only (· < N) x → Grows N (fun k => rejects p k ∨ U k)
        (M.catchIf ErrKind.isValueError (rec (.validate nm item inst x))
          (fun _ => propError E rec nm inst)) := fun x hx =>
      grows_catchIf (H.validate N nm item inst x hi hx) (fun y hy hf => by
        rcases hy with (rfl | rfl | ⟨rfl, h⟩ | ⟨rfl, h⟩ | ⟨rfl, h⟩) | h
        · exact .inl (.inl rfl)
        · exact .inl (.inr (.inl rfl))
        · exact .inl (.inr (.inr (.inl ⟨rfl, .item hty h⟩)))
        · exact .inl (rejects_converts rfl (.item hty h))
        · exact .inl (.inr (.inr (.inr (.inr ⟨rfl, .item hty h⟩))))
        · exact .inr h) fun _ => hp
    have hrest : Grows N (fun k => rejects p k ∨ U k) (do
        let out ← mapML (fun x => M.catchIf ErrKind.isValueError (rec (.validate nm item inst x))
          (fun _ => propError E rec nm inst)) (if v.isContainer then v.items else [v])
        mkSeq k out) := by
      refine grows_bind (grows_mapML _ fun x hx => hitem x ?_) fun out => ?_
      · split at hx
        · exact only_items ho x hx
        · rw [List.mem_singleton.1 hx]; exact ho
      · unfold mkSeq
        split
        · exact grows_pure _
        · exact grows_pure _
        · split
          · exact grows_pure _
          · exact grows_raiseK _ (.inl (.inr (.inr (.inl ⟨rfl, .set hty⟩))))
    dsimp only
    split
    · exact grows_bind hp fun _ => hrest
    · exact hrest
  · rename_i kp vp c hty
    unfold dictValidate
    have hpart : ∀ q x, (Converts q → Converts p) → (Builds q → Builds p) → Only (· < N) x →
        Grows N (fun k => rejects p k ∨ U k)
        (M.catchIf ErrKind.isValueError (rec (.validate nm q inst x))
          (fun _ => propError E rec nm inst)) := fun q x h1 h2 hx =>
      grows_catchIf (H.validate N nm q inst x hi hx) (fun y hy hf => by
        rcases hy with (rfl | rfl | ⟨rfl, h⟩ | ⟨rfl, h⟩ | ⟨rfl, h⟩) | h
        · exact .inl (.inl rfl)
        · exact .inl (.inr (.inl rfl))
        · exact .inl (.inr (.inr (.inl ⟨rfl, .dict hty⟩)))
        · exact .inl (rejects_converts rfl (h1 h))
        · exact .inl (.inr (.inr (.inr (.inr ⟨rfl, h2 h⟩))))
        · exact .inr h) fun _ => hp
    refine grows_bind_of (P := fun items => ∀ kv ∈ items, Only (· < N) kv.1 ∧ Only (· < N) kv.2)
      ?_ ?_ fun items hit => ?_
    · split
      · exact grows_pure _
      · exact hp
    · split
      · rename_i kvs hd
        intro w items he
        cases he
        split at hd
        · exact only_dictCoerce ho hd
        · split at hd
          · cases hd; exact only_dict.1 ho
          · cases hd
      · intro w items he
        exact absurd he (propError_fails _ _)
    · refine grows_bind (grows_foldML _ _ fun d kv hkv => ?_) fun _ => grows_pure _
      refine grows_bind (hpart _ _ (.key hty) (.key hty) (hit kv hkv).1) fun key => ?_
      refine grows_bind (hpart _ _ (.value hty) (.value hty) (hit kv hkv).2) fun val => ?_
      split
      · exact grows_pure _
      · exact grows_raiseK _ (.inl (.inr (.inr (.inl ⟨rfl, .dict hty⟩))))
  · rename_i c hty
    unfold instValidate
    split
    · rename_i r
      refine grows_bind (grows_getObj r (ho r .obj)) fun o => ?_
      split
      · exact grows_pure _
      · exact hp
    · split
      · rename_i kw _
        refine grows_catchIf (Y := fun k => access k ∨ U k) (fun w hw =>
          ⟨Nat.le_trans hw (H.lenC _ w), fun e he => H.ok.calls _ w e he⟩) (fun y hy hf => ?_)
          fun _ => hp
        rcases hy with hy | hy
        · cases y <;> simp only [access] at hy <;> first
            | cases hf; done
            | exact .inl (.inr (.inl rfl))
            | exact .inl (rejects_converts rfl (.inst hty))
            | exact .inl (.inr (.inr (.inr (.inr ⟨rfl, .inst hty⟩))))
        · exact .inr hy
      · exact hp
    · exact hp
  · rename_i ps s hty
    have key : ∀ qs, (∀ q ∈ qs, q ∈ ps) → Grows N (fun k => rejects p k ∨ U k)
        (tryProps E rec nm inst (fun p => .validate nm p inst v) qs) := by
      intro qs
      induction qs with
      | nil => intro _; exact hp
      | cons q qs ih =>
        intro hq
        unfold tryProps
        refine grows_catchIf (H.validate N nm q inst v hi ho) (fun y hy hf => ?_) fun _ =>
          ih fun x hx => hq x (by simp [hx])
        have hm : q ∈ ps := hq q (by simp)
        rcases hy with (rfl | rfl | ⟨rfl, h⟩ | ⟨rfl, h⟩ | ⟨rfl, h⟩) | h
        · exact .inl (.inl rfl)
        · exact .inl (.inr (.inl rfl))
        · cases hf
        · exact .inl (rejects_converts rfl (.alternative hty hm h))
        · exact .inl (.inr (.inr (.inr (.inr ⟨rfl, .alternative hty hm h⟩))))
        · exact .inr h
    exact key ps fun _ h => h
  · rename_i hty
    have hc : ∀ n x k, colorValidate E n x = .error (.raw k) → k = .overflow ∧ Converts p :=
      fun n x k h => by
        have := (scalarValidate_kind (ty := .color) (n := n) (congrArg some h)).2
        rcases this with ⟨_, _, _, h⟩ | ⟨_, _, _, h⟩ | ⟨_, h⟩ <;> cases h
    unfold colorBody
    split
    · refine grows_bind ?_ fun n => hs _ (hc _ _)
      split
      · exact fun w hw => ⟨hw, fun _ h => (by cases h)⟩
      · exact grows_pure _
    · exact hs _ (hc _ _)
  · split
    · rename_i x hx
      refine hs _ fun k hk => ?_
      have := scalarValidate_kind (hk ▸ hx)
      refine ⟨this.1, ?_⟩
      rcases this.2 with ⟨_, _, _, h⟩ | ⟨_, _, _, h⟩ | ⟨_, h⟩
      · exact .integer h
      · exact .float h
      · exact .complex h
    · rename_i h1 h2 h3 h4 h5 _ hn
      exfalso
      cases hty : p.ty <;> simp [hty, scalarValidate] at hn
      · exact h1 _ _ _ _ _ hty
      · exact h2 _ _ _ hty
      · exact h3 _ hty
      · exact h4 _ _ hty

theorem run_calls {E : Env} {U : ErrKind → Prop} (hU : ∀ f args, Raises U (E.fn f args)) :
    ∀ n, Calls E U (run E n)
  | 0 => ⟨run_errs hU 0, fun p w => (runProg_restored E 0 p w).len,
      fun c w => (run_restored E 0 c w).len, fun N nm p inst v _ _ =>
        grows_raiseK _ (.inl (.inr (.inl rfl)))⟩
  | n + 1 => ⟨run_errs hU (n + 1), fun p w => (runProg_restored E (n + 1) p w).len,
      fun c w => (run_restored E (n + 1) c w).len, fun N nm p inst v hi ho =>
        validateBody_rejects (run_calls hU n) nm p inst v hi ho⟩

end Verif
