import Verif.Lemmas.Restored
import Verif.Lemmas.Scalar
import Verif.Lemmas.ScalarErr

/-!
# Which error a failing `validate` of a property raises
-/

namespace Verif
open Spec

/-- Calls of error hooks are recorded, never forgotten. -/
structure Logged (w w' : World) : Prop where
  restored : Restored w w'
  hooks : w.hooks <+: w'.hooks

theorem logged_stable (E : Env) :
    Stable E (fun _ => True) True (fun _ => True) True (fun _ => True) (fun _ => True) Logged where
  refl w _ := ⟨Restored.refl w, List.prefix_refl _⟩
  trans h k := ⟨h.restored.trans k.restored, h.hooks.trans k.hooks⟩
  keep _ _ := trivial
  fns _ _ := Prog.uses_all _
  fresh _ _ := trivial
  writable _ _ := trivial
  trace w0 w e h1 h2 h3 h4 h5 := ⟨(restored_stable E).trace w0 w e h1 h2.restored h3 h4 h5, List.prefix_refl _⟩
  collects _ _ _ _ := trivial
  hooks w r ts h1 h2 := ⟨(restored_stable E).hooks w r ts h1 h2, List.prefix_append _ _⟩
  tick w h := ⟨(restored_stable E).tick w h, List.prefix_refl _⟩
  user w v h := ⟨(restored_stable E).user w v h, List.prefix_refl _⟩
  bypass w h := ⟨(restored_stable E).bypass w h, List.prefix_refl _⟩
  stored w r b h1 h2 := ⟨(restored_stable E).stored w r b h1 h2, List.prefix_refl _⟩
  errs w r o es ts h1 h2 h3 h4 := ⟨(restored_stable E).errs w r o es ts h1 h2 h3 h4, List.prefix_refl _⟩
  observe w r ls h1 h2 _ := ⟨(restored_stable E).observe w r ls h1 h2 trivial, List.prefix_refl _⟩
  alloc w c h := ⟨(restored_stable E).alloc w c h, List.prefix_refl _⟩
  quar _ _ _ := trivial
  disabled w w' q h1 h2 := ⟨(restored_stable E).disabled w w' q h1 h2.restored, h2.hooks⟩
  cls h := (restored_stable E).cls h.restored
  idle h := (restored_stable E).idle h.restored
  validatingI _ _ _ _ := trivial
  validating w w' r h1 h2 h3 := ⟨(restored_stable E).validating w w' r h1 h2 h3.restored, h3.hooks⟩
  serializingI _ _ _ := trivial
  serializing w w' r o h1 h2 h3 h4 :=
    ⟨(restored_stable E).serializing w w' r o h1 h2 h3 h4.restored, h4.hooks⟩
  comparingI _ _ _ := trivial
  comparing w w' r o h1 h2 h3 h4 :=
    ⟨(restored_stable E).comparing w w' r o h1 h2 h3 h4.restored, h4.hooks⟩

theorem run_logged (E : Env) (n : Nat) (c : Call) (w : World) : Logged w (run E n c w).2 :=
  ((logged_stable E).run_ok n).pres c c.allowed_all w trivial

/-- Instance `r` is being validated or initialised (`b`), or is not and its class
keeps the default error hook. -/
def Known (E : Env) (r : Nat) (b : Bool) (w : World) : Prop :=
  ∃ o, w.objs[r]? = some o ∧ o.gv = some b ∧ (b = false → (E.classes o.cls).hook = none)

/-- The error tuple of property `nm` of instance `r`. -/
def blame (nm : PyStr) (r : Nat) : ErrTuple := ⟨some (s% "invalid"), some nm, some r⟩

section
variable {E : Env} {nm : PyStr} {r : Nat} {b : Bool}

theorem Known.keep {w w' : World} (h : Known E r b w) (k : Restored w w') : Known E r b w' := by
  obtain ⟨o, ho, hg, hh⟩ := h
  obtain ⟨o', ho', k⟩ := k.old r o ho
  refine ⟨o', ho', ?_, fun h => by rw [k.cls]; exact hh h⟩
  cases b with
  | true => exact k.gv.2 hg
  | false =>
    have h1 : o'.gv ≠ none := k.gvSet (by rw [hg]; simp)
    have h2 : o'.gv ≠ some true := fun h => by rw [k.gv.1 h] at hg; cases hg
    cases h : o'.gv with
    | none => exact absurd h h1
    | some x =>
      cases x with
      | true => exact absurd h h2
      | false => rfl

theorem Logged.later {w w1 w2 : World} {x : Nat × List ErrTuple} (h : Logged w w1)
    (k : ∃ hs, w2.hooks = w1.hooks ++ hs ++ [x]) : ∃ hs, w2.hooks = w.hooks ++ hs ++ [x] := by
  obtain ⟨a, ha⟩ := h.hooks
  obtain ⟨hs, hk⟩ := k
  exact ⟨a ++ hs, by rw [hk, ← ha]; simp⟩

/-- If `m` raises a ValidationError it is the one of property `nm` of `r`, and
the last call of an error hook is the one of `r` with it. -/
def Blames (E : Env) (nm : PyStr) (r : Nat) (b : Bool) {α : Type} (m : M α) : Prop :=
  ∀ w e w', Known E r b w → m w = (.error e, w') → e.kind = .validation →
    e.tuples = [blame nm r] ∧ (b = false → ∃ hs, w'.hooks = w.hooks ++ hs ++ [(r, [blame nm r])])

/-- `m` keeps markers and classes. -/
abbrev Keeps {α : Type} (m : M α) : Prop := Pres (fun _ => True) Logged m

theorem blames_pure {α : Type} (a : α) : Blames E nm r b (pure a : M α) :=
  fun w e w' _ h => by cases h

theorem blames_raiseK {α : Type} {k : ErrKind} (hk : k ≠ .validation) :
    Blames E nm r b (raiseK k : M α) := fun w e w' _ h hv => by cases h; exact absurd hv hk

theorem blames_bind {α β : Type} {m : M α} {f : α → M β} (hk : Keeps m) (hm : Blames E nm r b m)
    (hf : ∀ a, Blames E nm r b (f a)) : Blames E nm r b (m >>= f) := by
  intro w e w' hw h hv
  rcases bind_err_inv h with h | ⟨a, w1, h1, h2⟩
  · exact hm w e w' hw h hv
  · have := hk w trivial
    rw [h1] at this
    obtain ⟨h3, h4⟩ := hf a w1 e w' (hw.keep this.restored) h2 hv
    exact ⟨h3, fun hb => this.later (h4 hb)⟩

theorem blames_catchIf {α : Type} {pred : ErrKind → Bool} (hp : pred .validation = true) {m : M α}
    {k : PyErr → M α} (hm : Keeps m) (hk : ∀ e, Blames E nm r b (k e)) :
    Blames E nm r b (M.catchIf pred m k) := by
  intro w e w' hw h hv
  rcases hx : m w with ⟨x, w1⟩
  have hr := hm w trivial
  rw [hx] at hr
  cases x with
  | ok a => rw [catchIf_ok hx] at h; cases h
  | error e1 =>
    cases hp1 : pred e1.kind with
    | false =>
      rw [catchIf_pass hx hp1] at h
      cases h
      rw [hv, hp] at hp1; cases hp1
    | true =>
      rw [catchIf_err hx hp1] at h
      obtain ⟨h3, h4⟩ := hk e1 w1 e w' (hw.keep hr.restored) h hv
      exact ⟨h3, fun hb => hr.later (h4 hb)⟩

theorem blames_mapML {α β : Type} {f : α → M β} (hk : ∀ a, Keeps (f a))
    (hf : ∀ a, Blames E nm r b (f a)) : ∀ xs, Blames E nm r b (mapML f xs)
  | [] => blames_pure _
  | x :: xs => blames_bind (hk x) (hf x) fun a => blames_bind
      (pres_mapML (logged_stable E).toPreord hk xs) (blames_mapML hk hf xs) fun _ => blames_pure _

theorem blames_foldML {α β : Type} {f : β → α → M β} (hk : ∀ b a, Keeps (f b a))
    (hf : ∀ x a, Blames E nm r b (f x a)) : ∀ xs x, Blames E nm r b (foldML f x xs)
  | [], _ => blames_pure _
  | _ :: xs, x => blames_bind (hk x _) (hf x _) fun y => blames_foldML hk hf xs y

theorem blames_propError {α : Type} (rec : Rec) : Blames E nm r b (propError E rec nm (some r) : M α) := by
  intro w e w' hw h hv
  obtain ⟨o, ho, hg, hh⟩ := hw
  unfold propError raiseVal at h
  dsimp only at h
  rw [bind_ok (getObj_some ho)] at h
  cases b with
  | true =>
    rw [hg] at h
    cases h
    exact ⟨rfl, fun h => by cases h⟩
  | false =>
    rw [hg] at h
    have e1 : runHook E rec r [blame nm r] w =
        (.ok (), { w with hooks := w.hooks ++ [(r, [blame nm r])] }) := by
      unfold runHook
      rw [bind_ok (getObj_some ho), bind_ok (modify_apply _ _), hh rfl]
      rfl
    have h' := (bind_ok e1).symm.trans h
    cases h'
    exact ⟨rfl, fun _ => ⟨[], by simp⟩⟩

variable {rec : Rec} (hrec : ∀ c, Keeps (rec c))

theorem recOk_keeps (hrec : ∀ c, Keeps (rec c)) :
    RecOk (fun _ => True) True (fun _ => True) True (fun _ => True) Logged (fun _ _ _ => True) rec :=
  ⟨fun c _ => hrec c, fun _ _ _ _ _ _ _ => trivial⟩

include hrec

theorem keeps_propError {α : Type} : Keeps (propError E rec nm (some r) : M α) :=
  pres_propError (logged_stable E).toBase (recOk_keeps hrec) nm (some r)

theorem blames_liftScalar (x : Except SErr Val) (hx : x ≠ .error (.raw .validation)) :
    Blames E nm r b (liftScalar E rec nm (some r) x) := by
  unfold liftScalar
  split
  · exact blames_pure _
  · refine blames_raiseK ?_
    rintro rfl
    exact hx rfl
  · exact blames_catchIf rfl (keeps_propError hrec) fun _ => blames_propError rec
  · exact blames_propError rec

theorem blames_tryProps (f : PropSpec → Call) : ∀ ps,
    Blames E nm r b (tryProps E rec nm (some r) f ps)
  | [] => blames_propError rec
  | _ :: ps => blames_catchIf rfl (hrec _) fun _ => blames_tryProps f ps

theorem blames_mkSeq (k : SeqKind) (xs : List Val) : Blames E nm r b (mkSeq k xs) := by
  unfold mkSeq
  split
  · exact blames_pure _
  · exact blames_pure _
  · split
    · exact blames_pure _
    · exact blames_raiseK (by simp)

theorem blames_validateBody (p : PropSpec) (v : Val) :
    Blames E nm r b (validateBody E rec nm p (some r) v) := by
  have hp := (logged_stable E).toPreord
  have hpe : ∀ {α : Type}, Keeps (propError E rec nm (some r) : M α) := keeps_propError hrec
  have hitem : ∀ q x, Keeps (M.catchIf ErrKind.isValueError (rec (.validate nm q (some r) x))
      (fun _ => propError E rec nm (some r))) :=
    fun q x => pres_catchIf hp (hrec _) fun _ => hpe
  have bitem : ∀ q x, Blames E nm r b (M.catchIf ErrKind.isValueError (rec (.validate nm q (some r) x))
      (fun _ => propError E rec nm (some r))) :=
    fun q x => blames_catchIf rfl (hrec _) fun _ => blames_propError rec
  unfold validateBody
  split
  · unfold seqValidate
    dsimp only
    split
    · exact blames_bind hpe (blames_propError rec) fun _ => blames_bind (pres_mapML hp (hitem _) _)
        (blames_mapML (hitem _) (bitem _) _) fun _ => blames_mkSeq hrec _ _
    · exact blames_bind (pres_mapML hp (hitem _) _)
        (blames_mapML (hitem _) (bitem _) _) fun _ => blames_mkSeq hrec _ _
  · unfold dictValidate
    refine blames_bind ?_ ?_ fun _ => blames_bind (pres_foldML hp (fun _ _ => ?_) _ _)
      (blames_foldML (fun _ _ => ?_) (fun _ _ => ?_) _ _) fun _ => blames_pure _
    · split
      · exact pres_pure hp _
      · exact hpe
    · split
      · exact blames_pure _
      · exact blames_propError rec
    · exact pres_bind hp (hitem _ _) fun _ => pres_bind hp (hitem _ _) fun _ => by
        split
        · exact pres_pure hp _
        · exact pres_raiseK hp _
    · exact pres_bind hp (hitem _ _) fun _ => pres_bind hp (hitem _ _) fun _ => by
        split
        · exact pres_pure hp _
        · exact pres_raiseK hp _
    · exact blames_bind (hitem _ _) (bitem _ _) fun _ => blames_bind (hitem _ _) (bitem _ _) fun _ => by
        split
        · exact blames_pure _
        · exact blames_raiseK (by simp)
  · unfold instValidate
    split
    · refine blames_bind (pres_getObj hp _) ?_ fun _ => ?_
      · intro w e w' _ h hv
        unfold getObj at h
        split at h <;> cases h
        cases hv
      · split
        · exact blames_pure _
        · exact blames_propError rec
    · split
      · exact blames_catchIf rfl (hrec _) fun _ => blames_propError rec
      · exact blames_propError rec
    · exact blames_propError rec
  · exact blames_tryProps hrec _ _
  · unfold colorBody
    have hx : ∀ k v, colorValidate E k v ≠ .error (.raw .validation) := by
      intro k v h
      have := scalar_raw (E := E) (ty := .color) (pick := k) (v := v) (k := .validation)
        (by rw [← h]; rfl)
      cases this
    split
    · refine blames_bind ?_ ?_ fun _ => blames_liftScalar hrec _ (hx _ _)
      · split
        · exact pres_draw (logged_stable E).toBase
        · exact pres_pure hp _
      · split
        · intro w e w' _ h; cases h
        · exact blames_pure _
    · exact blames_liftScalar hrec _ (hx _ _)
  · split
    · rename_i x hx
      refine blames_liftScalar hrec _ ?_
      rintro rfl
      cases scalar_raw hx
    · exact blames_raiseK (by simp)

end

theorem run_blames {E : Env} {nm : PyStr} {r : Nat} {b : Bool} : ∀ (n : Nat) (p : PropSpec) (v : Val),
    Blames E nm r b (run E n (.validate nm p (some r) v))
  | 0, _, _ => fun _ _ _ _ h hv => by cases h; cases hv
  | n + 1, p, v => blames_validateBody (fun c w _ => run_logged E n c w) p v

end Verif
