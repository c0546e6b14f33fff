import Verif.Models.Live
import Verif.Spec.Live
import Verif.Lemmas.Restored
import Verif.Lemmas.Monad

/-!
# The interpreter with live lists of listeners
-/

namespace Verif
open Spec

/-! ## Nothing is registered -/

/-- No old object gets a listener. -/
structure Unlistened (w w' : World) : Prop where
  base : Restored w w'
  same : ∀ (r : Nat) (o : Obj), w.objs[r]? = some o →
    ∃ o', w'.objs[r]? = some o' ∧ o'.listeners = o.listeners

theorem Unlistened.refl (w : World) : Unlistened w w := ⟨Restored.refl w, fun _ o h => ⟨o, h, rfl⟩⟩

theorem Unlistened.trans {a b c : World} (h : Unlistened a b) (k : Unlistened b c) : Unlistened a c :=
  ⟨h.base.trans k.base, fun r o ho => by
    obtain ⟨o1, h1, e1⟩ := h.same r o ho
    obtain ⟨o2, h2, e2⟩ := k.same r o1 h1
    exact ⟨o2, h2, e2.trans e1⟩⟩

theorem Unlistened.of {w w' : World} (h : Restored w w') (he : w'.objs = w.objs) : Unlistened w w' :=
  ⟨h, fun _ o ho => ⟨o, by rw [he]; exact ho, rfl⟩⟩

theorem Unlistened.setObj {w : World} {r : Nat} {f : Obj → Obj} (h : Restored w (w.setObj r f))
    (hf : ∀ o, (f o).listeners = o.listeners) : Unlistened w (w.setObj r f) := by
  refine ⟨h, fun i o ho => ?_⟩
  simp only [World.setObj, List.getElem?_modify, ho]
  by_cases hi : r = i
  · subst hi; exact ⟨f o, by simp, hf o⟩
  · exact ⟨o, by simp [hi], rfl⟩

theorem Unlistened.bracket {w w' : World} {r : Nat} {f g : Obj → Obj}
    (hR : Restored w (w'.setObj r g)) (h : Unlistened (w.setObj r f) w')
    (hf : ∀ o, (f o).listeners = o.listeners) (hg : ∀ o, (g o).listeners = o.listeners) :
    Unlistened w (w'.setObj r g) := by
  refine ⟨hR, fun i o ho => ?_⟩
  have : ∃ o1, (w.setObj r f).objs[i]? = some o1 ∧ o1.listeners = o.listeners := by
    simp only [World.setObj, List.getElem?_modify, ho]
    by_cases hi : r = i
    · subst hi; exact ⟨f o, by simp, hf o⟩
    · exact ⟨o, by simp [hi], rfl⟩
  obtain ⟨o1, h1, e1⟩ := this
  obtain ⟨o2, h2, e2⟩ := h.same i o1 h1
  simp only [World.setObj, List.getElem?_modify, h2]
  by_cases hi : r = i
  · subst hi; exact ⟨g o2, by simp, (hg o2).trans (e2.trans e1)⟩
  · exact ⟨o2, by simp [hi], e2.trans e1⟩

theorem uses_of_neverRegisters : ∀ {p : Prog}, NeverRegisters p →
    p.Uses (fun _ => True) True (fun _ => True) False
  | .ret _, _ => trivial
  | .raise _, _ => trivial
  | .call c k, h => by
      cases c <;> first
        | exact ⟨trivial, fun x => uses_of_neverRegisters (h.2 x)⟩
        | exact ⟨⟨trivial, trivial⟩, fun x => uses_of_neverRegisters (h.2 x)⟩
        | exact h.1.elim
  | .disabled _ _ _, h => ⟨uses_of_neverRegisters h.1, fun x => uses_of_neverRegisters (h.2 x)⟩

theorem unlistened_stable {E : Env} (hE : ∀ f args, NeverRegisters (E.fn f args)) :
    Stable E (fun _ => True) True (fun _ => True) False (fun _ => True) (fun _ => True) Unlistened where
  refl w _ := Unlistened.refl w
  trans := Unlistened.trans
  keep _ _ := trivial
  fns f args := uses_of_neverRegisters (hE f args)
  fresh _ _ := trivial
  writable _ _ := trivial
  trace w0 w e h1 h2 h3 h4 _ := .of ((restored_stable E).trace w0 w e trivial h2.base h3 h4 (.inl trivial)) rfl
  collects _ _ _ _ := trivial
  hooks w r ts h k := .of ((restored_stable E).hooks w r ts h k) rfl
  tick w h := .of ((restored_stable E).tick w h) rfl
  user w v h := .of ((restored_stable E).user w v h) rfl
  bypass w h := .of ((restored_stable E).bypass w h) rfl
  stored w r b h1 h2 := .setObj ((restored_stable E).stored w r b h1 h2) fun _ => rfl
  errs w r o es ts h1 h2 h3 h4 := .setObj ((restored_stable E).errs w r o es ts h1 h2 h3 h4) fun _ => rfl
  observe _ _ _ _ _ h := h.elim
  alloc w c h := ⟨(restored_stable E).alloc w c h, fun r o ho => ⟨o, by
    have := (List.getElem?_eq_some_iff.1 ho).1
    simp [List.getElem?_append_left this, ho], rfl⟩⟩
  quar _ _ _ := trivial
  disabled w w' q h k := ⟨(restored_stable E).disabled w w' q h k.base, k.same⟩
  cls h := (restored_stable E).cls h.base
  idle h := (restored_stable E).idle h.base
  validatingI _ _ _ _ := trivial
  validating w w' r h1 h2 h := .bracket ((restored_stable E).validating w w' r h1 h2 h.base) h
    (fun _ => rfl) (fun _ => rfl)
  serializingI _ _ _ := trivial
  serializing w w' r o h1 h2 h3 h := .bracket ((restored_stable E).serializing w w' r o h1 h2 h3 h.base) h
    (fun _ => rfl) (fun _ => rfl)
  comparingI _ _ _ := trivial
  comparing w w' r o h1 h2 h3 h := .bracket ((restored_stable E).comparing w w' r o h1 h2 h3 h.base) h
    (fun _ => rfl) (fun _ => rfl)

/-! ## The live loop without registrations -/

section
variable {E : Env} {rec : Rec} {r : Nat} {mode : Mode} {name : PyStr} {prev : Val} {ls : List Listener}

theorem liveLoop_same
    (hkeep : ∀ l v w, (∃ o, w.objs[r]? = some o ∧ listenersFor o name mode = ls) →
      ∃ o, (notifyOne E rec r mode name prev v l w).2.objs[r]? = some o ∧ listenersFor o name mode = ls) :
    ∀ (rest : List Listener) (i fuel : Nat) (v : Val) (w : World), ls.drop i = rest → i + rest.length = ls.length →
      rest.length < fuel → (∃ o, w.objs[r]? = some o ∧ listenersFor o name mode = ls) →
      liveLoop E rec r mode name prev fuel i v w = foldML (notifyOne E rec r mode name prev) v rest w
  | [], i, fuel + 1, v, w, hd, hi, hf, ⟨o, ho, hl⟩ => by
      unfold liveLoop
      rw [bind_ok (getObj_some ho), hl]
      have : ls[i]? = none := by
        rw [List.getElem?_eq_none_iff]; simp at hi; omega
      simp only [this]
      rfl
  | x :: rest, i, fuel + 1, v, w, hd, hi, hf, ⟨o, ho, hl⟩ => by
      unfold liveLoop foldML
      rw [bind_ok (getObj_some ho), hl]
      have hx : ls[i]? = some x := by
        have := congrArg (·[0]?) hd
        simpa using this
      simp only [hx]
      have hk := hkeep x v w ⟨o, ho, hl⟩
      show (M.bind _ _) w = (M.bind _ _) w
      unfold M.bind
      cases hc : notifyOne E rec r mode name prev v x w with
      | mk res w1 =>
        rw [hc] at hk
        cases res with
        | error e => rfl
        | ok v1 =>
          refine liveLoop_same hkeep rest (i + 1) fuel v1 w1 ?_ ?_ ?_ hk
          · have := congrArg (List.drop 1) hd
            simpa [List.drop_drop, Nat.add_comm] using this
          · simp at hi; omega
          · simp at hf; omega

end

/-- Notifying through the live list is notifying through the list found at the
start if the calls register nothing. -/
theorem notifyLive_same {E : Env} {k : Nat} {rec : Rec} (hE : ∀ f args, NeverRegisters (E.fn f args))
    (H : RecOk (fun _ => True) True (fun _ => True) False (fun _ => True) Unlistened (fun _ _ _ => True) rec)
    (r : Nat) (mode : Mode) (name : PyStr) (prev v : Val) :
    notifyLive E k rec r mode name prev v = notify E rec r mode name prev v := by
  have S := (unlistened_stable hE).toBase
  funext w
  unfold notifyLive notify
  cases ho : w.objs[r]? with
  | none => rw [bind_err (getObj_none ho), bind_err (getObj_none ho)]
  | some o =>
    rw [bind_ok (getObj_some ho), bind_ok (getObj_some ho)]
    rw [bind_ok (get_apply w), bind_ok (get_apply w)]
    cases hq : w.quar.has mode with
    | true => simp only [if_true]; rfl
    | false =>
      simp only [Bool.false_eq_true, if_false]
      refine liveLoop_same (ls := listenersFor o name mode) ?_ _ 0 _ v w rfl ?_ ?_ ⟨o, ho, rfl⟩
      rotate_left
      · show 0 + (listenersFor o name mode).length = _
        omega
      · show (listenersFor o name mode).length < _
        omega
      rintro l v w ⟨o1, h1, e1⟩
      have hc := pres_callFn S H l.fn [.obj r, .str name, prev, v, .str mode.toStr]
        { w with trace := w.trace ++ [⟨r, mode, name, prev, v, l.fn⟩] } trivial
      obtain ⟨o2, h2, e2⟩ := hc.same r o1 h1
      refine ⟨o2, h2, ?_⟩
      unfold listenersFor at *
      rw [e2, e1]

theorem stepLive_same {E : Env} {k : Nat} {rec : Rec} (hE : ∀ f args, NeverRegisters (E.fn f args))
    (H : RecOk (fun _ => True) True (fun _ => True) False (fun _ => True) Unlistened (fun _ _ _ => True) rec) :
    stepLive E k rec = step E rec := by
  have hn := fun r mode name prev v => notifyLive_same (k := k) hE H r mode name prev v
  have hs : ∀ r name p v, setBodyLive E k rec r name p v = setBody E rec r name p v := by
    intro r name p v
    unfold setBodyLive setBody
    simp only [hn]
  have ha : ∀ r name p v, assignBodyLive E k rec r name p v = assignBody E rec r name p v := by
    intro r name p v
    unfold assignBodyLive assignBody
    simp only [hs]
  have hv : ∀ r, validatePropStepLive E k rec r = validatePropStep E rec r := by
    intro r
    funext kv
    unfold validatePropStepLive validatePropStep
    simp only [hn]
    rfl
  funext c
  cases c with
  | setattr r name v =>
    show setattrBodyLive E k rec r name v = setattrBody E rec r name v
    funext w
    unfold setattrBodyLive
    cases ho : w.objs[r]? with
    | none =>
      have he : entryOf E r name w = (.error { kind := .attr }, w) := bind_err (getObj_none ho)
      unfold setattrBody
      rw [bind_err he, bind_err he]
    | some o =>
      have he : entryOf E r name w = (.ok (lookupS name (E.classes o.cls).props), w) := bind_ok (getObj_some ho)
      rw [bind_ok he]
      cases hl : lookupS name (E.classes o.cls).props with
      | none => rfl
      | some en =>
        cases en with
        | mutable p =>
          unfold setattrBody
          rw [bind_ok he, hl]
          simp only [ha]
        | _ => rfl
  | delattr r name =>
    show delattrBodyLive E k rec r name = delattrBody E rec r name
    funext w
    unfold delattrBodyLive
    cases ho : w.objs[r]? with
    | none =>
      have he : entryOf E r name w = (.error { kind := .attr }, w) := bind_err (getObj_none ho)
      unfold delattrBody
      rw [bind_err he, bind_err he]
    | some o =>
      have he : entryOf E r name w = (.ok (lookupS name (E.classes o.cls).props), w) := bind_ok (getObj_some ho)
      rw [bind_ok he]
      cases hl : lookupS name (E.classes o.cls).props with
      | none => rfl
      | some en =>
        cases en with
        | mutable p =>
          unfold delattrBody
          rw [bind_ok he, hl]
          simp only [hs]
        | _ => rfl
  | validateProps r =>
    show validatePropsBodyLive E k rec r = validatePropsBody E rec r
    unfold validatePropsBodyLive validatePropsBody
    simp only [hv]
  | _ => rfl

theorem runLive_same {E : Env} (k : Nat) (hE : ∀ f args, NeverRegisters (E.fn f args)) :
    ∀ n, runLive E k n = run E n
  | 0 => rfl
  | n + 1 => by
      show stepLive E k (runLive E k n) = step E (run E n)
      rw [runLive_same k hE n]
      have H := (unlistened_stable hE).run_ok n
      exact stepLive_same hE ⟨H.pres, fun _ _ _ _ _ _ _ => trivial⟩

/-! ## What every run with live lists keeps -/

section
variable {E : Env} {k : Nat} {rec : Rec} {Q : Call → Val → World → Prop}
  (H : RecOk (fun _ => True) True (fun _ => True) True (fun _ => True) Restored Q rec)
include H

theorem restored_notifyOne (r : Nat) (mode : Mode) (name : PyStr) (prev v : Val) (l : Listener) :
    Pres (fun _ => True) Restored (notifyOne E rec r mode name prev v l) := by
  intro w _
  have h1 : Restored w { w with trace := w.trace ++ [⟨r, mode, name, prev, v, l.fn⟩] } :=
    ⟨rfl, Nat.le_refl _, (Restored.refl w).old, (Restored.refl w).new⟩
  exact h1.trans (pres_callFn (restored_stable E).toBase H l.fn _ _ trivial)

theorem restored_liveLoop (r : Nat) (mode : Mode) (name : PyStr) (prev : Val) : ∀ (fuel i : Nat) (v : Val),
    Pres (fun _ => True) Restored (liveLoop E rec r mode name prev fuel i v)
  | 0, _, _ => pres_raiseK (restored_stable E).toPreord _
  | fuel + 1, i, v => by
      have P := (restored_stable E).toPreord
      unfold liveLoop
      refine pres_bind P (pres_getObj P r) fun o => ?_
      split
      · exact pres_pure P _
      · exact pres_bind P (restored_notifyOne H r mode name prev v _) fun v' =>
          restored_liveLoop r mode name prev fuel (i + 1) v'

theorem restored_notifyLive (r : Nat) (mode : Mode) (name : PyStr) (prev v : Val) :
    Pres (fun _ => True) Restored (notifyLive E k rec r mode name prev v) := by
  have P := (restored_stable E).toPreord
  unfold notifyLive
  refine pres_bind P (pres_getObj P r) fun o => pres_bind P (pres_get P) fun w => ?_
  split
  · exact pres_pure P _
  · exact restored_liveLoop H r mode name prev _ _ v

theorem restored_setBodyLive (r : Nat) (name : PyStr) (p : PropSpec) (v : Val) :
    Pres (fun _ => True) Restored (setBodyLive E k rec r name p v) := by
  have hn := fun mode prev v => restored_notifyLive (k := k) (E := E) H r mode name prev v
  have hs : ∀ v : Val, Pres (fun _ => True) Restored (writeStored r name v) := fun v =>
    (restored_stable E).pres_stored r (fun b => if v.isUndef then eraseS name b else setS name v b) trivial
  unfold setBodyLive
  repeat' (first | with_reducible exact hn _ _ _ | with_reducible exact hs _ |
    pres1 (restored_stable E).toBase, H)

theorem restored_stepLive (T : Writer E (fun _ => True) True (fun _ => True) True (fun _ => True)
    (fun _ => True) Restored Q) (c : Call) : Pres (fun _ => True) Restored (stepLive E k rec c) := by
  have S := (restored_stable E).toBase
  have P := S.toPreord
  have hs := fun r name p v => restored_setBodyLive (k := k) (E := E) H r name p v
  have hstep : ∀ c, Pres (fun _ => True) Restored (step E rec c) := fun c => pres_step S T H c c.allowed_all
  cases c with
  | setattr r name v =>
    show Pres _ _ (setattrBodyLive E k rec r name v)
    have hother : Pres (fun _ => True) Restored (setattrBody E rec r name v) := hstep (.setattr r name v)
    unfold setattrBodyLive
    refine pres_bind P (by unfold entryOf; pres S, H) fun en => ?_
    split
    · unfold assignBodyLive
      repeat' (first | with_reducible exact hs _ _ _ _ | pres1 S, H)
    · exact hother
  | delattr r name =>
    show Pres _ _ (delattrBodyLive E k rec r name)
    have hother : Pres (fun _ => True) Restored (delattrBody E rec r name) := hstep (.delattr r name)
    unfold delattrBodyLive
    refine pres_bind P (by unfold entryOf; pres S, H) fun en => ?_
    split
    · repeat' (first | with_reducible exact hs _ _ _ _ | pres1 S, H)
    · exact hother
  | validateProps r =>
    show Pres _ _ (validatePropsBodyLive E k rec r)
    have hC : (fun _ : Nat => True) r := trivial
    have hV : True := trivial
    have hn := fun name prev v => restored_notifyLive (k := k) (E := E) H r .validate name prev v
    have hp : ∀ kv, Pres (fun _ => True) Restored (validatePropStepLive E k rec r kv) := by
      intro kv
      unfold validatePropStepLive
      repeat' (first | with_reducible exact hn _ _ _ | pres1 S, H)
    unfold validatePropsBodyLive
    exact pres_bind P (pres_getObj P r) fun o =>
      pres_bind P (pres_forML P hp _) fun _ => pres_pure P _
  | _ => exact hstep _

end

theorem runLive_ok (E : Env) (k : Nat) : ∀ n, RecOk (fun _ => True) True (fun _ => True) True (fun _ => True)
    Restored (stableQ (fun _ => True)) (runLive E k n)
  | 0 => ⟨fun _ _ => pres_raiseK (restored_stable E).toPreord _, fun _ _ _ _ _ _ h => by cases h⟩
  | n + 1 => by
      have H := runLive_ok E k n
      refine ⟨fun c _ => restored_stepLive H (restored_stable E).writer c, fun c _ w hw v w' h => ?_⟩
      cases c with
      | construct c kw => exact (restored_stable E).post _ H _ (Call.allowed_all _) w hw v w' h
      | _ => trivial

/-- Every call with live lists keeps markers, classes, the quarantine and the
listeners. -/
theorem runLive_restored (E : Env) (k n : Nat) (c : Call) (w : World) :
    Restored w (runLive E k n c w).2 := (runLive_ok E k n).pres c c.allowed_all w trivial

end Verif
