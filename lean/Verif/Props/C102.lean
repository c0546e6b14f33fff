import Verif.Spec.ChangeDict
import Verif.Lemmas.Monad
import Verif.Lemmas.Construct
import Verif.Props.C09
import Verif.Models.Demo

/-!
# C102: what listeners do with the change dictionary
-/

namespace Verif
open Verif.Spec Verif.ChangeDict Verif.Spec.ChangeDict

section
variable {D : Does} {r : Nat}

theorem passed_ok : ∀ {ls : List Listener} {c c' : Change} {w w' : World},
    foldML (fun c l => D l.fn r c) c ls w = (.ok c', w') → Passed D r ls c w c' w'
  | [], c, c', w, w', h => by cases h; exact .nil _ _
  | l :: ls, c, c', w, w', h => by
      obtain ⟨c1, w1, h1, h2⟩ := bind_ok_inv (m := D l.fn r c) h
      exact .cons h1 (passed_ok h2)

theorem passed_err : ∀ {ls : List Listener} {c : Change} {w w' : World} {e : PyErr},
    foldML (fun c l => D l.fn r c) c ls w = (.error e, w') → Failed D r ls c w e w'
  | [], c, w, w', e, h => by cases h
  | l :: ls, c, w, w', e, h => by
      rcases bind_err_inv (m := D l.fn r c) h with h1 | ⟨c1, w1, h1, h2⟩
      · exact .here h1
      · exact .later h1 (passed_err h2)

theorem item_some {c : Change} {k : PyStr} {v : Val} (h : lookupS k c = some v) (w : World) :
    item c k w = (.ok v, w) := by
  unfold item; rw [h]; rfl

theorem changeItem_ok {c : Change} {k : PyStr} {v : Val} {w w' : World} (h : item c k w = (.ok v, w')) :
    lookupS k c = some v ∧ w' = w := by
  unfold item at h
  cases hl : lookupS k c with
  | some x => rw [hl] at h; cases h; exact ⟨rfl, rfl⟩
  | none => rw [hl] at h; cases h

theorem modeOf_toStr (m : Mode) : modeOf? (.str m.toStr) = some m := by
  cases m <;> decide

theorem bind_congr' {α β : Type} {m : M α} {f g : α → M β} {w : World} (h : ∀ a u, f a u = g a u) :
    (m >>= f) w = (m >>= g) w := by
  rw [show f = g from funext fun a => funext fun u => h a u]

/-- What `_notify` does with a dictionary that says which property and phase. -/
theorem notifyC_eq {c : Change} {name : PyStr} {prev : Val} {mode : Mode} {w : World} {o : Obj}
    (hs : Says c name prev mode.toStr) (ho : w.objs[r]? = some o) :
    notifyC D r c w = foldML (fun c l => D l.fn r c) c (found w o mode name) w := by
  unfold notifyC
  rw [bind_ok (item_some hs.2.2 w), bind_ok (item_some hs.1 w), bind_ok (getObj_some ho),
    bind_ok (show M.get w = (.ok w, w) from rfl)]
  simp only [modeOf_toStr]

theorem notifyC_obj {c c' : Change} {w w' : World} {name : PyStr} {prev : Val} {mode : Mode}
    (hs : Says c name prev mode.toStr) (h : notifyC D r c w = (.ok c', w')) :
    Phase D r name prev mode mode.toStr c w c' w' := by
  cases ho : w.objs[r]? with
  | some o =>
    rw [notifyC_eq hs ho] at h
    exact ⟨hs, o, ho, passed_ok h⟩
  | none =>
    exfalso
    unfold notifyC at h
    rw [bind_ok (item_some hs.2.2 w), bind_ok (item_some hs.1 w)] at h
    obtain ⟨o, _, h1, _⟩ := bind_ok_inv h
    unfold getObj at h1
    rw [ho] at h1
    cases h1

theorem says_fresh (name : PyStr) (prev v : Val) : Says (fresh name prev v) name prev (s% "validate") :=
  ⟨by simp [fresh, lookupS], by simp [fresh, lookupS], by simp [fresh, lookupS, Mode.toStr]⟩

theorem says_update (c : Change) (name : PyStr) (prev : Val) (mode : Mode) :
    Says (ChangeDict.update c name prev mode) name prev mode.toStr := by
  unfold ChangeDict.update
  refine ⟨?_, ?_, lookupS_setS _ _ _⟩
  · rw [lookupS_setS_ne (by decide), lookupS_setS_ne (by decide), lookupS_setS]
  · rw [lookupS_setS_ne (by decide), lookupS_setS]

theorem rest_update (c : Change) (name : PyStr) (prev : Val) (mode : Mode) :
    Rest c (ChangeDict.update c name prev mode) := by
  intro k h1 h2 h3
  unfold ChangeDict.update
  rw [lookupS_setS_ne h3, lookupS_setS_ne h2, lookupS_setS_ne h1]

theorem writeStored_stored (r : Nat) (name : PyStr) (v : Val) (w : World) :
    writeStored r name v w = (.ok (), stored w r name v) := by
  unfold writeStored stored
  rw [modObj_apply]
  congr 2
  funext o
  cases v <;> rfl

end

section
variable {rec : Rec} {D : Does} {r : Nat} {name : PyStr} {p : PropSpec} {v0 : Val}

/-- C102: a successful assignment.  In each of the three phases the listeners of
the assigned property that are enabled then are called, and the dictionary they
are handed says which property, which previous value and which phase, whatever
listeners of earlier phases did to these entries.  The value that the validators
left in the dictionary is stored under the assigned property, and no other.
Everything else that listeners put into the dictionary is handed on to the next
phase. -/
theorem C102_assignment {w w' : World} (h : setC rec D r name p v0 w = (.ok (), w')) :
    ∃ c0 c1 w1 v1 b w2 c2 w3 c3 c4,
      Phase D r name (storedOr w r name) .validate (s% "validate") c0 w c1 w1 ∧
      c0 = [(s% "name", .str name), (s% "previous", storedOr w r name), (s% "value", v0),
        (s% "mode", .str (s% "validate"))] ∧
      lookupS (s% "value") c1 = some v1 ∧
      Differs rec p (storedOr w r name) v1 (stored w1 r name v1) b w2 ∧
      (b = true → ∃ c1', Rest c1 c1' ∧
        Phase D r name (storedOr w r name) .change (s% "observe_change") c1' w2 c2 w3) ∧
      (b = false → c2 = c1 ∧ w3 = w2) ∧
      Rest c2 c3 ∧ Phase D r name (storedOr w r name) .set (s% "observe_set") c3 w3 c4 w' := by
  unfold setC at h
  obtain ⟨o, wo, h1, h'⟩ := bind_ok_inv h
  clear h
  have h := h'
  clear h'
  have ho : w.objs[r]? = some o ∧ wo = w := by
    unfold getObj at h1
    split at h1
    · cases h1; exact ⟨by assumption, rfl⟩
    · cases h1
  obtain ⟨ho, rfl⟩ := ho
  have hprev : (lookupS name o.backend).getD .undef = storedOr wo r name := by
    simp [storedOr, storedAt, ho]
  dsimp only at h
  rw [hprev] at h
  generalize hpv : storedOr wo r name = prev at *
  obtain ⟨c1, w1, h1, h⟩ := bind_ok_inv h
  obtain ⟨v1, w1', h2, hb⟩ := bind_ok_inv h
  clear h
  obtain ⟨h2v, rfl⟩ := changeItem_ok h2
  have h := hb
  rw [bind_ok (writeStored_stored r name v1 _)] at h
  clear hb
  obtain ⟨b, w2, h3, h⟩ := bind_ok_inv h
  obtain ⟨c2, w3, h4, h⟩ := bind_ok_inv h
  obtain ⟨c4, w4, h5, h6⟩ := bind_ok_inv h
  cases h6
  refine ⟨_, c1, _, v1, b, w2, c2, w3, _, c4, notifyC_obj (mode := .validate) (says_fresh _ _ _) h1,
    rfl, h2v, ?_, ?_, ?_, rest_update c2 name prev .set,
    notifyC_obj (mode := .set) (says_update _ _ _ _) h5⟩
  · unfold Differs
    by_cases hp : prev = .undef
    · by_cases hv : v1 = .undef
      · subst hp hv
        cases h3
        exact .inl ⟨rfl, rfl, rfl, rfl⟩
      · subst hp
        have : v1.isUndef = false := by cases v1 <;> first | rfl | exact absurd rfl hv
        rw [this] at h3
        cases h3
        exact .inr (.inl ⟨.inl ⟨rfl, hv⟩, rfl, rfl⟩)
    · have hpu : prev.isUndef = false := by cases prev <;> first | rfl | exact absurd rfl hp
      by_cases hv : v1 = .undef
      · subst hv
        rw [hpu] at h3
        cases h3
        exact .inr (.inl ⟨.inr ⟨hp, rfl⟩, rfl, rfl⟩)
      · have hvu : v1.isUndef = false := by cases v1 <;> first | rfl | exact absurd rfl hv
        rw [hpu, hvu] at h3
        obtain ⟨e, w5, h7, h8⟩ := bind_ok_inv (m := rec (.propEqual p prev v1)) h3
        cases h8
        exact .inr (.inr ⟨hp, hv, e, h7, rfl⟩)
  · rintro rfl
    exact ⟨_, rest_update c1 name prev .change,
      notifyC_obj (mode := .change) (says_update _ _ _ _) h4⟩
  · rintro rfl
    cases h4
    exact ⟨rfl, rfl⟩

/-- C102: a validator that removes the value makes the assignment end with
KeyError, and nothing is stored. -/
theorem C102_removed {w w1 : World} {o : Obj} {c1 : Change} (ho : w.objs[r]? = some o)
    (h1 : Passed D r (enabled w o .validate name)
      [(s% "name", .str name), (s% "previous", storedOr w r name), (s% "value", v0),
        (s% "mode", .str (s% "validate"))] w c1 w1)
    (hv : lookupS (s% "value") c1 = none) :
    setC rec D r name p v0 w = (.error ⟨.key, []⟩, w1) := by
  have hf : ∀ {ls : List Listener} {c c' : Change} {w w' : World}, Passed D r ls c w c' w' →
      foldML (fun c l => D l.fn r c) c ls w = (.ok c', w') := by
    intro ls c c' w w' h
    induction h with
    | nil => rfl
    | cons hd _ ih => exact (bind_ok hd).trans ih
  have hprev : (lookupS name o.backend).getD .undef = storedOr w r name := by
    simp [storedOr, storedAt, ho]
  unfold setC
  rw [bind_ok (getObj_some ho)]
  rw [hprev]
  have hn : notifyC D r (fresh name (storedOr w r name) v0) w = (.ok c1, w1) := by
    rw [notifyC_eq (mode := .validate) (says_fresh _ _ _) ho]
    exact hf h1
  rw [bind_ok hn, bind_err (e := ⟨.key, []⟩) (w' := w1) (by unfold item; rw [hv]; rfl)]

end

/-! ## The listeners of the main model -/

section
variable {E : Env} {rec : Rec} {r : Nat} {name : PyStr}

theorem plain_fold (mode : Mode) (prev : Val) : ∀ (ls : List Listener) (c : Change) (v : Val) (w : World),
    Says c name prev mode.toStr → lookupS (s% "value") c = some v →
    match foldML (notifyOne E rec r mode name prev) v ls w with
    | (.ok v', w') => ∃ c', foldML (fun c (l : Listener) => plainD E rec l.fn r c) c ls w = (.ok c', w') ∧
        Says c' name prev mode.toStr ∧ lookupS (s% "value") c' = some v'
    | (.error e, w') => foldML (fun c (l : Listener) => plainD E rec l.fn r c) c ls w = (.error e, w')
  | [], c, v, w, hs, hv => ⟨c, rfl, hs, hv⟩
  | l :: ls, c, v, w, hs, hv => by
      have hD : ∀ u, plainD E rec l.fn r c u = (do
          let v' ← notifyOne E rec r mode name prev v l
          pure (setS (s% "value") v' c)) u := by
        intro u
        unfold plainD
        rw [bind_ok (item_some hs.2.2 u), bind_ok (item_some hs.1 u), bind_ok (item_some hs.2.1 u)]
        simp only [modeOf_toStr]
        unfold plain notifyOne
        rw [bind_ok (item_some hv u)]
        rfl
      show (match (notifyOne E rec r mode name prev v l >>=
          fun v => foldML (notifyOne E rec r mode name prev) v ls) w with
        | (.ok v', w') => ∃ c', (plainD E rec l.fn r c >>= fun c =>
            foldML (fun c (l : Listener) => plainD E rec l.fn r c) c ls) w = (.ok c', w') ∧
              Says c' name prev mode.toStr ∧ lookupS (s% "value") c' = some v'
        | (.error e, w') => (plainD E rec l.fn r c >>= fun c =>
            foldML (fun c (l : Listener) => plainD E rec l.fn r c) c ls) w = (.error e, w'))
      cases hx : notifyOne E rec r mode name prev v l w with
      | mk x w1 =>
        cases x with
        | error e =>
          have h1 : plainD E rec l.fn r c w = (.error e, w1) := by
            rw [hD, bind_err hx]
          rw [bind_err hx]
          exact bind_err h1
        | ok v1 =>
          have h1 : plainD E rec l.fn r c w = (.ok (setS (s% "value") v1 c), w1) := by
            rw [hD, bind_ok hx]; rfl
          rw [bind_ok hx, bind_ok h1]
          refine plain_fold mode prev ls _ v1 w1 ⟨?_, ?_, ?_⟩ (lookupS_setS _ _ _)
          · rw [lookupS_setS_ne (by decide)]; exact hs.1
          · rw [lookupS_setS_ne (by decide)]; exact hs.2.1
          · rw [lookupS_setS_ne (by decide)]; exact hs.2.2

theorem plain_notify {mode : Mode} {prev v : Val} {c : Change} {w : World}
    (hs : Says c name prev mode.toStr) (hv : lookupS (s% "value") c = some v) :
    match notify E rec r mode name prev v w with
    | (.ok v', w') => ∃ c', notifyC (plainD E rec) r c w = (.ok c', w') ∧
        Says c' name prev mode.toStr ∧ lookupS (s% "value") c' = some v'
    | (.error e, w') => notifyC (plainD E rec) r c w = (.error e, w') := by
  cases ho : w.objs[r]? with
  | some o =>
    rw [notifyC_eq hs ho]
    unfold notify
    rw [bind_ok (getObj_some ho), bind_ok (show M.get w = (.ok w, w) from rfl)]
    exact plain_fold mode prev _ c v w hs hv
  | none =>
    have hg : getObj r w = (.error ⟨.attr, []⟩, w) := by unfold getObj; rw [ho]
    unfold notify notifyC
    rw [bind_err hg, bind_ok (item_some hs.2.2 w), bind_ok (item_some hs.1 w), bind_err hg]

/-- C102: with listeners that only replace the value, `_set` does what the main
model says, in every state and whatever happens. -/
theorem C102_core (p : PropSpec) (v0 : Val) (w : World) :
    setC rec (plainD E rec) r name p v0 w = setBody E rec r name p v0 w := by
  unfold setC setBody
  cases ho : w.objs[r]? with
  | none =>
    have hg : getObj r w = (.error ⟨.attr, []⟩, w) := by unfold getObj; rw [ho]
    rw [bind_err hg, bind_err hg]
  | some o =>
    rw [bind_ok (getObj_some ho), bind_ok (getObj_some ho)]
    generalize (lookupS name o.backend).getD .undef = prev
    have a := plain_notify (E := E) (rec := rec) (r := r) (mode := .validate) (w := w)
      (says_fresh name prev v0) (v := v0) (by simp [fresh, lookupS])
    cases hx : notify E rec r .validate name prev v0 w with
    | mk x w1 =>
      rw [hx] at a
      cases x with
      | error e => rw [bind_err a, bind_err hx]
      | ok v1 =>
        obtain ⟨c1, a1, a2, a3⟩ := a
        rw [bind_ok a1, bind_ok hx, bind_ok (item_some a3 w1)]
        refine bind_congr' fun _ u1 => bind_congr' fun b u2 => ?_
        have key : ∀ (v2 : Val) (c2 : Change) (u : World), lookupS (s% "value") c2 = some v2 →
            (notifyC (plainD E rec) r (ChangeDict.update c2 name prev .set) >>= fun _ => pure ()) u =
            (notify E rec r .set name prev v2 >>= fun _ => pure ()) u := by
          intro v2 c2 u hv
          have g := plain_notify (E := E) (rec := rec) (r := r) (mode := .set) (w := u)
            (says_update c2 name prev .set) (v := v2)
            (by rw [rest_update c2 name prev .set _ (by decide) (by decide) (by decide)]; exact hv)
          cases hy : notify E rec r .set name prev v2 u with
          | mk y u' =>
            rw [hy] at g
            cases y with
            | error e => rw [bind_err g, bind_err hy]
            | ok v3 => obtain ⟨c3, g1, _⟩ := g; rw [bind_ok g1, bind_ok hy]
        cases b with
        | false => exact key v1 c1 u2 a3
        | true =>
          have g := plain_notify (E := E) (rec := rec) (r := r) (mode := .change) (w := u2)
            (says_update c1 name prev .change) (v := v1)
            (by rw [rest_update c1 name prev .change _ (by decide) (by decide) (by decide)]; exact a3)
          show (notifyC (plainD E rec) r (ChangeDict.update c1 name prev .change) >>= fun c2 =>
              notifyC (plainD E rec) r (ChangeDict.update c2 name prev .set) >>= fun _ => pure ()) u2 =
            (notify E rec r .change name prev v1 >>= fun v2 =>
              notify E rec r .set name prev v2 >>= fun _ => pure ()) u2
          cases hy : notify E rec r .change name prev v1 u2 with
          | mk y u' =>
            rw [hy] at g
            cases y with
            | error e => rw [bind_err g, bind_err hy]
            | ok v2 =>
              obtain ⟨c2, g1, _, g3⟩ := g
              rw [bind_ok g1, bind_ok hy]
              exact key v2 c2 u' g3

end

/-! ## Example -/

/-- A validator that rewrites every entry of the dictionary. -/
def c102Does : Does := fun f _ c => pure (match f with
  | 0 => [(s% "name", .str (s% "b")), (s% "value", .int 7), (s% "mode", .int 3), (s% "note", .int 1)]
  | _ => c)

def c102World : World := { objs := [{ cls := 0, listeners :=
  [⟨s% "a", .validate, 0⟩, ⟨s% "a", .set, 1⟩, ⟨s% "b", .set, 2⟩] }] }

/-- The value goes to the assigned property, not to the one the validator named. -/
theorem C102_example :
    (setC (run demoEnv 3) c102Does 0 (s% "a") (.mk true none none .undef .any) (.int 1)
      c102World).2.objs.map Obj.backend = [[(s% "a", .int 7)]] ∧
    (setC (run demoEnv 3) c102Does 0 (s% "a") (.mk true none none .undef .any) (.int 1)
      c102World).1.toOption = some () := by
  constructor <;> with_unfolding_all rfl

end Verif
