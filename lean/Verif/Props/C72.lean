import Verif.Lemmas.Live
import Verif.Lemmas.Notify
import Verif.Props.C09

/-!
# C72 Listeners are called in the order of registration, new ones at once

Properties about `properties.observer`/`properties.validator` on an instance
and about a notification while listeners are being registered.
-/

namespace Verif
open Spec

theorem registered_of {w : World} {r : Nat} {o : Obj} (ho : w.objs[r]? = some o) (name : PyStr) (mode : Mode) :
    registered w r name mode = (listenersFor o name mode).map (·.fn) := by
  unfold registered listenersFor
  rw [ho]
  show List.map _ (List.filter _ _) = _
  congr 2
  funext l
  by_cases h1 : l.name = name <;> by_cases h2 : l.mode = mode <;> simp [h1, h2]

theorem listenersFor_prefix {o o' : Obj} (h : o.listeners <+: o'.listeners) (name : PyStr) (mode : Mode) :
    listenersFor o name mode <+: listenersFor o' name mode := h.filter _

/-- What is registered stays registered: no call ever removes or reorders
listeners. -/
theorem C72_lasting (E : Env) (k n : Nat) (c : Call) (w : World) (r : Nat) (name : PyStr) (mode : Mode) :
    registered w r name mode <+: registered (runLive E k n c w).2 r name mode := by
  cases ho : w.objs[r]? with
  | none => unfold registered; rw [ho]; exact List.nil_prefix
  | some o =>
    obtain ⟨o', ho', hk⟩ := (runLive_restored E k n c w).old r o ho
    rw [registered_of ho, registered_of ho']
    exact (listenersFor_prefix hk.listeners name mode).map _

/-- If user functions register no listeners, going through the live list and
going through the list found at the start are the same, for every program. -/
theorem C72_same (E : Env) (hE : ∀ f args, NeverRegisters (E.fn f args)) (k n : Nat) (p : Prog) :
    runProgLive E k n p = runProg E n p := by
  unfold runProgLive runProg
  rw [runLive_same k hE n]

theorem liveLoop_relay {E : Env} {rec : Rec} {Q : Call → Val → World → Prop}
    (H : RecOk (fun _ => True) True (fun _ => True) True (fun _ => True) Restored Q rec)
    {r : Nat} {mode : Mode} {name : PyStr} {prev : Val} :
    ∀ (fuel i : Nat) (v v' : Val) (w w' : World) (o o' : Obj), w.objs[r]? = some o → w'.objs[r]? = some o' →
      liveLoop E rec r mode name prev fuel i v w = (.ok v', w') →
      Relay (changeCall E rec r mode name prev) (((listenersFor o' name mode).drop i).map (·.fn)) v w v' w'
  | 0, i, v, v', w, w', o, o', ho, ho', h => by cases h
  | fuel + 1, i, v, v', w, w', o, o', ho, ho', h => by
      unfold liveLoop at h
      rw [bind_ok (getObj_some ho)] at h
      cases hl : (listenersFor o name mode)[i]? with
      | none =>
        simp only [hl] at h
        cases h
        rw [ho] at ho'
        cases ho'
        rw [List.drop_eq_nil_of_le (List.getElem?_eq_none_iff.1 hl)]
        exact .done _ _
      | some l =>
        simp only [hl] at h
        obtain ⟨v1, w1, h1, h2⟩ := bind_ok_inv h
        have hR := restored_notifyOne (E := E) H r mode name prev v l w trivial
        rw [h1] at hR
        obtain ⟨o1, ho1, hk1⟩ := hR.old r o ho
        have hR2 := restored_liveLoop (E := E) H r mode name prev fuel (i + 1) v1 w1 trivial
        rw [h2] at hR2
        obtain ⟨o2, ho2, hk2⟩ := hR2.old r o1 ho1
        have e2 : w'.objs[r]? = some o2 := ho2
        rw [ho'] at e2
        cases e2
        have hp := listenersFor_prefix (hk1.listeners.trans hk2.listeners) name mode
        have hi : i < (listenersFor o name mode).length := (List.getElem?_eq_some_iff.1 hl).1
        have hl' : (listenersFor o' name mode)[i]? = some l := by
          obtain ⟨t, ht⟩ := hp
          rw [← ht, List.getElem?_append_left hi]
          exact hl
        obtain ⟨hi', hel⟩ := List.getElem?_eq_some_iff.1 hl'
        rw [List.drop_eq_getElem_cons hi', hel]
        exact .next h1 (liveLoop_relay H fuel (i + 1) v1 v' w1 w' o1 o' ho1 ho' h2)

theorem notifyLive_relay {E : Env} {k n : Nat} {r : Nat} {mode : Mode} {name : PyStr} {prev v v' : Val}
    {w w' : World} {o : Obj} (ho : w.objs[r]? = some o)
    (h : notifyLive E k (runLive E k n) r mode name prev v w = (.ok v', w')) :
    (w.quar.has mode = true ∧ v' = v ∧ w' = w) ∨
    (w.quar.has mode = false ∧
      Relay (changeCall E (runLive E k n) r mode name prev) (registered w' r name mode) v w v' w') := by
  have hR := restored_notifyLive (k := k) (E := E) (runLive_ok E k n) r mode name prev v w trivial
  rw [h] at hR
  obtain ⟨o', ho', -⟩ := hR.old r o ho
  have ho'' : w'.objs[r]? = some o' := ho'
  unfold notifyLive at h
  rw [bind_ok (getObj_some ho), bind_ok (get_apply w)] at h
  cases hq : w.quar.has mode with
  | true =>
    simp only [hq, if_true] at h
    cases h
    exact .inl ⟨rfl, rfl, rfl⟩
  | false =>
    simp only [hq, Bool.false_eq_true, if_false] at h
    refine .inr ⟨rfl, ?_⟩
    rw [registered_of ho'']
    exact liveLoop_relay (runLive_ok E k n) _ 0 v v' w w' o o' ho ho'' h

/-- A notification that ends has called, exactly once and in the order of
registration, every listener registered for that name and mode when it ends:
those there at the start, then those registered meanwhile.  Each was given the
value the one before it left.  A disabled mode calls none. -/
theorem C72_every_listener (E : Env) (k n r : Nat) (mode : Mode) (name : PyStr) (prev v v' : Val)
    (w w' : World) (o : Obj) (ho : w.objs[r]? = some o)
    (h : notifyLive E k (runLive E k n) r mode name prev v w = (.ok v', w')) :
    (w.quar.has mode = true → v' = v ∧ w' = w) ∧
    (w.quar.has mode = false →
      Relay (changeCall E (runLive E k n) r mode name prev) (registered w' r name mode) v w v' w' ∧
      registered w r name mode <+: registered w' r name mode) := by
  have hR := restored_notifyLive (k := k) (E := E) (runLive_ok E k n) r mode name prev v w trivial
  rw [h] at hR
  obtain ⟨o', ho', hk⟩ := hR.old r o ho
  have ho'' : w'.objs[r]? = some o' := ho'
  rcases notifyLive_relay ho h with ⟨hq, h1, h2⟩ | ⟨hq, h1⟩
  · exact ⟨fun _ => ⟨h1, h2⟩, fun hq' => by rw [hq] at hq'; cases hq'⟩
  · refine ⟨fun hq' => by (rw [hq] at hq'; cases hq'), fun _ => ⟨h1, ?_⟩⟩
    rw [registered_of ho, registered_of ho'']
    exact (listenersFor_prefix hk.listeners name mode).map _

theorem setBodyLive_protocol {E : Env} {k n r : Nat} {name : PyStr} {p : PropSpec} {v0 : Val} {wa w' : World}
    {oa : Obj} (ho : wa.objs[r]? = some oa) (hq : wa.quar = {})
    (h : setBodyLive E k (runLive E k n) r name p v0 wa = (.ok (), w')) :
    ∃ v1, LiveProtocol E (runLive E k n) r name p v0 v1 wa w' := by
  have hprev : (lookupS name oa.backend).getD .undef = storedOr wa r name := by
    unfold storedOr storedAt; rw [ho]; rfl
  have step : ∀ {mode : Mode} {prev v v' : Val} {u u' : World} {o : Obj}, u.objs[r]? = some o → u.quar = {} →
      notifyLive E k (runLive E k n) r mode name prev v u = (.ok v', u') →
      Relay (changeCall E (runLive E k n) r mode name prev) (registered u' r name mode) v u v' u' ∧
        (∃ o', u'.objs[r]? = some o') ∧ u'.quar = {} := by
    intro mode prev v v' u u' o hu hqu hn
    have hR := restored_notifyLive (k := k) (E := E) (runLive_ok E k n) r mode name prev v u trivial
    rw [hn] at hR
    obtain ⟨o', ho', -⟩ := hR.old r o hu
    rcases notifyLive_relay hu hn with ⟨hb, -, -⟩ | ⟨-, h1⟩
    · rw [hqu] at hb; cases mode <;> cases hb
    · exact ⟨h1, ⟨o', ho'⟩, hR.quar.trans hqu⟩
  unfold setBodyLive at h
  rw [bind_ok (getObj_some ho)] at h
  rw [hprev] at h
  generalize hpv : storedOr wa r name = prev at h
  obtain ⟨v1, wb, h1, h⟩ := bind_ok_inv h
  obtain ⟨l1, ⟨ob, hob⟩, qb⟩ := step ho hq h1
  obtain ⟨u, ws, h2, h⟩ := bind_ok_inv h
  have hrb : r < wb.objs.length := (List.getElem?_eq_some_iff.1 hob).1
  have hws : wb.setObj r (fun o => { o with
    backend := if v1.isUndef then eraseS name o.backend else setS name v1 o.backend }) = ws := by
    cases h2; rfl
  have has : AsWith wb r name v1 ws := by
    rw [← hws]
    exact (asWith_self wb r name).write hrb v1
  have hho : Holds ws r name v1 := by rw [← hws]; exact holds_write name hrb v1
  have htr : ws.trace = wb.trace := by rw [← hws]; rfl
  obtain ⟨os, hos, -⟩ := has.2.2 r ob hob
  have qs : ws.quar = {} := by rw [← hws]; exact qb
  refine ⟨v1, ?_⟩
  unfold LiveProtocol
  rw [hpv]
  obtain ⟨changed, wc, h3, h⟩ := bind_ok_inv h
  obtain ⟨v2, wd, h4, h⟩ := bind_ok_inv h
  obtain ⟨v3, we, h5, h6⟩ := bind_ok_inv h
  cases h6
  -- the comparison
  have hcmp : (∃ oc, wc.objs[r]? = some oc) ∧ wc.quar = {} ∧
      (changed = true → ((prev = .undef ∧ v1 ≠ .undef ∨ prev ≠ .undef ∧ v1 = .undef) ∧ wc = ws ∨
        prev ≠ .undef ∧ v1 ≠ .undef ∧
          ∃ e, runLive E k n (.propEqual p prev v1) ws = (.ok e, wc) ∧ e.truthy = false)) ∧
      (changed = false → (prev = .undef ∧ v1 = .undef ∧ wc = ws ∨
        prev ≠ .undef ∧ v1 ≠ .undef ∧
          ∃ e, runLive E k n (.propEqual p prev v1) ws = (.ok e, wc) ∧ e.truthy = true)) := by
    cases hu1 : prev.isUndef <;> cases hu2 : v1.isUndef <;>
      simp only [hu1, hu2, Bool.and_self, Bool.or_self, Bool.and_false, Bool.or_true,
        Bool.or_false, Bool.and_true, Bool.false_eq_true, if_false, if_true] at h3
    · obtain ⟨e, w1, h7, h8⟩ := bind_ok_inv h3
      cases h8
      have hR := runLive_restored E k n (.propEqual p prev v1) ws
      rw [h7] at hR
      obtain ⟨o1, ho1, -⟩ := hR.old r os hos
      refine ⟨⟨o1, ho1⟩, hR.quar.trans qs, fun hc => .inr ⟨isUndef_false.1 hu1, isUndef_false.1 hu2, e, h7, by simpa using hc⟩,
        fun hc => .inr ⟨isUndef_false.1 hu1, isUndef_false.1 hu2, e, h7, by simpa using hc⟩⟩
    · cases h3
      exact ⟨⟨os, hos⟩, qs, fun _ => .inl ⟨.inr ⟨isUndef_false.1 hu1, isUndef_iff.1 hu2⟩, rfl⟩, fun hc => by cases hc⟩
    · cases h3
      exact ⟨⟨os, hos⟩, qs, fun _ => .inl ⟨.inl ⟨isUndef_iff.1 hu1, isUndef_false.1 hu2⟩, rfl⟩, fun hc => by cases hc⟩
    · cases h3
      exact ⟨⟨os, hos⟩, qs, fun hc => (by cases hc), fun _ => .inl ⟨isUndef_iff.1 hu1, isUndef_iff.1 hu2, rfl⟩⟩
  obtain ⟨⟨oc, hoc⟩, qc, hyes, hno⟩ := hcmp
  cases changed with
  | true =>
    simp only [if_true] at h4
    obtain ⟨l2, ⟨od, hod⟩, qd⟩ := step hoc qc h4
    exact ⟨v2, v3, wb, ws, wc, wd, l1, has, hho, htr, .inl ⟨hyes rfl, l2⟩, (step hod qd h5).1⟩
  | false =>
    simp only [Bool.false_eq_true, if_false] at h4
    cases h4
    exact ⟨v1, v3, wb, ws, wc, wc, l1, has, hho, htr, .inr ⟨hno rfl, rfl⟩, (step hoc qc h5).1⟩

/-- A successful assignment to a mutable property, for arbitrary listeners:
the value is coerced, then the listener protocol runs; in each mode all
listeners registered by the end of it have been called, once each, in order. -/
theorem C72_assignment (E : Env) (k n r : Nat) (name : PyStr) (p : PropSpec) (v : Val) (w w' : World) (o : Obj)
    (ho : w.objs[r]? = some o) (hp : lookupS name (E.classes o.cls).props = some (.mutable p))
    (hv : v ≠ .undef) (hq : w.quar = {})
    (h : runLive E k (n + 1) (.setattr r name v) w = (.ok .none, w')) :
    ∃ v0 v1 wa, runLive E k n (.validate name p (some r) v) w = (.ok v0, wa) ∧
      LiveProtocol E (runLive E k n) r name p v0 v1 wa w' := by
  have he : entryOf E r name w = (.ok (lookupS name (E.classes o.cls).props), w) := bind_ok (getObj_some ho)
  change setattrBodyLive E k (runLive E k n) r name v w = _ at h
  unfold setattrBodyLive at h
  rw [bind_ok he, hp] at h
  dsimp only at h
  unfold assignBodyLive at h
  simp only [isUndef_false.2 hv, Bool.false_eq_true, if_false] at h
  obtain ⟨v0, wa, h1, h⟩ := bind_ok_inv h
  obtain ⟨u, w1, h, h9⟩ := bind_ok_inv h
  cases h9
  have Ra := runLive_restored E k n (.validate name p (some r) v) w
  rw [h1] at Ra
  obtain ⟨oa, hoa, -⟩ := Ra.old r o ho
  obtain ⟨v1, hl⟩ := setBodyLive_protocol hoa (Ra.quar.trans hq) h
  exact ⟨v0, v1, wa, h1, hl⟩

/-- The same for a deletion, or the assignment of `undefined`: no coercion, the
validators are given `undefined`. -/
theorem C72_deletion (E : Env) (k n r : Nat) (name : PyStr) (p : PropSpec) (w w' : World) (o : Obj)
    (ho : w.objs[r]? = some o) (hp : lookupS name (E.classes o.cls).props = some (.mutable p))
    (hq : w.quar = {})
    (h : runLive E k (n + 1) (.delattr r name) w = (.ok .none, w') ∨
      runLive E k (n + 1) (.setattr r name .undef) w = (.ok .none, w')) :
    ∃ v1, LiveProtocol E (runLive E k n) r name p .undef v1 w w' := by
  have he : entryOf E r name w = (.ok (lookupS name (E.classes o.cls).props), w) := bind_ok (getObj_some ho)
  have hb : setBodyLive E k (runLive E k n) r name p .undef w = (.ok (), w') := by
    rcases h with h | h
    · change delattrBodyLive E k (runLive E k n) r name w = _ at h
      unfold delattrBodyLive at h
      rw [bind_ok he, hp] at h
      obtain ⟨u, w1, h, h9⟩ := bind_ok_inv h
      cases h9
      exact h
    · change setattrBodyLive E k (runLive E k n) r name .undef w = _ at h
      unfold setattrBodyLive at h
      rw [bind_ok he, hp] at h
      obtain ⟨v0, wa, h1, h⟩ := bind_ok_inv h
      cases h1
      obtain ⟨u, w1, h, h9⟩ := bind_ok_inv h
      cases h9
      exact h
  exact setBodyLive_protocol ho hq hb

/-- A listener that registers itself again for the name and mode it listens to
is called without end: no bound on the number of registrations suffices. -/
theorem C72_endless (E : Env) (k n r : Nat) (mode : Mode) (name : PyStr) (prev v : Val) (w : World) (f : FnId)
    (m : Nat) (ret : Val)
    (hf : ∀ args, E.fn f args = .call (.observe r (.names [name]) mode f) (fun _ => .ret ret))
    (hq : w.quar.has mode = false) (hreg : registered w r name mode = List.replicate (m + 1) f) :
    (notifyLive E k (runLive E k (n + 1)) r mode name prev v w).1 = .error { kind := .recursion } := by
  have hex : ∃ o, w.objs[r]? = some o := by
    cases ho : w.objs[r]? with
    | none => unfold registered at hreg; rw [ho] at hreg; cases hreg
    | some o => exact ⟨o, rfl⟩
  have hloop : ∀ (fuel i : Nat) (v : Val) (w : World) (o : Obj), w.objs[r]? = some o →
      i < (listenersFor o name mode).length → (∀ l ∈ listenersFor o name mode, l.fn = f) →
      (liveLoop E (runLive E k (n + 1)) r mode name prev fuel i v w).1 = .error { kind := .recursion } := by
    intro fuel
    induction fuel with
    | zero => intros; rfl
    | succ fuel ih =>
      intro i v w o ho hi hall
      unfold liveLoop
      rw [bind_ok (getObj_some ho), List.getElem?_eq_getElem hi]
      have hfl := hall _ (List.getElem_mem hi)
      generalize (listenersFor o name mode)[i] = l at hfl
      have hcall : notifyOne E (runLive E k (n + 1)) r mode name prev v l w = (.ok ret,
          (announce w r mode name prev v f).setObj r (fun o =>
            { o with listeners := o.listeners ++ [⟨name, mode, f⟩] })) := by
        unfold notifyOne
        rw [bind_ok (modify_apply _ w)]
        unfold callFn
        rw [hfl, hf]
        unfold execProg
        have : runLive E k (n + 1) (.observe r (.names [name]) mode f)
            (announce w r mode name prev v f) = (.ok .none,
            (announce w r mode name prev v f).setObj r (fun o =>
              { o with listeners := o.listeners ++ [⟨name, mode, f⟩] })) := by
          change observeBody E r (.names [name]) mode f _ = _
          unfold observeBody
          have ho' : (announce w r mode name prev v f).objs[r]? = some o := ho
          rw [bind_ok (getObj_some ho'), bind_ok (modObj_apply _ _ _)]
          rfl
        change execProg _ _ (runLive E k (n + 1) (.observe r (.names [name]) mode f)
          (announce w r mode name prev v f)).2 = _
        rw [this]
        rfl
      dsimp only
      rw [bind_ok hcall]
      refine ih (i + 1) ret _ { o with listeners := o.listeners ++ [⟨name, mode, f⟩] } ?_ ?_ ?_
      · have ho' : (announce w r mode name prev v f).objs[r]? = some o := ho
        simp [World.setObj, ho']
      · unfold listenersFor at hi ⊢
        rw [List.filter_append]
        simp
        omega
      · intro l hl
        unfold listenersFor at hl hall
        rw [List.filter_append, List.mem_append] at hl
        rcases hl with hl | hl
        · exact hall l hl
        · simp at hl
          rw [hl]
  obtain ⟨o, ho⟩ := hex
  rw [registered_of ho] at hreg
  unfold notifyLive
  rw [bind_ok (getObj_some ho), bind_ok (get_apply w)]
  simp only [hq, Bool.false_eq_true, if_false]
  refine hloop _ 0 v w o ho ?_ ?_
  · have := congrArg List.length hreg
    simp at this
    omega
  · intro l hl
    have : l.fn ∈ (listenersFor o name mode).map (·.fn) := List.mem_map_of_mem hl
    rw [hreg] at this
    exact List.eq_of_mem_replicate this

/-! ## Registration -/

/-- `names` as given by the user: `everything`, one name, or a tuple, list or
set of names. -/
inductive Gives : NamesArg → ObsNames → Prop where
  | everything : Gives .everything .everything
  | one (s : PyStr) : Gives (.val (.str s)) (.names [s])
  | tuple (ns : List PyStr) : Gives (.val (.tup (ns.map .str))) (.names ns)
  | list (ns : List PyStr) : Gives (.val (.list (ns.map .str))) (.names ns)
  | set (ns : List PyStr) : Gives (.val (.set (ns.map .str))) (.names ns)

theorem mapM_names (ns : List PyStr) :
    (ns.map Val.str).mapM nameText = some ns := by
  induction ns with
  | nil => rfl
  | cons s ns ih =>
    rw [List.map_cons, List.mapM_cons, ih]
    rfl

theorem mapM_names_inv : ∀ (xs : List Val) (ns : List PyStr),
    xs.mapM nameText = some ns → xs = ns.map Val.str
  | [], ns, h => by cases h; rfl
  | x :: xs, ns, h => by
      rw [List.mapM_cons] at h
      cases x with
      | str s =>
        cases hr : xs.mapM nameText with
        | none => simp [hr] at h
        | some rest =>
          simp [hr, nameText] at h
          subst h
          rw [mapM_names_inv xs rest hr]
          rfl
      | _ => cases h

theorem observedNames_gives {names : NamesArg} {ns : ObsNames} : observedNames names = .ok ns ↔ Gives names ns := by
  constructor
  · intro h
    cases names with
    | everything => cases h; exact .everything
    | val v =>
      unfold observedNames at h
      dsimp only at h
      cases hm : (namesList v).mapM nameText with
      | none => simp only [hm] at h; cases h
      | some ss =>
        simp only [hm] at h
        cases h
        have := mapM_names_inv _ _ hm
        cases v <;> simp only [namesList] at this
        all_goals first
          | (subst this; first | exact .tuple _ | exact .list _ | exact .set _)
          | (cases ss with
             | nil => cases this
             | cons s ss =>
               cases ss with
               | nil => first | (cases this; exact .one _) | cases this
               | cons => cases this)
  · intro h
    cases h with
    | everything => rfl
    | one s => rfl
    | tuple ns => simp only [observedNames, namesList, mapM_names]
    | list ns => simp only [observedNames, namesList, mapM_names]
    | set ns => simp only [observedNames, namesList, mapM_names]

theorem observe_registers (E : Env) (r : Nat) (ns : ObsNames) (mode : Mode) (fn : FnId) (w : World) (o : Obj)
    (ho : w.objs[r]? = some o) : ∃ w', observeBody E r ns mode fn w = (.ok .none, w') ∧
      (∀ q m, registered w' r q m = registered w r q m ++
        List.replicate (if m = mode then timesNamed ((E.classes o.cls).props.map (·.1)) ns q else 0) fn) ∧
      (∀ i, i ≠ r → w'.objs[i]? = w.objs[i]?) ∧
      (∀ nm, storedAt w' r nm = storedAt w r nm) ∧
      w'.trace = w.trace ∧ w'.quar = w.quar ∧ w'.hooks = w.hooks := by
  unfold observeBody
  rw [bind_ok (getObj_some ho)]
  refine ⟨_, bind_ok (modObj_apply _ _ _), fun q m => ?_, fun i hi => ?_, fun nm => ?_, rfl, rfl, rfl⟩
  · have ho' : (w.setObj r (fun o' => { o' with listeners := o'.listeners ++
        (observerNames (E.classes o.cls) ns).map (fun n => (⟨n, mode, fn⟩ : Listener)) })).objs[r]? =
        some { o with listeners := o.listeners ++
          (observerNames (E.classes o.cls) ns).map (fun n => (⟨n, mode, fn⟩ : Listener)) } := by
      simp [World.setObj, ho]
    rw [registered_of ho', registered_of ho]
    unfold listenersFor
    rw [List.filter_append, List.map_append]
    congr 1
    have hc : ∀ xs : List PyStr, (List.filter (fun l : Listener => l.name == q && l.mode == m)
        (xs.map (fun n => (⟨n, mode, fn⟩ : Listener)))).map (·.fn) =
        List.replicate (if m = mode then xs.count q else 0) fn := by
      intro xs
      induction xs with
      | nil => simp
      | cons x xs ih =>
        rw [List.map_cons, List.filter_cons]
        by_cases hm : m = mode
        · subst hm
          by_cases hx : x = q
          · subst hx
            simp at ih ⊢
            rw [ih]
            rfl
          · have : (x == q) = false := by simpa using hx
            simp [this, hx] at ih ⊢
            rw [ih]
        · have : (mode == m) = false := by simpa using fun h => hm h.symm
          simp [this, hm] at ih ⊢
          exact ih
    rw [hc]
    cases ns <;> rfl
  · simp [World.setObj, Ne.symm hi]
  · unfold storedAt
    simp [World.setObj, ho]

/-- `properties.observer(instance, names, func)` with names that are text adds
the function behind those already registered, once for each time the property
is named (`everything` names every property of the class once), in the mode
asked for, and does nothing else. -/
theorem C72_observer (E : Env) (r : Nat) (names : NamesArg) (ns : ObsNames) (fn : FnId) (changeOnly : Bool)
    (w : World) (o : Obj) (ho : w.objs[r]? = some o) (hn : Gives names ns) :
    ∃ w', observerFn E r names fn changeOnly w = (.ok .none, w') ∧
      (∀ q m, registered w' r q m = registered w r q m ++
        List.replicate (if m = (if changeOnly then .change else .set) then
          timesNamed ((E.classes o.cls).props.map (·.1)) ns q else 0) fn) ∧
      (∀ i, i ≠ r → w'.objs[i]? = w.objs[i]?) ∧ (∀ nm, storedAt w' r nm = storedAt w r nm) ∧
      w'.trace = w.trace ∧ w'.quar = w.quar ∧ w'.hooks = w.hooks := by
  unfold observerFn
  rw [observedNames_gives.2 hn]
  exact observe_registers E r ns _ fn w o ho

/-- The same for `properties.validator(instance, names, func)`. -/
theorem C72_validator (E : Env) (r : Nat) (names : NamesArg) (ns : ObsNames) (fn : FnId)
    (w : World) (o : Obj) (ho : w.objs[r]? = some o) (hn : Gives names ns) :
    ∃ w', validatorFn E r names fn w = (.ok .none, w') ∧
      (∀ q m, registered w' r q m = registered w r q m ++
        List.replicate (if m = .validate then timesNamed ((E.classes o.cls).props.map (·.1)) ns q else 0) fn) ∧
      (∀ i, i ≠ r → w'.objs[i]? = w.objs[i]?) ∧ (∀ nm, storedAt w' r nm = storedAt w r nm) ∧
      w'.trace = w.trace ∧ w'.quar = w.quar ∧ w'.hooks = w.hooks := by
  unfold validatorFn
  rw [observedNames_gives.2 hn]
  exact observe_registers E r ns _ fn w o ho

/-- Names that are not text are refused with TypeError; nothing changes. -/
theorem C72_refused (E : Env) (r : Nat) (names : NamesArg) (fn : FnId) (changeOnly : Bool) (w : World)
    (hn : ¬ ∃ ns, Gives names ns) :
    observerFn E r names fn changeOnly w = (.error { kind := .type }, w) ∧
    validatorFn E r names fn w = (.error { kind := .type }, w) := by
  have : observedNames names = .error .type := by
    cases names with
    | everything => exact absurd ⟨_, .everything⟩ hn
    | val v =>
      cases hm : (namesList v).mapM nameText with
      | none => simp only [observedNames, hm]
      | some ss =>
        exact absurd ⟨.names ss, observedNames_gives.1 (by simp only [observedNames, hm])⟩ hn
  unfold observerFn validatorFn
  rw [this]
  exact ⟨rfl, rfl⟩

/-! Non-vacuity: function 5 registers function 2 for the change it hears of,
function 6 registers itself. -/

def liveFn (f : FnId) (args : List Val) : Prog :=
  if f = 5 then .call (.observe 0 (.names [s% "p"]) .set 2) (fun _ => .ret (args.getD 3 .none))
  else if f = 6 then .call (.observe 0 (.names [s% "p"]) .set 6) (fun _ => .ret .none)
  else .ret (args.getD 3 .none)

def liveEnv : Env := { assignEnv with fn := liveFn }

def liveWorld (fns : List FnId) : World := { objs := [{
  cls := 0
  backend := [(s% "p", .str (s% "old"))]
  listeners := fns.map (fun f => ⟨s% "p", .set, f⟩) }] }

/-- Listeners 5 and 1 are registered; 5 registers 2, which is called last, in
the same notification.  The model with the list found at the start calls it
only for the next change. -/
theorem C72_example :
    (runLive liveEnv 4 3 (.setattr 0 (s% "p") (.str (s% "x"))) (liveWorld [5, 1])).1 = .ok .none ∧
    (runLive liveEnv 4 3 (.setattr 0 (s% "p") (.str (s% "x"))) (liveWorld [5, 1])).2.trace =
      [⟨0, .set, s% "p", .str (s% "old"), .str (s% "x"), 5⟩,
       ⟨0, .set, s% "p", .str (s% "old"), .str (s% "x"), 1⟩,
       ⟨0, .set, s% "p", .str (s% "old"), .str (s% "x"), 2⟩] ∧
    registered (runLive liveEnv 4 3 (.setattr 0 (s% "p") (.str (s% "x"))) (liveWorld [5, 1])).2 0 (s% "p") .set =
      [5, 1, 2] ∧
    (run liveEnv 3 (.setattr 0 (s% "p") (.str (s% "x"))) (liveWorld [5, 1])).2.trace.map (·.fn) = [5, 1] := by
  refine ⟨?_, ?_, ?_, ?_⟩ <;> with_unfolding_all rfl

/-- A listener that registers itself again. -/
theorem C72_endless_example (k n : Nat) (prev v : Val) :
    (notifyLive liveEnv k (runLive liveEnv k (n + 1)) 0 .set (s% "p") prev v (liveWorld [6])).1 =
      .error { kind := .recursion } :=
  C72_endless liveEnv k n 0 .set (s% "p") prev v (liveWorld [6]) 6 0 .none (fun _ => rfl) rfl rfl

example : ∀ f args, NeverRegisters (assignEnv.fn f args) := by
  intro f args
  show NeverRegisters (assignFn f args)
  unfold assignFn
  split
  · exact trivial
  · split <;> exact trivial

/-- A name given twice is registered twice; `everything` once for each
property; a number is no name. -/
theorem C72_names_example :
    registered (observerFn liveEnv 0 (.val (.list [.str (s% "p"), .str (s% "q"), .str (s% "p")])) 7 true
      (liveWorld [1])).2 0 (s% "p") .change = [7, 7] ∧
    registered (observerFn liveEnv 0 .everything 7 false (liveWorld [1])).2 0 (s% "p") .set = [1, 7] ∧
    (validatorFn liveEnv 0 (.val (.list [.str (s% "p"), .int 3])) 7 (liveWorld [1])).1 =
      .error { kind := .type } ∧
    Gives (.val (.list [.str (s% "p"), .str (s% "q"), .str (s% "p")])) (.names [s% "p", s% "q", s% "p"]) :=
  ⟨rfl, rfl, rfl, .list [s% "p", s% "q", s% "p"]⟩

end Verif
