import Verif.Lemmas.Notify
import Verif.Models.Demo

/-!
# C09, C10, C11, C12: one assignment

User code is arbitrary except that it makes no modifying call; for the exact
list of validator calls it moreover runs no validations itself.
-/

namespace Verif
open Spec

theorem dataUnchanged_of_frame {w w' : World} {vb : Bool} (h : Frame w.objs.length vb w w') :
    DataUnchanged w w' := fun r o ho => h.old r o (List.getElem?_eq_some_iff.1 ho).1 ho

theorem observerCallsOn_eq (w : World) (t : List Event) :
    observerCallsOn w t = watched w.objs.length true t := by
  unfold observerCallsOn watched; congr

theorem eventsOn_eq (w : World) (t : List Event) :
    eventsOn w t = watched w.objs.length false t := by
  unfold eventsOn watched; congr; funext e; simp

theorem entryOf_some {E : Env} {r : Nat} {name : PyStr} {w : World} {o : Obj}
    (ho : w.objs[r]? = some o) :
    entryOf E r name w = (.ok (lookupS name (E.classes o.cls).props), w) := by
  unfold entryOf; rw [bind_ok (getObj_some ho)]; rfl

theorem setattr_mutable {E : Env} {rec : Rec} {r : Nat} {name : PyStr} {w : World} {o : Obj}
    {p : PropSpec} (ho : w.objs[r]? = some o)
    (hp : lookupS name (E.classes o.cls).props = some (.mutable p)) (v : Val) :
    setattrBody E rec r name v w = assignBody E rec r name p v w := by
  unfold setattrBody; rw [bind_ok (entryOf_some ho), hp]

theorem delattr_mutable {E : Env} {rec : Rec} {r : Nat} {name : PyStr} {w : World} {o : Obj}
    {p : PropSpec} (ho : w.objs[r]? = some o)
    (hp : lookupS name (E.classes o.cls).props = some (.mutable p)) :
    delattrBody E rec r name w = (setBody E rec r name p .undef >>= fun _ => pure .none) w := by
  unfold delattrBody; rw [bind_ok (entryOf_some ho), hp]

theorem assign_defined {E : Env} {rec : Rec} {r : Nat} {name : PyStr} {p : PropSpec} {v : Val}
    (hv : v ≠ .undef) (w : World) : assignBody E rec r name p v w =
      (rec (.validate name p (some r) v) >>= fun v' =>
        setBody E rec r name p v' >>= fun _ => pure .none) w := by
  unfold assignBody
  rw [isUndef_false.2 hv]; rfl

theorem assign_undef {E : Env} {rec : Rec} {r : Nat} {name : PyStr} {p : PropSpec} (w : World) :
    assignBody E rec r name p .undef w =
      (setBody E rec r name p .undef >>= fun _ => pure .none) w := rfl

section
variable {E : Env} {n : Nat} {w : World} {r : Nat} {o : Obj} {name : PyStr} {p : PropSpec}

/-- C09: a value the property rejects.  The assignment raises the error of
`validate`, no instance is changed and no observer called. -/
theorem C09_invalid_value (hE : ∀ f args, ReadOnly (E.fn f args)) (ho : w.objs[r]? = some o)
    (hp : lookupS name (E.classes o.cls).props = some (.mutable p)) {v : Val} (hv : v ≠ .undef)
    {e : PyErr} {w1 : World} (h : run E n (.validate name p (some r) v) w = (.error e, w1)) :
    run E (n + 1) (.setattr r name v) w = (.error e, w1) ∧ DataUnchanged w w1 ∧
      observerCallsOn w w1.trace = observerCallsOn w w.trace := by
  have hf := run_frame_readOnly hE n (.validate name p (some r) v) rfl w
  rw [h] at hf
  refine ⟨?_, dataUnchanged_of_frame hf, ?_⟩
  · show setattrBody E (run E n) r name v w = _
    rw [setattr_mutable ho hp, assign_defined hv, bind_err h]
  · rw [observerCallsOn_eq, observerCallsOn_eq]; exact hf.events

/-- C09 for dynamic properties: the setter function is not called either. -/
theorem C09_invalid_value_dynamic (hE : ∀ f args, ReadOnly (E.fn f args))
    (ho : w.objs[r]? = some o) {g s : FnId} {d : Option FnId}
    (hp : lookupS name (E.classes o.cls).props = some (.dynamic p g (some s) d)) {v : Val}
    {e : PyErr} {w1 : World} (h : run E n (.validate name p (some r) v) w = (.error e, w1)) :
    run E (n + 1) (.setattr r name v) w = (.error e, w1) ∧ DataUnchanged w w1 ∧
      observerCallsOn w w1.trace = observerCallsOn w w.trace := by
  have hf := run_frame_readOnly hE n (.validate name p (some r) v) rfl w
  rw [h] at hf
  refine ⟨?_, dataUnchanged_of_frame hf, ?_⟩
  · show setattrBody E (run E n) r name v w = _
    unfold setattrBody
    rw [bind_ok (entryOf_some ho), hp]
    exact bind_err h
  · rw [observerCallsOn_eq, observerCallsOn_eq]; exact hf.events

/-- C09: every way an assignment can fail.  Either the property rejected the
value, or one of the validators raised; in both cases no instance is changed
and no observer called.  Or all validators had returned and the value was
stored: then it is the comparison or an observer that raised. -/
theorem C09_failed_assignment (hE : ∀ f args, ReadOnly (E.fn f args)) (ho : w.objs[r]? = some o)
    (hp : lookupS name (E.classes o.cls).props = some (.mutable p)) {v : Val} {e : PyErr}
    {w' : World} (h : run E (n + 1) (.setattr r name v) w = (.error e, w')) :
    ((v ≠ .undef ∧ run E n (.validate name p (some r) v) w = (.error e, w')) ∧
      DataUnchanged w w' ∧ observerCallsOn w w'.trace = observerCallsOn w w.trace) ∨
    (∃ v0 w1, (v = .undef ∧ v0 = .undef ∧ w1 = w ∨
        v ≠ .undef ∧ run E n (.validate name p (some r) v) w = (.ok v0, w1)) ∧
      ((∃ ev1, NotifyRaised r .validate name (storedOr w r name)
          (Returned E n w r name (storedOr w r name) .validate (storedOr w r name))
          (Raised E n w r name (storedOr w r name) .validate (storedOr w r name))
          (enabled w o .validate name) v0 ev1 e) ∧
        DataUnchanged w w' ∧ observerCallsOn w w'.trace = observerCallsOn w w.trace ∨
      ∃ v1 ev1, Notified r .validate name (storedOr w r name)
          (Returned E n w r name (storedOr w r name) .validate (storedOr w r name))
          (enabled w o .validate name) v0 ev1 v1 ∧ AsWith w r name v1 w')) := by
  have S := frame_stable E w.objs.length true fun f a => uses_of_readOnly _ (hE f a)
  have H := S.run_ok n
  have h' : assignBody E (run E n) r name p v w = (.error e, w') := by
    rw [← setattr_mutable ho hp]; exact h
  have key : ∀ v0 w1, Frame w.objs.length true w w1 →
      (setBody E (run E n) r name p v0 >>= fun _ => pure Val.none) w1 = (.error e, w') →
      ((∃ ev1, NotifyRaised r .validate name (storedOr w r name)
          (Returned E n w r name (storedOr w r name) .validate (storedOr w r name))
          (Raised E n w r name (storedOr w r name) .validate (storedOr w r name))
          (enabled w o .validate name) v0 ev1 e) ∧
        DataUnchanged w w' ∧ observerCallsOn w w'.trace = observerCallsOn w w.trace ∨
      ∃ v1 ev1, Notified r .validate name (storedOr w r name)
          (Returned E n w r name (storedOr w r name) .validate (storedOr w r name))
          (enabled w o .validate name) v0 ev1 v1 ∧ AsWith w r name v1 w') := by
    intro v0 w1 hf hb
    rcases bind_err_inv hb with hb | ⟨_, _, _, hb⟩
    · rcases setBody_err S H rfl rfl ho name p v0 hf.kept hb with ⟨hf', h1⟩ | h1
      · have hf2 := S.trans hf hf'
        refine .inl ⟨h1, dataUnchanged_of_frame hf2, ?_⟩
        rw [observerCallsOn_eq, observerCallsOn_eq]; exact hf2.events
      · exact .inr h1
    · cases hb
  by_cases hv : v = .undef
  · subst hv
    rw [assign_undef] at h'
    exact .inr ⟨.undef, w, .inl ⟨rfl, rfl, rfl⟩, key _ _ (S.refl w (Nat.le_refl _)) h'⟩
  · rw [assign_defined hv] at h'
    have hf := run_frame_readOnly hE n (.validate name p (some r) v) rfl w
    rcases bind_err_inv h' with h' | ⟨v0, w1, h1, h'⟩
    · rw [h'] at hf
      refine .inl ⟨⟨hv, h'⟩, dataUnchanged_of_frame hf, ?_⟩
      rw [observerCallsOn_eq, observerCallsOn_eq]; exact hf.events
    · rw [h1] at hf
      exact .inr ⟨v0, w1, .inr ⟨hv, h1⟩, key _ _ hf h'⟩

theorem assign_ok {vb : Bool}
    (S : Stable E (w.objs.length ≤ ·) (vb = true) (fun _ => True) True (w.objs.length ≤ ·)
      (fun u => w.objs.length ≤ u.objs.length) (Frame w.objs.length vb))
    (ho : w.objs[r]? = some o)
    (hp : lookupS name (E.classes o.cls).props = some (.mutable p)) {v x : Val} {w' : World}
    (h : run E (n + 1) (.setattr r name v) w = (.ok x, w')) :
    ∃ v0, (v = .undef ∧ v0 = .undef ∨
        v ≠ .undef ∧ ∃ w1, run E n (.validate name p (some r) v) w = (.ok v0, w1)) ∧
      ∃ v1 ev1 ev2 ev3, Protocol E n w r o name p v0 v1 ev1 ev2 ev3 ∧
        watched w.objs.length vb w'.trace = watched w.objs.length vb w.trace ++
          ((if vb then [] else ev1) ++ ev2 ++ ev3) ∧
        AsWith w r name v1 w' ∧ Holds w' r name v1 := by
  have H := S.run_ok n
  have h' : assignBody E (run E n) r name p v w = (.ok x, w') := by
    rw [← setattr_mutable ho hp]; exact h
  by_cases hv : v = .undef
  · subst hv
    rw [assign_undef] at h'
    obtain ⟨_, w2, h2, h3⟩ := bind_ok_inv h'
    cases h3
    exact ⟨.undef, .inl ⟨rfl, rfl⟩, setBody_ok S H rfl ho name p .undef (Kept.refl _ _) h2⟩
  · rw [assign_defined hv] at h'
    obtain ⟨v0, w1, h1, h'⟩ := bind_ok_inv h'
    obtain ⟨_, w2, h2, h3⟩ := bind_ok_inv h'
    cases h3
    have hf := H.pres (.validate name p (some r) v) trivial w (Nat.le_refl _)
    rw [h1] at hf
    obtain ⟨v1, ev1, ev2, ev3, q1, q2, q3⟩ := setBody_ok S H rfl ho name p v0 hf.kept h2
    rw [hf.events] at q2
    exact ⟨v0, .inr ⟨hv, w1, h1⟩, v1, ev1, ev2, ev3, q1, q2, q3⟩

/-- C10, C11, C12: a successful assignment validates the value (except
`undefined`), follows the listener protocol - validators, change observers
exactly on a change, set observers, each enabled one once, in registration
order - stores what the validators left, and changes nothing else.  The calls
made on the existing instances are exactly those. -/
theorem C11_assignment (hE : ∀ f args, Quiet (E.fn f args)) (ho : w.objs[r]? = some o)
    (hp : lookupS name (E.classes o.cls).props = some (.mutable p)) {v x : Val} {w' : World}
    (h : run E (n + 1) (.setattr r name v) w = (.ok x, w')) :
    ∃ v0, (v = .undef ∧ v0 = .undef ∨
        v ≠ .undef ∧ ∃ w1, run E n (.validate name p (some r) v) w = (.ok v0, w1)) ∧
      ∃ v1 ev1 ev2 ev3, Protocol E n w r o name p v0 v1 ev1 ev2 ev3 ∧
        eventsOn w w'.trace = eventsOn w w.trace ++ (ev1 ++ ev2 ++ ev3) ∧
        AsWith w r name v1 w' ∧ Holds w' r name v1 := by
  have := assign_ok (frame_stable E w.objs.length false fun f a => uses_of_quiet _ (hE f a)) ho hp h
  simpa only [eventsOn_eq, Bool.false_eq_true, if_false] using this

/-- C11 when callbacks may also run validations: the observer calls on the
existing instances are exactly those of the protocol. -/
theorem C11_assignment_observers (hE : ∀ f args, ReadOnly (E.fn f args))
    (ho : w.objs[r]? = some o)
    (hp : lookupS name (E.classes o.cls).props = some (.mutable p)) {v x : Val} {w' : World}
    (h : run E (n + 1) (.setattr r name v) w = (.ok x, w')) :
    ∃ v0, (v = .undef ∧ v0 = .undef ∨
        v ≠ .undef ∧ ∃ w1, run E n (.validate name p (some r) v) w = (.ok v0, w1)) ∧
      ∃ v1 ev1 ev2 ev3, Protocol E n w r o name p v0 v1 ev1 ev2 ev3 ∧
        observerCallsOn w w'.trace = observerCallsOn w w.trace ++ (ev2 ++ ev3) ∧
        AsWith w r name v1 w' ∧ Holds w' r name v1 := by
  have := assign_ok (frame_stable E w.objs.length true fun f a => uses_of_readOnly _ (hE f a)) ho hp h
  simpa only [observerCallsOn_eq, if_true, List.nil_append] using this

/-- C11 for deletion: as an assignment of `undefined`. -/
theorem C11_deletion (hE : ∀ f args, Quiet (E.fn f args)) (ho : w.objs[r]? = some o)
    (hp : lookupS name (E.classes o.cls).props = some (.mutable p)) {x : Val} {w' : World}
    (h : run E (n + 1) (.delattr r name) w = (.ok x, w')) :
    ∃ v1 ev1 ev2 ev3, Protocol E n w r o name p .undef v1 ev1 ev2 ev3 ∧
        eventsOn w w'.trace = eventsOn w w.trace ++ (ev1 ++ ev2 ++ ev3) ∧
        AsWith w r name v1 w' ∧ Holds w' r name v1 := by
  have S := frame_stable E w.objs.length false fun f a => uses_of_quiet _ (hE f a)
  have h' : (setBody E (run E n) r name p .undef >>= fun _ => pure Val.none) w = (.ok x, w') := by
    rw [← delattr_mutable ho hp]; exact h
  obtain ⟨_, w2, h2, h3⟩ := bind_ok_inv h'
  cases h3
  simpa only [eventsOn_eq, Bool.false_eq_true, if_false] using
    setBody_ok S (S.run_ok n) rfl ho name p .undef (Kept.refl _ _) h2

/-- C10: what can be read after a successful assignment: the value the
validators left of the coerced value, None if that is `undefined`; every other
property of every existing instance holds what it held before. -/
theorem C10_read_after_assignment (hE : ∀ f args, ReadOnly (E.fn f args))
    (ho : w.objs[r]? = some o)
    (hp : lookupS name (E.classes o.cls).props = some (.mutable p)) {v x : Val} {w' : World}
    (h : run E (n + 1) (.setattr r name v) w = (.ok x, w')) :
    ∃ v0 v1 ev1,
      (v = .undef ∧ v0 = .undef ∨
        v ≠ .undef ∧ ∃ w1, run E n (.validate name p (some r) v) w = (.ok v0, w1)) ∧
      Notified r .validate name (storedOr w r name)
        (Returned E n w r name (storedOr w r name) .validate (storedOr w r name))
        (enabled w o .validate name) v0 ev1 v1 ∧
      (∀ m, run E (m + 1) (.getattr r name) w' =
        (.ok (asRead v1), w')) ∧
      (∀ i nm, i < w.objs.length → (i ≠ r ∨ nm ≠ name) → storedAt w' i nm = storedAt w i nm) := by
  obtain ⟨v0, h0, v1, ev1, ev2, ev3, h1, _, h3, h4⟩ := C11_assignment_observers hE ho hp h
  refine ⟨v0, v1, ev1, h0, h1.validators, fun m => ?_, h3.2.1⟩
  obtain ⟨o', ho', hc, _⟩ := h3.2.2 r o ho
  have e : run E (m + 1) (.getattr r name) w' =
      (.ok ((lookupS name o'.backend).getD .none), w') := by
    show getattrBody E _ r name w' = _
    unfold getattrBody
    rw [bind_ok (entryOf_some ho'), hc, hp]
    show getStored r name w' = _
    unfold getStored
    rw [bind_ok (getObj_some ho')]; rfl
  rw [e]
  simp only [Holds, storedAt, ho', Option.bind_some] at h4
  rcases h4 with ⟨hv, h4⟩ | ⟨hv, h4⟩
  · rw [h4, hv]; rfl
  · rw [h4]
    cases v1 <;> first | rfl | exact absurd rfl hv

/-- C10: without validators listening to it, the property holds the coerced
value. -/
theorem C10_no_validators (hE : ∀ f args, ReadOnly (E.fn f args)) (ho : w.objs[r]? = some o)
    (hp : lookupS name (E.classes o.cls).props = some (.mutable p)) {v x v0 : Val} {w' w1 : World}
    (hn : enabled w o .validate name = []) (hv : v ≠ .undef)
    (hval : run E n (.validate name p (some r) v) w = (.ok v0, w1))
    (h : run E (n + 1) (.setattr r name v) w = (.ok x, w')) (m : Nat) :
    run E (m + 1) (.getattr r name) w' = (.ok (asRead v0), w') := by
  obtain ⟨v0', v1, ev1, h0, h1, h2, _⟩ := C10_read_after_assignment hE ho hp h
  rcases h0 with ⟨h0, _⟩ | ⟨_, w2, h0⟩
  · exact absurd h0 hv
  · rw [hval] at h0; cases h0
    rw [hn] at h1; cases h1
    exact h2 m

/-- C12: with a change observer registered and enabled, it is called by a
successful assignment iff the assignment changes the value. -/
theorem C12_change_observers (hE : ∀ f args, ReadOnly (E.fn f args)) (ho : w.objs[r]? = some o)
    (hp : lookupS name (E.classes o.cls).props = some (.mutable p)) {v x : Val} {w' : World}
    (h : run E (n + 1) (.setattr r name v) w = (.ok x, w')) :
    ∃ v1, Holds w' r name v1 ∧
      ((Changes E n w r name p (storedOr w r name) v1 ∧
        ((observerCallsOn w w'.trace).drop (observerCallsOn w w.trace).length).filterMap
          (fun e => if e.mode = .change then some e.fn else none) =
            (enabled w o .change name).map (·.fn)) ∨
       (Keeps E n w r name p (storedOr w r name) v1 ∧
        ∀ e ∈ (observerCallsOn w w'.trace).drop (observerCallsOn w w.trace).length,
          e.mode ≠ .change)) := by
  obtain ⟨v0, h0, v1, ev1, ev2, ev3, h1, h2, h3, h4⟩ := C11_assignment_observers hE ho hp h
  obtain ⟨v2, v3, h5, h6⟩ := h1.observers
  have set_evs : ∀ {ret : Listener → Val → Val → Prop} {mode ls a evs b},
      Notified r mode name (storedOr w r name) ret ls a evs b →
      evs.map (fun e => (e.mode, e.fn)) = ls.map (fun l => (mode, l.fn)) := by
    intro ret mode ls a evs b hn
    induction hn with
    | nil => rfl
    | cons _ _ ih => simp [ih]
  have e3 := set_evs h6
  have hs3 : ∀ e ∈ ev3, e.mode = .set := fun e he => by
    have : (e.mode, e.fn) ∈ ev3.map (fun e => (e.mode, e.fn)) := List.mem_map.2 ⟨e, he, rfl⟩
    rw [e3] at this
    obtain ⟨l, _, hl⟩ := List.mem_map.1 this
    exact (congrArg Prod.fst hl).symm
  refine ⟨v1, h4, ?_⟩
  rw [h2, List.drop_left]
  rcases h5 with ⟨hc, hn⟩ | ⟨hk, he, _⟩
  · refine .inl ⟨hc, ?_⟩
    have e2 := set_evs hn
    have hs2 : ∀ e ∈ ev2, e.mode = .change := fun e he => by
      have : (e.mode, e.fn) ∈ ev2.map (fun e => (e.mode, e.fn)) := List.mem_map.2 ⟨e, he, rfl⟩
      rw [e2] at this
      obtain ⟨l, _, hl⟩ := List.mem_map.1 this
      exact (congrArg Prod.fst hl).symm
    rw [List.filterMap_append]
    have f3 : ev3.filterMap (fun e => if e.mode = .change then some e.fn else none) = [] := by
      rw [List.filterMap_eq_nil_iff]
      intro e he; rw [hs3 e he]; rfl
    have f2 : ∀ l : List Event, (∀ e ∈ l, e.mode = .change) →
        l.filterMap (fun e => if e.mode = .change then some e.fn else none) =
        l.map (fun e => e.fn) := by
      intro l
      induction l with
      | nil => intro _; rfl
      | cons a l ih =>
        intro hl
        rw [List.filterMap_cons_some (b := a.fn) (by rw [hl a (by simp)]; rfl),
          ih (fun e he => hl e (by simp [he])), List.map_cons]
    rw [f3, f2 ev2 hs2, List.append_nil]
    have := congrArg (List.map Prod.snd) e2
    rw [List.map_map, List.map_map] at this
    exact this
  · refine .inr ⟨hk, ?_⟩
    subst he
    intro e he
    rw [hs3 e (by simpa using he)]; decide

end

/-! Non-vacuity: a class with a text property, a validator replacing the value,
a change observer and a set observer; a rejected value and a raising
validator. -/

/-- Property `p` is a String; the validator (function 0) stores "new" instead,
function 3 raises. -/
def assignFn (f : FnId) (args : List Val) : Prog :=
  if f = 0 then .ret (.str (s% "new")) else if f = 3 then .raise { kind := .value }
  else .ret (args.getD 3 .none)

def assignEnv : Env := { demoEnv with
  classes := fun _ => {
    name := s% "C"
    props := [(s% "p", .mutable (.mk true none none .undef (.string [] .keep none)))] }
  fn := assignFn }

def assignWorld (fns : List FnId) : World := { objs := [{
  cls := 0
  backend := [(s% "p", .str (s% "old"))]
  listeners := fns.map (fun f => ⟨s% "p", .validate, f⟩) ++
    [⟨s% "p", .set, 2⟩, ⟨s% "p", .change, 1⟩] }] }

example : ∀ f args, Quiet (assignEnv.fn f args) := by
  intro f args
  show Quiet (assignFn f args)
  unfold assignFn
  split
  · exact trivial
  · split <;> exact trivial

/-- The assignment succeeds, with one call of each listener in protocol order. -/
theorem assign_example :
    (run assignEnv 3 (.setattr 0 (s% "p") (.str (s% "x"))) (assignWorld [0])).1 = .ok .none ∧
    (run assignEnv 3 (.setattr 0 (s% "p") (.str (s% "x"))) (assignWorld [0])).2.trace =
      [⟨0, .validate, s% "p", .str (s% "old"), .str (s% "x"), 0⟩,
       ⟨0, .change, s% "p", .str (s% "old"), .str (s% "new"), 1⟩,
       ⟨0, .set, s% "p", .str (s% "old"), .str (s% "new"), 2⟩] ∧
    storedAt (run assignEnv 3 (.setattr 0 (s% "p") (.str (s% "x"))) (assignWorld [0])).2 0 (s% "p") =
      some (.str (s% "new")) := by
  refine ⟨?_, ?_, ?_⟩ <;> with_unfolding_all rfl

/-- Assigning an equal value calls no change observer. -/
example : (run assignEnv 3 (.setattr 0 (s% "p") (.str (s% "old"))) (assignWorld [])).2.trace =
      [⟨0, .set, s% "p", .str (s% "old"), .str (s% "old"), 2⟩] := by with_unfolding_all rfl

/-- The value None is rejected; a raising validator; both leave no observer call. -/
example : (run assignEnv 2 (.validate (s% "p") (.mk true none none .undef (.string [] .keep none))
    (some 0) .none) (assignWorld [])).1.isOk = false := by with_unfolding_all rfl
example : (run assignEnv 3 (.setattr 0 (s% "p") (.str (s% "x"))) (assignWorld [0, 3])).1 =
    .error { kind := .value } ∧
  (run assignEnv 3 (.setattr 0 (s% "p") (.str (s% "x"))) (assignWorld [0, 3])).2.trace.map
    (fun e => e.fn) = [0, 3] := by
  refine ⟨?_, ?_⟩ <;> with_unfolding_all rfl

example : (run assignEnv 3 (.delattr 0 (s% "p")) (assignWorld [])).1 = .ok .none := by
  with_unfolding_all rfl

end Verif
