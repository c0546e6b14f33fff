import Verif.Spec.Files

/-!
# C65: files

What a File property accepts, opens and closes.
-/

namespace Verif.Files

open Spec

theorem modeOk_iff (p : FProp) (o : Obj) : modeOk p o = true ↔ ∀ m, o.mode = some m → Allows p m := by
  unfold modeOk FProp.validModes Allows
  cases ho : o.mode with
  | none => simp
  | some m =>
    cases hm : p.modes with
    | some l => simp
    | none => cases hd : p.mode with
      | none => simp
      | some d => simp

theorem check_iff (p : FProp) (o : Obj) : check p o = true ↔ Usable p o := by
  unfold check
  constructor
  · intro h
    simp only [Bool.and_eq_true, Bool.not_eq_true'] at h
    refine ⟨h.1.1.1, h.1.1.2, ?_, (modeOk_iff p o).1 h.1.2⟩
    intro e
    rw [e] at h
    simp at h
  · rintro ⟨h1, h2, h3, h4⟩
    simp only [h1, h2, (modeOk_iff p o).2 h4, Bool.and_true, Bool.true_and, Bool.not_eq_true']
    cases hc : o.closed with
    | none => rfl
    | some b => cases b with
      | true => exact absurd hc h3
      | false => rfl

/-! ### Objects -/

/-- C65: an object is accepted, as it is and without any effect, exactly if it is a
usable file; otherwise there is a ValidationError and no effect either. -/
theorem C65_object (os : Os) (p : FProp) (i : Nat) (w : World) :
    ((∃ o, w.objs[i]? = some o ∧ Usable p o) → validate os p (.obj i) w = (.ok i, w)) ∧
    (¬ (∃ o, w.objs[i]? = some o ∧ Usable p o) → validate os p (.obj i) w = (.error .validation, w)) := by
  have e : openInput os p (.obj i) w = (.ok (.obj i), w) := by
    unfold openInput
    cases p.mode <;> rfl
  constructor
  · rintro ⟨o, ho, hu⟩
    unfold validate
    simp only [e, ho, (check_iff p o).2 hu, if_true]
  · intro h
    unfold validate
    simp only [e]
    cases ho : w.objs[i]? with
    | none => rfl
    | some o =>
      have : ¬ check p o = true := fun hc => h ⟨o, ho, (check_iff p o).1 hc⟩
      simp [this]

/-! ### Names -/

/-- C65: a name is refused, and nothing is opened, unless the property has a mode. -/
theorem C65_name_no_mode (os : Os) (p : FProp) (s : PyStr) (w : World) (h : p.mode = none) :
    validate os p (.name s) w = (.error .validation, w) := by
  unfold validate openInput
  simp only [h]

/-- C65: an accepted name was opened once, in the mode of the property; the new
object is the value, is usable, and no other object changed. -/
theorem C65_name_accepted {os : Os} {p : FProp} {s : PyStr} {w w' : World} {i : Nat}
    (h : validate os p (.name s) w = (.ok i, w')) :
    ∃ m o, p.mode = some m ∧ os w.attempts s m = .file o ∧ Usable p o ∧ i = w.objs.length ∧
      w' = { w with objs := w.objs ++ [o], attempts := w.attempts + 1 } := by
  cases hm : p.mode with
  | none =>
    rw [C65_name_no_mode os p s w hm] at h
    cases h
  | some m =>
    unfold validate openInput at h
    simp only [hm] at h
    cases ho : os w.attempts s m with
    | refused => simp [ho] at h
    | failed => simp [ho] at h
    | file o =>
      simp only [ho, List.getElem?_concat_length] at h
      by_cases hc : check p o = true
      · simp only [hc, if_true, Prod.mk.injEq, Except.ok.injEq] at h
        exact ⟨m, o, rfl, ho, (check_iff p o).1 hc, h.1.symm, h.2.symm⟩
      · simp [hc] at h

/-- C65: a name that the operating system opens as a usable file is accepted. -/
theorem C65_name_opens {os : Os} {p : FProp} {s : PyStr} {w : World} {m : Mode} {o : Obj}
    (hm : p.mode = some m) (ho : os w.attempts s m = .file o) (hu : Usable p o) :
    validate os p (.name s) w =
      (.ok w.objs.length, { w with objs := w.objs ++ [o], attempts := w.attempts + 1 }) := by
  unfold validate openInput
  simp only [hm, ho, List.getElem?_concat_length, (check_iff p o).2 hu, if_true]

/-- C65: a name that cannot be opened is refused with a ValidationError; no object is
made or changed. -/
theorem C65_name_refused {os : Os} {p : FProp} {s : PyStr} {w : World} {m : Mode}
    (hm : p.mode = some m) (ho : os w.attempts s m = .refused) :
    validate os p (.name s) w = (.error .validation, { w with attempts := w.attempts + 1 }) := by
  unfold validate openInput
  simp only [hm, ho]

/-! ### Declarations -/

theorem known_mode (m : Mode) : m ∈ fileModes ↔ KnownMode m := by
  constructor
  · intro h
    simp only [fileModes, List.mem_cons, List.not_mem_nil, or_false] at h
    rcases h with h | h | h | h | h | h | h | h | h | h | h | h <;> subst h
    · exact ⟨'r', by simp, [], [], by simp, by simp, rfl⟩
    · exact ⟨'r', by simp, [], ['+'], by simp, by simp, rfl⟩
    · exact ⟨'r', by simp, ['b'], [], by simp, by simp, rfl⟩
    · exact ⟨'r', by simp, ['b'], ['+'], by simp, by simp, rfl⟩
    · exact ⟨'w', by simp, [], [], by simp, by simp, rfl⟩
    · exact ⟨'w', by simp, [], ['+'], by simp, by simp, rfl⟩
    · exact ⟨'w', by simp, ['b'], [], by simp, by simp, rfl⟩
    · exact ⟨'w', by simp, ['b'], ['+'], by simp, by simp, rfl⟩
    · exact ⟨'a', by simp, [], [], by simp, by simp, rfl⟩
    · exact ⟨'a', by simp, [], ['+'], by simp, by simp, rfl⟩
    · exact ⟨'a', by simp, ['b'], [], by simp, by simp, rfl⟩
    · exact ⟨'a', by simp, ['b'], ['+'], by simp, by simp, rfl⟩
  · rintro ⟨c, hc, b, u, hb, hu, rfl⟩
    rcases hc with rfl | rfl | rfl <;> rcases hb with rfl | rfl <;> rcases hu with rfl | rfl <;> decide

/-- C65: a mode and a list of modes can be declared exactly if each is a mode of `open` and the
list, if there is one, has the mode in which names are opened. -/
theorem C65_declares (mode : Option Mode) (valid : Option (List (Option Mode))) :
    (∃ p, declare mode valid = .ok p) ↔
      (∀ m, mode = some m → KnownMode m) ∧
      ∀ l, valid = some l → mode ∈ l ∧ ∀ x ∈ l, ∃ m, x = some m ∧ KnownMode m := by
  have hset : ∀ q : FProp, (∃ p, setMode q mode = .ok p) ↔ ∀ m, mode = some m → KnownMode m := by
    intro q
    unfold setMode
    cases mode with
    | none => simp
    | some m =>
      by_cases h : m ∈ fileModes
      · simp [h, ← known_mode]
      · simp [h, ← known_mode]
  have hall : ∀ l : List (Option Mode),
      l.all (fun m => match m with | some m => decide (m ∈ fileModes) | none => false) = true ↔
        ∀ x ∈ l, ∃ m, x = some m ∧ KnownMode m := by
    intro l
    rw [List.all_eq_true]
    refine forall_congr' fun x => forall_congr' fun _ => ?_
    cases x with
    | none => simp
    | some m => simp [known_mode]
  unfold declare
  cases hs : setMode {} mode with
  | error e =>
    refine ⟨fun ⟨p, h⟩ => by simp at h, fun h => ?_⟩
    obtain ⟨p, hp⟩ := (hset {}).2 h.1
    rw [hs] at hp
    cases hp
  | ok q =>
    have h1 := (hset {}).1 ⟨q, hs⟩
    have hq : q.mode = mode := by
      unfold setMode at hs
      cases mode with
      | none => cases hs; rfl
      | some m =>
        simp only at hs
        split at hs
        · cases hs; rfl
        · cases hs
    cases valid with
    | none => exact ⟨fun _ => ⟨h1, fun _ h => by cases h⟩, fun _ => ⟨q, rfl⟩⟩
    | some l =>
      simp only [Option.some.injEq, forall_eq']
      unfold setValidModes
      rw [hq]
      by_cases hm : mode ∈ l
      · rw [if_pos hm]
        split
        · rename_i ha
          exact ⟨fun _ => ⟨h1, hm, (hall l).1 ha⟩, fun _ => ⟨_, rfl⟩⟩
        · rename_i ha
          exact ⟨fun ⟨_, h⟩ => (by cases h), fun h => absurd ((hall l).2 h.2.2) ha⟩
      · rw [if_neg hm]
        exact ⟨fun ⟨_, h⟩ => (by cases h), fun h => absurd h.2.1 hm⟩

/-- C65: a declaration that is accepted has known modes only, and its list has the
mode in which names are opened. -/
theorem C65_declared {mode : Option Mode} {valid : Option (List (Option Mode))} {p : FProp}
    (h : declare mode valid = .ok p) :
    p.mode = mode ∧ (∀ m, p.mode = some m → m ∈ fileModes ∧ Allows p m) ∧
      (∀ l, p.modes = some l → ∀ m ∈ l, m ∈ fileModes) := by
  unfold declare at h
  cases hs : setMode {} mode with
  | error e => simp [hs] at h
  | ok q =>
    have hq : q = { mode := mode } ∧ ∀ m, mode = some m → m ∈ fileModes := by
      cases mode with
      | none => cases hs; exact ⟨rfl, by simp⟩
      | some m =>
        by_cases hmem : m ∈ fileModes
        · simp only [setMode, hmem, if_true, Except.ok.injEq] at hs
          subst hs
          exact ⟨rfl, fun m' e => by cases e; exact hmem⟩
        · simp [setMode, hmem] at hs
    obtain ⟨rfl, hmem⟩ := hq
    simp only [hs] at h
    cases valid with
    | none =>
      cases h
      exact ⟨rfl, fun m hm => ⟨hmem m hm, ⟨by simp, fun _ d hd => by simp only at hm hd; rw [hm] at hd; cases hd; rfl⟩⟩,
        by simp⟩
    | some l =>
      unfold setValidModes at h
      simp only at h
      split at h
      · rename_i hin
        split at h
        · rename_i hall
          cases h
          refine ⟨rfl, fun m hm => ⟨hmem m hm, ?_, by simp⟩, ?_⟩
          · intro l' hl'
            cases hl'
            simp only at hm
            rw [hm] at hin
            exact List.mem_filterMap.2 ⟨some m, hin, rfl⟩
          · intro l' hl' m hm
            cases hl'
            obtain ⟨x, hx, e⟩ := List.mem_filterMap.1 hm
            cases e
            have := List.all_eq_true.1 hall _ hx
            simpa using this
        · cases h
      · cases h

/-- C65: with a declared property, a name is accepted whenever the operating system
opens it and the file object reports the mode it was opened in. -/
theorem C65_declared_opens {os : Os} {mode : Mode} {valid : Option (List (Option Mode))} {p : FProp}
    (hp : declare (some mode) valid = .ok p) {s : PyStr} {w : World} {o : Obj}
    (ho : os w.attempts s mode = .file o) (hr : o.read = true) (hs : o.seek = true) (hc : o.closed ≠ some true)
    (hm : o.mode = some mode) :
    (validate os p (.name s) w).1 = .ok w.objs.length := by
  obtain ⟨h1, h2, _⟩ := C65_declared hp
  have hu : Usable p o := ⟨hr, hs, hc, fun m e => by
    rw [hm] at e
    cases e
    exact (h2 _ h1).2⟩
  rw [C65_name_opens h1 ho hu]

/-- CPython reports the mode a file was opened in, except for `wb+`. -/
theorem C65_reported : ∀ m ∈ fileModes, m ≠ s% "wb+" → cpythonMode m = m := by
  intro m _ h
  simp [cpythonMode, h]

/-- C65: a property with mode `wb+` and no other mode refuses every name under CPython,
after it has opened the file, which stays open and belongs to nobody. -/
theorem C65_wb_plus (s : PyStr) (w : World) (os : Os)
    (hos : ∀ n s m, os n s m = .file { mode := some (cpythonMode m) }) :
    declare (some (s% "wb+")) none = .ok { mode := some (s% "wb+") } ∧
    validate os { mode := some (s% "wb+") } (.name s) w =
      (.error .validation, { w with
        objs := w.objs ++ [{ mode := some (s% "rb+") }], attempts := w.attempts + 1 }) := by
  constructor
  · rfl
  · unfold validate openInput
    simp only [hos, List.getElem?_concat_length]
    rfl

/-- C65: changing `mode` after `valid_modes` is not checked against them: then every
name is opened and refused. -/
theorem C65_mode_later : ∃ p q, declare (some (s% "r")) (some [some (s% "r")]) = .ok p ∧
    setMode p (some (s% "w")) = .ok q ∧ ¬ Allows q (s% "w") := by
  refine ⟨_, _, rfl, rfl, ?_⟩
  intro h
  have := h.1 _ rfl
  revert this
  decide

/-! ### Assignments and deletions -/

theorem validate_frame (os : Os) (p : FProp) (v : Input) (w : World) :
    (∃ added, (validate os p v w).2.objs = w.objs ++ added) ∧ (validate os p v w).2.slots = w.slots ∧
      (validate os p v w).2.closed = w.closed := by
  cases v with
  | obj i =>
    by_cases h : ∃ o, w.objs[i]? = some o ∧ Usable p o
    · rw [(C65_object os p i w).1 h]
      exact ⟨⟨[], by simp⟩, rfl, rfl⟩
    · rw [(C65_object os p i w).2 h]
      exact ⟨⟨[], by simp⟩, rfl, rfl⟩
  | name s =>
    cases hm : p.mode with
    | none =>
      rw [C65_name_no_mode os p s w hm]
      exact ⟨⟨[], by simp⟩, rfl, rfl⟩
    | some m =>
      unfold validate openInput
      simp only [hm]
      cases ho : os w.attempts s m with
      | refused => exact ⟨⟨[], by simp⟩, rfl, rfl⟩
      | failed => exact ⟨⟨[], by simp⟩, rfl, rfl⟩
      | file o =>
        simp only [List.getElem?_concat_length]
        split <;> exact ⟨⟨[o], rfl⟩, rfl, rfl⟩

theorem store_frame (k : Nat) (v : Option Nat) (r : Bool) (w : World) :
    (store k v r w).2.objs = w.objs ∧ (store k v r w).2.closed = w.closed ∧
      (∀ j, j ≠ k → (store k v r w).2.slots j = w.slots j) := by
  unfold store
  cases r with
  | true => exact ⟨rfl, rfl, fun _ _ => rfl⟩
  | false => exact ⟨rfl, rfl, fun j hj => by simp [hj]⟩

/-- C65: an assignment, whatever comes of it, changes no object and closes none, in
particular not the one that was the value before; it may add the file it opened. -/
theorem C65_assign_closes_nothing (os : Os) (p : FProp) (k : Nat) (v : Input) (r : Bool) (w : World) :
    (∃ added, (assign os p k v r w).2.objs = w.objs ++ added) ∧ (assign os p k v r w).2.closed = w.closed ∧
      (∀ j, j ≠ k → (assign os p k v r w).2.slots j = w.slots j) := by
  obtain ⟨h1, h2, h3⟩ := validate_frame os p v w
  unfold assign
  rcases hv : validate os p v w with ⟨res, w1⟩
  rw [hv] at h1 h2 h3
  cases res with
  | error e => exact ⟨h1, h3, fun j _ => by rw [h2]⟩
  | ok i =>
    obtain ⟨s1, s2, s3⟩ := store_frame k (some i) r w1
    exact ⟨by rw [s1]; exact h1, by rw [s2]; exact h3, fun j hj => by rw [s3 j hj, h2]⟩

/-- C65: after an assignment that succeeds the value is a usable file; one that fails
leaves the value as it was. -/
theorem C65_assign (os : Os) (p : FProp) (k : Nat) (v : Input) (r : Bool) (w : World) :
    ((assign os p k v r w).1 = .ok () → ∃ i o, (assign os p k v r w).2.slots k = some i ∧
      (assign os p k v r w).2.objs[i]? = some o ∧ Usable p o ∧
      (∀ j, v = .obj j → i = j)) ∧
    (∀ e, (assign os p k v r w).1 = .error e → (assign os p k v r w).2.slots k = w.slots k) := by
  obtain ⟨h1, h2, h3⟩ := validate_frame os p v w
  unfold assign
  rcases hv : validate os p v w with ⟨res, w1⟩
  rw [hv] at h1 h2 h3
  cases res with
  | error e => exact ⟨by simp, fun _ _ => by rw [h2]⟩
  | ok i =>
    have hu : ∃ o, w1.objs[i]? = some o ∧ Usable p o ∧ ∀ j, v = .obj j → i = j := by
      cases v with
      | obj j =>
        by_cases h : ∃ o, w.objs[j]? = some o ∧ Usable p o
        · rw [(C65_object os p j w).1 h] at hv
          cases hv
          obtain ⟨o, ho, hu⟩ := h
          exact ⟨o, ho, hu, fun j' e => by cases e; rfl⟩
        · rw [(C65_object os p j w).2 h] at hv
          cases hv
      | name s =>
        obtain ⟨m, o, _, _, hu, hi, hw⟩ := C65_name_accepted hv
        subst hi hw
        exact ⟨o, by simp, hu, by simp⟩
    obtain ⟨o, ho, hu, hj⟩ := hu
    cases r with
    | true => exact ⟨by simp [store], fun _ _ => by simp only [store, if_true]; exact congrFun h2 k⟩
    | false => exact ⟨fun _ => ⟨i, o, by simp [store], ho, hu, hj⟩, by simp [store]⟩

/-- C65: a deletion that succeeds closes the file and leaves the property without
value; nothing else changes. -/
theorem C65_delete {k i : Nat} {o : Obj} {w : World} (hs : w.slots k = some i) (ho : w.objs[i]? = some o)
    (hc : o.close = true) :
    delete k false w = (.ok (), { w with
      objs := w.objs.set i o.shut
      closed := w.closed ++ [i]
      slots := fun j => if j = k then none else w.slots j }) := by
  unfold delete closeObj store
  simp [hs, ho, hc]

/-- C65: a deletion that a listener refuses closes the file all the same: the value
stays, and no longer satisfies the property. -/
theorem C65_delete_refused {k i : Nat} {o : Obj} {w : World} (p : FProp) (hs : w.slots k = some i)
    (ho : w.objs[i]? = some o) (hc : o.close = true) (hf : o.closed = some false) :
    ∃ o', (delete k true w).1 = .error .validation ∧ (delete k true w).2.slots k = some i ∧
      (delete k true w).2.objs[i]? = some o' ∧ ¬ Usable p o' := by
  have hlt : i < w.objs.length := by
    rw [List.getElem?_eq_some_iff] at ho
    exact ho.1
  refine ⟨o.shut, ?_, ?_, ?_, fun h => h.isOpen (by simp [Obj.shut, hf])⟩ <;>
    simp only [delete, closeObj, store, hs, ho, hc, if_true] <;>
    simp [hlt]

/-- C65: after a deletion the file that was the value says that it is closed, and is as it was
otherwise; every other object is as it was. -/
theorem C65_delete_closes {k i : Nat} {o : Obj} {w : World} (hs : w.slots k = some i) (ho : w.objs[i]? = some o)
    (hc : o.close = true) {b : Bool} (hb : o.closed = some b) :
    (delete k false w).1 = .ok () ∧ (delete k false w).2.slots k = none ∧
      (delete k false w).2.objs[i]? = some { o with closed := some true } ∧
      ∀ j, j ≠ i → (delete k false w).2.objs[j]? = w.objs[j]? := by
  have hlt : i < w.objs.length := by
    rw [List.getElem?_eq_some_iff] at ho
    exact ho.1
  rw [C65_delete hs ho hc]
  refine ⟨rfl, by simp, ?_, fun j hj => ?_⟩
  · simp [hlt, Obj.shut, hb]
  · simp [Ne.symm hj]

theorem delete_frame (k : Nat) (r : Bool) (w : World) :
    (∀ i, w.slots k ≠ some i → (delete k r w).2.objs[i]? = w.objs[i]?) ∧
      (∀ j, j ≠ k → (delete k r w).2.slots j = w.slots j) := by
  unfold delete
  cases hs : w.slots k with
  | none =>
    obtain ⟨s1, s2, s3⟩ := store_frame k none r w
    exact ⟨fun i _ => by simp [s1], s3⟩
  | some i =>
    simp only
    unfold closeObj
    cases ho : w.objs[i]? with
    | none => exact ⟨fun _ _ => rfl, fun _ _ => rfl⟩
    | some o =>
      by_cases hc : o.close = true
      · simp only [hc, if_true]
        obtain ⟨s1, s2, s3⟩ := store_frame k none r
          { w with objs := w.objs.set i o.shut, closed := w.closed ++ [i] }
        refine ⟨fun j hj => ?_, s3⟩
        rw [s1]
        have : i ≠ j := fun e => hj (by rw [e])
        simp [this]
      · simp only [hc]
        exact ⟨fun _ _ => rfl, fun _ _ => rfl⟩

/-- C65: a file that is the value of a property stays the value, and open as it is,
through any history in which the program neither changes it nor deletes a property
that holds it nor sets the property of the instance: assigning to other properties,
opening further files and deleting them does not matter. -/
theorem C65_stays (os : Os) (props : Nat → FProp) {k i : Nat} {o : Obj} : ∀ (ops : List Op) (w : World),
    w.slots k = some i → w.objs[i]? = some o → (∀ op ∈ ops, ¬ Sets k op) → Alone os props i w ops →
    (execAll os props w ops).slots k = some i ∧ (execAll os props w ops).objs[i]? = some o
  | [], _, hs, ho, _, _ => ⟨hs, ho⟩
  | op :: ops, w, hs, ho, hset, hal => by
    have ih := C65_stays os props (k := k) (i := i) (o := o) ops (exec os props w op)
    have hrest := fun op' h => hset op' (List.mem_cons_of_mem _ h)
    have hlt : i < w.objs.length := by
      rw [List.getElem?_eq_some_iff] at ho
      exact ho.1
    have hk := hset op (by simp)
    cases op with
    | make a =>
      refine ih hs ?_ hrest hal
      show (w.objs ++ [a])[i]? = some o
      rw [List.getElem?_append_left hlt]
      exact ho
    | become j a =>
      refine ih hs ?_ hrest hal.2
      show (w.objs.set j a)[i]? = some o
      rw [List.getElem?_set_ne hal.1]
      exact ho
    | assign j v r =>
      obtain ⟨⟨added, h1⟩, _, h3⟩ := C65_assign_closes_nothing os (props j) j v r w
      refine ih ?_ ?_ hrest hal
      · show (assign os (props j) j v r w).2.slots k = some i
        rw [h3 k (fun e => hk (by simp [Sets, e]))]
        exact hs
      · show (assign os (props j) j v r w).2.objs[i]? = some o
        rw [h1, List.getElem?_append_left hlt]
        exact ho
    | delete j r =>
      obtain ⟨h1, h3⟩ := delete_frame j r w
      refine ih ?_ ?_ hrest hal.2
      · show (delete j r w).2.slots k = some i
        rw [h3 k (fun e => hk (by simp [Sets, e]))]
        exact hs
      · show (delete j r w).2.objs[i]? = some o
        rw [h1 i hal.1]
        exact ho

/-! ### An example -/

def demoOs : Os := fun _ _ m => .file { mode := some (cpythonMode m) }

def demoProps : Nat → FProp := fun _ => { mode := some (s% "rb") }

/-- A name is opened for one instance, the same file is given to another; deleting the
second property closes it for both. -/
theorem C65_example :
    let w := execAll demoOs demoProps {} [.assign 0 (.name (s% "a")) false, .make { mode := some (s% "rb") },
      .assign 1 (.obj 1) false, .assign 2 (.obj 0) false]
    (w.slots 0, w.slots 1, w.slots 2) = (some 0, some 1, some 0) ∧
    w.objs = [{ mode := some (s% "rb") }, { mode := some (s% "rb") }] ∧
    Alone demoOs demoProps 0 w [.delete 1 false] ∧
    (execAll demoOs demoProps w [.delete 1 false, .delete 2 false]).objs =
      [{ mode := some (s% "rb"), closed := some true }, { mode := some (s% "rb"), closed := some true }] := by
  refine ⟨by decide, by decide, ⟨by decide, trivial⟩, by decide⟩

end Verif.Files
