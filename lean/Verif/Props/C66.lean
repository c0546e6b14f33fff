import Verif.Props.C43
import Verif.Spec.Pointer

/-!
# C66: Pointer properties and `load`
-/

namespace Verif.Uid

open Spec

variable {D : Type}

theorem Spec.HistUse.inv {E : Env D} (hinj : ∀ m n, E.supply m = E.supply n → m = n) {k : Nat} {w : World D}
    (h : HistUse E k {} w) : Inv True E w := by
  induction h with
  | nil => exact Inv.empty E
  | cons _ hf hu ih => exact exec_inv hinj k ih hf fun _ => hu

/-- C66: after any history, `load` of the identifier of an instance in use returns
that instance, and nothing changes. -/
theorem C66_load (E : Env D) (hinj : ∀ m n, E.supply m = E.supply n → m = n) (k : Nat) (w : World D) (h : HistUse E k {} w)
    (r : Ref) (u : Uid) (hr : Carries w r u) : load u w = (.ok (some (.inst r)), w) := by
  unfold load
  rw [(h.inv hinj).found trivial r u hr]
  rfl

theorem uidValue_ok {p : Ptr D} {u u' : Uid} (h : uidValue p u = .ok u') :
    (∀ f, p.uidProp = some f → f u = .ok u') ∧ (p.uidProp = none → u = u') := by
  unfold uidValue at h
  cases hp : p.uidProp with
  | none => rw [hp] at h; cases h; exact ⟨fun _ h => (by cases h), fun _ => rfl⟩
  | some g => rw [hp] at h; exact ⟨fun f hf => by cases hf; exact h, fun h => by cases h⟩

theorem construct_class {E : Env D} {c : Cls} {u : Option Uid} {i : Bool} {w w' : World D} {r : Ref}
    (h : construct E c u i w = (.ok r, w')) : ∃ o, w'.objs[r]? = some o ∧ o.cls = c := by
  have hx : (alloc E c w).2.objs[(alloc E c w).1]? = some { cls := c, uid := some (E.supply w.drawn) } := by simp [alloc]
  unfold construct at h
  generalize alloc E c w = a at h hx
  obtain ⟨x, w1⟩ := a
  simp only at h hx
  have key : ∀ w2 : World D, (∃ o, w2.objs[x]? = some o ∧ o.cls = c) →
      (if i then (.error .validation, w2)
        else (.ok x, modify x (fun o => { o with live := true }) (finishInit x w2)) : Res D Ref) = (.ok r, w') →
      ∃ o, w'.objs[r]? = some o ∧ o.cls = c := by
    rintro w2 ⟨o, ho, hc⟩ he
    split at he
    · cases he
    · cases he
      refine ⟨{ o with live := true }, ?_, hc⟩
      rw [modify_objs, if_pos rfl]
      have : (finishInit r w2).objs = w2.objs := by
        unfold finishInit
        rw [ho]
        simp only
        split <;> rfl
      rw [this, ho]
      rfl
  cases u with
  | none => exact key _ ⟨_, hx, rfl⟩ h
  | some v =>
    simp only at h
    unfold setUid at h
    rw [hx] at h
    simp only at h
    split at h
    · cases h
    · rename_i w2 he
      refine key w2 ?_ h
      split at he
      · cases he; exact ⟨_, hx, rfl⟩
      · split at he
        · cases he
        · cases he
          refine ⟨{ cls := c, uid := some v }, ?_, rfl⟩
          show (modify x _ w1).objs[x]? = _
          rw [modify_objs, if_pos rfl, hx]
          rfl

theorem instValidate_held {E : Env D} {p : Ptr D} (hs : p.isSub p.cls = true) {v x : PVal} {w w' : World D}
    (hv : ∀ r, v = .inst r → ∃ o, w.objs[r]? = some o)
    (h : instValidate E p v w = (.ok x, w')) : Held p w' x ∧ ∃ r, x = .inst r := by
  unfold instValidate at h
  split at h
  · rename_i r
    obtain ⟨o, ho⟩ := hv r rfl
    split at h
    · rename_i hc
      cases h
      unfold clsOf at hc
      rw [ho] at hc
      exact ⟨.inst r o ho hc, r, rfl⟩
    · cases h
  · split at h
    · cases h
    · cases h
    · rename_i r _ he
      cases h
      obtain ⟨o, ho, hc⟩ := construct_class he
      exact ⟨.inst r o ho (by rw [hc]; exact hs), r, rfl⟩
  · cases h

/-- C66: what a Pointer property accepts is an instance of the class or text that was
checked. -/
theorem C66_held (E : Env D) (p : Ptr D) (hs : p.isSub p.cls = true) (v x : PVal) (w w' : World D)
    (hv : ∀ r, v = .inst r → ∃ o, w.objs[r]? = some o)
    (hl : ∀ f u w1 w2 r, p.loadUid = some f → f u w1 = (.ok (some (.inst r)), w2) → ∃ o, w2.objs[r]? = some o)
    (h : ptrValidate E p v w = (.ok x, w')) : Held p w' x := by
  unfold ptrValidate at h
  split at h
  · cases h
  · rename_i u
    have text : ∀ u' l w2, ptrText p u w = (.ok (u', l), w2) →
        Held p w2 (.text u') ∧ ∀ r, l = some (.inst r) → ∃ o, w2.objs[r]? = some o := by
      intro u' l w2 ht
      unfold ptrText at ht
      split at ht
      · cases ht
      · rename_i u1 hu1
        obtain ⟨a1, a2⟩ := uidValue_ok hu1
        split at ht
        · cases ht
        · rename_i w1 hc
          split at ht
          · cases ht
          · rename_i l' w3 hl'
            cases ht
            refine ⟨.text u _ w w1 a1 a2 fun f hf => ?_, fun r hr => ?_⟩
            · unfold uidCheck at hc
              rw [hf] at hc
              exact hc
            · subst hr
              unfold uidLoad at hl'
              split at hl'
              · split at hl'
                · cases hl'
                · rename_i f hf
                  exact hl f _ _ _ r hf hl'
              · cases hl'
    split at h
    · cases h
    · rename_i u' w2 ht; cases h; exact (text u' _ _ ht).1
    · rename_i u' w2 ht; cases h; exact (text u' _ _ ht).1
    · rename_i u' y w2 _ ht
      exact (instValidate_held hs (fun r hr => (text u' _ _ ht).2 r (by rw [hr])) h).1
  · exact (instValidate_held hs hv h).1

/-- C66: `None`, and values that are neither text, instances nor dictionaries, are
refused with a ValidationError, and nothing changes. -/
theorem C66_refused (E : Env D) (p : Ptr D) (w : World D) :
    ptrValidate E p .none w = (.error .validation, w) ∧ ptrValidate E p .other w = (.error .validation, w) ∧
    ∀ r o, w.objs[r]? = some o → p.isSub o.cls = false → ptrValidate E p (.inst r) w = (.error .validation, w) := by
  refine ⟨rfl, rfl, fun r o ho hc => ?_⟩
  unfold ptrValidate instValidate clsOf
  simp only [ho, hc]
  rfl

/-- C66: an instance of the class is accepted as it is. -/
theorem C66_instance (E : Env D) (p : Ptr D) (w : World D) (r : Ref) (o : Obj D) (ho : w.objs[r]? = some o)
    (hc : p.isSub o.cls = true) : ptrValidate E p (.inst r) w = (.ok (.inst r), w) := by
  unfold ptrValidate instValidate clsOf
  simp only [ho, hc, if_true]

/-- C66: with `load`, the identifier of an instance in use is replaced by that very
instance if it is of the class, and refused if it is not. -/
theorem C66_resolves (E : Env D) (hinj : ∀ m n, E.supply m = E.supply n → m = n) (k : Nat) (w : World D) (h : HistUse E k {} w)
    (c : Cls) (sub : Cls → Bool) (r : Ref) (u : Uid) (o : Obj D) (hr : Carries w r u) (ho : w.objs[r]? = some o) :
    ptrValidate E { cls := c, isSub := sub, load := true, loadUid := some load } (.text u) w =
      (if sub o.cls then .ok (.inst r) else .error .validation, w) := by
  unfold ptrValidate ptrText uidValue uidCheck uidLoad
  simp only [C66_load E hinj k w h r u hr, if_true, instValidate, clsOf, ho]
  split <;> rfl

/-- C66: without `load`, text is kept, whether or not there is such an instance; with
`load` it is kept if no instance was ever registered with it. -/
theorem C66_text (E : Env D) (c : Cls) (sub : Cls → Bool) (b : Bool) (u : Uid) (w : World D)
    (h : b = true → get w.inst u = none) :
    ptrValidate E { cls := c, isSub := sub, load := b, loadUid := some load } (.text u) w = (.ok (.text u), w) := by
  unfold ptrValidate ptrText uidValue uidCheck uidLoad
  cases b with
  | false => rfl
  | true => simp only [if_true, load, h rfl]; rfl

/-- C66: what `uid_prop`, `validate_uid` or `load` raise is what the assignment raises,
and what comes after it is not done. -/
theorem C66_raises (E : Env D) (p : Ptr D) (u : Uid) (w : World D) (e : Err) :
    (uidValue p u = .error e → ptrValidate E p (.text u) w = (.error e, w)) ∧
    (∀ u' w1, uidValue p u = .ok u' → uidCheck p u' w = (.error e, w1) → ptrValidate E p (.text u) w = (.error e, w1)) ∧
    (∀ u' w1 w2, uidValue p u = .ok u' → uidCheck p u' w = (.ok (), w1) → uidLoad p u' w1 = (.error e, w2) →
      ptrValidate E p (.text u) w = (.error e, w2)) := by
  refine ⟨fun h => ?_, fun u' w1 h h1 => ?_, fun u' w1 w2 h h1 h2 => ?_⟩
  · unfold ptrValidate ptrText; simp only [h]
  · unfold ptrValidate ptrText; simp only [h, h1]
  · unfold ptrValidate ptrText; simp only [h, h1, h2]

/-! ## Concrete cases -/

/-- Two classes. -/
def ptrCmds : List (Cmd Nat) := [.new 0 (some (s% "a")) false, .new 1 (some (s% "b")) false, .setUid 0 (s% "c")]

theorem C66_hist : HistUse demoEnv 5 {} (runCmds demoEnv 5 ptrCmds {}) := by
  have small : ∀ (w : World Nat) (u : Uid), u.length < 10 → Unguessed demoEnv w u := fun w u h m _ => uuid_ne m u h
  refine .cons (.cons (.cons (.nil _) (.new _ _ _ ?_) ?_) (.new _ _ _ ?_) ?_) (.setUid _ _ ?_) ?_
  · intro v h; cases h; exact small _ _ (by decide)
  · intro r u h; cases h
  · intro v h; cases h; exact small _ _ (by decide)
  · intro r u h; cases h
  · exact small _ _ (by decide)
  · intro r u h o ho
    cases h
    have : o = { cls := 0, uid := some (s% "a"), live := true } := by
      have h2 : ((runCmds demoEnv 5 [.new 0 (some (s% "a")) false, .new 1 (some (s% "b")) false] {}).objs)[0]? =
        some { cls := 0, uid := some (s% "a"), live := true } := by rfl
      exact Option.some.inj (ho.symm.trans h2)
    rw [this]

/-- The property declares class 0: the identifier of the first instance is resolved,
that of the second is refused.  The identifier the first one had before still finds
it, and an unknown one stays text. -/
theorem C66_example :
    let w := runCmds demoEnv 5 ptrCmds {}
    let p : Ptr Nat := { cls := 0, isSub := fun c => c == 0, load := true, loadUid := some load }
    Carries w 0 (s% "c") ∧ Carries w 1 (s% "b") ∧
    (ptrValidate demoEnv p (.text (s% "c")) w).1 = .ok (.inst 0) ∧ (ptrValidate demoEnv p (.text (s% "b")) w).1 = .error .validation ∧
    (ptrValidate demoEnv p (.text (s% "a")) w).1 = .ok (.inst 0) ∧ (ptrValidate demoEnv p (.text (s% "d")) w).1 = .ok (.text (s% "d")) :=
  ⟨⟨_, rfl, rfl, rfl⟩, ⟨_, rfl, rfl, rfl⟩, rfl, rfl, rfl, rfl⟩

/-- An instance that a failed deserialization left behind takes the identifier over,
if the identifier it has is assigned to it again. -/
theorem C66_left_behind :
    let w : World Nat := runCmds { demoEnv with accept := fun _ _ => false } 5
      [.load 0 none [(rootKey, .text (s% "b")), (s% "b", .raw ⟨none, some (s% "b"), []⟩)] false false,
       .new 0 (some (s% "b")) false, .setUid 0 (s% "b")] {}
    Carries w 1 (s% "b") ∧ (load (s% "b") w).1 = .ok (some (.inst 0)) :=
  ⟨⟨_, rfl, rfl, rfl⟩, rfl⟩

end Verif.Uid
