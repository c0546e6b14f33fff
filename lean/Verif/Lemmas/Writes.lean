import Verif.Lemmas.Pres

/-!
# Relations that restrict single writes

The case between `Stable` (every write is allowed) and `Writer`: each write of
one stored value is allowed, knowing the class of the object and the property.
-/

namespace Verif

theorem mem_of_lookupS {α : Type} {l : List (PyStr × α)} {k : PyStr} {v : α}
    (h : lookupS k l = some v) : (k, v) ∈ l := by
  induction l with
  | nil => cases h
  | cons a l ih =>
    obtain ⟨k', u⟩ := a
    unfold lookupS at h
    split at h
    · rename_i hk; cases h; simp [hk]
    · exact List.mem_cons_of_mem _ (ih h)

structure Writes (E : Env) (W : Nat → Prop) (V : Prop) (C : Nat → Prop) (L : Prop) (F : Nat → Prop) (I : World → Prop)
    (R : World → World → Prop) : Prop extends Base E W V C L F I R where
  /-- storing or removing the value of a mutable property -/
  write : ∀ r c name p v, W r → lookupS name (E.classes c).props = some (.mutable p) →
    Pres (fun w => I w ∧ HasCls r c w) R (writeStored r name v)
  /-- storing the value of another property on a new object -/
  put : ∀ r c name e v, F r → (name, e) ∈ (E.classes c).props → e.isMutable = false →
    Pres (fun w => I w ∧ HasCls r c w) R (putStored r name v)
  /-- assigning `_backend` -/
  backend : ∀ r v, W r → Pres I R (setBackend r v)

section
variable {E : Env} {W : Nat → Prop} {V : Prop} {C : Nat → Prop} {L : Prop} {F : Nat → Prop} {I : World → Prop}
  {R : World → World → Prop} {Q : Call → Val → World → Prop} (S : Writes E W V C L F I R)
  {rec : Rec} (H : RecOk W V C L I R Q rec)
include S H

theorem Writes.pres_setBody (r : Nat) (c : ClsId) (name : PyStr) (p : PropSpec) (v : Val)
    (hr : W r) (hl : lookupS name (E.classes c).props = some (.mutable p)) :
    Pres (fun w => I w ∧ HasCls r c w) R (setBody E rec r name p v) := by
  have P := S.toPreord.with (P := HasCls r c) S.cls
  have hn := fun mode prev v => pres_notify S.toBase H r mode name prev v (.inl hr)
  unfold setBody
  refine pres_bind P (pres_getObj P _) fun o => ?_
  dsimp only
  refine pres_bind P ((hn _ _ _).weaken fun _ h => h.1) fun v1 => ?_
  refine pres_bind P (S.write r c name p v1 hr hl) fun _ => ?_
  refine Pres.weaken (I := I) ?_ fun _ h => h.1
  repeat' (first | with_reducible exact hn _ _ _ | pres1 S.toBase, H)

omit H in
theorem Writes.writerQ (hQ : ∀ c kw v w, Q (.construct c kw) v w →
    ∃ r, v = .obj r ∧ F r ∧ HasCls r c w) : Writer E W V C L F I R Q where
  assign rec H r c name p v hr hl := by
    have P := S.toPreord.with (P := HasCls r c) S.cls
    unfold assignBody
    refine pres_bind P (Pres.weaken (I := I) (by pres S.toBase, H) fun _ h => h.1) fun v' => ?_
    exact pres_bind P (S.pres_setBody H r c name p v' hr hl) fun _ => pres_pure P _
  erase rec H r c name p hr hl := S.pres_setBody H r c name p .undef hr hl
  backend := S.backend
  gettable rec H r c kv hF hm := by
    have P := S.toPreord.with (P := HasCls r c) S.cls
    have S' := S.toBase
    unfold gettableDefault
    split
    · exact pres_pure P _
    · rename_i hmut
      split
      · exact pres_pure P _
      · exact pres_pure P _
      · refine pres_bind P (Pres.weaken (I := I) (by pres S', H) fun _ h => h.1) fun v => ?_
        refine pres_bind P (Pres.weaken (I := I) (by pres S', H) fun _ h => h.1) fun v' => ?_
        exact S.put r c kv.1 kv.2 v' hF hm (by simpa using hmut)
  immutable rec H r c kv hF hs := by
    have P := S.toPreord.with (P := HasCls r c) S.cls
    have S' := S.toBase
    unfold setImmutable
    split
    · exact pres_raiseK P _
    · rename_i e hl
      refine pres_bind P (Pres.weaken (I := I) (by pres S', H) fun _ h => h.1) fun v' => ?_
      refine S.put r c kv.1 e v' hF (mem_of_lookupS hl) ?_
      unfold isSettable at hs
      rw [hl] at hs
      cases e <;> first | rfl | cases hs
  construct := hQ

omit H in
theorem Writes.writer : Writer E W V C L F I R (stableQ F) := S.writerQ fun _ _ _ _ h => h

omit H in
theorem Writes.post : Post E W V C L I R (stableQ F) := by
  intro rec H c hc w hw v w' h
  cases c
  case construct c kw =>
    have := construct_result S.toBase S.writer H hw h
    exact ⟨w.objs.length, this.1, S.fresh w hw, this.2⟩
  all_goals trivial

omit H in
theorem Writes.run_ok (n : Nat) : RecOk W V C L I R (stableQ F) (run E n) :=
  Verif.run_ok S.toBase S.writer S.post n

omit H in
theorem Writes.runProg_pres (n : Nat) (p : Prog) (hp : p.Uses W V C L) : Pres I R (runProg E n p) :=
  Verif.runProg_pres S.toBase S.writer S.post n p hp

end

theorem Stable.toWrites {E : Env} {W : Nat → Prop} {V : Prop} {C : Nat → Prop} {L : Prop} {F : Nat → Prop} {I : World → Prop}
    {R : World → World → Prop} (S : Stable E W V C L F I R) : Writes E W V C L F I R :=
  { S.toBase with
    write := fun r _ name _ v hr _ w hw => S.stored w r
      (fun b => if v.isUndef then eraseS name b else setS name v b) hw.1 hr
    put := fun r _ name _ v hF _ _ w hw => S.stored w r (setS name v) hw.1 (S.writable r hF)
    backend := S.writer.backend }

end Verif
