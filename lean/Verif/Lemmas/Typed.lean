import Verif.Spec.Types
import Verif.Lemmas.Hoare
import Verif.Lemmas.Restored
import Verif.Lemmas.Writes
import Verif.Props.C04
import Verif.Props.C06

/-!
# Stored values are admitted: the invariant
-/

namespace Verif
open Spec

/-- Classes are kept from one state to the other. -/
def ClsKept (w w' : World) : Prop := ∀ r c, HasCls r c w → HasCls r c w'

theorem Spec.InstanceOf.mono {E : Env} {w w' : World} (h : ClsKept w w') {r : Nat} {c : ClsId}
    (hi : InstanceOf E w r c) : InstanceOf E w' r c := by
  obtain ⟨o, h1, h2⟩ := hi
  obtain ⟨o', h3, h4⟩ := h r o.cls ⟨o, h1, rfl⟩
  exact ⟨o', h3, by rw [h4]; exact h2⟩

theorem Spec.Admits.mono {E : Env} {w w' : World} (h : ClsKept w w') {ty : PropTy} {v : Val}
    (ha : Admits E w ty v) : Admits E w' ty v := by
  induction ha with
  | any v => exact .any v
  | boolean c b => exact .boolean c b
  | integer c mn mx i hi => exact .integer c mn mx i hi
  | float c mn mx f hf => exact .float c mn mx f hf
  | complex c a b => exact .complex c a b
  | string cs m regex s t h1 h2 => exact .string cs m regex s t h1 h2
  | choice kvs c k vs hk => exact .choice kvs c k vs hk
  | color v hv => exact .color v hv
  | datetime t => exact .datetime t
  | uuid n => exact .uuid n
  | tup item a b c xs _ ih => exact .tup item a b c xs ih
  | list item a b c xs _ ih => exact .list item a b c xs ih
  | set item a b c xs _ ih => exact .set item a b c xs ih
  | dict kp vp c kvs _ _ ih1 ih2 => exact .dict kp vp c kvs ih1 ih2
  | inst c r hi => exact .inst c r (hi.mono h)
  | union ps s p v hp _ ih => exact .union ps s p v hp ih

theorem Spec.EntryAdmits.mono {E : Env} {w w' : World} (h : ClsKept w w') {e : Entry} {v : Val}
    (ha : EntryAdmits E w e v) : EntryAdmits E w' e v := by
  cases e with
  | renamed => trivial
  | _ => exact Admits.mono h ha

/-! ## Results of validate -/

theorem inBoundsF_within {mn mx : Option Rat} {f : PyFloat} (h : inBoundsF mn mx f = true) :
    FloatWithin mn mx f := by
  cases f with
  | fin q => exact (inBounds_iff ..).1 h
  | nan => trivial
  | pinf =>
    unfold inBoundsF at h
    cases mx
    · rfl
    · simp [PyFloat.lt] at h
  | ninf =>
    unfold inBoundsF at h
    cases mn
    · rfl
    · simp [PyFloat.lt] at h

theorem changeCase_eq (E : Env) (m : CaseMode) (s : PyStr) : changeCase E m s = recased E m s := by
  cases m <;> rfl

theorem colorValidate_rgb {E : Env} {k : Nat} {v x : Val} (h : colorValidate E k v = .ok x) :
    IsRGB x := by
  unfold colorValidate at h
  split at h
  · dsimp only at h
    split at h
    · obtain ⟨rfl, h'⟩ := (colorOfItems_iff _ x).1 h; exact h'
    · cases h
  · obtain ⟨rfl, h'⟩ := (colorOfItems_iff _ x).1 h; exact h'
  · obtain ⟨rfl, h'⟩ := (colorOfItems_iff _ x).1 h; exact h'
  · cases h

theorem scalar_admits {E : Env} {k : Nat} {ty : PropTy} {v x : Val} {y : Except SErr Val}
    (w : World) (h : scalarValidate E k ty v = some y) (hy : y = .ok x) : Admits E w ty x := by
  subst hy
  unfold scalarValidate at h
  cases ty with
  | any => cases h; exact .any _
  | boolean c =>
    simp only [Option.some.injEq] at h
    unfold boolValidate at h
    dsimp only at h
    split at h
    · cases h; exact .boolean ..
    · cases h
  | integer c mn mx =>
    simp only [Option.some.injEq] at h
    obtain ⟨i, rfl, hi⟩ := intValidate_sound E c mn mx v x h
    exact .integer _ _ _ _ hi
  | float c mn mx =>
    simp only [Option.some.injEq] at h
    unfold floatValidate at h
    split at h
    any_goals cases h
    split at h
    · cases h
    · split at h
      · rename_i hb
        cases h
        exact .float _ _ _ _ (inBoundsF_within hb)
      · cases h
  | complex c =>
    simp only [Option.some.injEq] at h
    unfold complexValidate at h
    split at h
    any_goals cases h
    split at h
    · cases h
    · cases h; exact .complex ..
  | string cs m regex =>
    simp only [Option.some.injEq] at h
    unfold stringValidate at h
    split at h
    · rename_i s
      split at h
      · rename_i hr
        cases h
        rw [changeCase_eq]
        refine .string cs m regex s _ ?_ ((strip_spec ..).2 rfl)
        rintro k rfl; exact hr
      · cases h
    · cases h
  | choice kvs b =>
    simp only [Option.some.injEq] at h
    unfold choiceValidate at h
    split at h
    · split at h
      · rename_i hk
        cases h
        obtain ⟨vals, hm, _⟩ := choiceFind_some E b _ _ kvs hk
        exact .choice _ _ _ vals hm
      · cases h
    · cases h
  | color =>
    simp only [Option.some.injEq] at h
    exact .color _ (colorValidate_rgb h)
  | datetime =>
    simp only [Option.some.injEq] at h
    unfold dtValidate at h
    split at h
    · cases h; exact .datetime _
    · split at h
      · cases h; exact .datetime _
      · cases h
    · cases h
  | uuid =>
    simp only [Option.some.injEq] at h
    unfold uuidValidate at h
    split at h
    · cases h; exact .uuid _
    · cases h
  | seq => cases h
  | dict => cases h
  | inst => cases h
  | union => cases h

theorem hoare_liftScalar {P : World → Prop} (E : Env) (rec : Rec) (nm : PyStr) (inst : Option Nat)
    (x : Except SErr Val) {T : Val → World → Prop} (h : ∀ v w, x = .ok v → T v w) :
    Hoare P (liftScalar E rec nm inst x) T := by
  intro w _ a w' e
  exact h a w' ((liftScalar_ok E rec nm inst x w a).1 (by rw [e]))

section
variable {I : World → Prop} {R : World → World → Prop} (S : Preord I R)
include S

theorem hoare_mapML {α β : Type} {f : α → M β} {T : β → World → Prop}
    (hT : ∀ b w w', R w w' → T b w → T b w') (hp : ∀ a, Pres I R (f a))
    (hf : ∀ a, Hoare I (f a) T) : ∀ xs, Hoare I (mapML f xs) (fun ys w => ∀ y ∈ ys, T y w)
  | [] => Hoare.pure fun _ _ y hy => by cases hy
  | x :: xs => by
      intro w hw ys w' h
      obtain ⟨y, w1, h1, h2⟩ := bind_ok_inv h
      obtain ⟨zs, w2, h3, h4⟩ := bind_ok_inv h2
      have hR1 := hp x w hw
      rw [h1] at hR1
      have hI1 := S.keep hR1 hw
      have hR2 := pres_mapML S hp xs w1 hI1
      rw [h3] at hR2
      cases h4
      intro z hz
      rcases List.mem_cons.1 hz with rfl | hz
      · exact hT _ _ _ hR2 (hf x w hw _ w1 h1)
      · exact hoare_mapML hT hp hf xs w1 hI1 _ _ h3 z hz

end

theorem hoare_foldML {α β : Type} {f : β → α → M β} {J : β → World → Prop}
    (hf : ∀ b a, Hoare (J b) (f b a) J) : ∀ xs b, Hoare (J b) (foldML f b xs) J
  | [], _ => Hoare.pure fun _ h => h
  | x :: xs, b => Hoare.bind (hf b x) fun b' => hoare_foldML hf xs b'

theorem setOfList_sub (xs : List Val) : ∀ y ∈ setOfList xs, y ∈ xs := by
  unfold setOfList
  have : ∀ (xs acc : List Val) (y : Val), y ∈ xs.foldl
      (fun acc x => if acc.any (fun y => pyEq y x) then acc else acc ++ [x]) acc →
      y ∈ acc ∨ y ∈ xs := by
    intro xs
    induction xs with
    | nil => intro acc y h; exact .inl h
    | cons x xs ih =>
      intro acc y h
      rcases ih _ _ h with h | h
      · dsimp only at h
        split at h
        · exact .inl h
        · rcases List.mem_append.1 h with h | h
          · exact .inl h
          · exact .inr (by simp at h; simp [h])
      · exact .inr (List.mem_cons_of_mem _ h)
  intro y h
  rcases this xs [] y h with h | h
  · cases h
  · exact h

theorem dictSet_mem {d : List (Val × Val)} {k v : Val} {kv : Val × Val} (h : kv ∈ dictSet d k v) :
    kv ∈ d ∨ (kv.2 = v ∧ (kv.1 = k ∨ ∃ x, (kv.1, x) ∈ d)) := by
  induction d with
  | nil => simp [dictSet] at h; exact .inr ⟨by simp [h], .inl (by simp [h])⟩
  | cons a d ih =>
    obtain ⟨k', v'⟩ := a
    unfold dictSet at h
    split at h
    · rcases List.mem_cons.1 h with rfl | h
      · exact .inr ⟨rfl, .inr ⟨v', by simp⟩⟩
      · exact .inl (List.mem_cons_of_mem _ h)
    · rcases List.mem_cons.1 h with rfl | h
      · exact .inl (by simp)
      · rcases ih h with h | ⟨h1, h2 | ⟨x, h2⟩⟩
        · exact .inl (List.mem_cons_of_mem _ h)
        · exact .inr ⟨h1, .inl h2⟩
        · exact .inr ⟨h1, .inr ⟨x, List.mem_cons_of_mem _ h2⟩⟩

/-- What is known about results: validated values are admitted, constructed
instances are of the class. -/
def typedQ (E : Env) : Call → Val → World → Prop
  | .validate _ p _ _, v, w => Admits E w p.ty v
  | .construct c _, v, w => ∃ r, v = .obj r ∧ True ∧ HasCls r c w
  | _, _, _ => True

section
variable {E : Env} {W : Nat → Prop} {V : Prop} {C : Nat → Prop} {L : Prop} {F : Nat → Prop} {I : World → Prop}
  {R : World → World → Prop} (S : Base E W V C L F I R) {rec : Rec} (H : RecOk W V C L I R (typedQ E) rec)
include S H

theorem pres_item (nm : PyStr) (p : PropSpec) (inst : Option Nat) (v : Val) :
    Pres I R (M.catchIf ErrKind.isValueError (rec (.validate nm p inst v))
      (fun _ => propError E rec nm inst)) := by pres S, H

theorem hoare_item (nm : PyStr) (p : PropSpec) (inst : Option Nat) (v : Val) :
    Hoare I (M.catchIf ErrKind.isValueError (rec (.validate nm p inst v))
      (fun _ => propError E rec nm inst)) (fun x w => Admits E w p.ty x) :=
  Hoare.catchIf I (fun w hw a w' h => H.post (.validate nm p inst v) trivial w hw a w' h)
    (fun w hw => S.keep (H.pres (.validate nm p inst v) trivial w hw) hw)
    fun _ => hoare_propError

omit H in
theorem clsKept_of_R {w w' : World} (h : R w w') : ClsKept w w' := fun _ _ => S.cls h

theorem hoare_seqValidate (nm : PyStr) (inst : Option Nat) (k : SeqKind) (item : PropSpec)
    (a b : Option Nat) (co : Bool) (v : Val) :
    Hoare I (seqValidate E rec nm inst k item co v)
      (fun x w => Admits E w (.seq k item a b co) x) := by
  have main : Hoare I (do
      let out ← mapML (fun x =>
        M.catchIf ErrKind.isValueError (rec (.validate nm item inst x))
          (fun _ => propError E rec nm inst)) (if v.isContainer then v.items else [v])
      mkSeq k out) (fun x w => Admits E w (.seq k item a b co) x) := by
    refine Hoare.bind (hoare_mapML (T := fun x w => Admits E w item.ty x) S.toPreord
      (fun _ _ _ hR h => Admits.mono (clsKept_of_R S hR) h)
      (fun x => by pres S, H) (fun x => hoare_item S H nm item inst x) _) fun out => ?_
    cases k with
    | tup => exact Hoare.pure fun w hw => .tup _ _ _ _ _ hw
    | list => exact Hoare.pure fun w hw => .list _ _ _ _ _ hw
    | set =>
      unfold mkSeq
      dsimp only
      split
      · exact Hoare.pure fun w hw => .set _ _ _ _ _ fun x hx => hw x (setOfList_sub _ x hx)
      · exact Hoare.never fun w a w' h => by cases h
  unfold seqValidate
  dsimp only
  split
  · exact Hoare.bind (Q := fun _ _ => False) (hoare_propError) fun _ _ h => h.elim
  · exact main

theorem hoare_dictValidate (nm : PyStr) (inst : Option Nat) (kp vp : PropSpec) (co : Bool)
    (v : Val) : Hoare I (dictValidate E rec nm inst kp vp co v)
      (fun x w => Admits E w (.dict kp vp co) x) := by
  unfold dictValidate
  refine Hoare.bind (Q := fun _ => I) ?_ fun items => ?_
  · split
    · exact Hoare.pure fun _ h => h
    · exact hoare_propError
  · let J : List (Val × Val) → World → Prop := fun d w => I w ∧
      (∀ kv ∈ d, Admits E w kp.ty kv.1) ∧ ∀ kv ∈ d, Admits E w vp.ty kv.2
    refine Hoare.bind (Q := J) ?_ fun out => Hoare.pure fun w hw => .dict _ _ _ _ hw.2.1 hw.2.2
    intro w hw
    refine hoare_foldML (J := J) (fun d kv => ?_) items [] w
      ⟨hw, by simp, by simp⟩
    intro w hw d' w' h
    obtain ⟨key, w1, h1, h⟩ := bind_ok_inv h
    obtain ⟨val, w2, h2, h⟩ := bind_ok_inv h
    have hR1 : R w w1 := by
      have := pres_item S H nm kp inst kv.1 w hw.1
      rw [h1] at this; exact this
    have hI1 := S.keep hR1 hw.1
    have hR2 : R w1 w2 := by
      have := pres_item S H nm vp inst kv.2 w1 hI1
      rw [h2] at this; exact this
    have a1 := hoare_item S H nm kp inst kv.1 w hw.1 key w1 h1
    have a2 := hoare_item S H nm vp inst kv.2 w1 hI1 val w2 h2
    have k1 := clsKept_of_R S hR1
    have k2 := clsKept_of_R S hR2
    have hd1 : ∀ kv ∈ d, Admits E w2 kp.ty kv.1 := fun kv h => ((hw.2.1 kv h).mono k1).mono k2
    have hd2 : ∀ kv ∈ d, Admits E w2 vp.ty kv.2 := fun kv h => ((hw.2.2 kv h).mono k1).mono k2
    split at h
    · cases h
      refine ⟨S.keep hR2 hI1, fun kv h => ?_, fun kv h => ?_⟩
      · rcases dictSet_mem h with h | ⟨_, h | ⟨x, h⟩⟩
        · exact hd1 _ h
        · rw [h]; exact a1.mono k2
        · exact hd1 (kv.1, x) h
      · rcases dictSet_mem h with h | ⟨h, _⟩
        · exact hd2 kv h
        · rw [h]; exact a2
    · cases h

omit S H in
theorem isSub_iff {c d : ClsId} : isSub E c d = true ↔ c = d ∨ d ∈ (E.classes c).ancestors := by
  unfold isSub; simp

theorem hoare_instValidate (nm : PyStr) (inst : Option Nat) (c : ClsId) (v : Val) :
    Hoare I (instValidate E rec nm inst c v) (fun x w => Admits E w (.inst c) x) := by
  unfold instValidate
  split
  · rename_i r
    intro w hw x w' h
    obtain ⟨o, w1, h1, h⟩ := bind_ok_inv h
    cases ho : w.objs[r]? with
    | none => rw [getObj_none ho] at h1; cases h1
    | some o' =>
      rw [getObj_some ho] at h1; cases h1
      split at h
      · rename_i hs
        cases h
        exact .inst _ _ ⟨_, ho, (isSub_iff).1 hs⟩
      · exact (propError_never_ok E rec nm inst w x (by rw [h])).elim
  · split
    · rename_i kw _
      refine Hoare.catchIf I (fun w hw a w' h => ?_)
        (fun w hw => S.keep (H.pres (.construct c kw) trivial w hw) hw) fun _ => hoare_propError
      obtain ⟨r, rfl, _, o, h1, h2⟩ := H.post (.construct c kw) trivial w hw a w' h
      exact .inst _ _ ⟨o, h1, .inl h2⟩
    · exact hoare_propError
  · exact hoare_propError

theorem hoare_tryProps (nm : PyStr) (inst : Option Nat) (v : Val) (ps : List PropSpec) (s : Bool) :
    ∀ qs, (∀ q ∈ qs, q ∈ ps) →
      Hoare I (tryProps E rec nm inst (fun p => .validate nm p inst v) qs)
        (fun x w => Admits E w (.union ps s) x)
  | [], _ => hoare_propError
  | q :: qs, hq => Hoare.catchIf I
      (fun w hw a w' h => .union _ _ q _ (hq q (by simp))
        (H.post (.validate nm q inst v) trivial w hw a w' h))
      (fun w hw => S.keep (H.pres (.validate nm q inst v) trivial w hw) hw)
      fun _ => hoare_tryProps nm inst v ps s qs fun q' h => hq q' (List.mem_cons_of_mem _ h)

/-- A validated value is admitted. -/
theorem hoare_validateBody (nm : PyStr) (p : PropSpec) (inst : Option Nat) (v : Val) :
    Hoare I (validateBody E rec nm p inst v) (fun x w => Admits E w p.ty x) := by
  unfold validateBody
  cases hty : p.ty with
  | seq k item a b co => exact hoare_seqValidate S H nm inst k item a b co v
  | dict kp vp co => exact hoare_dictValidate S H nm inst kp vp co v
  | inst c => exact hoare_instValidate S H nm inst c v
  | union ps s => exact hoare_tryProps S H nm inst v ps s ps fun _ h => h
  | color =>
    dsimp only
    unfold colorBody
    split
    · exact Hoare.bind (Q := fun _ _ => True) (fun _ _ _ _ _ => trivial) fun k =>
        hoare_liftScalar _ _ _ _ _ fun x w h => .color _ (colorValidate_rgb h)
    · exact hoare_liftScalar _ _ _ _ _ fun x w h => .color _ (colorValidate_rgb h)
  | _ =>
    dsimp only [scalarValidate]
    exact hoare_liftScalar _ _ _ _ _ fun x w h => scalar_admits (k := 0) (v := v) w rfl h

end

/-- In any state a validated value is admitted. -/
theorem run_validated (E : Env) (n : Nat) :
    RecOk (fun _ => True) True (fun _ => True) True (fun _ => True) Restored (typedQ E) (run E n) := by
  have S := (restored_stable E).toWrites
  have T : Writer E (fun _ => True) True (fun _ => True) True (fun _ => True) (fun _ => True) Restored (typedQ E) :=
    S.writerQ fun _ _ _ _ h => h
  refine run_ok S.toBase T ?_ n
  intro rec H c hc w hw v w' h
  cases c
  case validate nm p inst x => exact hoare_validateBody S.toBase H nm p inst x w hw v w' h
  case construct c kw =>
    have := construct_result S.toBase T H hw h
    exact ⟨w.objs.length, this.1, trivial, this.2⟩
  all_goals trivial

/-! ## Listeners that do not substitute -/

theorem execProg_onlyReturns (rec : Rec) {v : Val} : ∀ (p : Prog), OnlyReturns v p →
    ∀ w x w', execProg rec p w = (.ok x, w') → x = v
  | .ret y, h, w, x, w', e => by cases e; exact h
  | .raise _, _, w, x, w', e => by cases e
  | .call c k, h, w, x, w', e => execProg_onlyReturns rec (k _) (h _) _ x w' e
  | .disabled q b k, h, w, x, w', e => execProg_onlyReturns rec (k _) (h _) _ x w' e

/-- Validators that do not substitute leave the value as it is. -/
theorem notify_keeps {E : Env} (hE : NoSubstitution E) (rec : Rec) (r : Nat) (name : PyStr)
    (prev v : Val) {w w' : World} {x : Val}
    (h : notify E rec r .validate name prev v w = (.ok x, w')) : x = v := by
  unfold notify at h
  obtain ⟨o, w1, _, h⟩ := bind_ok_inv h
  obtain ⟨w2, w3, _, h⟩ := bind_ok_inv h
  dsimp only at h
  revert h
  generalize (if w2.quar.has Mode.validate = true then [] else _) = ls
  intro h
  refine (hoare_foldML (J := fun x _ => x = v) (fun b l => ?_) ls v w3 rfl x w' h)
  rintro w4 rfl y w5 h
  unfold notifyOne at h
  obtain ⟨_, w6, _, h⟩ := bind_ok_inv h
  exact execProg_onlyReturns rec _ (hE l.fn r name prev b) w6 y w5 h

/-! ## The invariant -/

/-- Unless `_backend` was assigned, stored values are admitted. -/
def Typed (E : Env) (w : World) : Prop := w.bypass = false → WellTyped E w

def TypedStep (E : Env) (w w' : World) : Prop := Restored w w' ∧ Typed E w'

theorem Restored.clsKept {w w' : World} (h : Restored w w') : ClsKept w w' :=
  fun _ _ ⟨o, ho, hc⟩ => by
    obtain ⟨o', h1, k⟩ := h.old _ o ho
    exact ⟨o', h1, k.cls.trans hc⟩

/-- Changes that keep stored values and `bypass`. -/
theorem Typed.of_same {E : Env} {w w' : World} (h : Typed E w) (hk : ClsKept w w')
    (hb : w'.bypass = false → w.bypass = false)
    (hs : ∀ (r : Nat) (o' : Obj), w'.objs[r]? = some o' → o'.backend = [] ∨
      ∃ o, w.objs[r]? = some o ∧ o.cls = o'.cls ∧ ∀ x ∈ o'.backend, x ∈ o.backend) :
    Typed E w' := by
  intro hb' r o' ho' nm v hm
  rcases hs r o' ho' with h1 | ⟨o, h1, h2, h3⟩
  · rw [h1] at hm; cases hm
  · obtain ⟨e, h4, h5⟩ := h (hb hb') r o h1 nm v (h3 _ hm)
    exact ⟨e, h2 ▸ h4, h5.mono hk⟩

theorem Typed.same_objs {E : Env} {w w' : World} (h : Typed E w) (ho : w'.objs = w.objs)
    (hb : w'.bypass = w.bypass) : Typed E w' :=
  h.of_same (fun _ _ ⟨o, h1, h2⟩ => ⟨o, ho ▸ h1, h2⟩) (fun h => hb ▸ h)
    fun _ o' h1 => .inr ⟨o', ho ▸ h1, rfl, fun _ h => h⟩

/-- Changes of one object that keep its class and stored values. -/
theorem Typed.setObj {E : Env} {w : World} (h : Typed E w) (r : Nat) (f : Obj → Obj)
    (hc : ∀ o, (f o).cls = o.cls) (hs : ∀ o, ∀ x ∈ (f o).backend, x ∈ o.backend) :
    Typed E (w.setObj r f) := by
  have get : ∀ (i : Nat) (o' : Obj), (w.setObj r f).objs[i]? = some o' →
      ∃ o, w.objs[i]? = some o ∧ (o' = o ∨ o' = f o) := by
    intro i o' h
    simp only [World.setObj, List.getElem?_modify] at h
    cases ho : w.objs[i]? with
    | none => rw [ho] at h; simp at h
    | some o =>
      rw [ho] at h
      by_cases hi : r = i <;> simp [hi] at h <;> exact ⟨o, rfl, by simp [h]⟩
  refine h.of_same (fun i c ⟨o, ho, hco⟩ => ?_) (fun h => h) fun i o' ho' => .inr ?_
  · by_cases hi : r = i
    · exact ⟨f o, by simp [World.setObj, ho, hi], (hc o).trans hco⟩
    · exact ⟨o, by simp [World.setObj, ho, hi], hco⟩
  · obtain ⟨o, h1, rfl | rfl⟩ := get i o' ho'
    · exact ⟨_, h1, rfl, fun _ h => h⟩
    · exact ⟨o, h1, (hc o).symm, hs o⟩

theorem typed_base (E : Env) :
    Base E (fun _ => True) True (fun _ => True) True (fun _ => True) (Typed E) (TypedStep E) where
  refl w h := ⟨Restored.refl w, h⟩
  trans h k := ⟨h.1.trans k.1, k.2⟩
  keep h _ := h.2
  fns _ _ := Prog.uses_all _
  fresh _ _ := trivial
  writable _ _ := trivial
  trace w0 w e h0 h1 h2 h3 h4 := ⟨(restored_stable E).trace w0 w e trivial h1.1 h2 h3 h4, h1.2.same_objs rfl rfl⟩
  collects _ _ _ _ := trivial
  hooks w r ts h hc := ⟨(restored_stable E).hooks w r ts trivial hc, h.same_objs rfl rfl⟩
  tick w h := ⟨(restored_stable E).tick w trivial, h.same_objs rfl rfl⟩
  user w v h := ⟨(restored_stable E).user w v trivial, h.same_objs rfl rfl⟩
  errs w r o es ts h hC h1 h2 := ⟨(restored_stable E).errs w r o es ts trivial hC h1 h2,
    h.setObj r _ (fun _ => rfl) fun _ _ h => h⟩
  observe w r ls h h1 _ := ⟨(restored_stable E).observe w r ls trivial h1 trivial,
    h.setObj r _ (fun _ => rfl) fun _ _ h => h⟩
  alloc w c h := by
    have hr := (restored_stable E).alloc w c trivial
    refine ⟨hr, h.of_same hr.clsKept (fun h => h) fun r o' ho' => ?_⟩
    rcases Nat.lt_trichotomy r w.objs.length with hl | hl | hl
    · rw [List.getElem?_append_left hl] at ho'
      exact .inr ⟨o', ho', rfl, fun _ h => h⟩
    · subst hl
      simp at ho'
      subst ho'
      exact .inl rfl
    · have := (List.getElem?_eq_some_iff.1 ho').1
      simp at this; omega
  quar w q h := h.same_objs rfl rfl
  disabled w w' q h h1 := ⟨(restored_stable E).disabled w w' q trivial h1.1, h1.2.same_objs rfl rfl⟩
  cls h := (restored_stable E).cls h.1
  idle h := (restored_stable E).idle h.1
  validatingI w r h _ := h.setObj r _ (fun _ => rfl) fun _ _ h => h
  validating w w' r h hi h1 := ⟨(restored_stable E).validating w w' r trivial hi h1.1,
    h1.2.setObj r _ (fun _ => rfl) fun _ _ h => h⟩
  serializingI w r h := h.setObj r _ (fun _ => rfl) fun _ _ h => h
  serializing w w' r o h ho hi h1 := ⟨(restored_stable E).serializing w w' r o trivial ho hi h1.1,
    h1.2.setObj r _ (fun _ => rfl) fun _ _ h => h⟩
  comparingI w r h := h.setObj r _ (fun _ => rfl) fun _ _ h => h
  comparing w w' r o h ho hi h1 := ⟨(restored_stable E).comparing w w' r o trivial ho hi h1.1,
    h1.2.setObj r _ (fun _ => rfl) fun _ _ h => h⟩

theorem mem_setS {α : Type} {k : PyStr} {v : α} {l : List (PyStr × α)} {x : PyStr × α}
    (h : x ∈ setS k v l) : x ∈ l ∨ x = (k, v) := by
  induction l with
  | nil => simp [setS] at h; exact .inr h
  | cons a l ih =>
    obtain ⟨k', v'⟩ := a
    unfold setS at h
    split at h
    · rename_i hk
      rcases List.mem_cons.1 h with h | h
      · exact .inr (by rw [h, hk])
      · exact .inl (List.mem_cons_of_mem _ h)
    · rcases List.mem_cons.1 h with h | h
      · exact .inl (by simp [h])
      · rcases ih h with h | h
        · exact .inl (List.mem_cons_of_mem _ h)
        · exact .inr h

theorem mem_eraseS {α : Type} {k : PyStr} {l : List (PyStr × α)} {x : PyStr × α}
    (h : x ∈ eraseS k l) : x ∈ l := by
  induction l with
  | nil => exact h
  | cons a l ih =>
    obtain ⟨k', v'⟩ := a
    unfold eraseS at h
    split at h
    · exact List.mem_cons_of_mem _ (ih h)
    · rcases List.mem_cons.1 h with h | h
      · simp [h]
      · exact List.mem_cons_of_mem _ (ih h)

/-- Writing a value that the property admits. -/
theorem typed_put {E : Env} {w : World} (h : Typed E w) {r : Nat} {c : ClsId} {name : PyStr}
    {e : Entry} {v : Val} (hc : HasCls r c w) (hl : lookupS name (E.classes c).props = some e)
    (hv : EntryAdmits E w e v) (f : List (PyStr × Val) → List (PyStr × Val))
    (hf : ∀ l, ∀ x ∈ f l, x ∈ l ∨ x = (name, v)) :
    TypedStep E w (w.setObj r (fun o => { o with backend := f o.backend })) := by
  have hr := (restored_stable E).stored w r f trivial trivial
  refine ⟨hr, fun hb i o' ho' nm u hm => ?_⟩
  by_cases hi : r = i
  · subst hi
    obtain ⟨o, ho, rfl⟩ := hc
    simp [World.setObj, ho] at ho'
    subst ho'
    rcases hf _ _ hm with hm | hm
    · obtain ⟨e', h1, h2⟩ := h hb r o ho nm u hm
      exact ⟨e', h1, h2.mono hr.clsKept⟩
    · cases hm
      exact ⟨e, hl, hv.mono hr.clsKept⟩
  · simp [World.setObj, hi] at ho'
    obtain ⟨e', h1, h2⟩ := h hb i o' ho' nm u hm
    exact ⟨e', h1, h2.mono hr.clsKept⟩

section
variable {E : Env} {rec : Rec}
  (H : RecOk (fun _ => True) True (fun _ => True) True (Typed E) (TypedStep E) (typedQ E) rec)
include H

/-- `_set` with an admitted value or `undefined`. -/
theorem pres_setBody_typed (hE : NoSubstitution E) (r : Nat) (c : ClsId) (name : PyStr)
    (p : PropSpec) (v : Val) (hl : lookupS name (E.classes c).props = some (.mutable p)) :
    Pres (fun w => (Typed E w ∧ HasCls r c w) ∧ (v = .undef ∨ Admits E w p.ty v)) (TypedStep E)
      (setBody E rec r name p v) := by
  have S := typed_base E
  let J : World → Prop := fun w => (Typed E w ∧ HasCls r c w) ∧ (v = .undef ∨ Admits E w p.ty v)
  have P : Preord J (TypedStep E) := (S.toPreord.with (P := HasCls r c) S.cls).with
    fun h hv => hv.imp id fun h' => h'.mono (clsKept_of_R S h)
  have hn := fun mode prev v => pres_notify S H r mode name prev v (.inl trivial)
  unfold setBody
  refine pres_bind P ((pres_getObj S.toPreord r).weaken fun _ h => h.1.1) fun o => ?_
  dsimp only
  refine pres_bind_mid P (Q := fun x w => J w ∧ x = v)
    ((hn _ _ _).weaken fun _ h => h.1.1) (fun w hw x w' h => ⟨?_, notify_keeps hE rec r name _ v h⟩)
    fun v1 => ?_
  · have := hn .validate ((lookupS name o.backend).getD .undef) v w hw.1.1
    rw [h] at this
    exact P.keep this hw
  · intro w ⟨hw, he⟩
    subst he
    refine pres_bind P ?_ (fun _ => Pres.weaken (I := Typed E) ?_ fun _ h => h.1.1) w hw
    · intro w hw
      have hput : v1.isUndef = false → Admits E w p.ty v1 := fun h => by
        rcases hw.2 with rfl | h'
        · cases h
        · exact h'
      by_cases hu : v1.isUndef = true
      · refine ⟨(restored_stable E).stored w r
          (fun b => if v1.isUndef then eraseS name b else setS name v1 b) trivial trivial, ?_⟩
        refine hw.1.1.setObj r _ (fun _ => rfl) fun o x hx => ?_
        rw [if_pos hu] at hx
        exact mem_eraseS hx
      · refine typed_put hw.1.1 hw.1.2 hl (v := v1) (hput (by simpa using hu))
          (fun b => if v1.isUndef then eraseS name b else setS name v1 b) fun l x hx => ?_
        rw [if_neg hu] at hx
        exact mem_setS hx
    · repeat' (first | with_reducible exact hn _ _ _ | pres1 S, H)

theorem hoare_entryValidate (name : PyStr) (e : Entry) (inst : Option Nat) (v : Val) :
    Hoare (Typed E) (entryValidate rec name e inst v) (fun x w => EntryAdmits E w e x) := by
  unfold entryValidate
  cases e with
  | renamed => exact Hoare.pure fun _ _ => trivial
  | _ => exact fun w hw x w' h => H.post (.validate name _ inst v) trivial w hw x w' h

/-- Validating and storing a value. -/
theorem pres_validate_put (r : Nat) (c : ClsId) (name : PyStr) (e : Entry) (v : Val)
    (hl : lookupS name (E.classes c).props = some e) :
    Pres (fun w => Typed E w ∧ HasCls r c w) (TypedStep E) (do
      let x ← entryValidate rec name e (some r) v
      putStored r name x) := by
  have S := typed_base E
  have P := S.toPreord.with (P := HasCls r c) S.cls
  have h1 := pres_entryValidate S H name e (some r) v
  refine pres_bind_mid P (Q := fun x w => (Typed E w ∧ HasCls r c w) ∧ EntryAdmits E w e x)
    (h1.weaken fun _ h => h.1) (fun w hw x w' h => ⟨?_, ?_⟩) fun x w hw => ?_
  · have := h1 w hw.1
    rw [h] at this
    exact P.keep this hw
  · exact hoare_entryValidate H name e (some r) v w hw.1 x w' h
  · exact typed_put hw.1.1 hw.1.2 hl hw.2 (setS name x) fun l y hy => mem_setS hy

end

theorem lookupS_of_mem {α : Type} {l : List (PyStr × α)} {kv : PyStr × α}
    (hn : (l.map (·.1)).Nodup) (h : kv ∈ l) : lookupS kv.1 l = some kv.2 := by
  induction l with
  | nil => cases h
  | cons a l ih =>
    obtain ⟨k', v'⟩ := a
    simp only [List.map_cons, List.nodup_cons] at hn
    unfold lookupS
    rcases List.mem_cons.1 h with rfl | h
    · simp
    · rw [if_neg, ih hn.2 h]
      intro hk
      exact hn.1 (hk ▸ List.mem_map.2 ⟨kv, h, rfl⟩)

theorem typed_writer {E : Env} (hE : NoSubstitution E) (hd : DistinctNames E) :
    Writer E (fun _ => True) True (fun _ => True) True (fun _ => True) (Typed E) (TypedStep E) (typedQ E) where
  assign rec H r c name p v _ hl := by
    have S := typed_base E
    have P := S.toPreord.with (P := HasCls r c) S.cls
    have hs := pres_setBody_typed H hE r c name p
    have hv := H.pres (.validate name p (some r) v) trivial
    unfold assignBody
    have hp : Pres (fun w => Typed E w ∧ HasCls r c w) (TypedStep E)
        (if v.isUndef = true then pure v else rec (.validate name p (some r) v) : M Val) := by
      split
      · exact pres_pure P _
      · exact hv.weaken fun _ h => h.1
    refine pres_bind_mid P
      (Q := fun x w => (Typed E w ∧ HasCls r c w) ∧ (x = .undef ∨ Admits E w p.ty x))
      hp (fun w hw x w' h => ⟨?_, ?_⟩) fun x => ?_
    · have := hp w hw
      rw [h] at this
      exact P.keep this hw
    · split at h
      · rename_i hu
        cases h
        cases v <;> simp [Val.isUndef] at hu
        exact .inl rfl
      · exact .inr (H.post (.validate name p (some r) v) trivial w hw.1 x w' h)
    · refine pres_bind_mid P (Q := fun _ => Typed E) (hs x hl) (fun w hw _ w' h => ?_)
        fun _ => pres_pure S.toPreord _
      have := hs x hl w hw
      rw [h] at this
      exact this.2
  erase rec H r c name p _ hl := (pres_setBody_typed H hE r c name p .undef hl).weaken
    fun _ h => ⟨h, .inl rfl⟩
  backend r v _ := by
    have hb : ∀ f : Obj → List (PyStr × Val), Pres (fun w => w.bypass = true) (TypedStep E)
        (modObj r (fun o => { o with backend := f o })) := by
      intro f w hw
      refine ⟨Restored.setObj w r _ fun o _ =>
        ⟨rfl, Iff.rfl, fun h => h, rfl, rfl, fun _ h => h, List.prefix_refl _⟩, fun h => ?_⟩
      have h' : w.bypass = false := h
      rw [hw] at h'; cases h'
    unfold setBackend
    refine pres_bind_mid (typed_base E).toPreord (Q := fun _ w => w.bypass = true)
      (fun w hw => ⟨(restored_stable E).bypass w trivial, fun h => Bool.noConfusion h⟩)
      (fun w hw _ w' h => (congrArg (fun x => x.2.bypass) h).symm) fun _ => ?_
    split
    · exact hb fun _ => _
    · exact hb fun _ => _
  gettable rec H r c kv _ hm := by
    have S := typed_base E
    have P := S.toPreord.with (P := HasCls r c) S.cls
    have hl := lookupS_of_mem (hd c) hm
    unfold gettableDefault
    split
    · exact pres_pure P _
    · split
      · exact pres_pure P _
      · exact pres_pure P _
      · exact pres_bind P ((pres_evalDflt S H _).weaken fun _ h => h.1) fun v =>
          pres_validate_put H r c kv.1 kv.2 v hl
  immutable rec H r c kv _ _ := by
    have S := typed_base E
    have P := S.toPreord.with (P := HasCls r c) S.cls
    unfold setImmutable
    split
    · exact pres_raiseK P _
    · rename_i e hl
      exact pres_validate_put H r c kv.1 e kv.2 hl
  construct c kw v w h := h

theorem typed_post {E : Env} (hE : NoSubstitution E) (hd : DistinctNames E) :
    Post E (fun _ => True) True (fun _ => True) True (Typed E) (TypedStep E) (typedQ E) := by
  intro rec H c hc w hw v w' h
  cases c
  case validate nm p inst x => exact hoare_validateBody (typed_base E) H nm p inst x w hw v w' h
  case construct c kw =>
    have := construct_result (typed_base E) (typed_writer hE hd) H hw h
    exact ⟨w.objs.length, this.1, trivial, this.2⟩
  all_goals trivial

/-- Every call keeps the invariant; validated values are admitted. -/
theorem run_typed {E : Env} (hE : NoSubstitution E) (hd : DistinctNames E) (n : Nat) :
    RecOk (fun _ => True) True (fun _ => True) True (Typed E) (TypedStep E) (typedQ E) (run E n) :=
  run_ok (typed_base E) (typed_writer hE hd) (typed_post hE hd) n

end Verif
