import Verif.Props.C24
import Verif.Props.C01
import Verif.Props.C19
import Verif.Spec.Survives
import Mathlib.Data.Rat.Encodable

/-!
# C70: what is stored survives JSON
-/

namespace Verif
open Spec

/-! ## Scalars -/

/-- A value a type may hold is left as it is by the type. -/
theorem admitted_accepted {E : Env} {w : World} {ty : PropTy} {v : Val} (hs : ScalarTy ty)
    (hr : StorableTy E ty) (ha : Admits E w ty v) (k : Nat) : scalarValidate E k ty v = some (.ok v) := by
  have fix : ∀ u, RepeatableTy E false ty → scalarValidate E k ty u = some (.ok v) →
      scalarValidate E k ty v = some (.ok v) := fun u h1 h2 => scalar_fixed h1 h2
  cases ha with
  | any => rfl
  | boolean c b => exact (canon_bool E c b).accepted k
  | integer c mn mx i hi => exact (canon_int E c mn mx i ((inBounds_iff ..).2 hi)).accepted k
  | float c mn mx f hf =>
    unfold scalarValidate floatValidate
    simp only [pyFloat, Val.isStr, Bool.false_and, Bool.false_eq_true, if_false,
      inBoundsF_of_within hf, if_true]
  | complex c a b =>
    unfold scalarValidate complexValidate
    simp [pyComplex, Val.isStr]
  | string cs m regex s t hm ht =>
    refine fix (.str s) hr ?_
    unfold scalarValidate stringValidate
    have h1 : regexOk E regex s = true := by
      cases regex with
      | none => rfl
      | some r => exact hm r rfl
    simp only [h1, if_true, changeCase_eq]
    rw [← (strip_spec ..).1 ht]
  | choice kvs c key vs hm =>
    obtain ⟨d, hd⟩ := hr
    have := C05_choice_fixed E 0 c d kvs hd none key (List.mem_map.2 ⟨_, hm, rfl⟩) {}
    rw [validated_choice] at this
    obtain ⟨s, k2, h1, h2, h3⟩ := this
    cases h1; cases h2
    unfold scalarValidate choiceValidate
    simp only [h3]
  | color _ hv =>
    obtain ⟨a, b, c, rfl, h1, h2, h3⟩ := hv
    exact congrArg some ((colorOfItems_iff [a, b, c] (.tup [a, b, c])).2 ⟨rfl, a, b, c, rfl, h1, h2, h3⟩)
  | datetime => rfl
  | uuid => rfl
  | tup => exact hs.elim
  | list => exact hs.elim
  | set => exact hs.elim
  | dict => exact hs.elim
  | inst => exact hs.elim
  | union => exact hs.elim

/-- A value a type may hold is written as JSON from which it is read again. -/
theorem admitted_json {padded : Bool} {E : Env} (hT : TextEnv padded E) (hN : NumberText E) {w : World}
    {ty : PropTy} {v : Val} (hs : ScalarTy ty) (ha : Admits E w ty v) (hl : Lossless padded v) :
    ∃ j, scalarToJson E ty v = some (.ok j) ∧ (j = .none → v = .none) ∧ scalarFromJson E ty j = some (.ok v) := by
  cases ha with
  | any => exact ⟨v, rfl, id, rfl⟩
  | boolean c b => exact (canon_bool E c b).json
  | integer c mn mx i hi => exact (canon_int E c mn mx i ((inBounds_iff ..).2 hi)).json
  | float c mn mx f hf =>
    cases f with
    | fin q => exact ⟨.float (.fin q), rfl, by simp, rfl⟩
    | nan => exact ⟨.str (s% "nan"), rfl, by simp, by unfold scalarFromJson pyFloat; simp only [hN.nan]; rfl⟩
    | pinf => exact ⟨.str (s% "inf"), rfl, by simp, by unfold scalarFromJson pyFloat; simp only [hN.inf]; rfl⟩
    | ninf => exact ⟨.str (s% "-inf"), rfl, by simp, by unfold scalarFromJson pyFloat; simp only [hN.ninf]; rfl⟩
  | complex c a b =>
    exact ⟨.str (E.strOfCplx a b), rfl, by simp, by unfold scalarFromJson pyComplex; simp only [hN.cplx]; rfl⟩
  | string cs m regex s t hm ht => exact ⟨_, rfl, by simp, rfl⟩
  | choice kvs c key vs hm => exact ⟨_, rfl, by simp, rfl⟩
  | color _ hv =>
    obtain ⟨a, b, c, rfl, h1, h2, h3⟩ := hv
    exact ⟨.list [a, b, c], rfl, by simp, rfl⟩
  | datetime t => exact (canon_datetime_any hT hl.1 hl.2.1 hl.2.2).json
  | uuid n => exact (canon_uuid_any hT hl).json
  | tup => exact hs.elim
  | list => exact hs.elim
  | set => exact hs.elim
  | dict => exact hs.elim
  | inst => exact hs.elim
  | union => exact hs.elim

theorem admitted_canon {padded : Bool} {E : Env} (hT : TextEnv padded E) (hN : NumberText E) {w : World}
    {ty : PropTy} {v : Val} (hs : ScalarTy ty) (hr : StorableTy E ty) (ha : Admits E w ty v)
    (hl : Lossless padded v) : CanonScalar E ty v := by
  refine ⟨?_, ?_, admitted_accepted hs hr ha, admitted_json hT hN hs ha hl⟩
  · rintro rfl; exact hl
  · rintro r rfl; exact hl

theorem ser_scalar_run {E : Env} {p : PropSpec} {v : Val} {x : Except ErrKind Val} (hd : p.ser = none)
    (hs : ScalarTy p.ty) (h0 : v ≠ .none) (h : scalarToJson E p.ty v = some x) (m : Nat) (nm : PyStr) (kw : SerKw)
    (w : World) : run E (m + 1) (.serializeP nm p v kw) w = liftK x w := by
  obtain ⟨rq, se, de, df, ty⟩ := p
  simp only [PropSpec.ty, PropSpec.ser] at hs h hd
  show serializeBody E (run E m) nm (.mk rq se de df ty) v kw w = _
  unfold serializeBody
  have hn0 : v.isNone = false := by cases v <;> first | rfl | exact absurd rfl h0
  simp only [PropSpec.ser, hd, hn0, Bool.false_eq_true, if_false, PropSpec.ty]
  cases ty <;> first | exact hs.elim | (simp only [h])

theorem lastsTy_scalar {E : Env} {padded ic tr : Bool} {w : World} {ty : PropTy} {v : Val} (hs : ScalarTy ty)
    (h : LastsTy E padded ic tr w ty v) : Lossless padded v := by
  cases ty <;> first | exact hs.elim | exact h

/-- C70: whatever a scalar property without custom functions may hold,
`prop.deserialize(prop.serialize(value))` is that value, and nothing else
happens. -/
theorem C70_scalar {padded : Bool} {E : Env} (hT : TextEnv padded E) (hN : NumberText E) {w0 : World}
    {p : PropSpec} {v : Val} (hc : NoCustom p) (hs : ScalarTy p.ty) (ha : Admits E w0 p.ty v)
    (hl : Lossless padded v) (nm : PyStr) : ∃ j, ∀ n kw kw' w w',
      run E (n + 1) (.serializeP nm p v kw) w = (.ok j, w) ∧
      run E (n + 1) (.deserializeP nm p j kw') w' = (.ok v, w') := by
  by_cases h0 : v = .none
  · subst h0
    refine ⟨.none, fun n kw kw' w w' => ⟨?_, ?_⟩⟩
    · show serializeBody E (run E n) nm p .none kw w = _
      unfold serializeBody
      simp only [hc.1]
      rfl
    · show deserializeBody E (run E n) nm p .none kw' w' = _
      unfold deserializeBody
      simp only [hc.2]
      rfl
  · obtain ⟨j, h1, h2, h3⟩ := admitted_json hT hN hs ha hl
    refine ⟨j, fun n kw kw' w w' => ⟨?_, ?_⟩⟩
    · rw [ser_scalar_run hc.1 hs h0 h1]; rfl
    · rw [deser_scalar_run hc.2 hs (fun e => h0 (h2 e)) h3]; rfl

/-! ## Trees -/

theorem storable_inv {E : Env} {p : PropSpec} (h : Storable E p) : NoCustom p ∧ StorableTy E p.ty := by
  obtain ⟨rq, se, de, df, ty⟩ := p
  exact ⟨⟨h.1, h.2.1⟩, h.2.2⟩

theorem written_plain {E : Env} {ic : Bool} {p : PropSpec} {v j : Val} (hp : p.ser = none)
    (h : WrittenAs E ic p v j) : scalarToJson E p.ty v = some (.ok j) := by
  rcases h with ⟨_, h⟩ | ⟨f, hf, _⟩
  · exact h
  · rw [hp] at hf; cases hf

theorem lasts_inv {E : Env} {padded ic tr : Bool} {w : World} {p : PropSpec} {v : Val}
    (h : Lasts E padded ic tr w p v) : LastsTy E padded ic tr w p.ty v := by
  obtain ⟨rq, se, de, df, ty⟩ := p
  exact h

/-- A storable value is canonical when the instances in it are. -/
theorem canon_of_admits {padded ic tr : Bool} {E : Env} (hT : TextEnv padded E) (hN : NumberText E) {w : World}
    {ty : PropTy} {v : Val} (nm : PyStr) (ha : Admits E w ty v) : ∀ p : PropSpec, p.ty = ty → Storable E p →
    Lasts E padded ic tr w p v →
    (∀ s c, Visits E w nm p v s → (∃ o, w.objs[s]? = some o ∧ isSub E o.cls c = true ∧
        Recovered E ic tr c o.cls) → ∀ q, NoCustom q → q.ty = .inst c →
      Canon E (fun _ _ => True) ic tr w q (.obj s)) →
    Canon E (fun _ _ => True) ic tr w p v := by
  have scalar : ∀ p : PropSpec, ∀ v, ScalarTy p.ty → Admits E w p.ty v → Storable E p →
      Lasts E padded ic tr w p v → Canon E (fun _ _ => True) ic tr w p v := fun p v hs ha hst hl =>
    .scalar p v (storable_inv hst).1 hs
      (admitted_canon hT hN hs (storable_inv hst).2 ha (lastsTy_scalar hs (lasts_inv hl))) trivial
  have seq : ∀ (k : SeqKind) (item : PropSpec) a b c (xs : List Val) (p : PropSpec), p.ty = .seq k item a b c →
      Storable E p → Lasts E padded ic tr w p (ofKind k xs) →
      (∀ s c, Visits E w nm p (ofKind k xs) s → (∃ o, w.objs[s]? = some o ∧ isSub E o.cls c = true ∧
        Recovered E ic tr c o.cls) → ∀ q, NoCustom q → q.ty = .inst c →
        Canon E (fun _ _ => True) ic tr w q (.obj s)) →
      (∀ x ∈ xs, ∀ p : PropSpec, p.ty = item.ty → Storable E p → Lasts E padded ic tr w p x →
        (∀ s c, Visits E w nm p x s → (∃ o, w.objs[s]? = some o ∧ isSub E o.cls c = true ∧
          Recovered E ic tr c o.cls) → ∀ q, NoCustom q → q.ty = .inst c →
          Canon E (fun _ _ => True) ic tr w q (.obj s)) → Canon E (fun _ _ => True) ic tr w p x) →
      Canon E (fun _ _ => True) ic tr w p (ofKind k xs) := by
    intro k item a b c xs p hp hst hl hi ih
    have h1 := (storable_inv hst).2
    have h2 := lasts_inv hl
    rw [hp] at h1 h2
    obtain ⟨h3, h4⟩ := h2 xs (iter_ofKind k xs)
    refine .seq p k item a b c xs (storable_inv hst).1 hp (fun hk => ⟨h1.1 hk, (h3 hk).1, (h3 hk).2⟩) fun x hx => ?_
    exact ih x hx item rfl h1.2 (h4 x hx) fun s c' hv =>
      hi s c' (.item nm p item k a b c _ x xs s (storable_inv hst).1.1 hp (iter_ofKind k xs) hx hv)
  induction ha with
  | any v => exact fun p hp hst hl _ => scalar p v (hp ▸ trivial) (hp ▸ .any v) hst hl
  | boolean c b => exact fun p hp hst hl _ => scalar p _ (hp ▸ trivial) (hp ▸ .boolean c b) hst hl
  | integer c mn mx i h => exact fun p hp hst hl _ => scalar p _ (hp ▸ trivial) (hp ▸ .integer c mn mx i h) hst hl
  | float c mn mx f h => exact fun p hp hst hl _ => scalar p _ (hp ▸ trivial) (hp ▸ .float c mn mx f h) hst hl
  | complex c a b => exact fun p hp hst hl _ => scalar p _ (hp ▸ trivial) (hp ▸ .complex c a b) hst hl
  | string cs m re s t h1 h2 =>
    exact fun p hp hst hl _ => scalar p _ (hp ▸ trivial) (hp ▸ .string cs m re s t h1 h2) hst hl
  | choice kvs c k vs h => exact fun p hp hst hl _ => scalar p _ (hp ▸ trivial) (hp ▸ .choice kvs c k vs h) hst hl
  | color v h => exact fun p hp hst hl _ => scalar p _ (hp ▸ trivial) (hp ▸ .color v h) hst hl
  | datetime t => exact fun p hp hst hl _ => scalar p _ (hp ▸ trivial) (hp ▸ .datetime t) hst hl
  | uuid n => exact fun p hp hst hl _ => scalar p _ (hp ▸ trivial) (hp ▸ .uuid n) hst hl
  | tup item a b c xs _ ih => exact fun p hp hst hl hi => seq .tup item a b c xs p hp hst hl hi ih
  | list item a b c xs _ ih => exact fun p hp hst hl hi => seq .list item a b c xs p hp hst hl hi ih
  | set item a b c xs _ ih => exact fun p hp hst hl hi => seq .set item a b c xs p hp hst hl hi ih
  | dict kp vp c kvs _ _ ihk ihv =>
    intro p hp hst hl hi
    have h1 := (storable_inv hst).2
    have h2 := lasts_inv hl
    rw [hp] at h1 h2
    obtain ⟨h3, h4, h5, h6⟩ := h2 kvs rfl
    refine .dict p kp vp c kvs (storable_inv hst).1 hp h1.1 (fun kv hkv => h3.1 _ (List.mem_map.2 ⟨kv, hkv, rfl⟩)) h3.2
      (fun kv hkv j hj => h4 kv hkv j (written_plain (storable_inv h1.2.1).1.1 hj))
      (h5.imp fun hab i j hi hj => hab i j (written_plain (storable_inv h1.2.1).1.1 hi)
        (written_plain (storable_inv h1.2.1).1.1 hj)) (fun kv hkv => ?_) (fun kv hkv => ?_)
    · exact ihk kv hkv kp rfl h1.2.1 (h6 kv hkv).1 fun s c' hv =>
        hi s c' (.key nm p kp vp c kvs kv s (storable_inv hst).1.1 hp hkv hv)
    · exact ihv kv hkv vp rfl h1.2.2 (h6 kv hkv).2 fun s c' hv =>
        hi s c' (.value nm p kp vp c kvs kv s (storable_inv hst).1.1 hp hkv hv)
  | inst c r h =>
    intro p hp hst hl hi
    have h2 := lasts_inv hl
    rw [hp] at h2
    obtain ⟨o, ho, h3⟩ := h
    refine hi r c (.inst nm p c r (storable_inv hst).1.1 hp) ⟨o, ho, ?_, h2 r o rfl ho⟩ p (storable_inv hst).1 hp
    unfold isSub
    rcases h3 with h3 | h3 <;> simp [h3]
  | union ps s q v _ _ _ =>
    intro p hp hst
    have h1 := (storable_inv hst).2
    rw [hp] at h1
    exact h1.elim

/-- The tree under an enduring instance is canonical. -/
theorem canon_of_typed {padded ic tr : Bool} {E : Env} (hT : TextEnv padded E) (hN : NumberText E) {w : World}
    (hw : WellTyped E w) {r : Nat} (hacc : Acc (fun a b => RefersOn E w b a) r) :
    (∀ s o, Reaches E w r s → w.objs[s]? = some o → Enduring E padded ic tr w o) →
    ∀ o c, w.objs[r]? = some o → isSub E o.cls c = true → Recovered E ic tr c o.cls →
    ∀ q : PropSpec, NoCustom q → q.ty = .inst c → Canon E (fun _ _ => True) ic tr w q (.obj r) := by
  induction hacc with
  | intro r _ ih =>
    intro hen o c ho hsub hrec q hq hty
    have he := hen r o (.refl r) ho
    refine .inst q c r o hq hty ho hsub hrec he.rebuild he.distinct (fun nm v hm => ?_) (fun nm v e p hm h1 h2 h0 => ?_)
    · obtain ⟨e, h1, _⟩ := hw r o ho nm v hm
      obtain ⟨p, h2, h3, _⟩ := he.own nm v e hm h1
      exact ⟨e, p, h1, h2, fun _ => skips_plain (storable_inv h3).1.1⟩
    · obtain ⟨e', h1', h3⟩ := hw r o ho nm v hm
      rw [h1] at h1'
      cases h1'
      obtain ⟨p', h4, h5, h6⟩ := he.own nm v e hm h1
      cases ownSpec_det h2 h4
      have ha : Admits E w p.ty v := by
        rcases h2 with rfl | rfl <;> exact h3
      refine canon_of_admits hT hN nm ha p rfl h5 (h6 h0) fun s c' hv ⟨o', ho', hs1, hs2⟩ q' hq' hty' => ?_
      have href : RefersOn E w r s := ⟨o, nm, v, e, p, ho, hm, h1, h2, hv⟩
      exact ih s href (fun t o2 ht => hen t o2 (.step r s t href ht)) o' c' ho' hs1 hs2 q' hq' hty'

/-! ## No cycles -/

theorem refersOn_lt {E : Env} {w : World} {r s : Nat} (h : RefersOn E w r s) : r < w.objs.length := by
  obtain ⟨o, _, _, _, _, ho, _⟩ := h
  exact (List.getElem?_eq_some_iff.1 ho).1

theorem reaches_snoc {E : Env} {w : World} {r s t : Nat} (h : Reaches E w r s) (h2 : RefersOn E w s t) :
    Reaches E w r t := reaches_trans h (.step _ _ _ h2 (.refl _))

/-- Instances from which no cycle can be reached: no infinite descent. -/
theorem acc_of_no_cycle {E : Env} {w : World} {r : Nat} (h : ∀ s, Reaches E w r s → ¬ OnCycle E w s) :
    Acc (fun a b => RefersOn E w b a) r := by
  -- `seen` are the instances on the way here
  suffices key : ∀ k (seen : List Nat) (r : Nat), seen.Nodup → (∀ s ∈ seen, s < w.objs.length) →
      w.objs.length ≤ seen.length + k → (∀ s ∈ seen, ∃ t, RefersOn E w s t ∧ Reaches E w t r) →
      (∀ s, Reaches E w r s → ¬ OnCycle E w s) → Acc (fun a b => RefersOn E w b a) r from
    key w.objs.length [] r List.nodup_nil (by simp) (by simp) (by simp) h
  intro k
  induction k with
  | zero =>
    intro seen r hnd hlt hk hseen hno
    refine ⟨r, fun s hs => ?_⟩
    have hr := refersOn_lt hs
    have hin : r ∈ seen := by
      have hsub : seen ⊆ List.range w.objs.length := fun x hx => List.mem_range.2 (hlt x hx)
      have hp := (List.subperm_of_subset hnd hsub).perm_of_length_le (by simpa using hk)
      exact hp.mem_iff.2 (List.mem_range.2 hr)
    obtain ⟨t, h1, h2⟩ := hseen r hin
    exact absurd ⟨t, h1, h2⟩ (hno r (.refl r))
  | succ k ih =>
    intro seen r hnd hlt hk hseen hno
    refine ⟨r, fun s hs => ?_⟩
    have hr := refersOn_lt hs
    have hnin : r ∉ seen := fun hin => by
      obtain ⟨t, h1, h2⟩ := hseen r hin
      exact hno r (.refl r) ⟨t, h1, h2⟩
    refine ih (r :: seen) s (List.nodup_cons.2 ⟨hnin, hnd⟩) ?_ ?_ ?_ ?_
    · intro x hx
      rcases List.mem_cons.1 hx with rfl | hx
      · exact hr
      · exact hlt x hx
    · simp only [List.length_cons]; omega
    · intro x hx
      rcases List.mem_cons.1 hx with rfl | hx
      · exact ⟨s, hs, .refl s⟩
      · obtain ⟨t, h1, h2⟩ := hseen x hx
        exact ⟨t, h1, reaches_snoc h2 hs⟩
    · exact fun x hx => hno x (.step _ _ _ hs hx)

/-- C70: in a state where every value is one its property may hold (C01: every
state that is reached), an instance from which no cycle can be reached, and whose
tree is enduring, is written as JSON data; reading it in any state gives a copy
made of new instances, and changes nothing else. -/
theorem C70_round_trip {padded ic tr : Bool} {E : Env} (hT : TextEnv padded E) (hN : NumberText E) {w : World}
    (hw : WellTyped E w) (hm : Unmarked w) {r : Nat} {o : Obj} (ho : w.objs[r]? = some o)
    (hcyc : ∀ s, Reaches E w r s → ¬ OnCycle E w s)
    (hen : ∀ s o, Reaches E w r s → w.objs[s]? = some o → Enduring E padded ic tr w o) :
    ∃ N j, ∀ n, N ≤ n → run E n (.hpSerialize r ⟨ic, false⟩) w = (.ok j, w) ∧
      ∀ strict w2, ∃ r' w3, run E n (.hpDeserialize o.cls j ⟨tr, strict, false⟩) w2 = (.ok (.obj r'), w3) ∧
        OnlyNew w2 w3 ∧ CopyOf E w w3 w2.objs.length (asProp o.cls) (.obj r) (.obj r') := by
  refine C24_round_trip (S := fun _ _ => True) ?_ hm
  exact canon_of_typed hT hN hw (acc_of_no_cycle hcyc) hen o o.cls ho (by unfold isSub; simp) (.inl rfl) _ ⟨rfl, rfl⟩ rfl

/-- C70 for histories: after any program that does not write to the private
`_backend`, every acyclic instance with an enduring tree survives. -/
theorem C70_histories {padded ic tr : Bool} {E : Env} (hT : TextEnv padded E) (hN : NumberText E)
    (hd : DistinctNames E) (hs : NoSubstitution E) (k : Nat) (p : Prog)
    (hb : (runProg E k p {}).2.bypass = false) {r : Nat} {o : Obj}
    (ho : (runProg E k p {}).2.objs[r]? = some o)
    (hcyc : ∀ s, Reaches E (runProg E k p {}).2 r s → ¬ OnCycle E (runProg E k p {}).2 s)
    (hen : ∀ s o, Reaches E (runProg E k p {}).2 r s → (runProg E k p {}).2.objs[s]? = some o →
      Enduring E padded ic tr (runProg E k p {}).2 o) :
    ∃ N j, ∀ n, N ≤ n →
      run E n (.hpSerialize r ⟨ic, false⟩) (runProg E k p {}).2 = (.ok j, (runProg E k p {}).2) ∧
      ∀ strict w2, ∃ r' w3, run E n (.hpDeserialize o.cls j ⟨tr, strict, false⟩) w2 = (.ok (.obj r'), w3) ∧
        OnlyNew w2 w3 ∧
        CopyOf E (runProg E k p {}).2 w3 w2.objs.length (asProp o.cls) (.obj r) (.obj r') := by
  have hidle := C19_histories_end_idle E k p {} (fun r o h => by simp at h)
  exact C70_round_trip hT hN (C01_stored_values_admitted E hd hs k p {} (C01_empty E) hb)
    (fun r o h => Bool.eq_false_iff.2 (hidle r o h).2.1) ho hcyc hen

/-! ## A tree with NaN, a complex number and a date -/

/-- A number for every float of the model. -/
def c70Code : PyFloat → Nat
  | .nan => 0
  | .pinf => 1
  | .ninf => 2
  | .fin q => 3 + Encodable.encode q

def c70Decode : Nat → Option PyFloat
  | 0 => some .nan
  | 1 => some .pinf
  | 2 => some .ninf
  | n + 3 => (Encodable.decode (α := Rat) n).map .fin

theorem c70_decode : ∀ f, c70Decode (c70Code f) = some f
  | .nan => rfl
  | .pinf => rfl
  | .ninf => rfl
  | .fin q => by
    show c70Decode (3 + Encodable.encode q) = _
    rw [Nat.add_comm]
    show (Encodable.decode (α := Rat) (Encodable.encode q)).map PyFloat.fin = _
    rw [Encodable.encodek]
    rfl

/-- A Float. -/
def c70Float : PropSpec := .mk false none none .undef (.float false none none)
/-- A Complex. -/
def c70Complex : PropSpec := .mk false none none .undef (.complex false)
/-- A DateTime. -/
def c70Date : PropSpec := .mk false none none .undef .datetime
/-- A list of instances of class 0. -/
def c70Kids : PropSpec := .mk false none none .undef (.seq .list (asProp 0) none none false)

/-- The properties of class 0. -/
def c70Props : List (PyStr × Entry) :=
  [(s% "f", .mutable c70Float), (s% "z", .mutable c70Complex), (s% "t", .mutable c70Date), (s% "kids", .mutable c70Kids)]

/-- One class with a Float, a Complex, a DateTime and a list of its own
instances; text functions that read what they write. -/
def c70Env : Env :=
  { textEnv with
    classes := fun _ => { (default : ClassDef) with name := s% "M", props := c70Props }
    floatOfStr := fun s => if s = s% "nan" then some .nan else if s = s% "inf" then some .pinf
      else if s = s% "-inf" then some .ninf else none
    strOfCplx := fun a b => List.replicate (Nat.pair (c70Code a) (c70Code b)) 'x'
    cplxOfStr := fun s => match c70Decode (Nat.unpair s.length).1, c70Decode (Nat.unpair s.length).2 with
      | some a, some b => some (a, b)
      | _, _ => none }

/-- Midnight of a leap day. -/
def c70Day : DateTime := ⟨2020, 2, 29, 0, 0, 0, 0⟩

/-- An instance in the list of another. -/
def c70World : World :=
  { objs := [
    { cls := 0, backend := [(s% "f", .float .nan), (s% "z", .cplx (.fin 1) .ninf)] },
    { cls := 0, backend := [(s% "f", .float .pinf), (s% "t", .dt c70Day), (s% "kids", .list [.obj 0])] }] }

theorem c70_text : TextEnv false c70Env := ⟨fun _ => rfl, fun _ => rfl, fun _ => rfl, fun _ => rfl⟩

theorem c70_numbers : NumberText c70Env := by
  refine ⟨rfl, rfl, rfl, fun a b => ?_⟩
  show (match c70Decode (Nat.unpair (List.replicate (Nat.pair (c70Code a) (c70Code b)) 'x').length).1,
      c70Decode (Nat.unpair (List.replicate (Nat.pair (c70Code a) (c70Code b)) 'x').length).2 with
      | some a, some b => some (a, b)
      | _, _ => none) = some (a, b)
  rw [List.length_replicate, Nat.unpair_pair, c70_decode, c70_decode]

theorem c70_objs {r : Nat} {o : Obj} (h : c70World.objs[r]? = some o) :
    (r = 0 ∧ o = { cls := 0, backend := [(s% "f", .float .nan), (s% "z", .cplx (.fin 1) .ninf)] }) ∨
    (r = 1 ∧ o = { cls := 0, backend := [(s% "f", .float .pinf), (s% "t", .dt c70Day), (s% "kids", .list [.obj 0])] }) := by
  match r, h with
  | 0, h => cases h; exact .inl ⟨rfl, rfl⟩
  | 1, h => cases h; exact .inr ⟨rfl, rfl⟩

theorem c70_typed : WellTyped c70Env c70World := by
  intro r o ho nm v hm
  rcases c70_objs ho with ⟨rfl, rfl⟩ | ⟨rfl, rfl⟩ <;>
    simp only [List.mem_cons, Prod.mk.injEq, List.not_mem_nil, or_false] at hm
  · rcases hm with ⟨rfl, rfl⟩ | ⟨rfl, rfl⟩
    · exact ⟨.mutable c70Float, rfl, .float _ _ _ _ trivial⟩
    · exact ⟨.mutable c70Complex, rfl, .complex _ _ _⟩
  · rcases hm with ⟨rfl, rfl⟩ | ⟨rfl, rfl⟩ | ⟨rfl, rfl⟩
    · exact ⟨.mutable c70Float, rfl, .float _ _ _ _ rfl⟩
    · exact ⟨.mutable c70Date, rfl, .datetime _⟩
    · refine ⟨.mutable c70Kids, rfl, .list _ _ _ _ _ fun x hx => ?_⟩
      simp only [List.mem_singleton] at hx
      subst hx
      exact .inst 0 0 ⟨_, rfl, .inl rfl⟩

theorem c70_refers {r s : Nat} (h : RefersOn c70Env c70World r s) : r = 1 ∧ s = 0 := by
  obtain ⟨o, nm, v, e, p, ho, hm, he, hp, hv⟩ := h
  have he : lookupS nm c70Props = some e := he
  rcases c70_objs ho with ⟨rfl, rfl⟩ | ⟨rfl, rfl⟩ <;>
    simp only [List.mem_cons, Prod.mk.injEq, List.not_mem_nil, or_false] at hm
  · rcases hm with ⟨rfl, rfl⟩ | ⟨rfl, rfl⟩ <;> cases he <;> cases ownSpec_det hp (.inl rfl)
    · exact (visits_scalar (p := c70Float) trivial hv).elim
    · exact (visits_scalar (p := c70Complex) trivial hv).elim
  · rcases hm with ⟨rfl, rfl⟩ | ⟨rfl, rfl⟩ | ⟨rfl, rfl⟩ <;> cases he <;> cases ownSpec_det hp (.inl rfl)
    · exact (visits_scalar (p := c70Float) trivial hv).elim
    · exact (visits_scalar (p := c70Date) trivial hv).elim
    · obtain ⟨xs, x, h1, h2, h3⟩ := visitsT_inv hv
      cases h1
      simp only [List.mem_singleton] at h2
      subst h2
      cases visitsT_inv h3
      exact ⟨rfl, rfl⟩

theorem c70_enduring (o : Obj) (r : Nat) (ho : c70World.objs[r]? = some o) :
    Enduring c70Env false false false c70World o := by
  have hcls : o.cls = 0 := by rcases c70_objs ho with ⟨_, rfl⟩ | ⟨_, rfl⟩ <;> rfl
  refine ⟨⟨?_, ?_, ?_, ?_⟩, ?_, ?_⟩
  · show (c70Props.map (·.1)).Nodup
    decide
  · intro nm e he
    have he : (nm, e) ∈ c70Props := he
    simp only [c70Props, List.mem_cons, Prod.mk.injEq, List.not_mem_nil, or_false] at he
    rcases he with ⟨rfl, rfl⟩ | ⟨rfl, rfl⟩ | ⟨rfl, rfl⟩ | ⟨rfl, rfl⟩ <;> exact .inl rfl
  · intro nm e he
    have he : (nm, e) ∈ c70Props := he
    simp only [c70Props, List.mem_cons, Prod.mk.injEq, List.not_mem_nil, or_false] at he
    rcases he with ⟨rfl, rfl⟩ | ⟨rfl, rfl⟩ | ⟨rfl, rfl⟩ | ⟨rfl, rfl⟩ <;> decide
  · intro nm p he
    have he : (nm, Entry.gettable p) ∈ c70Props := he
    simp [c70Props] at he
  · rcases c70_objs ho with ⟨_, rfl⟩ | ⟨_, rfl⟩ <;> decide
  · intro nm v e hm he
    have he : lookupS nm c70Props = some e := he
    rcases c70_objs ho with ⟨rfl, rfl⟩ | ⟨rfl, rfl⟩ <;>
      simp only [List.mem_cons, Prod.mk.injEq, List.not_mem_nil, or_false] at hm
    · rcases hm with ⟨rfl, rfl⟩ | ⟨rfl, rfl⟩ <;> cases he
      · exact ⟨c70Float, .inl rfl, ⟨rfl, rfl, trivial⟩, fun _ => trivial⟩
      · exact ⟨c70Complex, .inl rfl, ⟨rfl, rfl, trivial⟩, fun _ => trivial⟩
    · rcases hm with ⟨rfl, rfl⟩ | ⟨rfl, rfl⟩ | ⟨rfl, rfl⟩ <;> cases he
      · exact ⟨c70Float, .inl rfl, ⟨rfl, rfl, trivial⟩, fun _ => trivial⟩
      · exact ⟨c70Date, .inl rfl, ⟨rfl, rfl, trivial⟩, fun _ => ⟨⟨⟨by decide, by decide, by decide, 29, .inr (.inr (.inl ⟨rfl, ⟨by decide, by decide⟩, rfl⟩)), by decide⟩, by decide, by decide, by decide⟩, .inr (by decide), rfl⟩⟩
      · refine ⟨c70Kids, .inl rfl, ⟨rfl, rfl, by simp, rfl, rfl, trivial⟩, fun _ xs hxs => ⟨by simp, fun x hx r' o' hr ho' => ?_⟩⟩
        rcases c70_objs ho' with ⟨_, rfl⟩ | ⟨_, rfl⟩ <;> exact .inl rfl

/-- The hypotheses of `C70_round_trip` hold for an instance that holds another,
with infinity, a date, NaN and a complex number among the values. -/
theorem C70_example : ∃ N j, ∀ n, N ≤ n → run c70Env n (.hpSerialize 1 ⟨false, false⟩) c70World = (.ok j, c70World) ∧
      ∀ strict w2, ∃ r' w3, run c70Env n (.hpDeserialize 0 j ⟨false, strict, false⟩) w2 = (.ok (.obj r'), w3) ∧
        OnlyNew w2 w3 ∧ CopyOf c70Env c70World w3 w2.objs.length (asProp 0) (.obj 1) (.obj r') := by
  refine C70_round_trip c70_text c70_numbers c70_typed ?_ (r := 1) (o := { cls := 0, backend := [(s% "f", .float .pinf), (s% "t", .dt c70Day), (s% "kids", .list [.obj 0])] }) rfl ?_ fun s o _ ho => c70_enduring o s ho
  · intro r o ho
    rcases c70_objs ho with ⟨_, rfl⟩ | ⟨_, rfl⟩ <;> rfl
  · rintro s - ⟨t, h1, h2⟩
    obtain ⟨rfl, rfl⟩ := c70_refers h1
    cases h2 with
    | step _ u _ h3 _ => exact absurd (c70_refers h3).1 (by decide)

end Verif
