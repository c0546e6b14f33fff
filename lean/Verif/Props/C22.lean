import Verif.Props.C23
import Verif.Props.C27
import Verif.Lemmas.Each

/-!
# C22: what serialize() returns
-/

namespace Verif
open Spec

theorem jsonKey_of {v : Val} (h : Json v) (hh : v.hashable = true) : JsonKey v := by
  cases h <;> first | constructor | (unfold Val.hashable at hh; cases hh)

/-- The scalar types write admitted values as JSON data. -/
theorem scalar_json {E : Env} {w : World} {ty : PropTy} {v j : Val} (ha : Admits E w ty v)
    (hany : ty = .any → Json v) (h : scalarToJson E ty v = some (.ok j)) : Json j := by
  cases ha <;> unfold scalarToJson at h <;> simp only [Option.some.injEq] at h
  case any => cases h; exact hany rfl
  case boolean => cases h; constructor
  case integer => cases h; constructor
  case float => split at h <;> cases h <;> constructor
  case complex => cases h; constructor
  case string => cases h; constructor
  case choice => cases h; constructor
  case color hv =>
    obtain ⟨a, b, c, rfl, ha, hb, hc⟩ := hv
    have hbyte : ∀ {x : Val}, IsByte x → Json x := by
      intro x hx
      rcases hx with ⟨i, rfl, _⟩ | ⟨b, rfl⟩ <;> constructor
    cases h
    refine .list _ fun x hx => ?_
    simp only [List.mem_cons, List.not_mem_nil, or_false] at hx
    rcases hx with rfl | rfl | rfl <;> exact hbyte (by assumption)
  case datetime => cases h; constructor
  case uuid => cases h; constructor
  all_goals cases h

/-- What `Expressible` says for each type. -/
def ExprBody (E : Env) (w : World) (nm : PyStr) (v : Val) : PropTy → Prop
  | .seq _ it _ _ _ => ∀ xs, v.iter? = some xs → ∀ x ∈ xs, Expressible E w nm it x
  | .dict kp vp _ => ∀ kvs, v = .dict kvs →
      ∀ kv ∈ kvs, Expressible E w nm kp kv.1 ∧ Expressible E w nm vp kv.2
  | .inst _ => True
  | .union ps _ => (∀ q, Picks E w nm v ps (some q) → Expressible E w nm q v) ∧
      (Picks E w nm v ps none → Json v ∨ ∃ r, v = .obj r)
  | ty => Admits E w ty v ∧ (ty = .any → Json v)

theorem expr_custom {E : Env} {w : World} {ic : Bool} {nm : PyStr} {p : PropSpec} {v j : Val}
    {f : FnId} (h : Expressible E w nm p v) (hs : p.ser = some f)
    (ha : Answers E f v (serOpts ic) j) : Json j ∧ (j = .none ↔ v = .none) := by
  cases h
  case custom f' h1 h2 => rw [hs] at h1; cases h1; exact h2 ic j ha
  all_goals
    rename p.ser = none => h1
    rw [hs] at h1; cases h1

theorem expr_inv {E : Env} {w : World} {nm : PyStr} {p : PropSpec} {v : Val}
    (h : Expressible E w nm p v) (hser : p.ser = none) (hv : v ≠ .none) : ExprBody E w nm v p.ty := by
  cases h
  case custom f h1 _ => rw [hser] at h1; cases h1
  case none => exact absurd rfl hv
  case scalar _ h1 h2 h3 =>
    cases hty : p.ty <;> rw [hty] at h1 h2 h3 <;> first | exact h1.elim | exact ⟨h2, h3⟩
  case seq _ hty h => rw [hty]; exact h
  case dict _ hty h1 h2 => rw [hty]; exact fun kvs hk kv hkv => ⟨h1 kvs hk kv hkv, h2 kvs hk kv hkv⟩
  case inst _ hty => rw [hty]; trivial
  case union _ hty h1 h2 => rw [hty]; exact ⟨h1, h2⟩

theorem ser_none {E : Env} {w : World} {ic : Bool} {nm : PyStr} {p : PropSpec} {j : Val}
    (h : SerP E w ic nm p .none j) (he : Expressible E w nm p .none) : j = .none := by
  have : ∀ v, v = .none → SerP E w ic nm p v j → j = .none := by
    intro v hv h
    cases h with
    | custom _ _ f _ _ hs ha => subst hv; exact (expr_custom he hs ha).2.2 rfl
    | none => rfl
    | _ => first | contradiction | cases hv
  exact this _ rfl h

theorem ser_ne_none {E : Env} (hc : JsonCopies E) {w : World} {ic : Bool} :
    ∀ {nm : PyStr} {p : PropSpec} {v j : Val}, SerP E w ic nm p v j → Expressible E w nm p v →
      v ≠ .none → j ≠ .none
  | _, _, _, _, .custom nm p f v j hs ha, he, hv => fun hj => hv ((expr_custom he hs ha).2.1 hj)
  | _, _, _, _, .none nm p _, _, hv => absurd rfl hv
  | _, _, _, _, .scalar nm p v j _ _ h, _, hv => by
    intro hj
    subst hj
    cases hty : p.ty <;> rw [hty] at h <;> unfold scalarToJson at h <;> simp only [Option.some.injEq] at h <;>
      first
      | (cases h; exact hv rfl)
      | (split at h <;> cases h)
      | cases h
  | _, _, _, _, .seq .., _, _ => by simp
  | _, _, _, _, .dict .., _, _ => by simp
  | _, _, _, _, .inst _ _ _ _ _ _ _ (.mk ..), _, _ => by simp
  | _, _, _, _, .copy nm p c v j _ _ _ _ h, _, hv => fun hj => hv ((hc v j h).2 hj)
  | _, _, _, _, .union nm p ps s v q j hser _ hty hpk h, he, hv => by
    have hb := expr_inv he hser hv
    rw [hty] at hb
    exact ser_ne_none hc h (hb.1 q hpk) hv
  | _, _, _, _, .unionObj _ _ _ _ _ _ _ _ _ (.mk ..), _, _ => by simp
  | _, _, _, _, .unionAsIs .., _, hv => hv

theorem complete_mem {ic : Bool} {name : PyStr} {data : List (Val × Val)} {kv : Val × Val}
    (h : kv ∈ complete ic name data) :
    kv ∈ data ∨ (kv.2 = .str name ∧ (kv.1 = .str (s% "__class__") ∨ ∃ x, (kv.1, x) ∈ data)) := by
  unfold complete at h
  split at h
  · rcases dictSet_mem h with h | ⟨h, h' | ⟨x, h'⟩⟩
    · exact .inl (List.mem_filter.1 h).1
    · exact .inr ⟨h, .inl h'⟩
    · exact .inr ⟨h, .inr ⟨x, (List.mem_filter.1 h').1⟩⟩
  · exact .inl (List.mem_filter.1 h).1

mutual
theorem serP_json {E : Env} (hc : JsonCopies E) {w : World} {ic : Bool}
    (hw : ExpressibleWorld E w) :
    ∀ {nm : PyStr} {p : PropSpec} {v j : Val}, SerP E w ic nm p v j → Expressible E w nm p v →
      Json j
  | _, _, _, _, .none nm p _, _ => .none
  | _, _, _, _, .custom nm p f v j hs ha, he => (expr_custom he hs ha).1
  | _, _, _, _, .scalar nm p v j hser hv h, he => by
    have hb := expr_inv he hser hv
    cases hty : p.ty <;> rw [hty] at hb h <;> first
      | exact scalar_json hb.1 hb.2 h
      | cases h
  | _, _, _, _, .seq nm p it k lo hi c v xs js hser hv hty hi' h, he => by
    have hb := expr_inv he hser hv
    rw [hty] at hb
    exact .list _ (serL_json hc hw h (hb xs hi'))
  | _, _, _, _, .dict nm p kp vp c kvs jvs hser hty h hh, he => by
    have hb := expr_inv he hser (by simp)
    rw [hty] at hb
    have hd := serD_json hc hw h (hb kvs rfl)
    refine .dict _ (fun kv hkv => ?_) fun kv hkv => ?_
    · obtain ⟨⟨x, hx⟩, _⟩ := dictOfPairs_mem hkv
      exact jsonKey_of (hd (kv.1, x) hx).1 (hh (kv.1, x) hx)
    · obtain ⟨_, ⟨x, hx⟩⟩ := dictOfPairs_mem hkv
      exact (hd _ hx).2
  | _, _, _, _, .inst nm p c r j _ hty h, _ => serO_json hc hw h
  | _, _, _, _, .copy nm p c v j _ hty _ hno h, _ => (hc v j h).1
  | _, _, _, _, .union nm p ps st v q j hser hv hty hpk h, he => by
    have hb := expr_inv he hser hv
    rw [hty] at hb
    exact serP_json hc hw h (hb.1 q hpk)
  | _, _, _, _, .unionObj nm p ps st r j _ hty hpk h, _ => serO_json hc hw h
  | _, _, _, _, .unionAsIs nm p ps st v hser hv hty hpk hno, he => by
    have hb := expr_inv he hser hv
    rw [hty] at hb
    exact (hb.2 hpk).resolve_right fun ⟨r, hr⟩ => hno r hr
theorem serL_json {E : Env} (hc : JsonCopies E) {w : World} {ic : Bool}
    (hw : ExpressibleWorld E w) :
    ∀ {nm : PyStr} {p : PropSpec} {xs js : List Val}, SerL E w ic nm p xs js →
      (∀ x ∈ xs, Expressible E w nm p x) → ∀ j ∈ js, Json j
  | _, _, _, _, .nil nm p, _, x, hx => absurd hx (by simp)
  | _, _, _, _, .cons nm p y j xs js h hs, he, x, hx => by
    rcases List.mem_cons.1 hx with hxy | hx
    · rw [hxy]; exact serP_json hc hw h (he y (by simp))
    · exact serL_json hc hw hs (fun z hz => he z (by simp [hz])) x hx
theorem serD_json {E : Env} (hc : JsonCopies E) {w : World} {ic : Bool}
    (hw : ExpressibleWorld E w) :
    ∀ {nm : PyStr} {kp vp : PropSpec} {kvs jvs : List (Val × Val)},
      SerD E w ic nm kp vp kvs jvs →
      (∀ kv ∈ kvs, Expressible E w nm kp kv.1 ∧ Expressible E w nm vp kv.2) →
      ∀ kv ∈ jvs, Json kv.1 ∧ Json kv.2
  | _, _, _, _, _, .nil nm kp vp, _, x, hx => absurd hx (by simp)
  | _, _, _, _, _, .cons nm kp vp k x jk jx kvs jvs hk hx hs, he, kv, hkv => by
    rcases List.mem_cons.1 hkv with hxy | hkv
    · rw [hxy]
      exact ⟨serP_json hc hw hk (he (k, x) (by simp)).1, serP_json hc hw hx (he (k, x) (by simp)).2⟩
    · exact serD_json hc hw hs (fun z hz => he z (by simp [hz])) kv hkv
theorem serO_json {E : Env} (hc : JsonCopies E) {w : World} {ic : Bool}
    (hw : ExpressibleWorld E w) :
    ∀ {r : Nat} {j : Val}, SerO E w ic r j → Json j
  | _, _, .mk r o data ho h => by
    have hd := serF_json hc hw h (hw r o ho)
    refine .dict _ (fun kv hkv => ?_) fun kv hkv => ?_
    · rcases complete_mem hkv with h | ⟨_, h | ⟨x, h⟩⟩
      · exact (hd _ h).1
      · rw [h]; exact .str _
      · exact (hd _ h).1
    · rcases complete_mem hkv with h | ⟨h, _⟩
      · exact (hd _ h).2
      · rw [h]; exact .str _
theorem serF_json {E : Env} (hc : JsonCopies E) {w : World} {ic : Bool}
    (hw : ExpressibleWorld E w) :
    ∀ {c : ClsId} {b : List (PyStr × Val)} {data : List (Val × Val)}, SerF E w ic c b data →
      (∀ nm v, (nm, v) ∈ b → ∀ e p, lookupS nm (E.classes c).props = some e → OwnSpec e p →
        Expressible E w nm p v) → ∀ kv ∈ data, JsonKey kv.1 ∧ Json kv.2
  | _, _, _, .nil c, _, x, hx => absurd hx (by simp)
  | _, _, _, .cons c nm v e p j rest data hl hown h hs, he, kv, hkv => by
    rcases List.mem_cons.1 hkv with hxy | hkv
    · rw [hxy]
      exact ⟨.str nm, serP_json hc hw h (he nm v (by simp) e p hl hown)⟩
    · exact serF_json hc hw hs (fun a b hab => he a b (by simp [hab])) kv hkv
end

/-- The entries of the serialized backend, one for each stored value. -/
theorem serF_keys {E : Env} {w : World} {ic : Bool} :
    ∀ {c : ClsId} {b : List (PyStr × Val)} {data : List (Val × Val)}, SerF E w ic c b data →
      data.map (·.1) = (b.map (·.1)).map Val.str
  | _, _, _, .nil c => rfl
  | _, _, _, .cons c nm v e p j rest data hl hown h hs => by simp [serF_keys hs]

theorem serF_mem {E : Env} {w : World} {ic : Bool} :
    ∀ {c : ClsId} {b : List (PyStr × Val)} {data : List (Val × Val)}, SerF E w ic c b data →
      ∀ k j, (k, j) ∈ data → ∃ nm v e p, k = .str nm ∧ (nm, v) ∈ b ∧
        lookupS nm (E.classes c).props = some e ∧ OwnSpec e p ∧ SerP E w ic nm p v j
  | _, _, _, .nil c, _, _, h => absurd h (by simp)
  | _, _, _, .cons c nm v e p j rest data hl hown h hs, k, x, hm => by
    rcases List.mem_cons.1 hm with h' | h'
    · cases h'
      exact ⟨nm, v, e, p, rfl, by simp, hl, hown, h⟩
    · obtain ⟨nm', v', e', p', a1, a2, a3, a4, a5⟩ := serF_mem hs k x h'
      exact ⟨nm', v', e', p', a1, by simp [a2], a3, a4, a5⟩

/-- Each stored value has its entry. -/
theorem serF_has {E : Env} {w : World} {ic : Bool} :
    ∀ {c : ClsId} {b : List (PyStr × Val)} {data : List (Val × Val)}, SerF E w ic c b data →
      ∀ nm v, (nm, v) ∈ b → ∃ e p j, lookupS nm (E.classes c).props = some e ∧ OwnSpec e p ∧
        SerP E w ic nm p v j ∧ (.str nm, j) ∈ data
  | _, _, _, .nil c, _, _, h => absurd h (by simp)
  | _, _, _, .cons c nm v e p j rest data hl hown h hs, nm', v', hm => by
    rcases List.mem_cons.1 hm with h' | h'
    · cases h'
      exact ⟨e, p, j, hl, hown, h, by simp⟩
    · obtain ⟨e', p', j', a1, a2, a3, a4⟩ := serF_has hs nm' v' h'
      exact ⟨e', p', j', a1, a2, a3, by simp [a4]⟩

theorem pyEq_str_key {k : Val} {s : PyStr} (h : pyEq k (.str s) = true) : k = .str s := by
  cases k <;> unfold pyEq at h <;> simp [Val.num?] at h
  rw [h]

/-- Entries after an assignment to a text key. -/
theorem mem_dictSet_str {d : List (Val × Val)} (hd : (d.map (·.1)).Nodup) {s : PyStr} {x k j : Val} :
    (k, j) ∈ dictSet d (.str s) x ↔ (k = .str s ∧ j = x) ∨ (k ≠ .str s ∧ (k, j) ∈ d) := by
  have hrefl : pyEq (.str s) (.str s) = true := by unfold pyEq; simp
  induction d with
  | nil => simp [dictSet]
  | cons a d ih =>
    obtain ⟨k', j'⟩ := a
    simp only [List.map_cons, List.nodup_cons] at hd
    unfold dictSet
    split
    · rename_i h
      have h := pyEq_str_key h
      subst h
      simp only [List.mem_cons, Prod.mk.injEq]
      constructor
      · rintro (h | h)
        · exact .inl h
        · exact .inr ⟨fun hk => hd.1 (hk ▸ List.mem_map.2 ⟨_, h, rfl⟩), .inr h⟩
      · rintro (h | ⟨h, ⟨h1, _⟩ | h2⟩)
        · exact .inl h
        · exact absurd h1 h
        · exact .inr h2
    · rename_i h
      have hk : k' ≠ .str s := fun hk => h (hk ▸ hrefl)
      simp only [List.mem_cons, Prod.mk.injEq, ih hd.2]
      constructor
      · rintro (⟨rfl, rfl⟩ | h | ⟨h1, h2⟩)
        · exact .inr ⟨hk, .inl ⟨rfl, rfl⟩⟩
        · exact .inl h
        · exact .inr ⟨h1, .inr h2⟩
      · rintro (h | ⟨h1, h2 | h2⟩)
        · exact .inr (.inl h)
        · exact .inl h2
        · exact .inr (.inr ⟨h1, h2⟩)

theorem dictSet_str_nodup {d : List (Val × Val)} (hd : (d.map (·.1)).Nodup) (s : PyStr) (x : Val) :
    ((dictSet d (.str s) x).map (·.1)).Nodup := by
  rw [dictSet_keys]
  split
  · exact hd
  · rename_i h
    refine List.nodup_append.2 ⟨hd, by simp, fun a ha b hb => ?_⟩
    simp only [List.mem_singleton] at hb
    rintro rfl
    subst hb
    refine h (List.any_eq_true.2 ⟨_, ha, ?_⟩)
    unfold pyEq; simp

/-- **C22**.  Whenever `serialize()` succeeds, at whatever recursion limit, it
has changed nothing and returns a dictionary of JSON data without repeated keys.
The keys are the names of the properties with a value other than None, and
`__class__` if it is wanted, which holds the class name; under each property
name is the serialized form of the value of that property. -/
theorem C22_serialize {E : Env} (hc : JsonCopies E) {D : Nat} {w w' : World} {kw : SerKw}
    (hs : kw.saveDynamic = false) (ht : TameWorld E D w) (hx : ExpressibleWorld E w)
    {n r : Nat} {j : Val} (h : run E n (.hpSerialize r kw) w = (.ok j, w')) :
    w' = w ∧ ∃ o kvs, w.objs[r]? = some o ∧ j = .dict kvs ∧ Json j ∧ (kvs.map (·.1)).Nodup ∧
      (∀ k, k ∈ kvs.map (·.1) ↔ (kw.includeClass = true ∧ k = .str (s% "__class__")) ∨
        ∃ nm v, k = .str nm ∧ (nm, v) ∈ o.backend ∧ v ≠ .none) ∧
      (kw.includeClass = true → (.str (s% "__class__"), .str (E.classes o.cls).name) ∈ kvs) ∧
      (∀ nm v x, (nm, v) ∈ o.backend → (.str nm, x) ∈ kvs →
        ¬ (kw.includeClass = true ∧ nm = s% "__class__") →
        ∃ e p, lookupS nm (E.classes o.cls).props = some e ∧ OwnSpec e p ∧
          SerP E w kw.includeClass nm p v x) := by
  obtain ⟨x, hr, hq⟩ := hpSerialize_res (L := False) (F := False) (fun h => h) hs ht (fun h => h.elim)
    _ w (sameCore_refl w) (idleGs_le w) n (fun h => h.elim) r
  rw [h] at hr
  cases hr
  refine ⟨rfl, ?_⟩
  have hq : SerO E w kw.includeClass r j := hq
  have hj := serO_json hc hx hq
  cases hq with
  | mk _ o data ho hf =>
  refine ⟨o, _, ho, rfl, hj, ?_⟩
  obtain ⟨hnd, -⟩ := ht r o ho
  have hkeys := serF_keys hf
  have hinj : Function.Injective Val.str := fun a b h => by cases h; rfl
  have hdn : (data.map (·.1)).Nodup := by
    rw [hkeys]
    exact List.Pairwise.map _ (fun a b h h' => h (hinj h')) hnd
  have hfn : ((data.filter (fun kv => !kv.2.isNone)).map (·.1)).Nodup :=
    hdn.sublist (List.filter_sublist.map _)
  -- the entries that are not None
  have hin : ∀ k x, (k, x) ∈ data.filter (fun kv => !kv.2.isNone) ↔ (k, x) ∈ data ∧ x ≠ .none := by
    intro k x
    rw [List.mem_filter]
    refine and_congr_right fun _ => ?_
    cases x <;> simp [Val.isNone]
  have hfk : ∀ k, k ∈ (data.filter (fun kv => !kv.2.isNone)).map (·.1) ↔
      ∃ nm v, k = .str nm ∧ (nm, v) ∈ o.backend ∧ v ≠ .none := by
    intro k
    rw [List.mem_map]
    constructor
    · rintro ⟨⟨k', x⟩, h, rfl⟩
      obtain ⟨h, hxn⟩ := (hin k' x).1 h
      obtain ⟨nm, v, e, p, h1, h2, h3, h4, h5⟩ := serF_mem hf k' x h
      exact ⟨nm, v, h1, h2, fun hv => hxn (ser_none (hv ▸ h5) (hv ▸ hx r o ho nm v h2 e p h3 h4))⟩
    · rintro ⟨nm, v, rfl, hm, hv⟩
      obtain ⟨e, p, x, h1, h2, h3, h4⟩ := serF_has hf nm v hm
      exact ⟨(.str nm, x), (hin _ _).2 ⟨h4, ser_ne_none hc h3 (hx r o ho nm v hm e p h1 h2) hv⟩, rfl⟩
  have hfv : ∀ nm v x, (nm, v) ∈ o.backend → (.str nm, x) ∈ data →
      ∃ e p, lookupS nm (E.classes o.cls).props = some e ∧ OwnSpec e p ∧
          SerP E w kw.includeClass nm p v x := by
    intro nm v x hm hx
    obtain ⟨nm', v', e, p, h1, h2, h3, h4, h5⟩ := serF_mem hf _ x hx
    cases h1
    have : v = v' := by
      have a1 := mem_lookupS hnd hm
      have a2 := mem_lookupS hnd h2
      rw [a1] at a2
      cases a2
      rfl
    subst this
    exact ⟨e, p, h3, h4, h5⟩
  unfold complete
  cases hic : kw.includeClass with
  | false =>
    rw [hic] at hfv
    simp only [Bool.false_eq_true, if_false, false_and, false_or, false_implies, true_and, not_false_eq_true,
      forall_const]
    exact ⟨hfn, hfk, fun nm v x hm hx => hfv nm v x hm ((hin _ _).1 hx).1⟩
  | true =>
    rw [hic] at hfv
    simp only [if_true, true_and, forall_const]
    refine ⟨dictSet_str_nodup hfn _ _, fun k => ?_, ?_, fun nm v x hm hx hne => ?_⟩
    · rw [← hfk, List.mem_map, List.mem_map]
      constructor
      · rintro ⟨⟨k', x⟩, h, rfl⟩
        rcases (mem_dictSet_str hfn).1 h with ⟨h, _⟩ | ⟨_, h⟩
        · exact .inl h
        · exact .inr ⟨_, h, rfl⟩
      · rintro (rfl | ⟨⟨k', x⟩, h, rfl⟩)
        · exact ⟨_, (mem_dictSet_str hfn).2 (.inl ⟨rfl, rfl⟩), rfl⟩
        · by_cases hk : k' = .str (s% "__class__")
          · exact ⟨(_, _), (mem_dictSet_str hfn).2 (.inl ⟨hk, rfl⟩), rfl⟩
          · exact ⟨(_, _), (mem_dictSet_str hfn).2 (.inr ⟨hk, h⟩), rfl⟩
    · exact (mem_dictSet_str hfn).2 (.inl ⟨rfl, rfl⟩)
    · rcases (mem_dictSet_str hfn).1 hx with ⟨h, _⟩ | ⟨_, h⟩
      · exact absurd (Val.str.inj h) hne
      · exact hfv nm v x hm ((hin _ _).1 h).1

/-! ## Types without plain Properties and Unions need no further assumption -/

mutual
theorem definite_expressible {E : Env} {w : World} {nm : PyStr} :
    ∀ {p : PropSpec} {v : Val}, Definite p → Admits E w p.ty v → Expressible E w nm p v
  | .mk _ _ _ _ .any, _, hd, _ => hd.2.elim
  | .mk _ _ _ _ (.union _ _), _, hd, _ => hd.2.elim
  | .mk _ _ _ _ (.boolean _), _, hd, h => .scalar _ _ _ hd.1 trivial h (by simp [PropSpec.ty])
  | .mk _ _ _ _ (.integer _ _ _), _, hd, h => .scalar _ _ _ hd.1 trivial h (by simp [PropSpec.ty])
  | .mk _ _ _ _ (.float _ _ _), _, hd, h => .scalar _ _ _ hd.1 trivial h (by simp [PropSpec.ty])
  | .mk _ _ _ _ (.complex _), _, hd, h => .scalar _ _ _ hd.1 trivial h (by simp [PropSpec.ty])
  | .mk _ _ _ _ (.string _ _ _), _, hd, h => .scalar _ _ _ hd.1 trivial h (by simp [PropSpec.ty])
  | .mk _ _ _ _ (.choice _ _), _, hd, h => .scalar _ _ _ hd.1 trivial h (by simp [PropSpec.ty])
  | .mk _ _ _ _ .color, _, hd, h => .scalar _ _ _ hd.1 trivial h (by simp [PropSpec.ty])
  | .mk _ _ _ _ .datetime, _, hd, h => .scalar _ _ _ hd.1 trivial h (by simp [PropSpec.ty])
  | .mk _ _ _ _ .uuid, _, hd, h => .scalar _ _ _ hd.1 trivial h (by simp [PropSpec.ty])
  | .mk _ _ _ _ (.inst _), _, hd, _ => .inst _ _ _ _ hd.1 rfl
  | .mk _ _ _ _ (.seq k item a b c), v, hd, h => by
    refine .seq _ _ item k a b c v hd.1 rfl fun xs hxs x hx => ?_
    have hdi : Definite item := hd.2
    have h : Admits E w (.seq k item a b c) v := h
    cases h <;> (cases hxs; exact definite_expressible hdi (by rename_i hh; exact hh x hx))
  | .mk _ _ _ _ (.dict kp vp c), v, hd, h => by
    have hser := hd.1
    have hd : Definite kp ∧ Definite vp := hd.2
    have h : Admits E w (.dict kp vp c) v := h
    cases h with
    | dict _ _ _ kvs h1 h2 =>
      refine .dict _ _ kp vp c _ hser rfl (fun kvs hk kv hkv => ?_) fun kvs hk kv hkv => ?_
      · cases hk; exact definite_expressible hd.1 (h1 kv hkv)
      · cases hk; exact definite_expressible hd.2 (h2 kv hkv)
end

/-- In a world of well typed instances whose declarations use neither plain
Property nor Union, every stored value has a JSON form. -/
theorem C22_typed {E : Env} {w : World} (hw : WellTyped E w)
    (hd : ∀ c nm e p, lookupS nm (E.classes c).props = some e → OwnSpec e p → Definite p) :
    ExpressibleWorld E w := by
  intro r o ho nm v hm e p hl hown
  obtain ⟨e', hl', ha⟩ := hw r o ho nm v hm
  rw [hl] at hl'
  cases hl'
  refine definite_expressible (hd _ _ _ _ hl hown) ?_
  rcases hown with rfl | rfl <;> exact ha

/-! ## An example: a class with a nested instance, a dictionary and an unset property -/

/-- `class Leaf` with a Float, a Dictionary of Uuids by Integer, an optional String and
an optional `Leaf`. -/
def c22Env : Env :=
  { demoEnv with
    jsonCopy := fun _ => none
    classes := fun _ => { (default : ClassDef) with
      name := s% "Leaf"
      props := [
        (s% "f", .mutable (.mk false none none .undef (.float false none none))),
        (s% "d", .mutable (.mk false none none .undef
          (.dict (.mk false none none .undef (.integer false none none))
            (.mk false none none .undef .uuid) false))),
        (s% "s", .mutable (.mk false none none .undef (.string [] .keep none))),
        (s% "n", .mutable (.mk false none none .undef (.inst 0)))] } }

def c22World : World :=
  { objs := [
      { cls := 0, backend := [(s% "f", .float .pinf), (s% "s", .none), (s% "n", .obj 1)] },
      { cls := 0, backend := [(s% "d", .dict [(.int 1, .uuid 7), (.int 2, .uuid 8)])] }] }

theorem c22_tame : TameWorld c22Env 2 c22World := by
  intro r o ho
  match r, ho with
  | 0, ho =>
    cases ho
    refine ⟨by decide, fun nm v h => ?_⟩
    simp only [List.mem_cons, Prod.mk.injEq, List.not_mem_nil, or_false] at h
    rcases h with ⟨rfl, rfl⟩ | ⟨rfl, rfl⟩ | ⟨rfl, rfl⟩ <;>
      exact ⟨_, _, rfl, .inl rfl, by simp [Tame, TameTy], by simp [depth, depthTy]⟩
  | 1, ho =>
    cases ho
    refine ⟨by decide, fun nm v h => ?_⟩
    simp only [List.mem_singleton, Prod.mk.injEq] at h
    obtain ⟨rfl, rfl⟩ := h
    exact ⟨_, _, rfl, .inl rfl, by simp [Tame, TameTy], by simp [depth, depthTy]⟩
  | n + 2, ho => cases ho

theorem c22_expressible : ExpressibleWorld c22Env c22World := by
  intro r o ho nm v h e p hl hown
  match r, ho with
  | 0, ho =>
    cases ho
    simp only [List.mem_cons, Prod.mk.injEq, List.not_mem_nil, or_false] at h
    rcases h with ⟨rfl, rfl⟩ | ⟨rfl, rfl⟩ | ⟨rfl, rfl⟩ <;> cases hl <;>
      cases hown.resolve_right (by simp)
    · exact .scalar _ _ _ rfl trivial (.float _ _ _ _ rfl) (by simp [PropSpec.ty])
    · exact .none _ _ rfl
    · exact .inst _ _ _ _ rfl rfl
  | 1, ho =>
    cases ho
    simp only [List.mem_singleton, Prod.mk.injEq] at h
    obtain ⟨rfl, rfl⟩ := h
    cases hl
    cases hown.resolve_right (by simp)
    refine .dict _ _ _ _ _ _ rfl rfl (fun kvs hk kv hkv => ?_) fun kvs hk kv hkv => ?_ <;> cases hk <;>
      simp only [List.mem_cons, List.not_mem_nil, or_false] at hkv <;> rcases hkv with rfl | rfl
    · exact .scalar _ _ _ rfl trivial (.integer _ _ _ _ ⟨by simp, by simp⟩) (by simp [PropSpec.ty])
    · exact .scalar _ _ _ rfl trivial (.integer _ _ _ _ ⟨by simp, by simp⟩) (by simp [PropSpec.ty])
    · exact .scalar _ _ _ rfl trivial (.uuid _) (by simp [PropSpec.ty])
    · exact .scalar _ _ _ rfl trivial (.uuid _) (by simp [PropSpec.ty])
  | n + 2, ho => cases ho

/-- The hypotheses of `C22_serialize` are met, and `serialize()` succeeds. -/
theorem C22_example : JsonCopies c22Env ∧ TameWorld c22Env 2 c22World ∧
    ExpressibleWorld c22Env c22World ∧
    (run c22Env 10 (.hpSerialize 0 {}) c22World).1 = .ok (.dict [
      (.str (s% "f"), .str (s% "inf")),
      (.str (s% "n"), .dict [
        (.str (s% "d"), .dict [
          (.int 1, .str (c22Env.uuidToStr 7)),
          (.int 2, .str (c22Env.uuidToStr 8))]),
        (.str (s% "__class__"), .str (s% "Leaf"))]),
      (.str (s% "__class__"), .str (s% "Leaf"))]) :=
  ⟨fun _ _ h => (by cases h), c22_tame, c22_expressible, by with_unfolding_all rfl⟩

end Verif
