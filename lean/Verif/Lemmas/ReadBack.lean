import Verif.Lemmas.RoundTrip
import Verif.Lemmas.Each
import Verif.Lemmas.Serialize
import Mathlib.Data.List.Induction

/-!
# Deserializing the serialized form of a canonical tree
-/

namespace Verif
open Spec

/-! ## What the serialized form looks like -/

/-- Serialized forms by type. -/
def SerBody (E : Env) (w : World) (ic : Bool) (nm : PyStr) (ty : PropTy) (v j : Val) : Prop :=
  match ty with
  | .seq _ it _ _ _ => ∃ xs js, v.iter? = some xs ∧ SerL E w ic nm it xs js ∧ j = .list js
  | .dict kp vp _ => ∃ kvs jvs, v = .dict kvs ∧ SerD E w ic nm kp vp kvs jvs ∧ j = .dict (dictOfPairs jvs)
  | .inst _ => ∀ r, v = .obj r → SerO E w ic r j
  | .union ps _ => (∃ q, Picks E w nm v ps (some q) ∧ SerP E w ic nm q v j) ∨ Picks E w nm v ps none
  | ty => scalarToJson E ty v = some (.ok j)

theorem serP_inv {E : Env} {w : World} {ic : Bool} {nm : PyStr} {p : PropSpec} {v j : Val}
    (h : SerP E w ic nm p v j) (hser : p.ser = none) (hv : v ≠ .none) : SerBody E w ic nm p.ty v j := by
  cases h with
  | custom _ _ f _ _ h => rw [hser] at h; cases h
  | none => exact absurd rfl hv
  | scalar _ _ _ _ _ _ h =>
    cases hty : p.ty <;> rw [hty] at h <;> first | exact h | cases h
  | seq _ _ it k lo hi c _ xs js _ _ hty h1 h2 => rw [hty]; exact ⟨xs, js, h1, h2, rfl⟩
  | dict _ _ kp vp c kvs jvs _ hty h1 h2 => rw [hty]; exact ⟨kvs, jvs, rfl, h1, rfl⟩
  | inst _ _ c r _ _ hty h => rw [hty]; intro r' hr; cases hr; exact h
  | copy _ _ c _ _ _ hty _ h _ => rw [hty]; intro r hr; exact absurd hr (h r)
  | union _ _ ps s _ q _ _ _ hty h1 h2 => rw [hty]; exact .inl ⟨q, h1, h2⟩
  | unionObj _ _ ps s r _ _ hty h => rw [hty]; exact .inr h
  | unionAsIs _ _ ps s _ _ _ hty h => rw [hty]; exact .inr h

theorem skips_plain {E : Env} {ic : Bool} {p : PropSpec} (h : p.ser = none) : SkipsNone E ic p :=
  fun f hf => by rw [h] at hf; cases hf

theorem serP_none {E : Env} {w : World} {ic : Bool} {nm : PyStr} {p : PropSpec} {j : Val}
    (h : SerP E w ic nm p .none j) (hk : SkipsNone E ic p) : j = .none := by
  cases h with
  | custom _ _ f _ _ h ha => exact answers_det ha (hk f h)
  | none => rfl
  | scalar _ _ _ _ _ hv => exact absurd rfl hv
  | seq _ _ it k lo hi c _ xs js _ hv => exact absurd rfl hv
  | copy _ _ c _ _ _ _ hv => exact absurd rfl hv
  | union _ _ ps s _ q _ _ hv => exact absurd rfl hv
  | unionAsIs _ _ ps s _ _ hv => exact absurd rfl hv

/-- How a scalar is written. -/
theorem serP_written {E : Env} {w : World} {ic : Bool} {nm : PyStr} {p : PropSpec} {v j : Val}
    (hs : ScalarTy p.ty) (hv : v ≠ .none) (h : SerP E w ic nm p v j) : WrittenAs E ic p v j := by
  cases hser : p.ser with
  | none =>
    refine .inl ⟨hser, ?_⟩
    have := serP_inv h hser hv
    cases hty : p.ty <;> rw [hty] at hs this <;> first | exact hs.elim | exact this
  | some f =>
    cases h
    case custom f' h ha => exact .inr ⟨f', h, ha⟩
    all_goals
      rename p.ser = none => h1
      rw [hser] at h1; cases h1

theorem written_det {E : Env} {ic : Bool} {p : PropSpec} {v i j : Val} (hi : WrittenAs E ic p v i)
    (hj : WrittenAs E ic p v j) : i = j := by
  rcases hi with ⟨a, b⟩ | ⟨f, a, b⟩ <;> rcases hj with ⟨c, d⟩ | ⟨g, c, d⟩ <;> rw [a] at c <;> cases c
  · rw [b] at d; cases d; rfl
  · exact answers_det b d

theorem canonScalar_none {E : Env} {ty : PropTy} (hs : ScalarTy ty) (h : CanonScalar E ty .none) :
    ty = .any := by
  have ha := C01_validated_value_admitted E 1 [] (.mk false none none .undef ty) none .none
    { objs := [] } .none _ (validate_canon_scalar (p := .mk false none none .undef ty) hs h.asIs 0 [] none _)
  have ha : Admits E _ ty .none := ha
  cases ty <;> first
    | rfl
    | exact hs.elim
    | (cases ha; done)
    | (cases ha with | color _ h => obtain ⟨_, _, _, h, _⟩ := h; cases h)

theorem serP_canonScalar {E : Env} {w : World} {ic : Bool} {nm : PyStr} {p : PropSpec} {v j : Val}
    (hser : p.ser = none) (hs : ScalarTy p.ty) (hc : CanonScalar E p.ty v) (h : SerP E w ic nm p v j) :
    scalarToJson E p.ty v = some (.ok j) ∧ (j = .none → v = .none) ∧
      scalarFromJson E p.ty j = some (.ok v) := by
  have hj : scalarToJson E p.ty v = some (.ok j) := by
    by_cases hv : v = .none
    · subst hv
      rw [canonScalar_none hs hc, serP_none h (skips_plain hser)]
      rfl
    · have := serP_inv h hser hv
      cases hty : p.ty <;> rw [hty] at hs this <;> first | exact hs.elim | exact this
  obtain ⟨j', h1, h2, h3⟩ := hc.json
  rw [hj] at h1
  cases h1
  exact ⟨hj, h2, h3⟩

/-- The data of a value of a Union is that of its alternative. -/
theorem canon_ser_union {E : Env} {S : PropTy → Val → Prop} {ic tr : Bool} {w : World} {p q : PropSpec}
    {pre post : List PropSpec} {v j : Val} {nm : PyStr} (hser : p.ser = none) (hv : v ≠ .none)
    (hty : p.ty = .union (pre ++ q :: post) false) (hr : ∀ p' ∈ pre, Refuses E w p'.ty v)
    (h : Canon E S ic tr w q v) (hj : SerP E w ic nm p v j) : SerP E w ic nm q v j := by
  have hb := serP_inv hj hser hv
  rw [hty] at hb
  have hp := canon_picks (post := post) h hr nm
  rcases hb with ⟨q', h1, h2⟩ | h1
  · cases picks_unique hp h1
    exact h2
  · cases picks_unique hp h1

theorem canon_ser_some {E : Env} {S : PropTy → Val → Prop} {ic tr : Bool} {w : World} {p : PropSpec}
    {v j : Val} {nm : PyStr} (h : Canon E S ic tr w p v) (hv : v ≠ .none) (hj : SerP E w ic nm p v j) :
    j ≠ .none := by
  induction h with
  | scalar _ _ hn hs hc _ => exact fun e => hv ((serP_canonScalar hn.1 hs hc hj).2.1 e)
  | custom p v j' hs _ _ hw hj0 _ _ => rw [written_det (serP_written hs hv hj) hw]; exact hj0
  | seq _ k it lo hi co xs hn hty =>
    have := serP_inv hj hn.1 hv
    rw [hty] at this
    obtain ⟨_, _, _, _, rfl⟩ := this
    simp
  | dict _ kp vp co kvs hn hty =>
    have := serP_inv hj hn.1 hv
    rw [hty] at this
    obtain ⟨_, _, _, _, rfl⟩ := this
    simp
  | inst _ c r o hn hty =>
    have := serP_inv hj hn.1 hv
    rw [hty] at this
    cases this r rfl
    simp
  | union p q pre post v hn _ hty hr _ _ h ih => exact ih hv (canon_ser_union hn.1 hv hty hr h hj)

theorem serL_iff {E : Env} {w : World} {ic : Bool} {nm : PyStr} {p : PropSpec} : ∀ {xs js : List Val},
    SerL E w ic nm p xs js → List.Forall₂ (SerP E w ic nm p) xs js
  | _, _, .nil .. => .nil
  | _, _, .cons _ _ _ _ _ _ h hs => .cons h (serL_iff hs)

theorem serD_iff {E : Env} {w : World} {ic : Bool} {nm : PyStr} {kp vp : PropSpec} :
    ∀ {xs js : List (Val × Val)}, SerD E w ic nm kp vp xs js →
    List.Forall₂ (fun x j => SerP E w ic nm kp x.1 j.1 ∧ SerP E w ic nm vp x.2 j.2) xs js
  | _, _, .nil .. => .nil
  | _, _, .cons _ _ _ _ _ _ _ _ _ h1 h2 hs => .cons ⟨h1, h2⟩ (serD_iff hs)

/-- The part of the backend that is written. -/
theorem serF_state {E : Env} {w : World} {ic : Bool} {c : ClsId} : ∀ {b : List (PyStr × Val)}
    {data : List (Val × Val)}, SerF E w ic c b data →
    ∃ st : List (PyStr × Val), data.filter (fun kv => !kv.2.isNone) =
      st.map (fun kv => (Val.str kv.1, kv.2)) ∧ (st.map (·.1)).Sublist (b.map (·.1)) ∧
      (∀ kv ∈ st, kv.2 ≠ .none ∧ ∃ v e p, (kv.1, v) ∈ b ∧ lookupS kv.1 (E.classes c).props = some e ∧
        OwnSpec e p ∧ SerP E w ic kv.1 p v kv.2) ∧
      ∀ nm v, (nm, v) ∈ b → (∃ j, (nm, j) ∈ st) ∨ ∃ e p, lookupS nm (E.classes c).props = some e ∧
        OwnSpec e p ∧ SerP E w ic nm p v .none
  | _, _, .nil _ => ⟨[], rfl, .refl _, by simp, by simp⟩
  | _, _, .cons _ nm v e p j rest data he ho hp hs => by
    obtain ⟨st, h1, h2, h3, h4⟩ := serF_state hs
    by_cases hj : j = .none
    · subst hj
      refine ⟨st, ?_, ?_, fun kv hkv => ?_, fun nm' v' h => ?_⟩
      · rw [List.filter_cons_of_neg (by simp [Val.isNone]), h1]
      · rw [List.map_cons]; exact h2.cons _
      · obtain ⟨h5, v', e', p', h6, h7⟩ := h3 kv hkv
        exact ⟨h5, v', e', p', by simp [h6], h7⟩
      · rcases List.mem_cons.1 h with h | h
        · cases h; exact .inr ⟨e, p, he, ho, hp⟩
        · exact h4 nm' v' h
    · refine ⟨(nm, j) :: st, ?_, ?_, fun kv hkv => ?_, fun nm' v' h => ?_⟩
      · rw [List.filter_cons_of_pos (by cases j <;> simp_all [Val.isNone]), h1]; rfl
      · rw [List.map_cons, List.map_cons]; exact h2.cons_cons _
      · rcases List.mem_cons.1 hkv with rfl | hkv
        · exact ⟨hj, v, e, p, by simp, he, ho, hp⟩
        · obtain ⟨h5, v', e', p', h6, h7⟩ := h3 kv hkv
          exact ⟨h5, v', e', p', by simp [h6], h7⟩
      · rcases List.mem_cons.1 h with h | h
        · cases h; exact .inl ⟨j, by simp⟩
        · rcases h4 nm' v' h with ⟨j', h⟩ | h
          · exact .inl ⟨j', by simp [h]⟩
          · exact .inr h

/-! ## Reading lists -/

theorem mapML_copies {α β : Type} {f : α → M β} {w0 : World} {Q : World → α → β → Prop}
    (later : ∀ (w1 w2 : World) (x : α) (y : β), OnlyNew w1 w2 → Q w1 x y → Q w2 x y) : ∀ (xs : List α),
    (∀ x ∈ xs, ∀ w2, OnlyNew w0 w2 → ∃ y w3, f x w2 = (.ok y, w3) ∧ OnlyNew w2 w3 ∧ Q w3 x y) →
    ∀ w2, OnlyNew w0 w2 → ∃ ys w3, mapML f xs w2 = (.ok ys, w3) ∧ OnlyNew w2 w3 ∧
      List.Forall₂ (Q w3) xs ys
  | [], _, w2, _ => ⟨[], w2, rfl, .refl _, .nil⟩
  | x :: xs, h, w2, h2 => by
    obtain ⟨y, w3, h3, h4, h5⟩ := h x (by simp) w2 h2
    obtain ⟨ys, w4, h6, h7, h8⟩ := mapML_copies later xs (fun z hz => h z (by simp [hz])) w3 (h2.trans h4)
    refine ⟨y :: ys, w4, ?_, h4.trans h7, .cons (later _ _ _ _ h7 h5) h8⟩
    unfold mapML
    rw [bind_ok h3, bind_ok h6]
    rfl

theorem dictOfPairs_pairwise {kvs : List (Val × Val)}
    (h : (kvs.map (·.1)).Pairwise (fun a b => pyEq a b = false)) : dictOfPairs kvs = kvs := by
  induction kvs using List.reverseRecOn with
  | nil => rfl
  | append_singleton kvs q ih =>
    rw [List.map_append, List.pairwise_append] at h
    rw [dictOfPairs_snoc, ih h.1]
    exact dictSet_new fun kv hkv => h.2.2 kv.1 (List.mem_map_of_mem (f := Prod.fst) hkv) _ (by simp)

theorem forall₂_get {α β : Type} {R : α → β → Prop} {xs : List α} {ys : List β}
    (h : List.Forall₂ R xs ys) : ∀ (i : Nat) x y, xs[i]? = some x → ys[i]? = some y → R x y := by
  induction h with
  | nil => intro i x y h; simp at h
  | cons h _ ih =>
    intro i x y hx hy
    cases i with
    | zero => simp at hx hy; subst hx; subst hy; exact h
    | succ i => exact ih i x y (by simpa using hx) (by simpa using hy)

theorem forall₂_trans' {α β γ : Type} {R : α → β → Prop} {Q : β → γ → Prop} {P : α → γ → Prop}
    {xs : List α} {ys : List β} {zs : List γ} (h : List.Forall₂ R xs ys) (h2 : List.Forall₂ Q ys zs)
    (hp : ∀ x y z, x ∈ xs → R x y → Q y z → P x z) : List.Forall₂ P xs zs := by
  induction h generalizing zs with
  | nil => cases h2; exact .nil
  | cons h _ ih =>
    cases h2 with
    | cons k ks =>
      exact .cons (hp _ _ _ (by simp) h k) (ih ks fun x y z hx => hp x y z (by simp [hx]))

theorem deserialize_scalar {E : Env} {rec : Rec} {nm : PyStr} {p : PropSpec} {v j : Val} {kw : DeKw}
    (hd : p.deser = none) (hs : ScalarTy p.ty) (hn : j = .none → v = .none)
    (h : scalarFromJson E p.ty j = some (.ok v)) (w : World) :
    deserializeBody E rec nm p j kw w = (.ok v, w) := by
  unfold deserializeBody
  simp only [hd]
  by_cases hj : j = .none
  · subst hj
    rw [hn rfl]
    rfl
  · have : j.isNone = false := by cases j <;> first | rfl | exact absurd rfl hj
    rw [this]
    simp only [Bool.false_eq_true, if_false]
    cases hty : p.ty <;> rw [hty] at hs h <;> first
      | exact hs.elim
      | (simp only [h]; rfl)

/-- How a scalar is read. -/
theorem deserialize_readAs {E : Env} {rec : Rec} {nm : PyStr} {p : PropSpec} {v j : Val} {kw : DeKw} {tr : Bool}
    (hs : ScalarTy p.ty) (hj : j ≠ .none) (h : ReadAs E tr p j v) (ht : kw.trusted = tr)
    (ha : kw.assertValid = false) (w : World) : deserializeBody E rec nm p j kw w = (.ok v, w) := by
  rcases h with ⟨hd, h⟩ | ⟨g, hd, h⟩
  · exact deserialize_scalar hd hs (fun e => absurd e hj) h w
  · unfold deserializeBody
    simp only [hd]
    have hkw : kw.args = deOpts tr kw.strict := by
      unfold DeKw.args deOpts; rw [ht, ha]
    rw [hkw]
    exact callWrapped_answers (h kw.strict) w

end Verif
