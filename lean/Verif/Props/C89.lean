import Verif.Props.C22
import Verif.Lemmas.Locality
import Verif.Props.C76
import Verif.Spec.JsonForms

/-!
# C89: the JSON forms of the basic types
-/

namespace Verif
open Spec

theorem writes_iff {E : Env} {ty : PropTy} (hty : ScalarTy ty) (v j : Val) :
    scalarToJson E ty v = some (.ok j) ↔ JsonForm E ty v j := by
  constructor
  · intro h
    cases ty <;> unfold scalarToJson at h <;> simp only [Option.some.injEq] at h
    case any => cases h; exact .verbatim v trivial
    case boolean => cases h; exact .verbatim v trivial
    case integer => cases h; exact .verbatim v trivial
    case string => cases h; exact .verbatim v trivial
    case choice => cases h; exact .verbatim v trivial
    case float =>
      split at h <;> cases h
      · exact .nan
      · exact .inf
      · exact .minusInf
      · rename_i f h1 h2 h3
        cases f with
        | fin q => exact .finite q
        | nan => exact absurd rfl h1
        | pinf => exact absurd rfl h2
        | ninf => exact absurd rfl h3
      · exact .floatInt _
      · exact .floatBool _
    case complex => split at h <;> cases h; exact .complex _ _
    case color =>
      split at h
      · rename_i xs hx; cases h; exact .color hx
      · cases h
    case datetime => split at h <;> cases h; exact .datetime _
    case uuid => split at h <;> cases h; exact .uuid _
    all_goals cases h
  · intro h
    cases h with
    | verbatim v hv => cases ty <;> first | rfl | exact hv.elim
    | color hx => simp only [scalarToJson, hx]
    | _ => rfl

theorem boolFromJson_iff {E : Env} {c : Bool} (v x : Val) :
    boolFromJson E v = .ok x ↔ FromJson E (.boolean c) v x := by
  constructor
  · intro h
    unfold boolFromJson at h
    split at h
    · split at h
      · rename_i hy; cases h; exact .yes hy
      · split at h
        · rename_i hn; cases h; exact .no hn
        · cases h
    · cases h; exact .boolInt _
    · cases h; exact .bool _
    · cases h
  · intro h
    cases h with
    | yes hy => unfold boolFromJson; exact if_pos hy
    | @no _ s hn =>
      unfold boolFromJson
      have hy : E.upper s ∉ [s% "TRUE", s% "Y", s% "YES", s% "ON"] := by
        intro hy
        simp only [noWords, List.mem_cons, List.not_mem_nil, or_false] at hn
        rcases hn with hn | hn | hn | hn <;> rw [hn] at hy <;> exact absurd hy (by decide)
      simp only
      rw [if_neg hy]
      exact if_pos hn
    | bool b => rfl
    | boolInt i => rfl

theorem pyInt_iff {E : Env} {c : Bool} {mn mx : Option Rat} (v : Val) (i : Int) :
    pyInt E v = .ok i ↔ FromJson E (.integer c mn mx) v (.int i) := by
  have ex : ∀ {q : Rat} {i : Int}, exactly v = some q → pyInt E v = .ok i →
      FromJson E (.integer c mn mx) v (.int i) := by
    intro q i hq hp
    obtain ⟨k, h1, h2⟩ := pyInt_exact E hq
    rw [hp] at h1
    cases h1
    exact .integer hq h2
  constructor
  · intro h
    cases v with
    | bool b => exact ex rfl h
    | int k => exact ex rfl h
    | float f =>
      cases f with
      | fin q => exact ex rfl h
      | _ => cases h
    | str s =>
      simp only [pyInt] at h
      cases hs : E.intOfStr s with
      | none => rw [hs] at h; cases h
      | some k => rw [hs] at h; cases h; exact .integerText hs
    | uuid n => cases h; exact .integerUuid n
    | _ => cases h
  · intro h
    cases h with
    | integer hq ht =>
      obtain ⟨k, h1, h2⟩ := pyInt_exact E hq
      cases isTruncation_unique h2 ht
      exact h1
    | integerText hs => simp only [pyInt, hs]
    | integerUuid n => rfl

theorem fromJson_iff {E : Env} {ty : PropTy} (hty : ScalarTy ty) (v x : Val) :
    scalarFromJson E ty v = some (.ok x) ↔ FromJson E ty v x := by
  cases ty with
  | any => exact ⟨fun h => by cases h; exact .any v, fun h => by cases h; rfl⟩
  | string => exact ⟨fun h => by cases h; exact .string v, fun h => by cases h; rfl⟩
  | choice => exact ⟨fun h => by cases h; exact .choice v, fun h => by cases h; rfl⟩
  | boolean c =>
    simp only [scalarFromJson, Option.some.injEq]
    exact boolFromJson_iff v x
  | integer c mn mx =>
    simp only [scalarFromJson, Option.some.injEq]
    constructor
    · intro h
      cases hp : pyInt E v with
      | error e => rw [hp] at h; cases h
      | ok i => rw [hp] at h; cases h; exact (pyInt_iff v i).1 hp
    · intro h
      have : ∃ i, x = .int i := by cases h <;> exact ⟨_, rfl⟩
      obtain ⟨i, rfl⟩ := this
      rw [(pyInt_iff v i).2 h]
      rfl
  | float c mn mx =>
    simp only [scalarFromJson, Option.some.injEq]
    constructor
    · intro h
      cases hp : pyFloat E v with
      | error e => rw [hp] at h; cases h
      | ok f => rw [hp] at h; cases h; exact .float ((pyFloat_reads E true v f).1 ⟨hp, by simp⟩)
    · intro h
      cases h with
      | float hr => rw [((pyFloat_reads ..).2 hr).1]; rfl
  | complex c =>
    simp only [scalarFromJson, Option.some.injEq]
    constructor
    · intro h
      cases hp : pyComplex E v with
      | error e => rw [hp] at h; cases h
      | ok z => rw [hp] at h; cases h; exact .complex ((pyComplex_reads E true v z.1 z.2).1 ⟨hp, by simp⟩)
    · intro h
      cases h with
      | complex hr => rw [((pyComplex_reads ..).2 hr).1]; rfl
  | color =>
    simp only [scalarFromJson, Option.some.injEq]
    constructor
    · intro h
      split at h
      · rename_i xs hx; cases h; exact .color hx
      · cases h
    · intro h
      cases h with
      | color hx => rw [hx]
  | datetime =>
    simp only [scalarFromJson, Option.some.injEq]
    constructor
    · intro h
      split at h
      · split at h
        · rename_i ht; cases h; exact .datetime ht
        · cases h
      · split at h
        · split at h <;> cases h
        · cases h
    · intro h
      cases h with
      | datetime ht => simp only [ht]
  | uuid =>
    simp only [scalarFromJson, Option.some.injEq]
    constructor
    · intro h
      split at h
      · split at h
        · rename_i ht; cases h; exact .uuid ht
        · cases h
      · split at h
        · rename_i ht; cases h; exact .uuidItself ht
        · cases h
      · cases h
    · intro h
      cases h with
      | uuid ht => simp only [ht]
      | uuidItself ht => simp only [ht]
  | _ => exact hty.elim

/-- **C89**.  What a property of a basic type without serializer writes for a value that is not
None, and nothing else, at any recursion limit; nothing changes. -/
theorem C89_writes {E : Env} {p : PropSpec} (hs : p.ser = none) (hty : ScalarTy p.ty) (n : Nat) (nm : PyStr)
    {v : Val} (hv : v ≠ .none) (kw : SerKw) (w w' : World) (j : Val) :
    run E (n + 1) (.serializeP nm p v kw) w = (.ok j, w') ↔ w' = w ∧ JsonForm E p.ty v j := by
  have hn : v.isNone = false := by cases v <;> first | rfl | exact absurd rfl hv
  have key : run E (n + 1) (.serializeP nm p v kw) w =
      (match scalarToJson E p.ty v with | some x => liftK x | none => raiseK .type) w := by
    show serializeBody E _ nm p v kw w = _
    unfold serializeBody
    rw [hs]
    simp only [hn, Bool.false_eq_true, if_false]
    cases hp : p.ty <;> rw [hp] at hty <;> first | rfl | exact hty.elim
  rw [key, ← writes_iff hty]
  cases hj : scalarToJson E p.ty v with
  | none => simp [raiseK, M.raise]
  | some x =>
    cases x with
    | error e => simp [liftK, raiseK, M.raise]
    | ok y =>
      simp only [liftK, Option.some.injEq, Except.ok.injEq]
      show ((.ok y, w) : Except PyErr Val × World) = _ ↔ _
      simp only [Prod.mk.injEq, Except.ok.injEq]
      exact ⟨fun ⟨a, b⟩ => ⟨b.symm, a⟩, fun ⟨a, b⟩ => ⟨b, a.symm⟩⟩

/-- **C89**.  What a property of a basic type without deserializer reads from a value that is not
None, and nothing else, at any recursion limit; nothing changes. -/
theorem C89_reads {E : Env} {p : PropSpec} (hs : p.deser = none) (hty : ScalarTy p.ty) (n : Nat) (nm : PyStr)
    {v : Val} (hv : v ≠ .none) (kw : DeKw) (w w' : World) (x : Val) :
    run E (n + 1) (.deserializeP nm p v kw) w = (.ok x, w') ↔ w' = w ∧ FromJson E p.ty v x := by
  have hn : v.isNone = false := by cases v <;> first | rfl | exact absurd rfl hv
  have key : run E (n + 1) (.deserializeP nm p v kw) w =
      (match scalarFromJson E p.ty v with | some x => liftK x | none => raiseK .type) w := by
    show deserializeBody E _ nm p v kw w = _
    unfold deserializeBody
    rw [hs]
    simp only [hn, Bool.false_eq_true, if_false]
    cases hp : p.ty <;> rw [hp] at hty <;> first | rfl | exact hty.elim
  rw [key, ← fromJson_iff hty]
  cases hj : scalarFromJson E p.ty v with
  | none => simp [raiseK, M.raise]
  | some x =>
    cases x with
    | error e => simp [liftK, raiseK, M.raise]
    | ok y =>
      simp only [liftK, Option.some.injEq, Except.ok.injEq]
      show ((.ok y, w) : Except PyErr Val × World) = _ ↔ _
      simp only [Prod.mk.injEq, Except.ok.injEq]
      exact ⟨fun ⟨a, b⟩ => ⟨b.symm, a⟩, fun ⟨a, b⟩ => ⟨b, a.symm⟩⟩

/-- **C89**.  A Boolean reads a text exactly if its upper case form is one of the eight words; everything
else that is neither text, int nor bool raises ValueError. -/
theorem C89_boolean (E : Env) {p : PropSpec} {c : Bool} (hs : p.deser = none) (hty : p.ty = .boolean c) (n : Nat)
    (nm : PyStr) {v : Val} (hv : v ≠ .none) (hi : ∀ i, v ≠ .int i) (hb : ∀ b, v ≠ .bool b)
    (hw : ∀ s, v = .str s → E.upper s ∉ yesWords ∧ E.upper s ∉ noWords) (kw : DeKw) (w : World) :
    run E (n + 1) (.deserializeP nm p v kw) w = (.error ⟨.value, []⟩, w) := by
  have hn : v.isNone = false := by cases v <;> first | rfl | exact absurd rfl hv
  show deserializeBody E _ nm p v kw w = _
  unfold deserializeBody
  rw [hs]
  simp only [hn, Bool.false_eq_true, if_false]
  rw [hty]
  have : scalarFromJson E (.boolean c) v = some (.error .value) := by
    simp only [scalarFromJson, Option.some.injEq]
    unfold boolFromJson
    split
    · rename_i s
      obtain ⟨h1, h2⟩ := hw s rfl
      show (if _ then _ else if _ then _ else _) = _
      exact (if_neg h1).trans (if_neg h2)
    · exact absurd rfl (hi _)
    · exact absurd rfl (hb _)
    · rfl
  simp only [this]
  rfl

/-! ## No NaN and no infinity in the output of serialize() -/

theorem strictKey_of {v : Val} (h : StrictJson v) (hh : v.hashable = true) : StrictKey v := by
  cases h <;> first | constructor | (unfold Val.hashable at hh; cases hh)

/-- A basic type other than plain Property writes no NaN and no infinity for the values it admits. -/
theorem writes_strict {E : Env} {w : World} {ty : PropTy} {v j : Val} (ha : Admits E w ty v) (hany : ty ≠ .any)
    (h : JsonForm E ty v j) : StrictJson j := by
  cases h with
  | verbatim v hv =>
    cases ha <;> first | exact hv.elim | exact absurd rfl hany | constructor
  | color hx =>
    cases ha with
    | color _ hv =>
      obtain ⟨a, b, c, rfl, ha, hb, hc⟩ := hv
      have hbyte : ∀ {x : Val}, IsByte x → StrictJson x := by
        intro x hx
        rcases hx with ⟨i, rfl, _⟩ | ⟨b, rfl⟩ <;> constructor
      cases hx
      refine .list _ fun x hx => ?_
      simp only [List.mem_cons, List.not_mem_nil, or_false] at hx
      rcases hx with rfl | rfl | rfl <;> exact hbyte (by assumption)
  | _ => constructor

theorem definite_ser {p : PropSpec} (h : Definite p) : p.ser = none := by cases p; exact h.1

theorem definite_ty {p : PropSpec} (h : Definite p) : DefiniteTy p.ty := by cases p; exact h.2

mutual
theorem serP_strict {E : Env} {w : World} {ic : Bool}
    (hw : WellTyped E w) (hd : ∀ c nm e p, lookupS nm (E.classes c).props = some e → OwnSpec e p → Definite p) :
    ∀ {nm : PyStr} {p : PropSpec} {v j : Val}, SerP E w ic nm p v j → Definite p → Admits E w p.ty v →
      StrictJson j
  | _, _, _, _, .none nm p _, _, _ => .none
  | _, _, _, _, .custom nm p f v j hs ha, hp, _ => by
    rw [definite_ser hp] at hs
    cases hs
  | _, _, _, _, .scalar nm p v j hser hv h, hp, ha => by
    have h2 := definite_ty hp
    cases hty : p.ty <;> rw [hty] at h ha h2 <;> first
      | exact h2.elim
      | (cases h; done)
      | exact writes_strict ha (by simp) ((writes_iff (by trivial) v j).1 h)
  | _, _, _, _, .seq nm p it k lo hi c v xs js hser hv hty hi' h, hp, ha => by
    have h2 := definite_ty hp
    rw [hty] at h2 ha
    have h2 : Definite it := h2
    refine .list _ (serL_strict hw hd h h2 ?_)
    cases ha <;> (cases hi'; assumption)
  | _, _, _, _, .dict nm p kp vp c kvs jvs hser hty h hh, hp, ha => by
    have h2 := definite_ty hp
    rw [hty] at h2 ha
    have h2 : Definite kp ∧ Definite vp := h2
    have hk : (∀ kv ∈ kvs, Admits E w kp.ty kv.1) ∧ ∀ kv ∈ kvs, Admits E w vp.ty kv.2 := by
      cases ha with
      | dict _ _ _ _ a b => exact ⟨a, b⟩
    have hdd := serD_strict hw hd h h2.1 h2.2 hk.1 hk.2
    refine .dict _ (fun kv hkv => ?_) fun kv hkv => ?_
    · obtain ⟨⟨x, hx⟩, _⟩ := dictOfPairs_mem hkv
      exact strictKey_of (hdd (kv.1, x) hx).1 (hh (kv.1, x) hx)
    · obtain ⟨_, ⟨x, hx⟩⟩ := dictOfPairs_mem hkv
      exact (hdd _ hx).2
  | _, _, _, _, .inst nm p c r j _ hty h, _, _ => serO_strict hw hd h
  | _, _, _, _, .copy nm p c v j _ hty _ hno h, _, ha => by
    rw [hty] at ha
    cases ha
    exact absurd rfl (hno _)
  | _, _, _, _, .union nm p ps st v q j hser hv hty hpk h, hp, _ => by
    have h2 := definite_ty hp
    rw [hty] at h2
    exact h2.elim
  | _, _, _, _, .unionObj nm p ps st r j _ hty hpk h, hp, _ => serO_strict hw hd h
  | _, _, _, _, .unionAsIs nm p ps st v hser hv hty hpk hno, hp, _ => by
    have h2 := definite_ty hp
    rw [hty] at h2
    exact h2.elim
theorem serL_strict {E : Env} {w : World} {ic : Bool}
    (hw : WellTyped E w) (hd : ∀ c nm e p, lookupS nm (E.classes c).props = some e → OwnSpec e p → Definite p) :
    ∀ {nm : PyStr} {p : PropSpec} {xs js : List Val}, SerL E w ic nm p xs js → Definite p →
      (∀ x ∈ xs, Admits E w p.ty x) → ∀ j ∈ js, StrictJson j
  | _, _, _, _, .nil nm p, _, _, x, hx => absurd hx (by simp)
  | _, _, _, _, .cons nm p y j xs js h hs, hp, he, x, hx => by
    rcases List.mem_cons.1 hx with hxy | hx
    · rw [hxy]; exact serP_strict hw hd h hp (he y (by simp))
    · exact serL_strict hw hd hs hp (fun z hz => he z (by simp [hz])) x hx
theorem serD_strict {E : Env} {w : World} {ic : Bool}
    (hw : WellTyped E w) (hd : ∀ c nm e p, lookupS nm (E.classes c).props = some e → OwnSpec e p → Definite p) :
    ∀ {nm : PyStr} {kp vp : PropSpec} {kvs jvs : List (Val × Val)},
      SerD E w ic nm kp vp kvs jvs → Definite kp → Definite vp →
      (∀ kv ∈ kvs, Admits E w kp.ty kv.1) → (∀ kv ∈ kvs, Admits E w vp.ty kv.2) →
      ∀ kv ∈ jvs, StrictJson kv.1 ∧ StrictJson kv.2
  | _, _, _, _, _, .nil nm kp vp, _, _, _, _, x, hx => absurd hx (by simp)
  | _, _, _, _, _, .cons nm kp vp k x jk jx kvs jvs hk hx hs, hp, hq, he, hf, kv, hkv => by
    rcases List.mem_cons.1 hkv with hxy | hkv
    · rw [hxy]
      exact ⟨serP_strict hw hd hk hp (he (k, x) (by simp)), serP_strict hw hd hx hq (hf (k, x) (by simp))⟩
    · exact serD_strict hw hd hs hp hq (fun z hz => he z (by simp [hz])) (fun z hz => hf z (by simp [hz])) kv hkv
theorem serO_strict {E : Env} {w : World} {ic : Bool}
    (hw : WellTyped E w) (hd : ∀ c nm e p, lookupS nm (E.classes c).props = some e → OwnSpec e p → Definite p) :
    ∀ {r : Nat} {j : Val}, SerO E w ic r j → StrictJson j
  | _, _, .mk r o data ho h => by
    have hdd := serF_strict hw hd h (fun nm v hm e p hl hown => by
      obtain ⟨e', hl', ha⟩ := hw r o ho nm v hm
      rw [hl] at hl'
      cases hl'
      rcases hown with rfl | rfl <;> exact ha)
    refine .dict _ (fun kv hkv => ?_) fun kv hkv => ?_
    · rcases complete_mem hkv with h | ⟨_, h | ⟨x, h⟩⟩
      · exact (hdd _ h).1
      · rw [h]; exact .str _
      · exact (hdd _ h).1
    · rcases complete_mem hkv with h | ⟨h, _⟩
      · exact (hdd _ h).2
      · rw [h]; exact .str _
theorem serF_strict {E : Env} {w : World} {ic : Bool}
    (hw : WellTyped E w) (hd : ∀ c nm e p, lookupS nm (E.classes c).props = some e → OwnSpec e p → Definite p) :
    ∀ {c : ClsId} {b : List (PyStr × Val)} {data : List (Val × Val)}, SerF E w ic c b data →
      (∀ nm v, (nm, v) ∈ b → ∀ e p, lookupS nm (E.classes c).props = some e → OwnSpec e p →
        Admits E w p.ty v) → ∀ kv ∈ data, StrictKey kv.1 ∧ StrictJson kv.2
  | _, _, _, .nil c, _, x, hx => absurd hx (by simp)
  | _, _, _, .cons c nm v e p j rest data hl hown h hs, he, kv, hkv => by
    rcases List.mem_cons.1 hkv with hxy | hkv
    · rw [hxy]
      exact ⟨.str nm, serP_strict hw hd h (hd _ _ _ _ hl hown) (he nm v (by simp) e p hl hown)⟩
    · exact serF_strict hw hd hs (fun a b hab => he a b (by simp [hab])) kv hkv
end

/-- **C89**.  Where every stored value is one its property may hold and no declaration uses plain Property,
Union or a serializer, serialize() returns data the JSON standard can express: no NaN and no infinity,
at any depth, whatever floats are stored. -/
theorem C89_strict {E : Env} {D : Nat} {w w' : World} {kw : SerKw} (hs : kw.saveDynamic = false)
    (ht : TameWorld E D w) (hw : WellTyped E w)
    (hd : ∀ c nm e p, lookupS nm (E.classes c).props = some e → OwnSpec e p → Definite p)
    {n r : Nat} {j : Val} (h : run E n (.hpSerialize r kw) w = (.ok j, w')) : StrictJson j := by
  obtain ⟨x, hr, hq⟩ := hpSerialize_res (L := False) (F := False) (fun h => h) hs ht (fun h => h.elim)
    _ w (sameCore_refl w) (idleGs_le w) n (fun h => h.elim) r
  rw [h] at hr
  cases hr
  exact serO_strict hw hd hq

/-! ## Examples -/

def c89World : World :=
  { objs := [
      { cls := 0, backend := [(s% "f", .float .nan), (s% "n", .obj 1)] },
      { cls := 0, backend := [(s% "f", .float .ninf), (s% "d", .dict [(.int 1, .uuid 7)])] }] }

theorem c89_definite : ∀ c nm e p, lookupS nm (c22Env.classes c).props = some e → OwnSpec e p → Definite p := by
  intro c nm e p h hown
  have hm : (nm, e) ∈ (c22Env.classes c).props := lookupS_mem_loc h
  simp only [c22Env, List.mem_cons, Prod.mk.injEq, List.not_mem_nil, or_false] at hm
  rcases hm with ⟨-, rfl⟩ | ⟨-, rfl⟩ | ⟨-, rfl⟩ | ⟨-, rfl⟩ <;> cases hown.resolve_right (by simp) <;>
    simp [Definite, DefiniteTy]

/-- The hypotheses of `C89_strict` are met by instances with NaN and an infinity in them. -/
theorem C89_example : TameWorld c22Env 2 c89World ∧ WellTyped c22Env c89World ∧
    (run c22Env 10 (.hpSerialize 0 {}) c89World).1 = .ok (.dict [
      (.str (s% "f"), .str (s% "nan")),
      (.str (s% "n"), .dict [
        (.str (s% "f"), .str (s% "-inf")),
        (.str (s% "d"), .dict [(.int 1, .str (c22Env.uuidToStr 7))]),
        (.str (s% "__class__"), .str (s% "Leaf"))]),
      (.str (s% "__class__"), .str (s% "Leaf"))]) := by
  refine ⟨?_, ?_, by with_unfolding_all rfl⟩
  · intro r o ho
    match r, ho with
    | 0, ho =>
      cases ho
      refine ⟨by decide, fun nm v h => ?_⟩
      simp only [List.mem_cons, Prod.mk.injEq, List.not_mem_nil, or_false] at h
      rcases h with ⟨rfl, rfl⟩ | ⟨rfl, rfl⟩ <;>
        exact ⟨_, _, rfl, .inl rfl, by simp [Tame, TameTy], by simp [depth, depthTy]⟩
    | 1, ho =>
      cases ho
      refine ⟨by decide, fun nm v h => ?_⟩
      simp only [List.mem_cons, Prod.mk.injEq, List.not_mem_nil, or_false] at h
      rcases h with ⟨rfl, rfl⟩ | ⟨rfl, rfl⟩ <;>
        exact ⟨_, _, rfl, .inl rfl, by simp [Tame, TameTy], by simp [depth, depthTy]⟩
    | n + 2, ho => cases ho
  · intro r o ho nm v h
    match r, ho with
    | 0, ho =>
      cases ho
      simp only [List.mem_cons, Prod.mk.injEq, List.not_mem_nil, or_false] at h
      rcases h with ⟨rfl, rfl⟩ | ⟨rfl, rfl⟩
      · exact ⟨_, rfl, .float _ _ _ _ trivial⟩
      · exact ⟨_, rfl, .inst _ _ ⟨_, rfl, .inl rfl⟩⟩
    | 1, ho =>
      cases ho
      simp only [List.mem_cons, Prod.mk.injEq, List.not_mem_nil, or_false] at h
      rcases h with ⟨rfl, rfl⟩ | ⟨rfl, rfl⟩
      · exact ⟨_, rfl, .float _ _ _ _ rfl⟩
      · refine ⟨_, rfl, .dict _ _ _ _ ?_ ?_⟩ <;> intro kv hkv <;>
          simp only [List.mem_singleton] at hkv <;> subst hkv
        · exact .integer _ _ _ _ ⟨by simp, by simp⟩
        · exact .uuid _
    | n + 2, ho => cases ho

/-- A plain Property writes NaN as it is, which the JSON standard cannot express. -/
theorem C89_property_nan (E : Env) (n : Nat) (nm : PyStr) (kw : SerKw) (w : World) :
    run E (n + 1) (.serializeP nm (.mk false none none .undef .any) (.float .nan) kw) w = (.ok (.float .nan), w) ∧
      ¬ StrictJson (.float .nan) :=
  ⟨(C89_writes rfl (by trivial) n nm (by simp) kw w w _).2 ⟨rfl, .verbatim _ trivial⟩, fun h => by cases h⟩

/-- `on` in any case is True, and a number that is no bool is read as it is: the two sides of `Boolean.from_json`. -/
theorem C89_boolean_example (E : Env) (hu : E.upper (s% "on") = s% "ON") (n : Nat) (nm : PyStr) (kw : DeKw) (w : World) :
    run E (n + 1) (.deserializeP nm (.mk false none none .undef (.boolean false)) (.str (s% "on")) kw) w =
      (.ok (.bool true), w) ∧
    run E (n + 1) (.deserializeP nm (.mk false none none .undef (.boolean false)) (.int 7) kw) w = (.ok (.int 7), w) :=
  ⟨(C89_reads rfl (by trivial) n nm (by simp) kw w w _).2 ⟨rfl, .yes (by rw [hu]; decide)⟩,
    (C89_reads rfl (by trivial) n nm (by simp) kw w w _).2 ⟨rfl, .boolInt 7⟩⟩

end Verif
