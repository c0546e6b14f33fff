import Verif.Props.C07
import Verif.Lemmas.EqualTree
import Verif.Models.Demo

/-!
# C24: serialize then deserialize rebuilds an equal object
-/

namespace Verif
open Spec

/-- An Instance property of the class. -/
def asProp (c : ClsId) : PropSpec := .mk false none none .undef (.inst c)

theorem canon_asProp_inv {E : Env} {S : PropTy → Val → Prop} {ic tr : Bool} {w : World} {c : ClsId} {r : Nat}
    (h : Canon E S ic tr w (asProp c) (.obj r)) :
    ∃ o, w.objs[r]? = some o ∧ Recovered E ic tr c o.cls ∧
      Rebuildable E o ∧ (o.backend.map (·.1)).Nodup ∧
      (∀ nm v, (nm, v) ∈ o.backend → ∃ e q, lookupS nm (E.classes o.cls).props = some e ∧
        OwnSpec e q ∧ (v = .none → SkipsNone E ic q)) ∧
      (∀ nm v e q, (nm, v) ∈ o.backend → lookupS nm (E.classes o.cls).props = some e →
        OwnSpec e q → v ≠ .none → Canon E S ic tr w q v) := by
  generalize hv : Val.obj r = v at h
  cases h with
  | scalar _ _ _ hs => exact hs.elim
  | custom _ _ _ hs => exact hs.elim
  | seq _ k _ _ _ _ xs => cases k <;> cases hv
  | dict => cases hv
  | inst _ c' _ o _ hty ho _ hrec hreb hnd hown hcan =>
    cases hty
    cases hv
    exact ⟨o, ho, hrec, hreb, hnd, hown, hcan⟩
  | union _ _ _ _ _ _ _ hty => cases hty

/-- Writing and reading, with where the new instances are held. -/
theorem canon_round_trip {E : Env} {S : PropTy → Val → Prop} {ic tr : Bool} {w : World} {c : ClsId} {r : Nat}
    (h : Canon E S ic tr w (asProp c) (.obj r)) (hm : Unmarked w) :
    ∃ N j, ∀ n, N ≤ n → run E n (.hpSerialize r ⟨ic, false⟩) w = (.ok j, w) ∧
      ∀ strict w2, ∃ r' w3, run E n (.hpDeserialize c j ⟨tr, strict, false⟩) w2 = (.ok (.obj r'), w3) ∧
        OnlyNew w2 w3 ∧ CopyOf E w w3 w2.objs.length (asProp c) (.obj r) (.obj r') ∧
        ((∀ ty x, S ty x → RefFree x) → Built w3 w2.objs.length w3.objs.length [.obj r']) := by
  obtain ⟨o, ho, hrec, hreb, hnd, hown, hcan⟩ := canon_asProp_inv h
  obtain ⟨N1, j, hj, hrun⟩ := writes_object (ic := ic) ho hnd hown
    (acc_no_cycle (canon_acc h [] r (.inst [] _ c r rfl rfl)))
    fun nm v e q h1 h2 h3 h4 => canon_writes (hcan nm v e q h1 h2 h3 h4) nm
  obtain ⟨N2, hN2⟩ := reads_object ho hrec hreb hnd hown hcan
    (fun nm v e q h1 h2 h3 h4 nm' j hj => canon_reads (hcan nm v e q h1 h2 h3 h4) nm' j hj) hj
  refine ⟨max N1 N2, j, fun n hn => ⟨hrun n (by omega) w (sameCore_refl w) fun t _ ⟨o', h1, h2⟩ => ?_,
    fun strict w2 => ?_⟩⟩
  · rw [hm t o' h1] at h2
    cases h2
  · obtain ⟨r', o', w3, h1, h2, h3, h4, h5, h6, h7, h8⟩ := hN2 ⟨tr, strict, false⟩ rfl rfl n (by omega) w2
      w2.objs.length (Nat.le_refl _)
    exact ⟨r', w3, h1, h2, .inst _ c r r' o o' rfl ho h3 h4 h5 h6 h7, h8⟩

/-- C24: the serialized form of a canonical tree, read in any state, gives a
copy of the tree made of new instances, and changes nothing else. -/
theorem C24_round_trip {E : Env} {S : PropTy → Val → Prop} {ic tr : Bool} {w : World} {c : ClsId} {r : Nat}
    (h : Canon E S ic tr w (asProp c) (.obj r)) (hm : Unmarked w) :
    ∃ N j, ∀ n, N ≤ n → run E n (.hpSerialize r ⟨ic, false⟩) w = (.ok j, w) ∧
      ∀ strict w2, ∃ r' w3, run E n (.hpDeserialize c j ⟨tr, strict, false⟩) w2 = (.ok (.obj r'), w3) ∧
        OnlyNew w2 w3 ∧ CopyOf E w w3 w2.objs.length (asProp c) (.obj r) (.obj r') := by
  obtain ⟨N, j, hN⟩ := canon_round_trip h hm
  refine ⟨N, j, fun n hn => ⟨(hN n hn).1, fun strict w2 => ?_⟩⟩
  obtain ⟨r', w3, h1, h2, h3, _⟩ := (hN n hn).2 strict w2
  exact ⟨r', w3, h1, h2, h3⟩

/-- C24: `copy` of a canonical tree. -/
theorem C24_copy {E : Env} {S : PropTy → Val → Prop} {ic tr : Bool} {w : World} {r : Nat} {o : Obj}
    (ho : w.objs[r]? = some o) (h : Canon E S ic tr w (asProp o.cls) (.obj r)) (hm : Unmarked w) :
    ∃ N, ∀ n, N ≤ n → ∀ strict, ∃ r' w',
      run E n (.copy (.obj r) ⟨ic, false⟩ ⟨tr, strict, false⟩) w = (.ok (.obj r'), w') ∧
      OnlyNew w w' ∧ CopyOf E w w' w.objs.length (asProp o.cls) (.obj r) (.obj r') := by
  obtain ⟨N, j, hN⟩ := C24_round_trip h hm
  refine ⟨N + 1, fun n hn strict => ?_⟩
  obtain ⟨m, rfl⟩ : ∃ m, n = m + 1 := ⟨n - 1, by omega⟩
  obtain ⟨h1, h2⟩ := hN m (by omega)
  obtain ⟨r', w', h3, h4, h5⟩ := h2 strict w
  refine ⟨r', w', ?_, h4, h5⟩
  show copyBody (run E m) (.obj r) ⟨ic, false⟩ ⟨tr, strict, false⟩ w = _
  unfold copyBody
  simp only []
  rw [bind_ok (getObj_some ho), bind_ok h1]
  exact h3

/-- C24: a tree without NaN and infinities compares equal to its copies. -/
theorem C24_equal {E : Env} (hown : AllOwn E) {ic tr : Bool} {w : World} {c : ClsId} {r : Nat}
    (h : Canon E (SelfEqual E) ic tr w (asProp c) (.obj r)) :
    ∃ N, ∀ L r' w', OnlyNew w w' → (∀ (s : Nat) o, w'.objs[s]? = some o → o.te = false) →
      CopyOf E w w' L (asProp c) (.obj r) (.obj r') →
      ∀ n, N ≤ n → run E n (.equal (.obj r) (.obj r')) w' = (.ok (.bool true), w') := by
  obtain ⟨N, hN⟩ := canon_equals hown h
  refine ⟨N, fun L r' w' hon hte hcp n hn => ?_⟩
  have := (hN [] w' L _ hon hcp).1 (n + 1) (by omega) w' (sameCore_refl w') fun s t _ _ ⟨o, h1, h2⟩ => by
    rw [hte t o h1] at h2
    cases h2
  exact this

/-! ## Scalars that survive -/

theorem canon_bool (E : Env) (c b : Bool) : CanonScalar E (.boolean c) (.bool b) := by
  refine ⟨by simp, by simp, fun k => ?_, .bool b, rfl, by simp, rfl⟩
  cases c <;> cases b <;> rfl

theorem canon_int (E : Env) (c : Bool) (mn mx : Option Rat) (i : Int) (h : inBounds mn mx i = true) :
    CanonScalar E (.integer c mn mx) (.int i) := by
  refine ⟨by simp, by simp, fun k => ?_, .int i, rfl, by simp, rfl⟩
  unfold scalarValidate intValidate
  have hp : pyInt E (.int i) = .ok i := rfl
  have hf : intFar (.int i) i = some false := by
    unfold intFar ratAbs TOL
    simp
    norm_num
  simp only [hp, hf, h]
  cases c <;> rfl

theorem canon_float (E : Env) (c : Bool) (mn mx : Option Rat) (q : Rat)
    (h : inBoundsF mn mx (.fin q) = true) : CanonScalar E (.float c mn mx) (.float (.fin q)) := by
  refine ⟨by simp, by simp, fun k => ?_, .float (.fin q), rfl, by simp, rfl⟩
  unfold scalarValidate floatValidate
  have hp : pyFloat E (.float (.fin q)) = .ok (.fin q) := rfl
  simp only [hp, h, Val.isStr]
  rfl

/-- Text the property returns as it is. -/
theorem canon_string (E : Env) (chars : PyStr) (cs : CaseMode) (re : Option Nat) (s : PyStr)
    (h : stringValidate E chars cs re (.str s) = .ok (.str s)) :
    CanonScalar E (.string chars cs re) (.str s) := by
  refine ⟨by simp, by simp, fun k => ?_, .str s, rfl, by simp, rfl⟩
  unfold scalarValidate
  simp only [h]

theorem canon_choice (E : Env) (ch : List (PyStr × List PyStr)) (cs : Bool) (s : PyStr)
    (h : choiceValidate E ch cs (.str s) = .ok (.str s)) : CanonScalar E (.choice ch cs) (.str s) := by
  refine ⟨by simp, by simp, fun k => ?_, .str s, rfl, by simp, rfl⟩
  unfold scalarValidate
  simp only [h]

theorem canon_color (E : Env) (a b c : Nat) (ha : a ≤ 255) (hb : b ≤ 255) (hc : c ≤ 255) :
    CanonScalar E .color (.tup [.int a, .int b, .int c]) := by
  refine ⟨by simp, by simp, fun k => ?_, .list [.int a, .int b, .int c], rfl, by simp, rfl⟩
  unfold scalarValidate colorValidate colorOfItems
  have hi : ∀ x : Nat, x ≤ 255 → isChannel (.int x) = true := by
    intro x hx
    unfold isChannel
    simp
    omega
  simp [hi a ha, hi b hb, hi c hc]

theorem canon_uuid (E : Env) (n : Nat) (h : E.uuidOfStr (E.uuidToStr n) = some n) :
    CanonScalar E .uuid (.uuid n) := by
  refine ⟨by simp, by simp, fun k => rfl, .str (E.uuidToStr n), rfl, by simp, ?_⟩
  unfold scalarFromJson
  simp only [h]

theorem canon_datetime (E : Env) (t : DateTime) (h : E.dtOfStr (E.dtToStr t) = some t) :
    CanonScalar E .datetime (.dt t) := by
  refine ⟨by simp, by simp, fun k => rfl, .str (E.dtToStr t), rfl, by simp, ?_⟩
  unfold scalarFromJson
  simp only [h]

/-- With the text functions of Python, every UUID survives. -/
theorem canon_uuid_any {padded : Bool} {E : Env} (hE : TextEnv padded E) {n : Nat} (h : n < 2 ^ 128) :
    CanonScalar E .uuid (.uuid n) :=
  canon_uuid E n (by rw [hE.uuidTo, hE.uuidOf]; exact C08_reads_back h)

/-- With the text functions of Python, every moment in whole seconds from the
year 1000 on survives. -/
theorem canon_datetime_any {padded : Bool} {E : Env} (hE : TextEnv padded E) {t : DateTime} (hm : Moment t)
    (hy : padded = true ∨ 1000 ≤ t.year) (h0 : t.micro = 0) : CanonScalar E .datetime (.dt t) := by
  refine canon_datetime E t ?_
  obtain ⟨u, h1, a1, a2, a3, a4, a5, a6, a7⟩ := C07_reads_back hm hy
  rw [hE.dtTo, hE.dtOf, h1]
  cases t
  cases u
  simp only at a1 a2 a3 a4 a5 a6 a7 h0
  subst a1 a2 a3 a4 a5 a6 a7 h0
  rfl

/-! ## Data that the right alternative of a Union reads -/

theorem dictGet_set (k v : Val) (h : pyEq k k = true) : ∀ kvs : List (Val × Val), dictGet? (dictSet kvs k v) k = some v
  | [] => by unfold dictSet dictGet?; rw [if_pos h]
  | (k', v') :: kvs => by
    unfold dictSet
    split
    · rename_i h'
      unfold dictGet?
      rw [if_pos h']
    · rename_i h'
      unfold dictGet?
      rw [if_neg h']
      exact dictGet_set k v h kvs

/-- C24: with `include_class`, an instance in a Union is read by the alternative
of its own class, when no earlier alternative is for another class of that name. -/
theorem readBy_own_class {E : Env} {w : World} {nm : PyStr} {pre post : List PropSpec} {q : PropSpec} {r : Nat} {o : Obj}
    {j : Val} (ho : w.objs[r]? = some o) (hser : q.ser = none) (hq : q.ty = .inst o.cls) (hn : (E.classes o.cls).name ≠ [])
    (hpre : ∀ p ∈ pre, ∀ c, p.ty = .inst c → (E.classes c).name ≠ (E.classes o.cls).name)
    (hj : SerP E w true nm q (.obj r) j) : ReadBy E pre q post j := by
  have h := serP_inv hj hser (by simp)
  rw [hq] at h
  cases h r rfl with
  | mk _ o' data ho' hf =>
    rw [ho] at ho'
    cases ho'
    have hg : dictGet? (complete true (E.classes o.cls).name data) (.str (s% "__class__")) =
        some (.str (E.classes o.cls).name) := dictGet_set _ _ (pyEq_str_right.2 rfl) _
    refine .inl ⟨pre, post, rfl, ⟨_, _, o.cls, rfl, hg, ?_, hq, pyEq_str_right.2 rfl⟩, ?_⟩
    · cases hx : (E.classes o.cls).name with
      | nil => exact absurd hx hn
      | cons a b => rfl
    · rintro p hp ⟨kvs, x, c, he, h1, _, h2, h3⟩
      cases he
      rw [hg] at h1
      cases h1
      exact hpre p hp c h2 (Val.str.inj (pyEq_str_right.1 h3)).symm

/-- Data that is no dictionary names no class. -/
theorem readBy_first {E : Env} {pre post : List PropSpec} {q : PropSpec} {j : Val} (hj : ∀ kvs, j ≠ .dict kvs)
    (h : ∀ p ∈ pre, Unread E p j) : ReadBy E pre q post j :=
  .inr ⟨fun _ _ ⟨_, _, _, he, _⟩ => hj _ he, h⟩

/-- An Instance alternative reads dictionaries only. -/
theorem unread_instance {E : Env} {p : PropSpec} {c : ClsId} {j : Val} (hd : p.deser = none) (hty : p.ty = .inst c)
    (h0 : j ≠ .none) (hj : ∀ kvs, j ≠ .dict kvs) : Unread E p j := by
  refine ⟨2, fun n hn nm kw w => .inl ⟨⟨.value, []⟩, rfl, ?_⟩⟩
  obtain ⟨m, rfl⟩ : ∃ m, n = m + 2 := ⟨n - 2, by omega⟩
  show deserializeBody E (run E (m + 1)) nm p j kw w = _
  unfold deserializeBody
  have hn0 : j.isNone = false := by cases j <;> first | rfl | exact absurd rfl h0
  simp only [hd, hn0, hty, Bool.false_eq_true, if_false]
  show hpDeserializeBody E (run E m) c j kw w = _
  unfold hpDeserializeBody
  cases j <;> first | rfl | exact absurd rfl (hj _)

/-- A container alternative does not read what cannot be iterated. -/
theorem unread_sequence {E : Env} {p it : PropSpec} {k : SeqKind} {lo hi : Option Nat} {co : Bool} {j : Val}
    (hd : p.deser = none) (hty : p.ty = .seq k it lo hi co) (h0 : j ≠ .none) (hj : j.iter? = none) : Unread E p j := by
  refine ⟨1, fun n hn nm kw w => .inl ⟨⟨.type, []⟩, rfl, ?_⟩⟩
  obtain ⟨m, rfl⟩ : ∃ m, n = m + 1 := ⟨n - 1, by omega⟩
  show deserializeBody E (run E m) nm p j kw w = _
  unfold deserializeBody
  have hn0 : j.isNone = false := by cases j <;> first | rfl | exact absurd rfl h0
  simp only [hd, hn0, hty, Bool.false_eq_true, if_false, hj]
  rfl

/-- A Dictionary alternative reads dictionaries only. -/
theorem unread_dictionary {E : Env} {p kp vp : PropSpec} {co : Bool} {j : Val} (hd : p.deser = none)
    (hty : p.ty = .dict kp vp co) (h0 : j ≠ .none) (hj : ∀ kvs, j ≠ .dict kvs) : Unread E p j := by
  refine ⟨1, fun n hn nm kw w => .inl ⟨⟨.attr, []⟩, rfl, ?_⟩⟩
  obtain ⟨m, rfl⟩ : ∃ m, n = m + 1 := ⟨n - 1, by omega⟩
  show deserializeBody E (run E m) nm p j kw w = _
  unfold deserializeBody
  have hn0 : j.isNone = false := by cases j <;> first | rfl | exact absurd rfl h0
  simp only [hd, hn0, hty, Bool.false_eq_true, if_false]
  cases j <;> first | rfl | exact absurd rfl (hj _)

theorem deser_scalar_run {E : Env} {p : PropSpec} {j : Val} {x : Except ErrKind Val} (hd : p.deser = none)
    (hs : ScalarTy p.ty) (h0 : j ≠ .none) (h : scalarFromJson E p.ty j = some x) (m : Nat) (nm : PyStr) (kw : DeKw)
    (w : World) : run E (m + 1) (.deserializeP nm p j kw) w = liftK x w := by
  obtain ⟨rq, se, de, df, ty⟩ := p
  simp only [PropSpec.ty, PropSpec.deser] at hs h hd
  show deserializeBody E (run E m) nm (.mk rq se de df ty) j kw w = _
  unfold deserializeBody
  have hn0 : j.isNone = false := by cases j <;> first | rfl | exact absurd rfl h0
  simp only [PropSpec.deser, hd, hn0, Bool.false_eq_true, if_false, PropSpec.ty]
  cases ty <;> first | exact hs.elim | (simp only [h])

/-- A scalar alternative whose `from_json` fails does not read the data. -/
theorem unread_scalar {E : Env} {p : PropSpec} {j : Val} {k : ErrKind} (hd : p.deser = none) (hs : ScalarTy p.ty)
    (h0 : j ≠ .none) (h : scalarFromJson E p.ty j = some (.error k)) (hk : k.isGeneric = true) : Unread E p j := by
  refine ⟨1, fun n hn nm kw w => .inl ⟨⟨k, []⟩, hk, ?_⟩⟩
  obtain ⟨m, rfl⟩ : ∃ m, n = m + 1 := ⟨n - 1, by omega⟩
  rw [deser_scalar_run hd hs h0 h]
  rfl

/-- A scalar alternative that refuses what its `from_json` makes of the data
does not read the data. -/
theorem unread_refused {E : Env} {p : PropSpec} {j y : Val} (hd : p.deser = none) (hs : ScalarTy p.ty)
    (h0 : j ≠ .none) (h : scalarFromJson E p.ty j = some (.ok y)) (hr : RefusesScalar E p.ty y) : Unread E p j := by
  refine ⟨1, fun n hn nm kw w => .inr ⟨y, ?_, ?_⟩⟩
  · obtain ⟨m, rfl⟩ : ∃ m, n = m + 1 := ⟨n - 1, by omega⟩
    rw [deser_scalar_run hd hs h0 h]
    rfl
  · obtain ⟨m, rfl⟩ : ∃ m, n = m + 1 := ⟨n - 1, by omega⟩
    obtain ⟨e, he, hrun⟩ := refuses_run (E := E) (w := w) (w' := w) (nm := nm) (p := p) (inst := none)
      ((refuses_scalar hs).2 hr) (clsKept_refl w) (silent_none w)
    exact ⟨e, he, hrun m⟩

/-! ## A tree -/

/-- Integer with default 0. -/
def c24Int : PropSpec := .mk false none none (.val (.int 0)) (.integer false none none)
/-- String without default. -/
def c24Str : PropSpec := .mk false none none .undef (.string [] .keep none)
/-- A list of Leafs, by default empty. -/
def c24Kids : PropSpec := .mk false none none (.val (.list [])) (.seq .list (asProp 0) none none false)
/-- A set of strings. -/
def c24Tags : PropSpec := .mk false none none .undef (.seq .set c24Str none none false)
/-- A dictionary of Leafs by name. -/
def c24Index : PropSpec := .mk false none none .undef (.dict c24Str (asProp 0) false)

/-- `class Leaf` (0) with `x`, its subclass `Big` (2), and `class Tree` (1) with
a list, a set, a dictionary and an immutable number. -/
def c24Env : Env :=
  { demoEnv with
    same := fun _ _ => true
    classes := fun c => { (default : ClassDef) with
      name := if c = 0 then s% "Leaf" else if c = 2 then s% "Big" else s% "Tree"
      ancestors := if c = 2 then [0] else []
      registry := [(s% "Leaf", 0), (s% "Big", 2), (s% "Tree", 1)]
      props := if c = 1 then [(s% "kind", .gettable c24Int), (s% "label", .mutable c24Str),
          (s% "kids", .mutable c24Kids), (s% "tags", .mutable c24Tags), (s% "index", .mutable c24Index)]
        else [(s% "x", .mutable c24Int)] } }

/-- A Leaf, a Big and a Tree holding both, the Leaf twice. -/
def c24World : World :=
  { objs := [
    { cls := 0, backend := [(s% "x", .int 3)] },
    { cls := 2, backend := [(s% "x", .int 4)] },
    { cls := 1, backend := [(s% "kind", .int 1), (s% "kids", .list [.obj 0, .obj 1]),
        (s% "tags", .set [.str (s% "p"), .str (s% "q")]), (s% "index", .dict [(.str (s% "k"), .obj 0)])] }] }

theorem c24_str (tr : Bool) (s : PyStr) : Canon c24Env (SelfEqual c24Env) true tr c24World c24Str (.str s) := by
  refine .scalar _ _ ⟨rfl, rfl⟩ trivial (canon_string _ _ _ _ _ ?_) ⟨?_, ?_⟩
  · have : strip [] s = s := by
      have h : ∀ l : PyStr, lstrip [] l = l := fun l => by cases l <;> rfl
      show (lstrip [] (lstrip [] s).reverse).reverse = s
      rw [h, h, List.reverse_reverse]
    show Except.ok (Val.str (strip [] s)) = _
    rw [this]
  · show some (Except.ok (pyEq (.str s) (.str s))) = _
    rw [pyEq_str_right.2 rfl]
  · exact pyEq_str_right.2 rfl

theorem c24_int (tr : Bool) (i : Int) : Canon c24Env (SelfEqual c24Env) true tr c24World c24Int (.int i) := by
  have : pyEq (.int i) (.int i) = true := by
    unfold pyEq; simp [Val.num?, PyFloat.eq]
  refine .scalar _ _ ⟨rfl, rfl⟩ trivial (canon_int _ _ _ _ _ rfl) ⟨?_, this⟩
  show some (Except.ok (pyEq (.int i) (.int i))) = _
  rw [this]

theorem c24_leaf (r : Nat) (c : ClsId) (i : Int) (hc : c = 0 ∨ c = 2)
    (ho : c24World.objs[r]? = some { cls := c, backend := [(s% "x", .int i)] }) :
    Canon c24Env (SelfEqual c24Env) true true c24World (asProp 0) (.obj r) := by
  have hp : (c24Env.classes c).props = [(s% "x", .mutable c24Int)] := by
    rcases hc with rfl | rfl <;> rfl
  refine .inst _ 0 r _ ⟨rfl, rfl⟩ rfl ho ?_ ?_ ⟨?_, ?_, ?_, ?_⟩ ?_ ?_ ?_
  · rcases hc with rfl | rfl <;> rfl
  · rcases hc with rfl | rfl
    · exact .inl rfl
    · refine .inr ⟨rfl, rfl, ?_, ?_, rfl⟩ <;> (intro h; cases h)
  · show ((c24Env.classes c).props.map (·.1)).Nodup
    rw [hp]
    decide
  · intro nm e he
    have he : (nm, e) ∈ (c24Env.classes c).props := he
    rw [hp] at he
    simp at he
    obtain ⟨rfl, rfl⟩ := he
    refine .inr ⟨⟨.int i, by simp, by simp⟩, c24Int, .inl rfl, ?_⟩
    have : classDefault c24Env c (s% "x") (.mutable c24Int) = .val (.int 0) := by
      rcases hc with rfl | rfl <;> rfl
    show FineDefault c24Env c24Int.ty (classDefault c24Env c (s% "x") (.mutable c24Int))
    rw [this]
    exact .scalar _ _ trivial (by simp) (fun k => ⟨.int 0, by simp, (canon_int c24Env false none none 0 rfl).accepted k⟩)
  · intro nm e he
    have he : (nm, e) ∈ (c24Env.classes c).props := he
    rw [hp] at he
    simp at he
    obtain ⟨rfl, rfl⟩ := he
    decide
  · intro nm p he
    have he : (nm, Entry.gettable p) ∈ (c24Env.classes c).props := he
    rw [hp] at he
    simp at he
  · exact by simp
  · intro nm v hv
    simp at hv
    obtain ⟨rfl, rfl⟩ := hv
    refine ⟨.mutable c24Int, c24Int, ?_, .inl rfl, fun _ => skips_plain rfl⟩
    show lookupS _ (c24Env.classes c).props = _
    rw [hp]
    rfl
  · intro nm v e q hv he hq _
    simp at hv
    obtain ⟨rfl, rfl⟩ := hv
    have he : lookupS _ (c24Env.classes c).props = some e := he
    rw [hp] at he
    cases he
    cases ownSpec_det hq (.inl rfl)
    exact c24_int true i

theorem c24_tree : Canon c24Env (SelfEqual c24Env) true true c24World (asProp 1) (.obj 2) := by
  have h0 := c24_leaf 0 0 3 (.inl rfl) rfl
  have h1 := c24_leaf 1 2 4 (.inr rfl) rfl
  have hpq : pyEq (.str (s% "p")) (.str (s% "q")) = false :=
    Bool.eq_false_iff.2 fun h => absurd (Val.str.inj (pyEq_str_right.1 h)) (by decide)
  refine .inst _ 1 2 _ ⟨rfl, rfl⟩ rfl rfl rfl (.inl rfl) ⟨by decide, ?_, ?_, ?_⟩ (by decide) ?_ ?_
  · intro nm e he
    have he : (nm, e) ∈ [(s% "kind", Entry.gettable c24Int), (s% "label", .mutable c24Str),
          (s% "kids", .mutable c24Kids), (s% "tags", .mutable c24Tags), (s% "index", .mutable c24Index)] := he
    simp only [List.mem_cons, Prod.mk.injEq, List.not_mem_nil, or_false] at he
    rcases he with ⟨rfl, rfl⟩ | ⟨rfl, rfl⟩ | ⟨rfl, rfl⟩ | ⟨rfl, rfl⟩ | ⟨rfl, rfl⟩
    · exact .inr ⟨⟨.int 1, by simp, by simp⟩, c24Int, .inr rfl, .scalar _ _ trivial (by simp)
        (fun k => ⟨.int 0, by simp, (canon_int c24Env false none none 0 rfl).accepted k⟩)⟩
    · exact .inl rfl
    · exact .inr ⟨⟨.list [.obj 0, .obj 1], by simp, by simp⟩, c24Kids, .inl rfl, .seq .list _ _ _ _⟩
    · exact .inl rfl
    · exact .inl rfl
  · intro nm e he
    have he : (nm, e) ∈ [(s% "kind", Entry.gettable c24Int), (s% "label", .mutable c24Str),
          (s% "kids", .mutable c24Kids), (s% "tags", .mutable c24Tags), (s% "index", .mutable c24Index)] := he
    simp only [List.mem_cons, Prod.mk.injEq, List.not_mem_nil, or_false] at he
    rcases he with ⟨rfl, rfl⟩ | ⟨rfl, rfl⟩ | ⟨rfl, rfl⟩ | ⟨rfl, rfl⟩ | ⟨rfl, rfl⟩ <;> decide
  · intro nm p he
    have he : (nm, Entry.gettable p) ∈ [(s% "kind", Entry.gettable c24Int), (s% "label", .mutable c24Str),
          (s% "kids", .mutable c24Kids), (s% "tags", .mutable c24Tags), (s% "index", .mutable c24Index)] := he
    simp only [List.mem_cons, Prod.mk.injEq, List.not_mem_nil, or_false] at he
    rcases he with ⟨_, h⟩ | ⟨_, h⟩ | ⟨_, h⟩ | ⟨_, h⟩ | ⟨_, h⟩ <;> cases h
    exact trivial
  · intro nm v hv
    simp only [List.mem_cons, Prod.mk.injEq, List.not_mem_nil, or_false] at hv
    rcases hv with ⟨rfl, rfl⟩ | ⟨rfl, rfl⟩ | ⟨rfl, rfl⟩ | ⟨rfl, rfl⟩
    · exact ⟨_, c24Int, rfl, .inr rfl, fun _ => skips_plain rfl⟩
    · exact ⟨_, c24Kids, rfl, .inl rfl, fun _ => skips_plain rfl⟩
    · exact ⟨_, c24Tags, rfl, .inl rfl, fun _ => skips_plain rfl⟩
    · exact ⟨_, c24Index, rfl, .inl rfl, fun _ => skips_plain rfl⟩
  · intro nm v e q hv he hq _
    simp only [List.mem_cons, Prod.mk.injEq, List.not_mem_nil, or_false] at hv
    rcases hv with ⟨rfl, rfl⟩ | ⟨rfl, rfl⟩ | ⟨rfl, rfl⟩ | ⟨rfl, rfl⟩
    · cases he
      cases ownSpec_det hq (.inr rfl)
      exact c24_int true 1
    · cases he
      cases ownSpec_det hq (.inl rfl)
      refine .seq c24Kids .list (asProp 0) none none false [.obj 0, .obj 1] ⟨rfl, rfl⟩ rfl (by simp) fun x hx => ?_
      simp at hx
      rcases hx with rfl | rfl
      · exact h0
      · exact h1
    · cases he
      cases ownSpec_det hq (.inl rfl)
      refine .seq c24Tags .set c24Str none none false [.str (s% "p"), .str (s% "q")] ⟨rfl, rfl⟩ rfl
        (fun _ => ⟨trivial, ?_, ?_⟩) fun x hx => ?_
      · intro x hx
        simp at hx
        rcases hx with rfl | rfl <;> rfl
      · simp [hpq]
      · simp at hx
        rcases hx with rfl | rfl <;> exact c24_str true _
    · cases he
      cases ownSpec_det hq (.inl rfl)
      refine .dict c24Index c24Str (asProp 0) false [(.str (s% "k"), .obj 0)] ⟨rfl, rfl⟩ rfl trivial ?_ ?_ ?_ ?_ ?_ ?_
      · intro kv hkv; simp at hkv; subst hkv; rfl
      · simp
      · intro kv hkv j hj; simp at hkv; subst hkv
        rcases hj with ⟨_, hj⟩ | ⟨f, hf, _⟩
        · cases hj; rfl
        · cases hf
      · simp
      · intro kv hkv; simp at hkv; subst hkv; exact c24_str true _
      · intro kv hkv; simp at hkv; subst hkv; exact h0

/-- The call returned this reference or truth value. -/
def c24Is : Val → Except PyErr Val → Bool
  | .obj n, .ok (.obj m) => n == m
  | .bool a, .ok (.bool b) => a == b
  | _, _ => false

/-- The hypotheses hold for a tree with a list, a set, a dictionary, a shared
instance and a subclass; its copy is new and equal. -/
theorem C24_example : Canon c24Env (SelfEqual c24Env) true true c24World (asProp 1) (.obj 2) ∧
    Unmarked c24World ∧ AllOwn c24Env ∧
    c24Is (.obj 6) (run c24Env 30 (.copy (.obj 2) ⟨true, false⟩ ⟨true, false, false⟩) c24World).1 ∧
    c24Is (.bool true) (run c24Env 30 (.equal (.obj 2) (.obj 6))
      (run c24Env 30 (.copy (.obj 2) ⟨true, false⟩ ⟨true, false, false⟩) c24World).2).1 := by
  refine ⟨c24_tree, ?_, ?_, by decide +kernel, by decide +kernel⟩
  · intro r o ho
    match r, ho with
    | 0, ho | 1, ho | 2, ho => cases ho; rfl
    | n + 3, ho => cases ho
  · intro c nm e he
    have he : (nm, e) ∈ (if c = 1 then [(s% "kind", .gettable c24Int), (s% "label", .mutable c24Str),
          (s% "kids", .mutable c24Kids), (s% "tags", .mutable c24Tags), (s% "index", .mutable c24Index)]
        else [(s% "x", .mutable c24Int)]) := he
    split at he
    · simp only [List.mem_cons, Prod.mk.injEq, List.not_mem_nil, or_false] at he
      rcases he with ⟨_, rfl⟩ | ⟨_, rfl⟩ | ⟨_, rfl⟩ | ⟨_, rfl⟩ | ⟨_, rfl⟩
      · exact ⟨_, .inr rfl⟩
      all_goals exact ⟨_, .inl rfl⟩
    · simp at he
      obtain ⟨_, rfl⟩ := he
      exact ⟨_, .inl rfl⟩

/-! ## Where the claim is false -/

/-- A Leaf whose `x` has been deleted: the copy has the default again, and is
not equal to the original. -/
def c24Deleted : World := { objs := [{ cls := 0 }] }

theorem C24_deleted_comes_back :
    c24Is (.obj 1) (run c24Env 20 (.copy (.obj 0) ⟨true, false⟩ ⟨true, false, false⟩) c24Deleted).1 ∧
    c24Is (.bool false) (run c24Env 20 (.equal (.obj 0) (.obj 1))
      (run c24Env 20 (.copy (.obj 0) ⟨true, false⟩ ⟨true, false, false⟩) c24Deleted).2).1 := by
  decide +kernel

/-! ## Unions -/

/-- `Union([Cat, Dog])`. -/
def c24Pet : PropSpec := .mk false none none .undef (.union [asProp 0, asProp 1] false)
/-- Integer without default. -/
def c24Num : PropSpec := .mk false none none .undef (.integer false none none)
/-- `Union([Integer, String])`. -/
def c24Tag : PropSpec := .mk false none none .undef (.union [c24Num, c24Str] false)
/-- `List(Union([Integer, String]))`. -/
def c24Many : PropSpec := .mk false none none .undef (.seq .list c24Tag none none false)

/-- `class Cat` (0) and `class Dog` (1) with `x`, and `class Home` (2) with Unions. -/
def c24uEnv : Env :=
  { demoEnv with
    same := fun _ _ => true
    classes := fun c => { (default : ClassDef) with
      name := if c = 0 then s% "Cat" else if c = 1 then s% "Dog" else s% "Home"
      props := if c = 2 then [(s% "pet", .mutable c24Pet), (s% "tag", .mutable c24Tag), (s% "many", .mutable c24Many)]
        else [(s% "x", .mutable c24Int)] } }

/-- A Home with a Dog. -/
def c24uWorld : World :=
  { objs := [
    { cls := 1, backend := [(s% "x", .int 3)] },
    { cls := 2, backend := [(s% "pet", .obj 0), (s% "tag", .str (s% "abc")),
        (s% "many", .list [.int 1, .str (s% "d")])] }] }

theorem c24u_int (i : Int) : Canon c24uEnv (SelfEqual c24uEnv) true false c24uWorld c24Int (.int i) := by
  have : pyEq (.int i) (.int i) = true := by
    unfold pyEq; simp [Val.num?, PyFloat.eq]
  refine .scalar _ _ ⟨rfl, rfl⟩ trivial (canon_int _ _ _ _ _ rfl) ⟨?_, this⟩
  show some (Except.ok (pyEq (.int i) (.int i))) = _
  rw [this]

theorem c24u_num (i : Int) : Canon c24uEnv (SelfEqual c24uEnv) true false c24uWorld c24Num (.int i) := by
  have : pyEq (.int i) (.int i) = true := by
    unfold pyEq; simp [Val.num?, PyFloat.eq]
  refine .scalar _ _ ⟨rfl, rfl⟩ trivial (canon_int _ _ _ _ _ rfl) ⟨?_, this⟩
  show some (Except.ok (pyEq (.int i) (.int i))) = _
  rw [this]

theorem c24u_str (s : PyStr) : Canon c24uEnv (SelfEqual c24uEnv) true false c24uWorld c24Str (.str s) := by
  refine .scalar _ _ ⟨rfl, rfl⟩ trivial (canon_string _ _ _ _ _ ?_) ⟨?_, ?_⟩
  · have : strip [] s = s := by
      have h : ∀ l : PyStr, lstrip [] l = l := fun l => by cases l <;> rfl
      show (lstrip [] (lstrip [] s).reverse).reverse = s
      rw [h, h, List.reverse_reverse]
    show Except.ok (Val.str (strip [] s)) = _
    rw [this]
  · show some (Except.ok (pyEq (.str s) (.str s))) = _
    rw [pyEq_str_right.2 rfl]
  · exact pyEq_str_right.2 rfl

/-- Numbers are read by the first alternative of `Union([Integer, String])`. -/
theorem c24u_tag_int (i : Int) : Canon c24uEnv (SelfEqual c24uEnv) true false c24uWorld c24Tag (.int i) := by
  refine .union c24Tag c24Num [] [c24Str] _ ⟨rfl, rfl⟩ (by simp) rfl (by simp) (fun nm j hj => ?_) (fun _ h => nomatch h)
    (c24u_num i)
  have hb := serP_inv hj rfl (by simp)
  have hb : some (Except.ok (Val.int i)) = some (.ok j) := hb
  cases hb
  exact readBy_first (by simp) (by simp)

/-- Texts that `int` does not accept are read by the second. -/
theorem c24u_tag_str (s : PyStr) : Canon c24uEnv (SelfEqual c24uEnv) true false c24uWorld c24Tag (.str s) := by
  refine .union c24Tag c24Str [c24Num] [] _ ⟨rfl, rfl⟩ (by simp) rfl (fun p hp => ?_) (fun nm j hj => ?_) (fun p hp => ?_)
    (c24u_str s)
  · simp at hp
    subst hp
    refine ⟨fun u hu k => ?_, fun h => nomatch h⟩
    have hu : u = .str s := hu
    subst hu
    exact ⟨1, rfl⟩
  · have hb := serP_inv hj rfl (by simp)
    have hb : some (Except.ok (Val.str s)) = some (.ok j) := hb
    cases hb
    refine readBy_first (by simp) fun p hp => ?_
    simp at hp
    subst hp
    exact unread_scalar (k := .value) rfl trivial (by simp) rfl rfl
  · simp at hp
    subst hp
    exact fun u hu => ⟨_, rfl⟩

theorem c24u_dog : Canon c24uEnv (SelfEqual c24uEnv) true false c24uWorld (asProp 1) (.obj 0) := by
  have hp : (c24uEnv.classes 1).props = [(s% "x", .mutable c24Int)] := rfl
  refine .inst _ 1 0 _ ⟨rfl, rfl⟩ rfl rfl rfl (.inl rfl) ⟨by decide, ?_, ?_, ?_⟩ (by decide) ?_ ?_
  · intro nm e he
    have he : (nm, e) ∈ [(s% "x", Entry.mutable c24Int)] := he
    simp at he
    obtain ⟨rfl, rfl⟩ := he
    exact .inr ⟨⟨.int 3, by simp, by simp⟩, c24Int, .inl rfl, .scalar _ _ trivial (by simp)
      (fun k => ⟨.int 0, by simp, (canon_int c24uEnv false none none 0 rfl).accepted k⟩)⟩
  · intro nm e he
    have he : (nm, e) ∈ [(s% "x", Entry.mutable c24Int)] := he
    simp at he
    obtain ⟨rfl, rfl⟩ := he
    decide
  · intro nm p he
    have he : (nm, Entry.gettable p) ∈ [(s% "x", Entry.mutable c24Int)] := he
    simp at he
  · intro nm v hv
    simp at hv
    obtain ⟨rfl, rfl⟩ := hv
    exact ⟨.mutable c24Int, c24Int, rfl, .inl rfl, fun _ => skips_plain rfl⟩
  · intro nm v e q hv he hq _
    simp at hv
    obtain ⟨rfl, rfl⟩ := hv
    cases he
    cases ownSpec_det hq (.inl rfl)
    exact c24u_int 3

theorem c24u_pet : Canon c24uEnv (SelfEqual c24uEnv) true false c24uWorld c24Pet (.obj 0) := by
  refine .union c24Pet (asProp 1) [asProp 0] [] _ ⟨rfl, rfl⟩ (by simp) rfl (fun p hp => ?_) (fun nm j hj => ?_)
    (fun p hp => ?_) c24u_dog
  · simp at hp
    subst hp
    refine ⟨by simp, fun r hr => ?_⟩
    cases hr
    exact ⟨_, rfl, rfl⟩
  · refine readBy_own_class (o := { cls := 1, backend := [(s% "x", .int 3)] }) rfl rfl rfl (by decide) (fun p hp c hc => ?_) hj
    simp at hp
    subst hp
    cases hc
    decide
  · simp at hp
    subst hp
    exact trivial

theorem c24u_home : Canon c24uEnv (SelfEqual c24uEnv) true false c24uWorld (asProp 2) (.obj 1) := by
  refine .inst _ 2 1 _ ⟨rfl, rfl⟩ rfl rfl rfl (.inl rfl) ⟨by decide, ?_, ?_, ?_⟩ (by decide) ?_ ?_
  · intro nm e he
    have he : (nm, e) ∈ [(s% "pet", Entry.mutable c24Pet), (s% "tag", .mutable c24Tag), (s% "many", .mutable c24Many)] := he
    simp only [List.mem_cons, Prod.mk.injEq, List.not_mem_nil, or_false] at he
    rcases he with ⟨rfl, rfl⟩ | ⟨rfl, rfl⟩ | ⟨rfl, rfl⟩ <;> exact .inl rfl
  · intro nm e he
    have he : (nm, e) ∈ [(s% "pet", Entry.mutable c24Pet), (s% "tag", .mutable c24Tag), (s% "many", .mutable c24Many)] := he
    simp only [List.mem_cons, Prod.mk.injEq, List.not_mem_nil, or_false] at he
    rcases he with ⟨rfl, rfl⟩ | ⟨rfl, rfl⟩ | ⟨rfl, rfl⟩ <;> decide
  · intro nm p he
    have he : (nm, Entry.gettable p) ∈ [(s% "pet", Entry.mutable c24Pet), (s% "tag", .mutable c24Tag),
      (s% "many", .mutable c24Many)] := he
    simp at he
  · intro nm v hv
    simp only [List.mem_cons, Prod.mk.injEq, List.not_mem_nil, or_false] at hv
    rcases hv with ⟨rfl, rfl⟩ | ⟨rfl, rfl⟩ | ⟨rfl, rfl⟩
    · exact ⟨_, c24Pet, rfl, .inl rfl, fun _ => skips_plain rfl⟩
    · exact ⟨_, c24Tag, rfl, .inl rfl, fun _ => skips_plain rfl⟩
    · exact ⟨_, c24Many, rfl, .inl rfl, fun _ => skips_plain rfl⟩
  · intro nm v e q hv he hq _
    simp only [List.mem_cons, Prod.mk.injEq, List.not_mem_nil, or_false] at hv
    rcases hv with ⟨rfl, rfl⟩ | ⟨rfl, rfl⟩ | ⟨rfl, rfl⟩
    · cases he
      cases ownSpec_det hq (.inl rfl)
      exact c24u_pet
    · cases he
      cases ownSpec_det hq (.inl rfl)
      exact c24u_tag_str _
    · cases he
      cases ownSpec_det hq (.inl rfl)
      refine .seq c24Many .list c24Tag none none false [.int 1, .str (s% "d")] ⟨rfl, rfl⟩ rfl (by simp) fun x hx => ?_
      simp at hx
      rcases hx with rfl | rfl
      · exact c24u_tag_int 1
      · exact c24u_tag_str _

/-- The hypotheses hold for an instance with Unions of classes and of scalars;
its copy is new and equal. -/
theorem C24_union_example : Canon c24uEnv (SelfEqual c24uEnv) true false c24uWorld (asProp 2) (.obj 1) ∧
    Unmarked c24uWorld ∧ AllOwn c24uEnv ∧
    c24Is (.obj 3) (run c24uEnv 30 (.copy (.obj 1) ⟨true, false⟩ ⟨false, false, false⟩) c24uWorld).1 ∧
    c24Is (.bool true) (run c24uEnv 30 (.equal (.obj 1) (.obj 3))
      (run c24uEnv 30 (.copy (.obj 1) ⟨true, false⟩ ⟨false, false, false⟩) c24uWorld).2).1 := by
  refine ⟨c24u_home, ?_, ?_, by decide +kernel, by decide +kernel⟩
  · intro r o ho
    match r, ho with
    | 0, ho | 1, ho => cases ho; rfl
    | n + 2, ho => cases ho
  · intro c nm e he
    have he : (nm, e) ∈ (if c = 2 then [(s% "pet", .mutable c24Pet), (s% "tag", .mutable c24Tag), (s% "many", .mutable c24Many)]
        else [(s% "x", .mutable c24Int)]) := he
    split at he
    · simp only [List.mem_cons, Prod.mk.injEq, List.not_mem_nil, or_false] at he
      rcases he with ⟨_, rfl⟩ | ⟨_, rfl⟩ | ⟨_, rfl⟩ <;> exact ⟨_, .inl rfl⟩
    · simp at he
      obtain ⟨_, rfl⟩ := he
      exact ⟨_, .inl rfl⟩

/-! ## Unions for which the claim is false -/

/-- Text functions that know one number. -/
def c24nEnv : Env := { demoEnv with intOfStr := fun s => if s = s% "12" then some 12 else none }

/-- Serialize with the property and read the result with it again. -/
def c24Back (E : Env) (p : PropSpec) (v : Val) : M Val := do
  let j ← run E 10 (.serializeP [] p v ⟨true, false⟩)
  run E 10 (.deserializeP [] p j ⟨false, false, false⟩)

/-- `Union([Integer, Float])` holding 2.5 is read back as 2: `from_json` of
Integer truncates. -/
theorem C24_union_integer_float : (c24Back c24nEnv (.mk false none none .undef (.union
      [.mk false none none .undef (.integer false none none), .mk false none none .undef (.float false none none)] false))
      (.float (.fin (5/2))) {}).1 = .ok (.int 2) ∧
    (run c24nEnv 10 (.validate [] (.mk false none none .undef (.union
      [.mk false none none .undef (.integer false none none), .mk false none none .undef (.float false none none)] false))
      none (.float (.fin (5/2)))) {}).1 = .ok (.float (.fin (5/2))) := by
  constructor <;> with_unfolding_all rfl

/-- `Union([Integer, String])` holding '12' is read back as the number 12. -/
theorem C24_union_integer_string : (c24Back c24nEnv c24Tag (.str (s% "12")) {}).1 = .ok (.int 12) ∧
    (run c24nEnv 10 (.validate [] c24Tag none (.str (s% "12"))) {}).1 = .ok (.str (s% "12")) := by
  constructor <;> with_unfolding_all rfl

/-- `Union([List(String), String])` holding 'ab' is read back as a list of letters. -/
theorem C24_union_list_string : (c24Back c24nEnv (.mk false none none .undef (.union
      [.mk false none none .undef (.seq .list c24Str none none false), c24Str] false))
      (.str (s% "ab")) {}).1 = .ok (.list [.str (s% "a"), .str (s% "b")]) ∧
    (run c24nEnv 10 (.validate [] (.mk false none none .undef (.union
      [.mk false none none .undef (.seq .list c24Str none none false), c24Str] false)) none (.str (s% "ab"))) {}).1 =
      .ok (.str (s% "ab")) := by
  constructor <;> with_unfolding_all rfl

/-- A function default: `List('', String(''), default=lambda: [])` is covered by
`Rebuildable`. -/
theorem C24_function_default :
    FineDefault { c24Env with fn := fun _ _ => .ret (.list []) } (.seq .list c24Str none none false) (.fn 0) :=
  .fn _ 0 (.list []) rfl (by simp) (.seq .list c24Str none none false)

end Verif
