import Verif.Spec.Custom
import Verif.Props.C22
import Verif.Props.C24

/-!
# C80: registered serializers and deserializers
-/

namespace Verif
open Spec

theorem callWrapped_spec (E : Env) (n : Nat) (f : FnId) (v : Val) (kw : List Val) (w : World) :
    Wrapped E n f v kw w (callWrapped E (run E n) f v kw w).1 (callWrapped E (run E n) f v kw w).2 := by
  unfold callWrapped
  cases h : runProg E n (E.fn f (v :: kw)) w with
  | mk x w' =>
    have h' : callFn E (run E n) f (v :: kw) w = (x, w') := h
    cases x with
    | ok x => rw [catchIf_ok h']; exact .value x w' h
    | error e =>
      by_cases he : e.kind = .type
      · rw [catchIf_err h' (by rw [he]; rfl)]
        exact .again e w' _ _ h he rfl
      · rw [catchIf_pass h' (by cases hk : e.kind <;> first | rfl | exact absurd hk he)]
        exact .error e w' h he

/-- C80: a registered serializer decides alone what its property is written as, for
every value (also None), with the options of `serialize()`; a TypeError makes it be
called again with the value alone. -/
theorem C80_serializer {E : Env} {n : Nat} {nm : PyStr} {p : PropSpec} {f : FnId} (hp : p.ser = some f)
    (v : Val) (kw : SerKw) (w : World) :
    Wrapped E n f v [.bool kw.includeClass, .bool kw.saveDynamic] w
      (run E (n + 1) (.serializeP nm p v kw) w).1 (run E (n + 1) (.serializeP nm p v kw) w).2 := by
  have h : run E (n + 1) (.serializeP nm p v kw) = callWrapped E (run E n) f v kw.args := by
    show serializeBody E (run E n) nm p v kw = _
    unfold serializeBody
    rw [hp]
  rw [h]
  exact callWrapped_spec E n f v _ w

/-- C80: the same for a registered deserializer. -/
theorem C80_deserializer {E : Env} {n : Nat} {nm : PyStr} {p : PropSpec} {f : FnId} (hp : p.deser = some f)
    (v : Val) (kw : DeKw) (w : World) :
    Wrapped E n f v [.bool kw.trusted, .bool kw.strict, .bool kw.assertValid] w
      (run E (n + 1) (.deserializeP nm p v kw) w).1 (run E (n + 1) (.deserializeP nm p v kw) w).2 := by
  have h : run E (n + 1) (.deserializeP nm p v kw) = callWrapped E (run E n) f v kw.args := by
    show deserializeBody E (run E n) nm p v kw = _
    unfold deserializeBody
    rw [hp]
  rw [h]
  exact callWrapped_spec E n f v _ w

/-! ## At every depth -/

theorem serL_mem {E : Env} {w : World} {ic : Bool} {nm : PyStr} {p : PropSpec} : ∀ {xs js : List Val},
    SerL E w ic nm p xs js → ∀ x ∈ xs, ∃ j, SerP E w ic nm p x j
  | _, _, .nil .., _, hx => absurd hx (by simp)
  | _, _, .cons _ _ y j _ _ h hs, x, hx => by
    rcases List.mem_cons.1 hx with rfl | hx
    · exact ⟨j, h⟩
    · exact serL_mem hs x hx

theorem serD_mem {E : Env} {w : World} {ic : Bool} {nm : PyStr} {kp vp : PropSpec} :
    ∀ {xs js : List (Val × Val)}, SerD E w ic nm kp vp xs js → ∀ kv ∈ xs,
      (∃ j, SerP E w ic nm kp kv.1 j) ∧ ∃ j, SerP E w ic nm vp kv.2 j
  | _, _, .nil .., _, hx => absurd hx (by simp)
  | _, _, .cons _ _ _ _ _ jk jx _ _ hk hx hs, kv, hkv => by
    rcases List.mem_cons.1 hkv with rfl | hkv
    · exact ⟨⟨jk, hk⟩, jx, hx⟩
    · exact serD_mem hs kv hkv

theorem serF_written {E : Env} {w : World} {ic : Bool} {c : ClsId} : ∀ {b : List (PyStr × Val)}
    {data : List (Val × Val)}, SerF E w ic c b data → ∀ nm v, (nm, v) ∈ b → ∀ e p,
      lookupS nm (E.classes c).props = some e → OwnSpec e p → ∃ j, SerP E w ic nm p v j
  | _, _, .nil _, _, _, hx, _, _, _, _ => absurd hx (by simp)
  | _, _, .cons _ nm v e p j _ _ hl hown h hs, nm', v', hm, e', p', hl', hown' => by
    rcases List.mem_cons.1 hm with hxy | hm
    · cases hxy
      rw [hl] at hl'; cases hl'
      cases ownSpec_det hown hown'
      exact ⟨j, h⟩
    · exact serF_written hs nm' v' hm e' p' hl' hown'

theorem inTree_answers {E : Env} {w : World} {ic : Bool} {q : PropSpec} {x : Val} {f : FnId} (hq : q.ser = some f)
    {nm : PyStr} {p : PropSpec} {v : Val} (hi : InTree E w q x nm p v) :
    ∀ {j : Val}, SerP E w ic nm p v j → ∃ y, Answers E f x (serOpts ic) y := by
  induction hi with
  | here nm =>
    intro j h
    cases h with
    | custom _ _ g _ _ hg ha => rw [hq] at hg; cases hg; exact ⟨j, ha⟩
    | none _ _ h => rw [hq] at h; cases h
    | scalar _ _ _ _ h => rw [hq] at h; cases h
    | seq _ _ _ _ _ _ _ _ _ _ h => rw [hq] at h; cases h
    | dict _ _ _ _ _ _ _ h => rw [hq] at h; cases h
    | inst _ _ _ _ _ h => rw [hq] at h; cases h
    | copy _ _ _ _ _ h => rw [hq] at h; cases h
    | union _ _ _ _ _ _ _ h => rw [hq] at h; cases h
    | unionObj _ _ _ _ _ _ h => rw [hq] at h; cases h
    | unionAsIs _ _ _ _ _ h => rw [hq] at h; cases h
  | item nm p it k lo hi c v a xs hser hty hx ha _ ih =>
    intro j h
    have hv : v ≠ .none := fun hv => by rw [hv] at hx; cases hx
    have hb := serP_inv h hser hv
    rw [hty] at hb
    obtain ⟨xs', js, h1, h2, _⟩ := hb
    rw [hx] at h1; cases h1
    obtain ⟨j', h3⟩ := serL_mem h2 a ha
    exact ih h3
  | key nm p kp vp c kvs kv hser hty hkv _ ih =>
    intro j h
    have hb := serP_inv h hser (by simp)
    rw [hty] at hb
    obtain ⟨kvs', jvs, h1, h2, _⟩ := hb
    cases h1
    obtain ⟨⟨j', h3⟩, _⟩ := serD_mem h2 kv hkv
    exact ih h3
  | value nm p kp vp c kvs kv hser hty hkv _ ih =>
    intro j h
    have hb := serP_inv h hser (by simp)
    rw [hty] at hb
    obtain ⟨kvs', jvs, h1, h2, _⟩ := hb
    cases h1
    obtain ⟨_, j', h3⟩ := serD_mem h2 kv hkv
    exact ih h3
  | inst nm p c r o nm' v e p' hser hty ho hm hl hown _ ih =>
    intro j h
    have hb := serP_inv h hser (by simp)
    rw [hty] at hb
    have hb : SerO E w ic r j := hb r rfl
    cases hb with
    | mk _ o' data ho' hF =>
      rw [ho] at ho'; cases ho'
      obtain ⟨j', h3⟩ := serF_written hF nm' v hm e p' hl hown
      exact ih h3
  | union nm p ps st v a hser hv hty hp _ ih =>
    intro j h
    have hb := serP_inv h hser hv
    rw [hty] at hb
    rcases hb with ⟨b, h1, h2⟩ | h1
    · cases picks_unique hp h1
      exact ih h2
    · cases picks_unique hp h1

/-- C80: when `serialize()` succeeds, every serializer registered for a property whose
values are in the tree has answered for every one of these values, however deep they
are; so a serializer that raises makes `serialize()` of the whole tree fail. -/
theorem C80_every_depth {E : Env} {D : Nat} {w w' : World} {kw : SerKw} (hs : kw.saveDynamic = false)
    (ht : TameWorld E D w) {n r : Nat} {c : ClsId} {j : Val} (h : run E n (.hpSerialize r kw) w = (.ok j, w'))
    {q : PropSpec} {x : Val} {f : FnId} (hi : InTree E w q x [] (asProp c) (.obj r)) (hq : q.ser = some f) :
    (∃ y, Answers E f x (serOpts kw.includeClass) y) ∧ ∀ e, ¬ Raises E f x (serOpts kw.includeClass) e := by
  obtain ⟨x', hr, hq'⟩ := hpSerialize_res (L := False) (F := False) (fun h => h) hs ht (fun h => h.elim)
    _ w (sameCore_refl w) (idleGs_le w) n (fun h => h.elim) r
  rw [h] at hr
  cases hr
  obtain ⟨y, hy⟩ := inTree_answers hq hi (.inst [] (asProp c) c r j rfl rfl hq')
  exact ⟨⟨y, hy⟩, fun e he => answers_not_raises hy he⟩

/-! ## An example: pairs of functions in a list and in a nested instance -/

/-- 0: a serializer without keywords, `lambda v: v if v is None else [v]`;
1: a deserializer with keywords, `lambda v, **kw: v[0]`;
2: a serializer that refuses negative numbers. -/
def c80Fn : FnId → List Val → Prog
  | 0, [.int i] => .ret (.list [.int i])
  | 0, [.none] => .ret .none
  | 0, _ => .raise { kind := .type }
  | 1, .list [x] :: [_, _, _] => .ret x
  | 2, [.int i, _, _] => if i < 0 then .raise { kind := .value } else .ret (.int i)
  | _, _ => .raise { kind := .value }

/-- `Integer` with the functions 0 and 1. -/
def c80Int : PropSpec := .mk false (some 0) (some 1) .undef (.integer false none none)
/-- `List` of such numbers. -/
def c80Nums : PropSpec := .mk false none none .undef (.seq .list c80Int none none false)

/-- `class Leaf` (0) with two such numbers; `class Tree` (1) with a Leaf and a list of
numbers. -/
def c80Env : Env :=
  { c24Env with
    fn := c80Fn
    classes := fun c => if c = 1 then
      { name := s% "Tree", props := [(s% "leaf", .mutable (asProp 0)), (s% "nums", .mutable c80Nums)] }
      else { name := s% "Leaf", props := [(s% "a", .mutable c80Int), (s% "b", .mutable c80Int)] } }

/-- A Tree with a Leaf that has no `b`. -/
def c80World : World :=
  { objs := [{ cls := 0, backend := [(s% "a", .int 3), (s% "b", .none)] },
      { cls := 1, backend := [(s% "leaf", .obj 0), (s% "nums", .list [.int 5, .int 6])] }] }

theorem c80_int (i : Int) : Canon c80Env (SelfEqual c80Env) true false c80World c80Int (.int i) := by
  have h := canon_int c80Env false none none i rfl
  have : pyEq (.int i) (.int i) = true := by
    unfold pyEq; simp [Val.num?, PyFloat.eq]
  refine .custom _ _ (.list [.int i]) trivial (by simp) ⟨h.defined, h.plain, h.accepted⟩
    (.inr ⟨0, rfl, .short { kind := .type } _ rfl rfl rfl⟩) (by simp)
    (.inr ⟨1, rfl, fun strict => .full _ rfl⟩) ⟨?_, this⟩
  show some (Except.ok (pyEq (.int i) (.int i))) = _
  rw [this]

theorem c80_leaf : Canon c80Env (SelfEqual c80Env) true false c80World (asProp 0) (.obj 0) := by
  have hp : ∀ {nm e}, (nm, e) ∈ (c80Env.classes 0).props → (nm = s% "a" ∨ nm = s% "b") ∧ e = .mutable c80Int := by
    intro nm e he
    have he : (nm, e) ∈ [(s% "a", Entry.mutable c80Int), (s% "b", .mutable c80Int)] := he
    simp only [List.mem_cons, Prod.mk.injEq, List.not_mem_nil, or_false] at he
    rcases he with ⟨rfl, rfl⟩ | ⟨rfl, rfl⟩
    · exact ⟨.inl rfl, rfl⟩
    · exact ⟨.inr rfl, rfl⟩
  refine .inst _ 0 0 _ ⟨rfl, rfl⟩ rfl rfl rfl (.inl rfl) ⟨by decide, ?_, ?_, ?_⟩ (by decide) ?_ ?_
  · intro nm e he
    obtain ⟨rfl | rfl, rfl⟩ := hp he <;> exact .inl rfl
  · intro nm e he
    obtain ⟨rfl | rfl, rfl⟩ := hp he <;> decide
  · intro nm p he
    cases (hp he).2
  · intro nm v hv
    simp only [List.mem_cons, Prod.mk.injEq, List.not_mem_nil, or_false] at hv
    rcases hv with ⟨rfl, rfl⟩ | ⟨rfl, rfl⟩
    · exact ⟨.mutable c80Int, c80Int, rfl, .inl rfl, fun h => by cases h⟩
    · exact ⟨.mutable c80Int, c80Int, rfl, .inl rfl, fun _ f hf => by
        cases hf
        exact .short { kind := .type } _ rfl rfl rfl⟩
  · intro nm v e q hv he hq h0
    simp only [List.mem_cons, Prod.mk.injEq, List.not_mem_nil, or_false] at hv
    rcases hv with ⟨rfl, rfl⟩ | ⟨rfl, rfl⟩
    · cases he
      cases ownSpec_det hq (.inl rfl)
      exact c80_int 3
    · exact absurd rfl h0

theorem c80_tree : Canon c80Env (SelfEqual c80Env) true false c80World (asProp 1) (.obj 1) := by
  have hp : ∀ {nm e}, (nm, e) ∈ (c80Env.classes 1).props →
      (nm = s% "leaf" ∧ e = .mutable (asProp 0)) ∨ (nm = s% "nums" ∧ e = .mutable c80Nums) := by
    intro nm e he
    have he : (nm, e) ∈ [(s% "leaf", Entry.mutable (asProp 0)), (s% "nums", .mutable c80Nums)] := he
    simpa only [List.mem_cons, Prod.mk.injEq, List.not_mem_nil, or_false] using he
  refine .inst _ 1 1 _ ⟨rfl, rfl⟩ rfl rfl rfl (.inl rfl) ⟨by decide, ?_, ?_, ?_⟩ (by decide) ?_ ?_
  · intro nm e he
    obtain ⟨rfl, rfl⟩ | ⟨rfl, rfl⟩ := hp he <;> exact .inl rfl
  · intro nm e he
    obtain ⟨rfl, rfl⟩ | ⟨rfl, rfl⟩ := hp he <;> decide
  · intro nm p he
    obtain ⟨_, h⟩ | ⟨_, h⟩ := hp he <;> cases h
  · intro nm v hv
    simp only [List.mem_cons, Prod.mk.injEq, List.not_mem_nil, or_false] at hv
    rcases hv with ⟨rfl, rfl⟩ | ⟨rfl, rfl⟩
    · exact ⟨_, asProp 0, rfl, .inl rfl, fun _ => skips_plain rfl⟩
    · exact ⟨_, c80Nums, rfl, .inl rfl, fun _ => skips_plain rfl⟩
  · intro nm v e q hv he hq h0
    simp only [List.mem_cons, Prod.mk.injEq, List.not_mem_nil, or_false] at hv
    rcases hv with ⟨rfl, rfl⟩ | ⟨rfl, rfl⟩
    · cases he
      cases ownSpec_det hq (.inl rfl)
      exact c80_leaf
    · cases he
      cases ownSpec_det hq (.inl rfl)
      refine .seq c80Nums .list c80Int none none false [.int 5, .int 6] ⟨rfl, rfl⟩ rfl (by simp) fun x hx => ?_
      simp only [List.mem_cons, List.not_mem_nil, or_false] at hx
      rcases hx with rfl | rfl
      · exact c80_int 5
      · exact c80_int 6

/-- The tree survives (C24): the data holds what the serializer made, in the nested
instance and in the list, and the deserializer reads it back; the copy is equal. -/
theorem C80_example : Canon c80Env (SelfEqual c80Env) true false c80World (asProp 1) (.obj 1) ∧
    Unmarked c80World ∧
    (run c80Env 20 (.hpSerialize 1 ⟨true, false⟩) c80World).1 = .ok (.dict [
      (.str (s% "leaf"), .dict [(.str (s% "a"), .list [.int 3]), (.str (s% "__class__"), .str (s% "Leaf"))]),
      (.str (s% "nums"), .list [.list [.int 5], .list [.int 6]]),
      (.str (s% "__class__"), .str (s% "Tree"))]) ∧
    c24Is (.obj 3) (run c80Env 30 (.copy (.obj 1) ⟨true, false⟩ ⟨false, false, false⟩) c80World).1 ∧
    c24Is (.bool true) (run c80Env 30 (.equal (.obj 1) (.obj 3))
      (run c80Env 30 (.copy (.obj 1) ⟨true, false⟩ ⟨false, false, false⟩) c80World).2).1 := by
  refine ⟨c80_tree, ?_, by with_unfolding_all rfl, by decide +kernel, by decide +kernel⟩
  intro r o ho
  match r, ho with
  | 0, ho | 1, ho => cases ho; rfl
  | n + 2, ho => cases ho

/-! ## A serializer that raises -/

/-- `List(Integer(serializer=2))`. -/
def c80Strict : PropSpec := .mk false none none .undef
  (.seq .list (.mk false (some 2) none .undef (.integer false none none)) none none false)

/-- `class Leaf` with a list of numbers whose serializer refuses negative ones. -/
def c80sEnv : Env :=
  { c80Env with classes := fun _ => { name := s% "Leaf", props := [(s% "xs", .mutable c80Strict)] } }

def c80sWorld : World := { objs := [{ cls := 0, backend := [(s% "xs", .list [.int 1, .int (-1)])] }] }

theorem c80_computes (i : Int) : Computes c80sEnv 2 (.int i) := by
  intro ic
  by_cases h : i < 0
  · refine .inr ⟨{ kind := .value }, .full _ ?_ (by simp), by simp⟩
    show (if i < 0 then _ else _) = _
    rw [if_pos h]
  · refine .inl ⟨.int i, .full _ ?_⟩
    show (if i < 0 then _ else _) = _
    rw [if_neg h]

theorem c80s_tame : TameWorld c80sEnv 2 c80sWorld := by
  intro r o ho
  match r, ho with
  | 0, ho =>
    cases ho
    refine ⟨by decide, fun nm v hv => ?_⟩
    simp only [List.mem_singleton, Prod.mk.injEq] at hv
    obtain ⟨rfl, rfl⟩ := hv
    refine ⟨_, c80Strict, rfl, .inl rfl, .inl ⟨rfl, ?_⟩, by decide⟩
    intro xs hxs x hx
    cases hxs
    simp only [List.mem_cons, List.not_mem_nil, or_false] at hx
    rcases hx with rfl | rfl
    · exact .inr ⟨2, rfl, c80_computes 1⟩
    · exact .inr ⟨2, rfl, c80_computes (-1)⟩
  | n + 1, ho => cases ho

/-- `C80_every_depth` at work: the second item is refused, so the instance cannot be
written. -/
theorem C80_refused (n : Nat) (ic : Bool) (j : Val) :
    (run c80sEnv n (.hpSerialize 0 ⟨ic, false⟩) c80sWorld).1 ≠ .ok j := by
  intro h
  refine (C80_every_depth (c := 0) rfl c80s_tame (Prod.ext h rfl) (q := .mk false (some 2) none .undef (.integer false none none))
    (x := .int (-1)) (f := 2) ?_ rfl).2 { kind := .value } (.full _ rfl (by simp))
  exact .inst [] _ 0 0 _ (s% "xs") _ _ c80Strict rfl rfl rfl (List.mem_singleton.2 rfl) rfl (.inl rfl)
    (.item _ _ _ _ _ _ _ _ (.int (-1)) _ rfl rfl rfl (by simp) (.here _))

/-! ## A TypeError of its own -/

/-- A serializer that creates an instance and then raises a TypeError, for the value 0. -/
def c80tEnv : Env :=
  { c80Env with fn := fun _ _ => .call (.construct 0 []) fun _ => .raise { kind := .type } }

/-- A serializer that raises a TypeError of its own is run twice, with all its effects:
two instances are made. -/
theorem C80_run_twice : (run c80tEnv 20 (.serializeP (s% "a") c80Int (.int 0) {}) {}).2.objs.length = 2 ∧
    (run c80tEnv 20 (.serializeP (s% "a") c80Int (.int 0) {}) {}).1 = .error { kind := .type } := by
  constructor <;> with_unfolding_all rfl

end Verif
