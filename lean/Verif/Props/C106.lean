import Verif.Lemmas.TwinData
import Verif.Props.C105

/-!
# C106: programs cannot tell in which order values were stored
-/

namespace Verif
open Spec Spec.Exc

/-- C106: in two states that differ in the order only in which instances store
their values, a program ends with the same result, calls the same listeners and
hooks, and leaves such states.  The program and the functions it is given may do
anything but serialize without `save_dynamic`. -/
theorem C106_programs (E : Env) (hE : ∀ f args, OrderlessProg (E.fn f args)) (n : Nat) (p : Prog)
    (hp : OrderlessProg p) (w w' : World) (h : SameWorld w w') :
    (runProg E n p w).1 = (runProg E n p w').1 ∧ SameWorld (runProg E n p w).2 (runProg E n p w').2 :=
  blind_execProg (run_blind hE n) p hp w w' h

/-- C106: so it is for each call. -/
theorem C106_calls (E : Env) (hE : ∀ f args, OrderlessProg (E.fn f args)) (n : Nat) (c : Call)
    (hc : Orderless c) (w w' : World) (h : SameWorld w w') :
    (run E n c w).1 = (run E n c w').1 ∧ SameWorld (run E n c w).2 (run E n c w').2 :=
  run_blind hE n c hc w w' h

theorem same_of_values {r : Nat} {w w' : World} (h : SameValues r w w') : SameWorld w w' := by
  obtain ⟨⟨f, rfl⟩, o1, o2, h1, h2, hv⟩ := h
  refine ⟨_, rfl, by simp, fun i o hi => ?_⟩
  simp only [List.getElem?_modify, hi, Option.map_eq_map, Option.map_some]
  refine ⟨_, rfl, ?_⟩
  by_cases hr : r = i
  · subst hr
    obtain rfl : o = o1 := Option.some.inj (hi.symm.trans h1)
    simp only [World.setObj, List.getElem?_modify, hi, if_true, Option.map_eq_map, Option.map_some,
      Option.some.injEq] at h2
    subst h2
    simp only [if_true]
    exact ⟨f o, rfl, fun k => (hv k).symm⟩
  · simp only [hr, if_false]
    exact ⟨o.backend, rfl, fun _ => rfl⟩

/-- C106: instances constructed with the keywords of C103 in two orders behave
the same in every such program. -/
theorem C106_keywords {E : Env} (hE : ∀ f args, Indirect (E.fn f args))
    (hO : ∀ f args, OrderlessProg (E.fn f args)) {j : Nat} {c : ClsId}
    (hh : (E.classes c).hook = none) {w w0 : World} {v0 : Val}
    (h0 : run E (j + 2) (.construct c []) w = (.ok v0, w0)) {kw kw' : List (PyStr × Val)}
    (hp : kw.Perm kw') (hk : PlainKeywords E j c kw)
    (hl : ∀ o, w0.objs[w.objs.length]? = some o → ∀ l ∈ o.listeners, ∀ kv ∈ kw, l.name ≠ kv.1)
    {x : Val} {w1 : World} (h : run E (j + 2) (.construct c kw) w = (.ok x, w1)) :
    ∃ w2, run E (j + 2) (.construct c kw') w = (.ok x, w2) ∧
      ∀ n p, OrderlessProg p → (runProg E n p w1).1 = (runProg E n p w2).1 := by
  obtain ⟨w2, h2, hs⟩ := (C103_order hE hh h0 hp hk hl).1 x w1 h
  exact ⟨w2, h2, fun n p hpp => (C106_programs E hO n p hpp w1 w2 (same_of_values hs)).1⟩

/-- C106: in two such states `serialize()` returns in both or raises in both,
nothing changes, and the data returned is the same up to the order of the
entries of dictionaries. -/
theorem C106_serialize {E : Env} (hO : ∀ f args, OrderlessProg (E.fn f args)) {D : Nat} {w w' : World}
    (hs : SameWorld w w') (ht : TameWorld E D w)
    (hn : ∀ (r : Nat) (o : Obj), w'.objs[r]? = some o → (o.backend.map (·.1)).Nodup) {kw : SerKw}
    (hk : kw.saveDynamic = false) (n r : Nat) :
    (∃ j j', run E n (.hpSerialize r kw) w = (.ok j, w) ∧
      run E n (.hpSerialize r kw) w' = (.ok j', w') ∧ SameJson j j') ∨
    (∃ e e', run E n (.hpSerialize r kw) w = (.error e, w) ∧
      run E n (.hpSerialize r kw) w' = (.error e', w')) := by
  refine hpSerialize_both hO hk n hs (fun i o ho => ⟨(ht i o ho).1, fun nm v hm => ?_⟩) hn r
  obtain ⟨e, p, h1, h2, h3, _⟩ := (ht i o ho).2 nm v hm
  exact ⟨e, p, h1, h2, h3⟩

/-! ## An instance that stores its values in two orders -/

def c106One : World := (run ordEnv 8 (.construct 0 [(s% "a", .int 3)]) {}).2

/-- `a` is deleted and assigned, so that it is stored last. -/
def c106Again : Prog :=
  .call (.delattr 0 (s% "a")) fun _ => .call (.setattr 0 (s% "a") (.int 3)) fun _ => .ret .none

/-- Compare, write with `save_dynamic` and validate. -/
def c106Look : Prog :=
  .call (.construct 0 [(s% "a", .int 3)]) fun _ => .call (.equal (.obj 0) (.obj 1)) fun e =>
  .call (.hpValidate 0) fun _ => .call (.hpSerialize 0 { saveDynamic := true }) fun x =>
  .ret (.tup [e.toOption.getD .none, x.toOption.getD .none])

/-- The two states differ in the order only, and the program gives the same in
both; `serialize()` shows the order. -/
theorem C106_example : (∀ f args, OrderlessProg (ordEnv.fn f args)) ∧ OrderlessProg c106Look ∧
    SameWorld c106One (runProg ordEnv 8 c106Again c106One).2 ∧
    c106One.objs.map Obj.backend = [[(s% "a", .int 3), (s% "b", .float (.fin 2))]] ∧
    (runProg ordEnv 8 c106Again c106One).2.objs.map Obj.backend =
      [[(s% "b", .float (.fin 2)), (s% "a", .int 3)]] ∧
    (runProg ordEnv 8 c106Look c106One).1 = .ok (.tup [.bool true, .dict
      [(.str (s% "a"), .int 3), (.str (s% "b"), .float (.fin 2)), (.str (s% "__class__"), .str [])]]) ∧
    (run ordEnv 8 (.hpSerialize 0 {}) c106One).1 ≠
      (run ordEnv 8 (.hpSerialize 0 {}) (runProg ordEnv 8 c106Again c106One).2).1 := by
  refine ⟨?_, ?_, ?_, ?_, ?_, ?_, ?_⟩
  · intro f args
    show OrderlessProg (match args with
      | .obj r :: _ => .call (.setattr r (s% "b") (.int 0)) fun _ => .ret .none
      | _ => .ret .none)
    split
    · exact ⟨trivial, fun _ => trivial⟩
    · trivial
  · exact ⟨trivial, fun _ => ⟨trivial, fun _ => ⟨trivial, fun _ => ⟨rfl, fun _ => trivial⟩⟩⟩⟩
  · refine ⟨(runProg ordEnv 8 c106Again c106One).2.objs, by with_unfolding_all rfl,
      by with_unfolding_all rfl, fun i o hi => ?_⟩
    match i, hi with
    | 0, hi =>
      have ho : o = c106One.objs[0]'(by with_unfolding_all decide) := by
        have : c106One.objs[0]? = some (c106One.objs[0]'(by with_unfolding_all decide)) := by simp
        exact Option.some.inj (hi.symm.trans this)
      subst ho
      refine ⟨_, by with_unfolding_all rfl, [(s% "b", .float (.fin 2)), (s% "a", .int 3)],
        by with_unfolding_all rfl, fun k => ?_⟩
      have hb : (c106One.objs[0]'(by with_unfolding_all decide)).backend =
          [(s% "a", .int 3), (s% "b", .float (.fin 2))] := by with_unfolding_all rfl
      rw [hb]
      simp only [lookupS]
      by_cases ha : k = s% "a"
      · subst ha; rfl
      · have : (s% "a") ≠ k := fun h => ha h.symm
        simp [this]
    | i + 1, hi =>
      have : c106One.objs.length = 1 := by with_unfolding_all rfl
      rw [List.getElem?_eq_none (by omega)] at hi
      cases hi
  · with_unfolding_all rfl
  · with_unfolding_all rfl
  · with_unfolding_all rfl
  · have h1 : (run ordEnv 8 (.hpSerialize 0 {}) c106One).1 = .ok (.dict
        [(.str (s% "a"), .int 3), (.str (s% "b"), .float (.fin 2)),
          (.str (s% "__class__"), .str [])]) := by with_unfolding_all rfl
    have h2 : (run ordEnv 8 (.hpSerialize 0 {}) (runProg ordEnv 8 c106Again c106One).2).1 = .ok (.dict
        [(.str (s% "b"), .float (.fin 2)), (.str (s% "a"), .int 3),
          (.str (s% "__class__"), .str [])]) := by with_unfolding_all rfl
    rw [h1, h2]
    intro h
    injection h with h
    injection h with h
    injection h with h
    injection h with h
    injection h with h
    exact absurd h (by decide)

/-- The hypotheses of C106_serialize hold for these states; the entries come in
two orders. -/
theorem C106_serialize_example : TameWorld ordEnv 1 c106One ∧
    (∀ (r : Nat) (o : Obj), (runProg ordEnv 8 c106Again c106One).2.objs[r]? = some o →
      (o.backend.map (·.1)).Nodup) ∧
    (run ordEnv 8 (.hpSerialize 0 {}) c106One).1 = .ok (.dict
      [(.str (s% "a"), .int 3), (.str (s% "b"), .float (.fin 2)), (.str (s% "__class__"), .str [])]) ∧
    (run ordEnv 8 (.hpSerialize 0 {}) (runProg ordEnv 8 c106Again c106One).2).1 = .ok (.dict
      [(.str (s% "b"), .float (.fin 2)), (.str (s% "a"), .int 3), (.str (s% "__class__"), .str [])]) := by
  have h1 : c106One.objs.map (fun o => (o.cls, o.backend)) =
      [(0, [(s% "a", .int 3), (s% "b", .float (.fin 2))])] := by with_unfolding_all rfl
  have h2 : (runProg ordEnv 8 c106Again c106One).2.objs.map Obj.backend =
      [[(s% "b", .float (.fin 2)), (s% "a", .int 3)]] := by with_unfolding_all rfl
  refine ⟨fun r o ho => ?_, fun r o ho => ?_, by with_unfolding_all rfl, by with_unfolding_all rfl⟩
  · have hm : (o.cls, o.backend) ∈ c106One.objs.map (fun o => (o.cls, o.backend)) :=
      List.mem_map.2 ⟨o, List.mem_of_getElem? ho, rfl⟩
    rw [h1, List.mem_singleton, Prod.mk.injEq] at hm
    rw [hm.1, hm.2]
    refine ⟨by decide, fun nm v hv => ?_⟩
    simp only [List.mem_cons, List.not_mem_nil, or_false, Prod.mk.injEq] at hv
    rcases hv with ⟨rfl, rfl⟩ | ⟨rfl, rfl⟩
    · exact ⟨.mutable ordA, ordA, rfl, .inl rfl, .inl ⟨rfl, trivial⟩, by decide⟩
    · exact ⟨.mutable ordB, ordB, rfl, .inl rfl, .inl ⟨rfl, trivial⟩, by decide⟩
  · have hm : o.backend ∈ (runProg ordEnv 8 c106Again c106One).2.objs.map Obj.backend :=
      List.mem_map.2 ⟨o, List.mem_of_getElem? ho, rfl⟩
    rw [h2, List.mem_singleton] at hm
    rw [hm]
    decide

end Verif
