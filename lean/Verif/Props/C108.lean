import Verif.Props.C107
import Verif.Lemmas.PlainStored

/-!
# C108: copies do not depend on the order in which values were assigned
-/

namespace Verif
open Spec Spec.Exc

theorem sameWorld_trans {a b c : World} (h : SameWorld a b) (h' : SameWorld b c) : SameWorld a c := by
  obtain ⟨os, rfl, hlen, hos⟩ := h
  obtain ⟨os', rfl, hlen', hos'⟩ := h'
  refine ⟨os', rfl, hlen'.trans hlen, fun i o hi => ?_⟩
  obtain ⟨o1, h1, b1, rfl, hb1⟩ := hos i o hi
  obtain ⟨o2, h2, b2, rfl, hb2⟩ := hos' i _ h1
  exact ⟨_, h2, b2, rfl, fun k => (hb2 k).trans (hb1 k)⟩

/-- Flat data that is the same up to order is the same entries in some order. -/
theorem sameJson_flat {kvs : List (Val × Val)} {j : Val} (h : SameJson (.dict kvs) j)
    (hf : ∀ kv ∈ kvs, kv.2.hashable = true) : ∃ kvs', j = .dict kvs' ∧ kvs.Perm kvs' := by
  cases h with
  | same => exact ⟨kvs, rfl, .refl _⟩
  | dict _ mid kvs' hlen hk hv hp =>
    refine ⟨kvs', rfl, ?_⟩
    have : kvs = mid := by
      refine List.ext_getElem hlen fun i h1 h2 => ?_
      have hm : (kvs[i], mid[i]) ∈ kvs.zip mid := by
        have hz : i < (kvs.zip mid).length := by simp [h1, h2]
        have := List.getElem_mem hz
        rwa [List.getElem_zip] at this
      exact Prod.ext (hk _ hm) (sameJson_hashable (hv _ hm) (hf _ (List.getElem_mem h1)))
    exact this ▸ hp

theorem copy_parts {E : Env} {n r : Nat} {o : Obj} {w w1 : World} {skw : SerKw} {dkw : DeKw} {v : Val}
    (ho : w.objs[r]? = some o) (hs : run E n (.hpSerialize r skw) w = (.ok v, w1)) :
    run E (n + 1) (.copy (.obj r) skw dkw) w = run E n (.hpDeserialize o.cls v dkw) w1 := by
  show copyBody (run E n) (.obj r) skw dkw w = _
  unfold copyBody
  dsimp only
  have hg : getObj r w = (.ok o, w) := by
    unfold getObj
    simp only [ho]
  rw [bind_ok hg, bind_ok hs]

theorem copy_fails {E : Env} {n r : Nat} {o : Obj} {w w1 : World} {skw : SerKw} {dkw : DeKw} {e : PyErr}
    (ho : w.objs[r]? = some o) (hs : run E n (.hpSerialize r skw) w = (.error e, w1)) :
    run E (n + 1) (.copy (.obj r) skw dkw) w = (.error e, w1) := by
  show copyBody (run E n) (.obj r) skw dkw w = _
  unfold copyBody
  dsimp only
  rw [bind_ok (getObj_some ho), bind_err hs]

/-- **C108**.  In two states that differ in the order only in which instances
store their values, `copy` of an instance that stores values of basic properties
returns in both or raises in both; the copies hold the same values, and programs
that do not serialize without `save_dynamic` cannot tell them apart. -/
theorem C108_copy {E : Env} (hE : ∀ f args, Indirect (E.fn f args))
    (hO : ∀ f args, OrderlessProg (E.fn f args)) {j : Nat} (hj : 1 ≤ j) {w w' : World}
    (hs : SameWorld w w') {skw : SerKw} (hk : skw.saveDynamic = false) {dkw : DeKw}
    (hd : dkw.trusted = false) {r : Nat} {o o' : Obj} (ho : w.objs[r]? = some o)
    (ho' : w'.objs[r]? = some o') (hP : PlainStored E o) (hN : (o'.backend.map (·.1)).Nodup)
    (hh : (E.classes o.cls).hook = none) {w0 : World} {v0 : Val}
    (h0 : run E (j + 2) (.construct o.cls []) { w with quar := w.quar.union Quar.all } = (.ok v0, w0))
    (hl : ∀ q, w0.objs[w.objs.length]? = some q → ∀ l ∈ q.listeners,
      l.name ≠ s% "__class__" ∧ ∀ v, (l.name, v) ∉ o.backend) :
    (∃ x w1 w2, run E (j + 4) (.copy (.obj r) skw dkw) w = (.ok x, w1) ∧
      run E (j + 4) (.copy (.obj r) skw dkw) w' = (.ok x, w2) ∧ SameWorld w1 w2 ∧
      ∀ n p, OrderlessProg p → (runProg E n p w1).1 = (runProg E n p w2).1) ∨
    (∃ e e' w1 w2, run E (j + 4) (.copy (.obj r) skw dkw) w = (.error e, w1) ∧
      run E (j + 4) (.copy (.obj r) skw dkw) w' = (.error e', w2)) := by
  have hcls : o'.cls = o.cls := by
    obtain ⟨o2, h2, b, rfl, _⟩ := sameWorld_fwd hs ho
    rw [ho'] at h2
    cases h2
    rfl
  rcases plainSerialize_both (n := j + 3) hk hs ho ho' hP hN with
    ⟨_, _, h1, h2, kvs, kvs', rfl, rfl, hperm, hp, hnm⟩ | ⟨e, e', h1, h2⟩
  · rw [copy_parts ho h1, copy_parts ho' h2, hcls]
    have hl' : ∀ q, w0.objs[w.objs.length]? = some q → ∀ l ∈ q.listeners, ∀ v, (Val.str l.name, v) ∉ kvs := by
      intro q hq l hlm v hv
      rcases hnm _ _ hv with h | ⟨x, h⟩
      · exact (hl q hq l hlm).1 h
      · exact (hl q hq l hlm).2 x h
    have hc := C106_calls E hO (j + 3) (.hpDeserialize o.cls (.dict kvs') dkw) trivial w w' hs
    cases hr : run E (j + 3) (.hpDeserialize o.cls (.dict kvs) dkw) w with
    | mk q w1 =>
      cases q with
      | ok x =>
        obtain ⟨w2, h4, h5⟩ := C107_order hE hO hj hh h0 hperm hp hl' hd hr
        rw [h4] at hc
        have h6 := sameWorld_trans h5 hc.2
        refine .inl ⟨x, w1, (run E (j + 3) (.hpDeserialize o.cls (.dict kvs') dkw) w').2, rfl, ?_, h6,
          fun n p hpp => (C106_programs E hO n p hpp w1 _ h6).1⟩
        exact Prod.ext hc.1.symm rfl
      | error e =>
        obtain ⟨e', w2, h4⟩ := C107_raises hE hO hj hh h0 hperm hp hl' hd hr
        rw [h4] at hc
        refine .inr ⟨e, e', w1, (run E (j + 3) (.hpDeserialize o.cls (.dict kvs') dkw) w').2, rfl, ?_⟩
        exact Prod.ext hc.1.symm rfl
  · exact .inr ⟨e, e', w, w', copy_fails ho h1, copy_fails ho' h2⟩

/-- **C108**.  In two states that differ in the order only in which instances
store their values, so it is for instances whose data, as serialized, is flat
and names basic properties, whatever their serializers. -/
theorem C108_flat {E : Env} (hE : ∀ f args, Indirect (E.fn f args))
    (hO : ∀ f args, OrderlessProg (E.fn f args)) {j : Nat} (hj : 1 ≤ j) {D : Nat} {w w' : World}
    (hs : SameWorld w w') (ht : TameWorld E D w)
    (hn : ∀ (r : Nat) (o : Obj), w'.objs[r]? = some o → (o.backend.map (·.1)).Nodup) {skw : SerKw}
    (hk : skw.saveDynamic = false) {dkw : DeKw} (hd : dkw.trusted = false) {r : Nat} {o : Obj}
    (ho : w.objs[r]? = some o) (hh : (E.classes o.cls).hook = none) {w0 : World} {v0 : Val}
    (h0 : run E (j + 2) (.construct o.cls []) { w with quar := w.quar.union Quar.all } = (.ok v0, w0))
    {kvs : List (Val × Val)} (hj1 : run E (j + 3) (.hpSerialize r skw) w = (.ok (.dict kvs), w))
    (hp : PlainInput E o.cls kvs) (hf : ∀ kv ∈ kvs, kv.2.hashable = true)
    (hl : ∀ o', w0.objs[w.objs.length]? = some o' → ∀ l ∈ o'.listeners, ∀ v, (Val.str l.name, v) ∉ kvs) :
    (∃ x w1 w2, run E (j + 4) (.copy (.obj r) skw dkw) w = (.ok x, w1) ∧
      run E (j + 4) (.copy (.obj r) skw dkw) w' = (.ok x, w2) ∧ SameWorld w1 w2 ∧
      ∀ n p, OrderlessProg p → (runProg E n p w1).1 = (runProg E n p w2).1) ∨
    (∃ e e' w1 w2, run E (j + 4) (.copy (.obj r) skw dkw) w = (.error e, w1) ∧
      run E (j + 4) (.copy (.obj r) skw dkw) w' = (.error e', w2)) := by
  rcases C106_serialize hO hs ht hn hk (j + 3) r with ⟨a, b, h1, h2, h3⟩ | ⟨e, e', h1, _⟩
  · rw [hj1] at h1
    obtain rfl : Val.dict kvs = a := by injection h1 with h1 _; injection h1
    obtain ⟨kvs', rfl, hperm⟩ := sameJson_flat h3 hf
    obtain ⟨o', ho', b', rfl, _⟩ := sameWorld_fwd hs ho
    rw [copy_parts ho hj1, copy_parts ho' h2]
    show (∃ x w1 w2, _ ∧ run E (j + 3) (.hpDeserialize o.cls (.dict kvs') dkw) w' = _ ∧ _) ∨
      (∃ e e' w1 w2, _ ∧ run E (j + 3) (.hpDeserialize o.cls (.dict kvs') dkw) w' = _)
    have hc := C106_calls E hO (j + 3) (.hpDeserialize o.cls (.dict kvs') dkw) trivial w w' hs
    cases hr : run E (j + 3) (.hpDeserialize o.cls (.dict kvs) dkw) w with
    | mk q w1 =>
      cases q with
      | ok x =>
        obtain ⟨w2, h4, h5⟩ := C107_order hE hO hj hh h0 hperm hp hl hd hr
        rw [h4] at hc
        have h6 := sameWorld_trans h5 hc.2
        refine .inl ⟨x, w1, (run E (j + 3) (.hpDeserialize o.cls (.dict kvs') dkw) w').2, rfl, ?_, h6,
          fun n p hpp => (C106_programs E hO n p hpp w1 _ h6).1⟩
        exact Prod.ext hc.1.symm rfl
      | error e =>
        obtain ⟨e', w2, h4⟩ := C107_raises hE hO hj hh h0 hperm hp hl hd hr
        rw [h4] at hc
        refine .inr ⟨e, e', w1, (run E (j + 3) (.hpDeserialize o.cls (.dict kvs') dkw) w').2, rfl, ?_⟩
        exact Prod.ext hc.1.symm rfl
  · rw [hj1] at h1
    cases h1

/-- The two states of C106 meet the hypotheses, and the copies are stored in the
order of the class. -/
theorem C108_example :
    SameWorld c106One (runProg ordEnv 8 c106Again c106One).2 ∧ TameWorld ordEnv 1 c106One ∧
    (∀ o, c106One.objs[0]? = some o → PlainStored ordEnv o ∧ o.cls = 0) ∧
    (run ordEnv 8 (.construct 0 []) { c106One with quar := c106One.quar.union Quar.all }).1 = .ok (.obj 1) ∧
    (run ordEnv 8 (.construct 0 []) { c106One with quar := c106One.quar.union Quar.all }).2.objs.map
      Obj.listeners = [[], []] ∧
    PlainInput ordEnv 0 [(.str (s% "a"), .int 3), (.str (s% "b"), .float (.fin 2)),
      (.str (s% "__class__"), .str [])] ∧
    (run ordEnv 10 (.copy (.obj 0) {} {}) c106One).1 = .ok (.obj 1) ∧
    (run ordEnv 10 (.copy (.obj 0) {} {}) c106One).2.objs.map Obj.backend =
      [[(s% "a", .int 3), (s% "b", .float (.fin 2))], [(s% "a", .int 3), (s% "b", .float (.fin 2))]] ∧
    (run ordEnv 10 (.copy (.obj 0) {} {}) (runProg ordEnv 8 c106Again c106One).2).2.objs.map Obj.backend =
      [[(s% "b", .float (.fin 2)), (s% "a", .int 3)], [(s% "a", .int 3), (s% "b", .float (.fin 2))]] := by
  refine ⟨C106_example.2.2.1, C106_serialize_example.1, ?_, by with_unfolding_all rfl, by with_unfolding_all rfl,
    ⟨?_, by simp, ?_⟩, by with_unfolding_all rfl, by with_unfolding_all rfl, by with_unfolding_all rfl⟩
  · intro o ho
    have h1 : c106One.objs.map (fun o => (o.cls, o.backend)) =
        [(0, [(s% "a", .int 3), (s% "b", .float (.fin 2))])] := by with_unfolding_all rfl
    have hm : (o.cls, o.backend) ∈ c106One.objs.map (fun o => (o.cls, o.backend)) :=
      List.mem_map.2 ⟨o, List.mem_of_getElem? ho, rfl⟩
    rw [h1, List.mem_singleton, Prod.mk.injEq] at hm
    refine ⟨⟨by rw [hm.2]; decide, by rw [hm.1]; rfl, fun k v hv => ?_⟩, hm.1⟩
    rw [hm.2] at hv
    rw [hm.1]
    simp only [List.mem_cons, List.not_mem_nil, or_false, Prod.mk.injEq] at hv
    rcases hv with ⟨rfl, rfl⟩ | ⟨rfl, rfl⟩
    · exact ⟨by decide, by decide, by simp, ordA, rfl, rfl, rfl, trivial⟩
    · exact ⟨by decide, by decide, by simp, ordB, rfl, rfl, rfl, trivial⟩
  · intro kv hm
    simp only [List.mem_cons, List.not_mem_nil, or_false] at hm
    rcases hm with rfl | rfl | rfl <;> exact ⟨_, rfl⟩
  · intro k v hm e he
    simp only [List.mem_cons, List.not_mem_nil, or_false, Prod.mk.injEq, Val.str.injEq] at hm
    rcases hm with ⟨rfl, rfl⟩ | ⟨rfl, rfl⟩ | ⟨rfl, rfl⟩
    · cases he
      exact ⟨by decide, by decide, by simp, ordA, rfl, rfl, trivial⟩
    · cases he
      exact ⟨by decide, by decide, by simp, ordB, rfl, rfl, trivial⟩
    · cases he

end Verif
