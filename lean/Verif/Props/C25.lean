import Verif.Lemmas.Builds
import Verif.Lemmas.Construct
import Verif.Lemmas.Typed
import Verif.Models.Demo

/-!
# C25: untrusted deserialization only builds declared classes
-/

namespace Verif
open Spec

theorem foreseen_closed {E : Env} {w : World} {c : ClsId}
    (hu : ∀ f args, SoberProg (Foreseen E w c) (E.fn f args)) : ClosedD E (Foreseen E w c) :=
  ⟨fun d d' h h' => .named d d' h h', hu⟩

/-- Whatever the input and however the call ends, afterwards every instance is
of a class that the declarations of the called class name (at any depth), or of
a class that the instances existing before are of or name.  The input has no
influence on that set of classes. -/
theorem C25_classes {E : Env} {n : Nat} {c : ClsId} {v : Val} {kw : DeKw} {w : World}
    (hu : ∀ f args, SoberProg (Foreseen E w c) (E.fn f args)) (ht : kw.trusted = false) :
    ∀ o ∈ (run E n (.hpDeserialize c v kw) w).2.objs, Foreseen E w c o.cls :=
  bd_run (foreseen_closed hu) n (.hpDeserialize c v kw) ⟨.self, ht⟩ w fun o ho => .present o ho

/-- The same for any set of classes closed under the declarations, and for
deserialization by a single property. -/
theorem C25_property {E : Env} {D : ClsId → Prop} {n : Nat} {nm : PyStr} {p : PropSpec} {v : Val}
    {kw : DeKw} {w : World} (hD : ∀ d c, D d → RefersTo E d c → D c)
    (hu : ∀ f args, SoberProg D (E.fn f args)) (hp : ∀ c, Names p c → D c)
    (hw : ∀ o ∈ w.objs, D o.cls) (ht : kw.trusted = false) :
    ∀ o ∈ (run E n (.deserializeP nm p v kw) w).2.objs, D o.cls :=
  bd_run ⟨hD, hu⟩ n (.deserializeP nm p v kw) ⟨hp, ht⟩ w hw

/-- The result of `deserialize` once the class is chosen. -/
theorem deser_result {E : Env} {n : Nat} {c d : ClsId} {v x : Val} {kw : DeKw} {w w' : World}
    (hd : ∀ kvs, v = .dict kvs → ∀ a w1, deserializeClass E c
      ((dictGet? kvs (.str (s% "__class__"))).getD .none) kw.trusted kw.strict w = (.ok a, w1) →
      a = d ∧ w1 = w)
    (h : run E n (.hpDeserialize c v kw) w = (.ok x, w')) :
    ∃ r, x = .obj r ∧ w.objs.length ≤ r ∧ HasCls r d w' := by
  cases n with
  | zero => cases h
  | succ n =>
    have S := restored_stable E
    have H := run_validated E n
    have HS := S.run_ok n
    change hpDeserializeBody E (run E n) c v kw w = _ at h
    unfold hpDeserializeBody at h
    split at h
    · rename_i kvs
      obtain ⟨a, w1, h1, g1⟩ := bind_ok_inv h
      clear h
      obtain ⟨rfl, rfl⟩ := hd kvs rfl a w1 h1
      dsimp only at g1
      obtain ⟨_, w2, h2, g2⟩ := bind_ok_inv g1
      clear g1
      have e2 : w2 = w1 := by
        unfold raiseWhen at h2
        split at h2
        · cases h2
        · cases h2; rfl
      subst e2
      obtain ⟨st, w3, h3, g3⟩ := bind_ok_inv g2
      clear g2
      have r3 : Restored w2 w3 := by
        have := pres_mapML S.toPreord (f := deserEntry E (run E n) a { kw with assertValid := false })
          (fun kv => pres_deserEntry S.toBase HS trivial a _ kv)
          (propState (E.classes a).props kvs) w2 trivial
        rw [h3] at this
        exact this
      obtain ⟨i, w4, h4, g4⟩ := bind_ok_inv g3
      clear g3
      cases hc : run E n (.construct a (st.filter (isSettable E a)))
          { w3 with quar := w3.quar.union Quar.all } with
      | mk y w5 =>
        simp only [withDisabled, hc, Prod.mk.injEq] at h4
        obtain ⟨rfl, rfl⟩ := h4
        obtain ⟨r, rfl, -, hr⟩ := H.post (.construct a _) trivial _ trivial i w5 hc
        have hr' : HasCls r a { w5 with quar := w3.quar } := hr
        have hlen : r = w3.objs.length := by
          cases n with
          | zero => cases hc
          | succ n =>
            have := (construct_phases (show constructBody E (run E n) a _ _ = _ from hc)).1
            exact Val.obj.inj this
        unfold deserFinish at g4
        dsimp only at g4
        obtain ⟨_, w6, h6, g6⟩ := bind_ok_inv g4
        obtain ⟨_, w7, h7, g7⟩ := bind_ok_inv g6
        cases g7
        have r6 : Restored { w5 with quar := w3.quar } w6 := by
          have := pres_forML S.toPreord (f := setImmutable E (run E n) a r)
            (fun kv => by
              have hs : ∀ name v, Pres (fun _ => True) Restored (putStored r name v) :=
                fun name v => S.pres_stored r (setS name v) trivial
              unfold setImmutable
              repeat' (first | with_reducible exact hs _ _ | pres1 S.toBase, HS))
            (st.filter (fun kv => !isSettable E a kv)) { w5 with quar := w3.quar } trivial
          rw [h6] at this
          exact this
        have r7 : Restored w6 w' := by
          have hV : True := trivial
          have := (show Pres (fun _ => True) Restored (assertBuilt E (run E n) r kw.assertValid) by
            unfold assertBuilt; pres S.toBase, HS) w6 trivial
          rw [h7] at this
          exact this
        refine ⟨r, rfl, ?_, (r6.trans r7).clsKept _ _ hr'⟩
        rw [hlen]
        exact r3.len
    · cases h

/-- On success the result is a new instance of exactly the called class,
whatever class the input names. -/
theorem C25_top {E : Env} {n : Nat} {c : ClsId} {v x : Val} {kw : DeKw} {w w' : World}
    (ht : kw.trusted = false) (h : run E n (.hpDeserialize c v kw) w = (.ok x, w')) :
    ∃ r o, x = .obj r ∧ w.objs.length ≤ r ∧ w'.objs[r]? = some o ∧ o.cls = c := by
  obtain ⟨r, e, hl, o, ho, hc⟩ := deser_result (d := c) (fun kvs _ a w1 h1 => by
    rw [ht] at h1
    rcases deserializeClass_untrusted (E := E) c
      ((dictGet? kvs (.str (s% "__class__"))).getD .none) kw.strict with h2 | h2
    · rw [h2] at h1; cases h1; exact ⟨rfl, rfl⟩
    · rw [h2] at h1; cases h1) h
  exact ⟨r, o, e, hl, ho, hc⟩

/-- An Instance property without custom deserializer gives None for None and
otherwise a new instance of exactly the declared class. -/
theorem C25_nested {E : Env} {n : Nat} {nm : PyStr} {p : PropSpec} {c : ClsId} {v x : Val}
    {kw : DeKw} {w w' : World} (hp : p.ty = .inst c) (hs : p.deser = none)
    (ht : kw.trusted = false) (h : run E n (.deserializeP nm p v kw) w = (.ok x, w')) :
    (v = .none ∧ x = .none) ∨
      ∃ r o, x = .obj r ∧ w.objs.length ≤ r ∧ w'.objs[r]? = some o ∧ o.cls = c := by
  cases n with
  | zero => cases h
  | succ n =>
    change deserializeBody E (run E n) nm p v kw w = _ at h
    unfold deserializeBody at h
    rw [hs, hp] at h
    dsimp only at h
    split at h
    · rename_i hv
      cases h
      cases v <;> first | exact .inl ⟨rfl, rfl⟩ | cases hv
    · exact .inr (C25_top ht h)

/-! ## A concrete case -/

/-- Class 0 `A` holds an instance of class 1 `B`; class 2 `Evil` is registered
with both but no declaration names it. -/
def c25Env : Env := { demoEnv with
  classes := fun c => match c with
    | 0 => { name := s% "A"
             props := [(s% "b", .mutable (.mk false none none .undef (.inst 1)))]
             registry := [(s% "A", 0), (s% "B", 1), (s% "Evil", 2)] }
    | 1 => { name := s% "B", registry := [(s% "A", 0), (s% "B", 1), (s% "Evil", 2)] }
    | _ => { name := s% "Evil" } }

def c25Input : Val := .dict [(.str (s% "__class__"), .str (s% "Evil")),
  (.str (s% "b"), .dict [(.str (s% "__class__"), .str (s% "Evil"))])]

/-- The user functions of the example make no calls. -/
theorem C25_example_user (D : ClsId → Prop) : ∀ f args, SoberProg D (c25Env.fn f args) :=
  fun _ _ => trivial

/-- Only the declared classes are foreseen. -/
theorem C25_example_foreseen (d : ClsId) (h : Foreseen c25Env {} 0 d) : d = 0 ∨ d = 1 := by
  induction h with
  | self => exact .inl rfl
  | present o ho => cases ho
  | named d d' _ hn ih =>
    rcases ih with rfl | rfl
    · cases hn with
      | prop nm e p c hm hd hp =>
        simp only [c25Env, List.mem_singleton, Prod.mk.injEq] at hm
        obtain ⟨rfl, rfl⟩ := hm
        cases hd
        cases hp
        exact .inr rfl
      | default nm c hm => cases hm
    · cases hn with
      | prop nm e p c hm hd hp => cases hm
      | default nm c hm => cases hm

/-- The untrusted call succeeds with instances of the declared classes; the
trusted one builds the class the input names. -/
theorem C25_example :
    ((run c25Env 20 (.hpDeserialize 0 c25Input {}) {}).1.isOk = true ∧
      (run c25Env 20 (.hpDeserialize 0 c25Input {}) {}).2.objs.map Obj.cls = [1, 0]) ∧
    ((run c25Env 20 (.hpDeserialize 0 c25Input { trusted := true }) {}).1.isOk = true ∧
      (run c25Env 20 (.hpDeserialize 0 c25Input { trusted := true }) {}).2.objs.map Obj.cls = [2]) := by
  decide +kernel

end Verif
