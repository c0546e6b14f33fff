import Verif.Lemmas.Access
import Verif.Lemmas.Construct
import Verif.Lemmas.Typed
import Verif.Props.C39

/-!
# C38: dynamic properties are validated and never stored
-/

namespace Verif
open Spec

/-- Property `nm` of instance `r` is a DynamicProperty. -/
def Spec.IsDynamic (E : Env) (w : World) (r : Nat) (nm : PyStr) (p : PropSpec) (g : FnId)
    (s d : Option FnId) : Prop :=
  ∃ o, w.objs[r]? = some o ∧ lookupS nm (E.classes o.cls).props = some (.dynamic p g s d)

/-- C38: reading gives None or a value the property type admits. -/
theorem C38_read_admitted (E : Env) (n : Nat) (w w' : World) (r : Nat) (nm : PyStr) (p : PropSpec)
    (g : FnId) (s d : Option FnId) (hd : IsDynamic E w r nm p g s d) (v : Val)
    (h : run E n (.getattr r nm) w = (.ok v, w')) : v = .none ∨ Admits E w' p.ty v := by
  cases n with
  | zero => cases h
  | succ n =>
    obtain ⟨o, ho, hl⟩ := hd
    have h' : getattrBody E (run E n) r nm w = (.ok v, w') := h
    rw [getattr_dynamic ho hl] at h'
    obtain ⟨x, w1, _, h2⟩ := bind_ok_inv h'
    have hv : ∀ x, run E n (.validate nm p (some r) x) w1 = (.ok v, w') → Admits E w' p.ty v :=
      fun x hx => (run_validated E n).post (.validate nm p (some r) x) trivial w1 trivial v w' hx
    split at h2
    · cases h2; exact .inl rfl
    · cases h2; exact .inl rfl
    · exact .inr (hv _ h2)

/-- C38: an assignment first validates.  If that fails the assignment fails in
the same way and the setter has not been called: the state is the one validation
left.  Otherwise the setter runs with a value the property type admits. -/
theorem C38_set_validated (E : Env) (n : Nat) (w : World) (r : Nat) (nm : PyStr) (p : PropSpec)
    (g f : FnId) (d : Option FnId) (hd : IsDynamic E w r nm p g (some f) d) (v : Val) :
    (∃ e w1, run E n (.validate nm p (some r) v) w = (.error e, w1) ∧
      run E (n + 1) (.setattr r nm v) w = (.error e, w1)) ∨
    (∃ x w1, run E n (.validate nm p (some r) v) w = (.ok x, w1) ∧ Admits E w1 p.ty x ∧
      (run E (n + 1) (.setattr r nm v) w).2 = (runProg E n (E.fn f [.obj r, x]) w1).2 ∧
      ∀ e, (run E (n + 1) (.setattr r nm v) w).1 = .error e ↔
        (runProg E n (E.fn f [.obj r, x]) w1).1 = .error e) := by
  obtain ⟨o, ho, hl⟩ := hd
  have e1 : run E (n + 1) (.setattr r nm v) w = (do
      let v' ← run E n (.validate nm p (some r) v)
      let _ ← callFn E (run E n) f [.obj r, v']
      pure .none : M Val) w := setattr_dynamic (rec := run E n) ho v hl
  rw [e1]
  cases hv : run E n (.validate nm p (some r) v) w with
  | mk y w1 => cases y with
    | error e => exact .inl ⟨e, w1, rfl, bind_err hv⟩
    | ok x =>
      refine .inr ⟨x, w1, rfl,
        (run_validated E n).post (.validate nm p (some r) v) trivial w trivial x w1 hv, ?_⟩
      rw [bind_ok hv]
      have e2 : callFn E (run E n) f [.obj r, x] = runProg E n (E.fn f [.obj r, x]) := rfl
      rw [e2]
      cases hf : runProg E n (E.fn f [.obj r, x]) w1 with
      | mk z w2 => cases z with
        | ok z => rw [bind_ok hf]; exact ⟨rfl, fun e => by simp [pure_apply]⟩
        | error e' => rw [bind_err hf]; exact ⟨rfl, fun e => by simp⟩

/-- C38: without a setter assignment raises AttributeError and changes nothing;
so does deletion without a deleter. -/
theorem C38_no_setter (E : Env) (n : Nat) (w : World) (r : Nat) (nm : PyStr) (p : PropSpec)
    (g : FnId) (d : Option FnId) (hd : IsDynamic E w r nm p g none d) (v : Val) :
    run E (n + 1) (.setattr r nm v) w = (.error ⟨.attr, []⟩, w) := by
  obtain ⟨o, ho, hl⟩ := hd
  exact setattr_dynamic (rec := run E n) ho v hl

theorem C38_no_deleter (E : Env) (n : Nat) (w : World) (r : Nat) (nm : PyStr) (p : PropSpec)
    (g : FnId) (s : Option FnId) (hd : IsDynamic E w r nm p g s none) :
    run E (n + 1) (.delattr r nm) w = (.error ⟨.attr, []⟩, w) := by
  obtain ⟨o, ho, hl⟩ := hd
  exact delattr_dynamic (rec := run E n) ho hl

/-- C38: construction with a keyword naming a dynamic property never succeeds. -/
theorem C38_keyword_rejected (E : Env) (n : Nat) (w : World) (c : ClsId) (kw : List (PyStr × Val))
    (nm : PyStr) (x : Val) (p : PropSpec) (g : FnId) (s d : Option FnId) (hk : (nm, x) ∈ kw)
    (hl : lookupS nm (E.classes c).props = some (.dynamic p g s d)) (v : Val) (w' : World) :
    run E n (.construct c kw) w ≠ (.ok v, w') := by
  intro h
  cases n with
  | zero => cases h
  | succ n =>
    obtain ⟨_, w2, w3, _, _, _, h3⟩ := construct_phases (rec := run E n) h
    obtain ⟨nv, w4, w5, h4, _, _⟩ := init_phases h3
    obtain ⟨b1, u1, b2, u2, hs⟩ := foldML_ok_mem h4 (nm, x) hk
    unfold initStep at hs
    simp only [hl] at hs
    obtain ⟨_, _, hr, _⟩ := bind_ok_inv hs
    cases hr

/-! ## Nothing is stored -/

/-- Nothing is stored for `nm` on instance `r`, unless `_backend` was used. -/
def NotStored (r : Nat) (c : ClsId) (nm : PyStr) (w : World) : Prop :=
  w.bypass = false → ∃ o, w.objs[r]? = some o ∧ o.cls = c ∧ lookupS nm o.backend = none

theorem Fixed.notStored {E : Env} {N r : Nat} {c : ClsId} {nm : PyStr} {w w' : World} {e : Entry}
    (h : Fixed E N w w') (hr : r < N) (hl : lookupS nm (E.classes c).props = some e)
    (hm : e.isMutable = false) (k : NotStored r c nm w) : NotStored r c nm w' := by
  intro hb
  obtain ⟨o, ho, hc, hn⟩ := k (h.bypass hb)
  obtain ⟨o', ho', hk⟩ := h.restored.old r o ho
  refine ⟨o', ho', hk.cls.trans hc, ?_⟩
  rw [h.kept hb r o o' hr ho ho' nm e (hc ▸ hl) hm, hn]

/-- Storing immutable defaults stores nothing for a dynamic property that has
no class default. -/
theorem gettableDefault_notStored {E : Env} {n N r : Nat} {c : ClsId} {nm : PyStr} {p : PropSpec}
    {g : FnId} {s d : Option FnId} (hr : r < N)
    (hdist : ((E.classes c).props.map (·.1)).Nodup)
    (hl : lookupS nm (E.classes c).props = some (.dynamic p g s d))
    (hdef : lookupS nm (E.classes c).defaults = none) (kv : PyStr × Entry)
    (hkv : kv ∈ (E.classes c).props) (w : World) (hN : N ≤ w.objs.length)
    (k : NotStored r c nm w) :
    NotStored r c nm (gettableDefault E (run E n) c r kv w).2 ∧
      N ≤ (gettableDefault E (run E n) c r kv w).2.objs.length := by
  have S := fixed_writes E N
  have H := S.run_ok n
  have hkeep : ∀ {w w' : World}, Fixed E N w w' → N ≤ w.objs.length → NotStored r c nm w →
      NotStored r c nm w' ∧ N ≤ w'.objs.length := fun h h1 h2 =>
    ⟨h.notStored hr hl rfl h2, Nat.le_trans h1 h.restored.len⟩
  unfold gettableDefault
  split
  · exact ⟨k, hN⟩
  · by_cases hne : kv.1 = nm
    · have hk : kv.2 = .dynamic p g s d := by
        have := lookupS_of_mem hdist hkv
        rw [hne, hl] at this
        exact (Option.some.inj this).symm
      have : classDefault E c kv.1 kv.2 = .undef := by
        unfold classDefault; rw [hne, hdef, hk]; rfl
      rw [this]
      exact ⟨k, hN⟩
    · have main : ∀ dv : Dflt, NotStored r c nm ((do
          let v ← evalDflt E (run E n) dv
          let v' ← entryValidate (run E n) kv.1 kv.2 (some r) v
          putStored r kv.1 v' : M Unit) w).2 ∧ N ≤ ((do
          let v ← evalDflt E (run E n) dv
          let v' ← entryValidate (run E n) kv.1 kv.2 (some r) v
          putStored r kv.1 v' : M Unit) w).2.objs.length := by
        intro dv
        have h1 := pres_evalDflt S.toBase H dv w hN
        cases hx : evalDflt E (run E n) dv w with
        | mk y w1 =>
          rw [hx] at h1
          obtain ⟨k1, N1⟩ := hkeep h1 hN k
          cases y with
          | error e => rw [bind_err hx]; exact ⟨k1, N1⟩
          | ok v =>
            rw [bind_ok hx]
            have h2 := pres_entryValidate S.toBase H kv.1 kv.2 (some r) v w1 N1
            cases hy : entryValidate (run E n) kv.1 kv.2 (some r) v w1 with
            | mk y w2 =>
              rw [hy] at h2
              obtain ⟨k2, N2⟩ := hkeep h2 N1 k1
              cases y with
              | error e => rw [bind_err hy]; exact ⟨k2, N2⟩
              | ok v' =>
                rw [bind_ok hy]
                refine ⟨fun hb => ?_, by simpa [putStored, World.setObj] using N2⟩
                obtain ⟨o, ho, hc, hn⟩ := k2 hb
                refine ⟨{ o with backend := setS kv.1 v' o.backend }, ?_, hc, ?_⟩
                · simp [putStored, World.setObj, ho]
                · exact (lookupS_setS_ne (Ne.symm hne) _ _).trans hn
      generalize classDefault E c kv.1 kv.2 = dd
      cases dd with
      | undef => exact ⟨k, hN⟩
      | val v => cases v <;> first | exact main (.val _) | exact ⟨k, hN⟩
      | fn f => exact main _
      | cls c => exact main _
      | uuid4 => exact main _

/-- C38: a new instance has nothing stored for a dynamic property, whatever
keywords, defaults and callbacks there are.  (A class default dictionary entry
for the property, or assigning `_backend`, would store something.) -/
theorem C38_new_not_stored (E : Env) (n : Nat) (w w' : World) (c : ClsId)
    (kw : List (PyStr × Val)) (nm : PyStr) (p : PropSpec) (g : FnId) (s d : Option FnId)
    (hdist : DistinctNames E)
    (hl : lookupS nm (E.classes c).props = some (.dynamic p g s d))
    (hdef : lookupS nm (E.classes c).defaults = none) (v : Val)
    (h : run E n (.construct c kw) w = (.ok v, w')) (hb : w'.bypass = false) :
    ∃ r, v = .obj r ∧ r < w'.objs.length ∧ storedAt w' r nm = none := by
  cases n with
  | zero => cases h
  | succ n =>
    obtain ⟨rfl, w2, w3, x, h1, h2, h3⟩ := construct_phases (rec := run E n) h
    have S := fixed_writes E (w.objs.length + 1)
    have H := S.run_ok n
    have k0 : NotStored w.objs.length c nm (allocated E c w) := fun _ =>
      ⟨_, by simp [allocated]; rfl, rfl, rfl⟩
    have hN0 : w.objs.length + 1 ≤ (allocated E c w).objs.length := by simp [allocated]
    have loop : ∀ (l : List (PyStr × Entry)) (u u' : World), (∀ kv ∈ l, kv ∈ (E.classes c).props) →
        w.objs.length + 1 ≤ u.objs.length → NotStored w.objs.length c nm u →
        forML (gettableDefault E (run E n) c w.objs.length) l u = (.ok (), u') →
        NotStored w.objs.length c nm u' ∧ w.objs.length + 1 ≤ u'.objs.length := by
      intro l
      induction l with
      | nil => intro u u' _ hN k hu; cases hu; exact ⟨k, hN⟩
      | cons kv l ih =>
        intro u u' hm hN k hu
        obtain ⟨_, u1, g1, g2⟩ := bind_ok_inv hu
        have := gettableDefault_notStored (n := n) (Nat.lt_succ_self _) (hdist c) hl hdef kv
          (hm kv (by simp)) u hN k
        rw [g1] at this
        exact ih u1 u' (fun kv h => hm kv (by simp [h])) this.2 this.1 g2
    obtain ⟨k2, N2⟩ := loop _ _ _ (fun _ h => h) hN0 k0 h1
    have f3 := pres_withDisabled S.toBase Quar.all (H.pres (.reset w.objs.length none) trivial) w2 N2
    rw [h2] at f3
    have k3 := f3.notStored (Nat.lt_succ_self _) hl rfl k2
    -- the new object is not being validated before `__init__`
    have hidle : NotValidating w.objs.length w3 := by
      have P := (restored_stable E).toWrites
      have hid : NotValidating w.objs.length (allocated E c w) :=
        ⟨_, by simp [allocated]; rfl, by simp⟩
      have hc : HasCls w.objs.length c (allocated E c w) := ⟨_, by simp [allocated]; rfl, rfl⟩
      have Q := P.toPreord.with (P := HasCls w.objs.length c) P.cls
      have r1 := pres_forML_mem Q _ (fun kv hkv =>
        P.writer.gettable _ (P.run_ok n) w.objs.length c kv trivial hkv) (allocated E c w)
        ⟨trivial, hc⟩
      rw [h1] at r1
      exact P.idle f3.restored (P.idle r1 hid)
    have f4 := pres_initBody S.toBase H w.objs.length (E.classes c) kw trivial w3
      ⟨S.keep f3 N2, hidle⟩
    rw [h3] at f4
    obtain ⟨o, ho, _, hn⟩ := f4.notStored (Nat.lt_succ_self _) hl rfl k3 hb
    refine ⟨_, rfl, (List.getElem?_eq_some_iff.1 ho).1, ?_⟩
    simp [storedAt, ho, hn]

/-- C38: on existing instances no program stores, changes or removes anything
under the name of a dynamic property. -/
theorem C38_never_stored (E : Env) (n : Nat) (q : Prog) (w : World) (r : Nat) (nm : PyStr)
    (p : PropSpec) (g : FnId) (s d : Option FnId) (hd : IsDynamic E w r nm p g s d)
    (hb : (runProg E n q w).2.bypass = false) :
    storedAt (runProg E n q w).2 r nm = storedAt w r nm := by
  obtain ⟨o, ho, hl⟩ := hd
  exact C39_immutable_kept E n q w r nm ⟨o, _, ho, hl, fun _ => by simp⟩ hb

/-! ## Examples -/

/-- A dynamic string property whose getter and setter go through `p`. -/
def dynEnv : Env := { demoEnv with
  classes := fun _ => {
    name := s% "C"
    props := [(s% "d", .dynamic (.mk true none none .undef (.string [] .keep none)) 0 (some 1) none),
      (s% "e", .dynamic (.mk true none none .undef (.string [] .keep none)) 2 none none),
      (s% "p", .mutable (.mk true none none .undef (.string [] .keep none)))] }
  fn := fun f args => match f, args with
    | 0, [.obj r] => .call (.getattr r (s% "p")) fun x => match x with
        | .ok v => .ret v
        | .error e => .raise e
    | 1, [.obj r, v] => .call (.setattr r (s% "p") v) fun _ => .ret .none
    | _, _ => .ret (.int 1) }

example : IsDynamic dynEnv (run dynEnv 6 (.construct 0 []) {}).2 0 (s% "d")
    (.mk true none none .undef (.string [] .keep none)) 0 (some 1) none := by
  refine ⟨_, by with_unfolding_all rfl, by with_unfolding_all rfl⟩

example : DistinctNames dynEnv := by
  intro c
  have e : (dynEnv.classes c).props.map (·.1) = [s% "d", s% "e", s% "p"] := by
    with_unfolding_all rfl
  rw [e]; decide

/-- Setting, reading and storing through the dynamic property. -/
theorem C38_example :
    (run dynEnv 6 (.setattr 0 (s% "d") (.str (s% "x"))) (run dynEnv 6 (.construct 0 []) {}).2).2.objs.map
      (·.backend) = [[(s% "p", .str (s% "x"))]] ∧
    (run dynEnv 6 (.setattr 0 (s% "d") (.int 3)) (run dynEnv 6 (.construct 0 []) {}).2).2.objs.map
      (·.backend) = [[]] ∧
    (run dynEnv 6 (.getattr 0 (s% "e")) (run dynEnv 6 (.construct 0 []) {}).2).1.isOk = false := by
  refine ⟨?_, ?_, ?_⟩ <;> with_unfolding_all rfl

/-- Deserializing stores an input entry under the name of a dynamic property:
"never stored" does not extend to it. -/
theorem C38_deserialize_stores :
    (run dynEnv 6 (.hpDeserialize 0 (.dict [(.str (s% "e"), .str (s% "x"))]) {}) {}).2.objs.map
      (·.backend) = [[(s% "e", .str (s% "x"))]] := by with_unfolding_all rfl

end Verif
