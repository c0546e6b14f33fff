import Verif.Props.C103

/-!
# C109: deserialize ignores keys that name no property
-/

namespace Verif
open Spec Spec.Exc

namespace Ign

theorem pyEq_text {k : Val} {s : PyStr} (h : pyEq k (.str s) = true) : k = .str s := by
  cases k <;> unfold pyEq at h <;> simp [Val.num?] at h
  rw [h]

theorem get_filter {q : Val × Val → Bool} {s : PyStr} : ∀ {kvs : List (Val × Val)},
    (∀ kv ∈ kvs, q kv = false → kv.1 ≠ .str s) → dictGet? (kvs.filter q) (.str s) = dictGet? kvs (.str s)
  | [], _ => rfl
  | (k, v) :: kvs, h => by
    have ih := get_filter (kvs := kvs) fun kv hm => h kv (by simp [hm])
    cases hq : q (k, v) with
    | true =>
      simp only [List.filter_cons, hq, if_true, dictGet?, ih]
    | false =>
      have hne : pyEq k (.str s) ≠ true := fun he => h (k, v) (by simp) hq (pyEq_text he)
      simp only [List.filter_cons, hq, Bool.false_eq_true, if_false, dictGet?, if_neg hne, ih]

theorem state_filter {q : Val × Val → Bool} {ps : List (PyStr × Entry)} : ∀ {kvs : List (Val × Val)},
    (∀ kv ∈ kvs, q kv = false → ∀ k, kv.1 = .str k → lookupS k ps = none) →
    propState ps (kvs.filter q) = propState ps kvs
  | [], _ => rfl
  | (k, v) :: kvs, h => by
    have ih := state_filter (kvs := kvs) fun kv hm => h kv (by simp [hm])
    cases hq : q (k, v) with
    | true =>
      simp only [List.filter_cons, hq, if_true]
      cases k <;> simp only [propState, ih]
    | false =>
      simp only [List.filter_cons, hq, Bool.false_eq_true, if_false, ih]
      cases k with
      | str s =>
        have := h (.str s, v) (by simp) hq s rfl
        simp only [propState, this, Option.isSome_none, Bool.false_eq_true, if_false]
      | _ => rfl

end Ign

/-- **C109**.  Without `strict`, entries whose keys name no property can be left
out of the input, or put in, whatever their keys and values: `deserialize` does
exactly the same.  Where the class is taken from the input (`trusted`), the keys
name no property of any class. -/
theorem C109_ignored (E : Env) (n : Nat) (c : ClsId) (kw : DeKw) (hs : kw.strict = false)
    (kvs : List (Val × Val)) (q : Val × Val → Bool)
    (hc : ∀ kv ∈ kvs, q kv = false → kv.1 ≠ .str (s% "__class__"))
    (hq : ∀ kv ∈ kvs, q kv = false → ∀ k, kv.1 = .str k → ∀ d, (kw.trusted = true ∨ d = c) →
      lookupS k (E.classes d).props = none) (w : World) :
    run E n (.hpDeserialize c (.dict (kvs.filter q)) kw) w = run E n (.hpDeserialize c (.dict kvs) kw) w := by
  cases n with
  | zero => rfl
  | succ n =>
  show hpDeserializeBody E (run E n) c (.dict (kvs.filter q)) kw w = hpDeserializeBody E (run E n) c (.dict kvs) kw w
  unfold hpDeserializeBody
  dsimp only
  rw [Ign.get_filter hc, hs]
  simp only [Bool.false_and]
  generalize hg : (dictGet? kvs (.str (s% "__class__"))).getD .none = nm
  have key : ∀ d, (kw.trusted = true ∨ d = c) →
      propState (E.classes d).props (kvs.filter q) = propState (E.classes d).props kvs :=
    fun d hd => Ign.state_filter fun kv hm h k hk => hq kv hm h k hk d hd
  cases hr : deserializeClass E c nm kw.trusted false w with
  | mk r w1 =>
    cases r with
    | error e => rw [bind_err hr, bind_err hr]
    | ok d =>
      rw [bind_ok hr, bind_ok hr]
      have hd : kw.trusted = true ∨ d = c := by
        cases ht : kw.trusted with
        | true => exact .inl rfl
        | false =>
          rw [ht] at hr
          right
          unfold deserializeClass at hr
          split at hr
          · cases hr; rfl
          · simp only [Bool.false_and, Bool.false_eq_true, if_false] at hr
            cases hr; rfl
      rw [key d hd]
      rfl

/-- **C109**.  Input that names no property gives what the class gives when
called without arguments while listeners are disabled. -/
theorem C109_empty (E : Env) (n : Nat) (c : ClsId) (kw : DeKw) (hs : kw.strict = false)
    (ht : kw.trusted = false) (ha : kw.assertValid = false) (kvs : List (Val × Val))
    (hq : ∀ kv ∈ kvs, ∀ k, kv.1 = .str k → lookupS k (E.classes c).props = none) (w : World) :
    run E (n + 1) (.hpDeserialize c (.dict kvs) kw) w =
      ((run E n (.construct c []) { w with quar := w.quar.union Quar.all }).1,
        { (run E n (.construct c []) { w with quar := w.quar.union Quar.all }).2 with quar := w.quar }) := by
  have hst : propState (E.classes c).props kvs = [] := by
    rw [← Ign.state_filter (q := fun _ => false) fun kv hm _ k hk => hq kv hm k hk]
    simp [propState]
  show hpDeserializeBody E (run E n) c (.dict kvs) kw w = _
  unfold hpDeserializeBody
  dsimp only
  rw [hs, ht]
  simp only [Bool.false_and]
  have hcl : deserializeClass E c ((dictGet? kvs (.str (s% "__class__"))).getD .none) false false w = (.ok c, w) := by
    unfold deserializeClass
    split
    · rfl
    · simp only [Bool.false_and, Bool.false_eq_true, if_false]
      rfl
  rw [bind_ok hcl, hst]
  show (withDisabled Quar.all (run E n (.construct c [])) >>= fun inst => deserFinish E (run E n) c kw [] inst) w = _
  cases hr : run E n (.construct c []) { w with quar := w.quar.union Quar.all } with
  | mk r w1 =>
    have hd : withDisabled Quar.all (run E n (.construct c [])) w = (r, { w1 with quar := w.quar }) := by
      unfold withDisabled
      rw [hr]
    cases r with
    | error e => rw [bind_err hd]
    | ok x =>
      rw [bind_ok hd]
      obtain ⟨m, rfl⟩ : ∃ m, n = m + 1 := by
        cases n with
        | zero => cases hr
        | succ m => exact ⟨m, rfl⟩
      have hx : ∃ r, x = .obj r := by
        change constructBody E (run E m) c [] _ = _ at hr
        unfold constructBody at hr
        obtain ⟨_, _, _, hr⟩ := bind_ok_inv hr
        obtain ⟨r, _, _, hr⟩ := bind_ok_inv hr
        obtain ⟨_, _, _, hr⟩ := bind_ok_inv hr
        obtain ⟨_, _, _, hr⟩ := bind_ok_inv hr
        obtain ⟨_, _, _, hr⟩ := bind_ok_inv hr
        cases hr
        exact ⟨r, rfl⟩
      obtain ⟨r, rfl⟩ := hx
      show (assertBuilt E (run E (m + 1)) r kw.assertValid >>= fun _ => pure (Val.obj r)) { w1 with quar := w.quar } = _
      rw [ha]
      rfl

/-! ## Input with keys that name nothing -/

/-- Text and numbers are kept. -/
def c109Keep : Val × Val → Bool
  | (_, .int _) | (_, .str _) => true
  | _ => false

def c109In : List (Val × Val) :=
  [(.int 7, .list [.none]), (.str (s% "a"), .int 3), (.str (s% "z"), .dict []), (.str (s% "__class__"), .str (s% "Q"))]

/-- The keys `7` and `z` name no property; the input is read as without them.
Input without `a` gives the defaults. -/
theorem C109_example :
    (∀ kv ∈ c109In, c109Keep kv = false → ∀ k, kv.1 = .str k →
      lookupS k (ordEnv.classes 0).props = none) ∧
    (run ordEnv 9 (.hpDeserialize 0 (.dict c109In) {}) {}).1 = .ok (.obj 0) ∧
    (run ordEnv 9 (.hpDeserialize 0 (.dict c109In) {}) {}).2.objs.map Obj.backend =
      [[(s% "a", .int 3), (s% "b", .float (.fin 2))]] ∧
    (run ordEnv 9 (.hpDeserialize 0 (.dict [(.str (s% "z"), .int 1)]) {}) {}).2.objs.map Obj.backend =
      [[(s% "a", .int 1), (s% "b", .float (.fin 2))]] ∧
    (run ordEnv 9 (.hpDeserialize 0 (.dict c109In) { strict := true }) {}).1 = .error ⟨.value, []⟩ := by
  refine ⟨?_, ?_, ?_, ?_, ?_⟩
  · intro kv hm hq k hk
    simp only [c109In, List.mem_cons, List.not_mem_nil, or_false] at hm
    rcases hm with rfl | rfl | rfl | rfl
    · cases hk
    · cases hq
    · cases hk; rfl
    · cases hq
  all_goals with_unfolding_all rfl

end Verif
