import Verif.Lemmas.Proper
import Verif.Props.C93
import Verif.Models.Demo

/-!
# C98  Stored and returned sets and dictionaries are sets and dictionaries
-/

namespace Verif
open Spec

/-- If the program brings in proper values only, all stored values stay proper,
also when the call fails, and what it returns is proper. -/
theorem C98_proper {E : Env} (hE : ProperEnv E) (n : Nat) {c : Call} (hc : ProperCall c) {w : World}
    (hw : ProperWorld w) :
    ProperWorld (run E n c w).2 ∧ ∀ v, (run E n c w).1 = .ok v → Proper v := Prp.safe_run hE n c hc w hw

theorem properWorld_empty : ProperWorld {} := ⟨fun _ _ h => by simp at h, .none⟩

/-- So does every program, of any length. -/
theorem C98_program {E : Env} (hE : ProperEnv E) (n : Nat) {p : Prog} (hp : ProperProg p) {w : World}
    (hw : ProperWorld w) :
    ProperWorld (runProg E n p w).2 ∧ ∀ v, (runProg E n p w).1 = .ok v → Proper v :=
  Prp.safe_execProg (Prp.safe_run hE n) p hp w hw

/-- After any program started without instances, what a property reads as is
proper; if it is a set, its items are distinct and hashable, if it is a dictionary,
its keys. -/
theorem C98_read {E : Env} (hE : ProperEnv E) (k n : Nat) {p : Prog} (hp : ProperProg p) {r : Nat}
    {nm : PyStr} {v : Val}
    (h : (run E n (.getattr r nm) (runProg E k p {}).2).1 = .ok v) :
    (∀ xs, v = .set xs → (∀ x ∈ xs, x.hashable = true) ∧ xs.Pairwise (fun a b => pyEq a b = false)) ∧
    (∀ kvs, v = .dict kvs → (∀ kv ∈ kvs, kv.1.hashable = true) ∧
      kvs.Pairwise (fun a b => pyEq a.1 b.1 = false)) := by
  have hv := (C98_proper hE n (c := .getattr r nm) trivial (C98_program hE k hp properWorld_empty).1).2 v h
  constructor
  · rintro xs rfl
    cases hv with
    | set _ _ h => exact h
  · rintro kvs rfl
    cases hv with
    | dict _ _ _ h => exact ⟨fun kv hkv => h.1 _ (List.mem_map_of_mem hkv), List.pairwise_map.1 h.2⟩

/-- Serialized data has no key twice. -/
theorem C98_data {E : Env} (hE : ProperEnv E) (k n : Nat) {p : Prog} (hp : ProperProg p) {r : Nat} {kw : SerKw}
    {kvs : List (Val × Val)}
    (h : (run E n (.hpSerialize r kw) (runProg E k p {}).2).1 = .ok (.dict kvs)) :
    kvs.Pairwise (fun a b => pyEq a.1 b.1 = false) := by
  have hv := (C98_proper hE n (c := .hpSerialize r kw) trivial (C98_program hE k hp properWorld_empty).1).2 _ h
  exact List.pairwise_map.1 (Prp.proper_keys hv).2

/-! ## What `validate()` needs to know about a state -/

section
variable {E : Env} {D : Nat} {w : World}

theorem proper_held (hw : ProperWorld w) (r : Nat) (nm : PyStr) : Proper (held w r nm) := by
  unfold held
  cases ho : w.objs[r]? with
  | none => exact .none
  | some o => exact Prp.proper_stored (hw.stores r o ho).values nm .none

theorem proper_part (hw : ProperWorld w) {r : Nat} {nm : PyStr} {p : PropSpec} {v : Val}
    (h : Part E w r nm p v) : Proper v := by
  have or : ∀ x, Proper x → Proper (heldOr w r nm x) := fun x hx => by
    cases x <;> first | exact hx | exact proper_held hw r nm
  induction h with
  | root => exact proper_held hw r nm
  | item p item k lo hi c v xs x _ _ hi' hx ih => exact or x (Prp.proper_iter ih hi' x hx)
  | key p kp vp c kvs kv _ _ hx ih => exact or _ (Prp.proper_parts ih kv hx).1
  | value p kp vp c kvs kv _ _ hx ih => exact or _ (Prp.proper_parts ih kv hx).2
  | alternative p q ps s v _ _ _ ih => exact ih

/-- Of the conditions of C93 on the state those on sets and dictionaries always hold. -/
theorem C98_regular (hE : HasDecl E D) (ht : WellTyped E w) (hp : ProperWorld w) (ho : OrdinaryValues E w) :
    Regular E w where
  untyped := ho.untyped
  items r nm p v k item lo hi c xs h hty hi' := by
    obtain ⟨h1, h2⟩ := ho.items r nm p v k item lo hi c xs h hty hi'
    refine ⟨h1, fun hk => ⟨?_, h2 hk⟩⟩
    have ha := (part_admits_ord hE ht ho h).2.2 (by rintro rfl; cases hi')
    have hv := proper_part hp h
    subst hk
    rw [hty] at ha
    cases ha
    cases hi'
    cases hv with
    | set _ _ h => exact h
  keys r nm p kvs kp vp c h hty := ⟨Prp.proper_keys (proper_part hp h), ho.keys r nm p kvs kp vp c h hty⟩
  old := ho.old

end

/-- C93 for programs that bring in proper values, without its conditions on sets
and dictionaries. -/
theorem C98_validate {E : Env} {D : Nat} (hE : HasDecl E D) (hs : NoSubstitution E) (hv : ProperEnv E) (k : Nat)
    {p : Prog} (hp : ProperProg p) (hb : (runProg E k p {}).2.bypass = false)
    (ho : OrdinaryValues E (runProg E k p {}).2) (hn : NoValidators (runProg E k p {}).2) {r : Nat}
    (hr : ∃ o, (runProg E k p {}).2.objs[r]? = some o) {n : Nat}
    (hd : validationDepth 2 D (runProg E k p {}).2.objs.length ≤ n) :
    (Complete E (runProg E k p {}).2 r ∧
      (run E n (.hpValidate r) (runProg E k p {}).2).1 = .ok (.bool true)) ∨
    (¬ Complete E (runProg E k p {}).2 r ∧ ∃ e, e.kind = .validation ∧ e.tuples ≠ [] ∧
      (run E n (.hpValidate r) (runProg E k p {}).2).1 = .error e) :=
  C93_history hE hs k p hb
    (C98_regular hE (C01_stored_values_admitted E hE.names hs k p {} (C01_empty E) hb) (C98_program hv k hp properWorld_empty).1 ho) hn hr hd

/-! ## A class -/

/-- `class Tagged` with `tags = Set('', Integer(''))` and
`ages = Dictionary('', key_prop=String(''), value_prop=Integer(''))`. -/
def tagEnv : Env :=
  { demoEnv with
    classes := fun _ => { (default : ClassDef) with
      props := [
        (s% "tags", .mutable (.mk false none none .undef
          (.seq .set (.mk false none none .undef (.integer false none none)) none none false))),
        (s% "ages", .mutable (.mk false none none .undef
          (.dict (.mk false none none .undef (.string [] .keep none))
            (.mk false none none .undef (.integer false none none)) false)))] } }

theorem tagProper : ProperEnv tagEnv where
  fns f args h := by
    show Proper (args.getLastD .none)
    cases hl : args.getLast? with
    | none => simp [List.getLastD_eq_getLast?, hl]; exact .none
    | some x => simp [List.getLastD_eq_getLast?, hl]; exact h x (List.mem_of_getLast? hl)
  defaults v h := by
    cases h with
    | dict c nm v h => cases h
    | mutable c nm p v h e =>
      simp [tagEnv] at h
      rcases h with ⟨_, rfl⟩ | ⟨_, rfl⟩ <;> cases e
    | gettable c nm p v h e => simp [tagEnv] at h
  json v j hv h := by cases h; exact hv
  names c := by show [s% "tags", s% "ages"].Nodup; decide

/-- `t = Tagged(); t.tags = {1, 2}; t.ages = {'a': 3}; t.tags`. -/
def tagProg : Prog :=
  .call (.construct 0 []) fun x => match x with
    | .ok (.obj r) => .call (.setattr r (s% "tags") (.set [.int 1, .int 2])) fun _ =>
        .call (.setattr r (s% "ages") (.dict [(.str (s% "a"), .int 3)])) fun _ =>
          .call (.getattr r (s% "tags")) fun y => match y with
            | .ok v => .ret v
            | .error e => .raise e
    | .ok _ => .ret .none
    | .error e => .raise e

theorem tagProgProper : ProperProg tagProg := by
  refine ⟨fun _ h => (List.not_mem_nil h).elim, fun _ => trivial, fun v hv => ?_⟩
  cases v <;> try exact Proper.none
  have s2 : Proper (.set [.int 1, .int 2]) :=
    .set _ (by simp; exact ⟨.int 1, .int 2⟩) ⟨by simp [Val.hashable], by simp; with_unfolding_all rfl⟩
  have d1 : Proper (.dict [(.str (s% "a"), .int 3)]) :=
    .dict _ (by simp; exact .str _) (by simp; exact .int 3) ⟨by simp [Val.hashable], by decide⟩
  have fin : ∀ r, ProperProg (.call (.getattr r (s% "tags")) fun y => match y with
      | .ok v => .ret v
      | .error e => .raise e) := fun r => ⟨trivial, fun _ => trivial, fun v hv => hv⟩
  exact ⟨s2, fun _ => ⟨d1, fun _ => fin _, fun _ _ => fin _⟩, fun _ _ => ⟨d1, fun _ => fin _, fun _ _ => fin _⟩⟩

/-- The hypotheses are met by a program that stores a set and a dictionary. -/
theorem C98_example : ProperEnv tagEnv ∧ ProperProg tagProg ∧
    (runProg tagEnv 20 tagProg {}).1 = .ok (.set [.int 1, .int 2]) ∧
    (runProg tagEnv 20 tagProg {}).2.objs.map (·.backend) =
      [[(s% "tags", .set [.int 1, .int 2]), (s% "ages", .dict [(.str (s% "a"), .int 3)])]] :=
  ⟨tagProper, tagProgProper, by with_unfolding_all rfl, by with_unfolding_all rfl⟩

/-- `{1, 1.0}` is not a set with two items, nor has a set a list as item. -/
theorem C98_improper : ¬ Proper (.set [.int 1, .float (.fin 1)]) ∧ ¬ Proper (.list [.set [.list []]]) := by
  constructor
  · intro h
    cases h with
    | set _ _ h =>
      have := (List.pairwise_cons.1 h.2).1 (.float (.fin 1)) (by simp)
      have h1 : pyEq (.int 1) (.float (.fin 1)) = true := by with_unfolding_all rfl
      rw [h1] at this; cases this
  · intro h
    have := Prp.proper_list.1 h _ (List.mem_cons_self ..)
    cases this with
    | set _ _ h => have := h.1 _ (List.mem_cons_self ..); cases this

end Verif
