import Verif.Props.C01
import Verif.Props.C17
import Verif.Props.C25
import Verif.Spec.Task

/-!
# C51: tasks
-/

namespace Verif.Task
open Verif.Spec Spec

theorem same_data {w w' : World} (h : Same w w') : DataUnchanged w w' := fun r o ho => by
  obtain ⟨o', h1, h2⟩ := h.agree.some ho
  have hc : (bareO o').cls = (bareO o).cls := by rw [h2]
  have hb : (bareO o').backend = (bareO o).backend := by rw [h2]
  have hl : (bareO o').listeners = (bareO o).listeners := by rw [h2]
  exact ⟨o', h1, hc, hb, hl⟩

theorem approved {E : Env} {n r : Nat} {w w' : World} {v : Val} (h : run E n (.hpValidate r) w = (.ok v, w')) : Approved E n r w' := by
  have hv : v = .bool true := by
    cases n with
    | zero => cases h
    | succ n => exact hpValidate_true (show hpValidateBody E (run E n) r w = _ from h)
  subst hv
  refine ⟨w, h, fun K D m hE hp hc hm hn hidle => ⟨(C17_validate hE hp hc hm hn hidle r).1.1 (by rw [h]), ?_⟩⟩
  have S := setting_ordinary hE hp hc hm
  have hd := (baseDepth_le (K := K) (D := D) (w := w)).2
  obtain ⟨w2, hs, h2⟩ := dec_hpValidate S (idleGv w) n (by omega) r
    (.inr ⟨rfl, fun h => by cases h⟩) (G := Busy w) (w := w) ⟨rfl, fun _ => Iff.rfl⟩ (Nat.le_refl _)
  have : w2 = w' := by
    rcases h2 with ⟨_, v, _, h2⟩ | ⟨_, e, _, h2⟩
    · rw [h] at h2; cases h2; rfl
    · rw [h] at h2; cases h2
  exact this ▸ same_data hs

/-- Validation keeps the class of every instance. -/
theorem validate_keeps {E : Env} {n r q : Nat} {w w' : World} {v : Except PyErr Val} {o : Obj} (h : run E n (.hpValidate r) w = (v, w'))
    (ho : w.objs[q]? = some o) : ∃ o', w'.objs[q]? = some o' ∧ o'.cls = o.cls := by
  have hr := run_restored E n (.hpValidate r) w
  rw [h] at hr
  obtain ⟨o', h1, h2⟩ := hr.old q o ho
  exact ⟨o', h1, h2.cls⟩

theorem isSub_iff {E : Env} {c d : ClsId} : isSub E c d = true ↔ (c = d ∨ d ∈ (E.classes c).ancestors) := by
  simp [isSub]

theorem raiseVal_error {E : Env} {rec : Rec} {a b : Option PyStr} {q : Option Nat} {w w' : World} {x : Except PyErr Val}
    (h : (raiseVal E rec a b q : M Val) w = (x, w')) : ∃ e, x = .error e := by
  unfold raiseVal at h
  cases q with
  | none => cases h; exact ⟨_, rfl⟩
  | some r =>
    cases x with
    | error e => exact ⟨e, rfl⟩
    | ok v =>
      simp only at h
      obtain ⟨o, w1, _, h⟩ := bind_ok_inv h
      split at h
      · obtain ⟨_, w2, _, h⟩ := bind_ok_inv h
        cases h
      · cases h

/-- What `__call__` does after `run` returned. -/
theorem finish_spec {E : Env} {n : Nat} {T : Task} {log : List Stage} {out : Val} {w : World} :
    ((finish E n T log out w).log = log ∧ ∃ e, (finish E n T log out w).result = .error e) ∨
    ∃ q w2, out = .obj q ∧ InstanceOf E w2 q T.baseOutput ∧ Approved E n q w2 ∧
      (finish E n T log out w).log = log ++ [.process (.obj q) w2] ∧
      ((finish E n T log out w).result, (finish E n T log out w).world) = process E n T q w2 := by
  have refuse : ∀ q : Option Nat, (⟨((raiseVal E (run E n) (some (s% "invalid_class")) none q : M Val) w).1,
      ((raiseVal E (run E n) (some (s% "invalid_class")) none q : M Val) w).2, log⟩ : Outcome).log = log ∧
      ∃ e, (⟨((raiseVal E (run E n) (some (s% "invalid_class")) none q : M Val) w).1,
      ((raiseVal E (run E n) (some (s% "invalid_class")) none q : M Val) w).2, log⟩ : Outcome).result = .error e :=
    fun q => ⟨rfl, raiseVal_error (x := ((raiseVal E (run E n) (some (s% "invalid_class")) none q : M Val) w).1) rfl⟩
  unfold finish
  split
  · rename_i q
    split
    · exact .inl ⟨rfl, _, rfl⟩
    · rename_i o ho
      split
      · rename_i hsub
        split
        · exact .inl ⟨rfl, _, rfl⟩
        · rename_i v w1 h1
          obtain ⟨o', ho', hc'⟩ := validate_keeps h1 ho
          exact .inr ⟨q, w1, rfl, ⟨o', ho', by rw [hc']; exact isSub_iff.1 hsub⟩, approved h1, rfl, rfl⟩
      · exact .inl (refuse (some q))
  · exact .inl (refuse none)

/-- C51: whatever the keywords and the methods do, `run` is called at most once, with
a new instance of the input class for which `validate()` has just returned;
`process_output` is called at most once, after it, with an instance of BaseOutput for
which `validate()` has just returned; a call that returns has called both and returns
what `process_output` returned. -/
theorem C51_call (E : Env) (n : Nat) (T : Task) (kwargs : List (PyStr × Val)) (w : World) :
    InOrder E n T w (call E n T kwargs w).log ∧
    ∀ v, (call E n T kwargs w).result = .ok v → ∃ i w1 q w2, (call E n T kwargs w).log = [.compute i w1, .process (.obj q) w2] ∧
      (∃ w1', runProg E n (T.compute i) w1 = (.ok (.obj q), w1')) ∧
      process E n T q w2 = (.ok v, (call E n T kwargs w).world) := by
  unfold call
  split
  · exact ⟨.nothing, nofun⟩
  · rename_i r w1 h1
    obtain ⟨r', o, hr, hlen, ho, hc⟩ := C25_top (kw := {}) rfl h1
    cases hr
    split
    · exact ⟨.nothing, nofun⟩
    · rename_i v w2 h2
      obtain ⟨o', ho', hc'⟩ := validate_keeps h2 ho
      split
      · exact ⟨.computed r o' w2 hlen ho' (hc'.trans hc) (approved h2), nofun⟩
      · rename_i out w3 h3
        rcases finish_spec (E := E) (n := n) (T := T) (log := [.compute (.obj r) w2]) (out := out) (w := w3) with
          ⟨h4, e, h5⟩ | ⟨q, w4, h4, h5, h6, h7, h8⟩
        · rw [h4]
          refine ⟨.computed r o' w2 hlen ho' (hc'.trans hc) (approved h2), fun v hv => ?_⟩
          rw [h5] at hv; cases hv
        · rw [h7]
          refine ⟨.processed r o' w2 q w4 hlen ho' (hc'.trans hc) (approved h2) h5 h6, fun v hv => ?_⟩
          subst h4
          refine ⟨_, _, _, _, rfl, ⟨w3, h3⟩, ?_⟩
          rw [← h8, hv]
  · exact ⟨.nothing, nofun⟩

/-- C51: what a call returns: the result of the task's own `process_output` on the
output instance, or else the serialized form of that instance without the name of
the class. -/
theorem C51_returns {E : Env} {n : Nat} {T : Task} {kwargs : List (PyStr × Val)} {w : World} {v : Val}
    (h : (call E n T kwargs w).result = .ok v) : ∃ q w2, Stage.process (.obj q) w2 ∈ (call E n T kwargs w).log ∧
      (∀ f, T.process = some f → runProg E n (f (.obj q)) w2 = (.ok v, (call E n T kwargs w).world)) ∧
      (T.process = none → run E n (.hpSerialize q ⟨false, false⟩) w2 = (.ok v, (call E n T kwargs w).world)) := by
  obtain ⟨i, w1, q, w2, h1, _, h3⟩ := (C51_call E n T kwargs w).2 v h
  refine ⟨q, w2, by rw [h1]; simp, fun f hf => ?_, fun hf => ?_⟩
  · unfold process at h3; rw [hf] at h3; exact h3
  · unfold process at h3; rw [hf] at h3; exact h3

/-- C51: if the input does not deserialize or does not validate, the task raises that
error and no method is called. -/
theorem C51_bad_input (E : Env) (n : Nat) (T : Task) (kwargs : List (PyStr × Val)) (w : World) (e : PyErr) :
    (∀ w1, run E n (.hpDeserialize T.input (.dict (kwargs.map fun kv => (.str kv.1, kv.2))) {}) w = (.error e, w1) →
      call E n T kwargs w = ⟨.error e, w1, []⟩) ∧
    (∀ r w1 w2, run E n (.hpDeserialize T.input (.dict (kwargs.map fun kv => (.str kv.1, kv.2))) {}) w = (.ok (.obj r), w1) →
      run E n (.hpValidate r) w1 = (.error e, w2) → call E n T kwargs w = ⟨.error e, w2, []⟩) := by
  constructor
  · intro w1 h1
    unfold call
    rw [h1]
  · intro r w1 w2 h1 h2
    unfold call
    rw [h1]
    simp only [h2]

/-! ## report_status -/

theorem floor_bounds {q : Rat} {a b : Int} (h1 : (a : Rat) ≤ q) (h2 : q ≤ b) : a ≤ roundEven q ∧ roundEven q ≤ b := by
  have hf1 : a ≤ q.floor := Rat.le_floor_iff.2 h1
  have hf2 : (q.floor : Rat) ≤ q := Rat.floor_le q
  have hf3 : q.floor ≤ b := by
    have : (q.floor : Rat) ≤ b := Rat.le_trans hf2 h2
    exact Rat.intCast_le_intCast.1 this
  have hup : ∀ x : Rat, 0 < x → x ≤ q - q.floor → q.floor + 1 ≤ b := by
    intro x hx hxq
    have h3 : (q.floor : Rat) < b := by grind
    have := Rat.intCast_lt_intCast.1 h3
    omega
  unfold roundEven
  simp only
  split
  · omega
  · rename_i hn
    have hge : 1 / 2 ≤ q - q.floor := Rat.not_lt.1 hn
    have := hup (1 / 2) (by decide +kernel) hge
    split
    · omega
    · split <;> omega

theorem read_stored {E : Env} {n : Nat} {r : Nat} {nm : PyStr} {o : Obj} {q : PropSpec} {w w' : World} {x : Val}
    (ho : w.objs[r]? = some o) (hq : lookupS nm (E.classes o.cls).props = some (.mutable q))
    (h : run E n (.getattr r nm) w = (.ok x, w')) : w' = w ∧ getStored r nm w = (.ok x, w) := by
  cases n with
  | zero => cases h
  | succ n =>
    change getattrBody E (run E n) r nm w = _ at h
    unfold getattrBody at h
    have e : entryOf E r nm w = (.ok (some (.mutable q)), w) := by
      unfold entryOf
      rw [bind_ok (getObj_some ho), hq]; rfl
    rw [bind_ok e] at h
    change getStored r nm w = _ at h
    have h' := h
    unfold getStored at h
    rw [bind_ok (getObj_some ho)] at h
    cases h
    exact ⟨rfl, h'⟩

/-- The status read: its progress is None or what the declaration admits. -/
theorem status_read {E : Env} (hd : DistinctNames E) (hs : NoSubstitution E) {n : Nat} {c : ClsId} (hc : StatusClass E c)
    {v : Val} {w w' : World} (hw : WellTyped E w) {x : Val} (h : runProg E n (statusProg c v) w = (.ok x, w')) (hb : w'.bypass = false) :
    ∃ p m, x = .tup [p, m] ∧ (p = .none ∨ ∃ f, p = .float f ∧ FloatWithin (some 0) (some 1) f) := by
  unfold statusProg at h
  change execProg _ _ (run E n _ w).2 = _ at h
  generalize hv : run E n (.validate [] (.mk true none none .undef (.inst c)) none v) w = y at h
  obtain ⟨y, w1⟩ := y
  cases y with
  | error e => cases h
  | ok y =>
    have hin := C01_validated_value_admitted E n _ _ _ _ _ _ _ hv
    cases hin with
    | inst _ r hr =>
    obtain ⟨o, ho, hsub⟩ := hr
    obtain ⟨⟨b, p, hp, hty⟩, m, hm⟩ := hc o.cls hsub
    change execProg _ _ (run E n (.getattr r (s% "progress")) w1).2 = _ at h
    generalize hg : run E n (.getattr r (s% "progress")) w1 = z at h
    obtain ⟨z, w2⟩ := z
    cases z with
    | error e => cases h
    | ok z =>
      obtain ⟨hw2, hz⟩ := read_stored ho hp hg
      subst w2
      change execProg _ _ (run E n (.getattr r (s% "message")) w1).2 = _ at h
      generalize hg' : run E n (.getattr r (s% "message")) w1 = u at h
      obtain ⟨u, w3⟩ := u
      cases u with
      | error e => cases h
      | ok u =>
        obtain ⟨hw3, _⟩ := read_stored ho hm hg'
        subst w3
        cases h
        refine ⟨z, u, rfl, ?_⟩
        have hT : WellTyped E w1 := by
          have := C01_stored_values_admitted E hd hs n
            (.call (.validate [] (.mk true none none .undef (.inst c)) none v) fun _ => .ret .none) w hw
          change (run E n _ w).2.bypass = false → WellTyped E (run E n _ w).2 at this
          rw [hv] at this
          exact this hb
        unfold getStored at hz
        rw [bind_ok (getObj_some ho)] at hz
        cases hl : lookupS (s% "progress") o.backend with
        | none => rw [hl] at hz; cases hz; exact .inl rfl
        | some a =>
          rw [hl] at hz
          cases hz
          obtain ⟨en, h1, h2⟩ := hT r o ho _ _ (mem_of_lookupS hl)
          rw [hp] at h1
          cases h1
          have h2 : Admits E w1 p.ty a := h2
          rw [hty] at h2
          cases h2 with
          | float _ _ _ f hf => exact .inr ⟨f, rfl, hf⟩

/-- C51: the percentage `report_status` prints is between 0 and 100, for every status
after every history. -/
theorem C51_status (E : Env) (hd : DistinctNames E) (hs : NoSubstitution E) (hr : RoundsInside E) (n m : Nat) (c : ClsId)
    (hc : StatusClass E c) (p : Prog) (v : Val) (w w' : World) (hw : WellTyped E w) (k : Int)
    (h : reportStatus E m c v (runProg E n p w).2 = (.ok k, w')) (hb : w'.bypass = false)
    (hb' : (runProg E n p w).2.bypass = false) : 0 ≤ k ∧ k ≤ 100 := by
  have hT := C01_stored_values_admitted E hd hs n p w hw hb'
  unfold reportStatus at h
  generalize hx : runProg E m (statusProg c v) (runProg E n p w).2 = x at h
  obtain ⟨x, w2⟩ := x
  cases x with
  | error e => cases h
  | ok x =>
    have hw2 : w2 = w' := by
      have := congrArg Prod.snd h
      revert this
      split <;> rename_i he <;> cases he <;> exact id
    subst hw2
    obtain ⟨p, m, rfl, hp⟩ := status_read hd hs hc hT hx hb
    change (percent E p, w2) = _ at h
    rcases hp with rfl | ⟨f, rfl, hf⟩
    · cases h
    · cases f with
      | nan => cases h
      | pinf => cases h
      | ninf => cases h
      | fin q =>
        obtain ⟨h1, h2⟩ := hf
        have h1 : 0 ≤ q := h1 0 rfl
        have h2 : q ≤ 1 := h2 1 rfl
        obtain ⟨a, ha, ha1, ha2⟩ := hr (100 * q) (by grind) (by grind)
        unfold percent at h
        simp only [ha] at h
        cases h
        exact floor_bounds (a := 0) (b := 100) ha1 ha2

/-- C51: without a progress, `report_status` raises TypeError, with NaN, which the
bounds let through, ValueError. -/
theorem C51_status_raises (E : Env) (n : Nat) (c : ClsId) (v : Val) (w w' : World) (m : Val) :
    (runProg E n (statusProg c v) w = (.ok (.tup [.none, m]), w') → reportStatus E n c v w = (.error .type, w')) ∧
    (runProg E n (statusProg c v) w = (.ok (.tup [.float .nan, m]), w') → reportStatus E n c v w = (.error .value, w')) := by
  constructor <;> (intro h; unfold reportStatus; rw [h]; rfl)

/-! ## A task -/

/-- Input with a whole number, output with a whole number between 0 and 9, an
unrelated class, and a status. -/
def taskEnv : Env := { demoEnv with
  classes := fun c => match c with
    | 0 => { name := s% "In", props := [(s% "x", .mutable (.mk true none none .undef (.integer false none none)))], validators := [none] }
    | 1 => { name := s% "BaseOutput", props := [], validators := [none] }
    | 2 => { name := s% "Out", ancestors := [1], validators := [none], props := [(s% "y", .mutable (.mk true none none .undef (.integer false (some 0) (some 9))))] }
    | _ => { name := s% "TaskStatus", validators := [none], props := [
        (s% "progress", .mutable (.mk false none none .undef (.float false (some 0) (some 1)))),
        (s% "message", .mutable (.mk false none none .undef (.string [] .keep none)))] } }

/-- `run` copies `x` of the input into a new output. -/
def copyTask : Task where
  input := 0
  baseOutput := 1
  compute := fun i => match i with
    | .obj r => .call (.getattr r (s% "x")) fun
      | .ok x => .call (.construct 2 [(s% "y", x)]) fun
        | .ok v => .ret v
        | .error e => .raise e
      | .error e => .raise e
    | _ => .raise { kind := .type }

/-- `run` returns its input, which is not a BaseOutput. -/
def echoTask : Task := { copyTask with compute := .ret }

/-- The number of calls of the methods. -/
def stages (o : Outcome) : Nat := o.log.length

/-- C51: the task runs; a value that is not a number is refused before `run`; an
output that cannot be built, and one of another class, are not processed. -/
theorem C51_example :
    ((call taskEnv 30 copyTask [(s% "x", .int 5)] {}).result = .ok (.dict [(.str (s% "y"), .int 5)]) ∧
      stages (call taskEnv 30 copyTask [(s% "x", .int 5)] {}) = 2) ∧
    ((∃ e, (call taskEnv 30 copyTask [(s% "x", .str (s% "a"))] {}).result = .error e) ∧
      stages (call taskEnv 30 copyTask [(s% "x", .str (s% "a"))] {}) = 0) ∧
    ((∃ e, (call taskEnv 30 copyTask [] {}).result = .error e) ∧ stages (call taskEnv 30 copyTask [] {}) = 0) ∧
    ((∃ e, (call taskEnv 30 copyTask [(s% "x", .int 50)] {}).result = .error e) ∧
      stages (call taskEnv 30 copyTask [(s% "x", .int 50)] {}) = 1) ∧
    ((∃ e, (call taskEnv 30 echoTask [(s% "x", .int 5)] {}).result = .error e) ∧
      stages (call taskEnv 30 echoTask [(s% "x", .int 5)] {}) = 1) := by
  refine ⟨⟨by with_unfolding_all rfl, by with_unfolding_all rfl⟩, ⟨⟨_, by with_unfolding_all rfl⟩, by with_unfolding_all rfl⟩,
    ⟨⟨_, by with_unfolding_all rfl⟩, by with_unfolding_all rfl⟩, ⟨⟨_, by with_unfolding_all rfl⟩, by with_unfolding_all rfl⟩,
    ⟨⟨_, by with_unfolding_all rfl⟩, by with_unfolding_all rfl⟩⟩

/-- The classes of the example are as `C51_status` wants them. -/
theorem taskEnv_status : StatusClass taskEnv 3 ∧ DistinctNames taskEnv := by
  constructor
  · intro d hd
    match d with
    | 0 => simp [taskEnv] at hd
    | 1 => simp [taskEnv] at hd
    | 2 => simp [taskEnv] at hd
    | d + 3 => exact ⟨⟨_, _, rfl, rfl⟩, _, rfl⟩
  · intro d
    match d with
    | 0 => decide
    | 1 => decide
    | 2 => decide
    | d + 3 => simp [taskEnv]

theorem taskEnv_rest : RoundsInside taskEnv ∧ NoSubstitution { taskEnv with fn := fun _ args => .ret (args.getD 3 .none) } :=
  ⟨fun q h1 h2 => ⟨q, rfl, h1, h2⟩, fun _ _ _ _ _ => rfl⟩

/-- A status with progress 1/3 is reported as 33 per cent. -/
theorem C51_status_example : (reportStatus taskEnv 30 3 (.obj 0) (runProg taskEnv 30
    (.call (.construct 3 [(s% "progress", .float (.fin (1 / 3)))]) fun _ => .ret .none) {}).2).1 = .ok 33 := by
  with_unfolding_all rfl

end Verif.Task
