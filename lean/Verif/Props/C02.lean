import Verif.Lemmas.Idempotent
import Verif.Models.Demo

/-!
# C02: validation is idempotent
-/

namespace Verif
open Spec

/-- C02: if validation of `v` returns `x`, then validation of `x` returns `x` and
changes nothing.  This holds for all types but Unions (see `C02_unions`) and
unstable Strings, for any nesting; it holds in any later state in which instances keep their classes,
under any property name and for any instance. -/
theorem C02_idempotent {E : Env} {n : Nat} {p : PropSpec} {nm : PyStr} {inst : Option Nat} {v x : Val}
    {w w1 : World} (hr : Repeatable E false p)
    (h : run E n (.validate nm p inst v) w = (.ok x, w1)) (nm' : PyStr) (inst' : Option Nat)
    {m : Nat} (hm : n ≤ m) {w2 : World} (hk : ClsKept w1 w2) :
    run E m (.validate nm' p inst' x) w2 = (.ok x, w2) :=
  validate_fixed n p nm nm' inst inst' v x w w1 hr h m hm w2 hk nofun

/-- C02: every later state of any program keeps the classes. -/
theorem C02_later {E : Env} {n k : Nat} {p : PropSpec} {nm : PyStr} {inst : Option Nat} {v x : Val}
    {w w1 : World} (hr : Repeatable E false p)
    (h : run E n (.validate nm p inst v) w = (.ok x, w1)) (q : Prog) :
    run E n (.validate nm p inst x) (runProg E k q w1).2 = (.ok x, (runProg E k q w1).2) :=
  C02_idempotent hr h nm inst (Nat.le_refl n) (runProg_restored E k q w1).clsKept

/-- C02 with Unions: the same, if no alternative of a Union changes a value that
a later alternative may hold (`Settled`).  The instance must be none, or one for
which errors do not call the error hook: trying the alternatives in vain would
call it. -/
theorem C02_unions {E : Env} {n : Nat} {p : PropSpec} {nm : PyStr} {inst : Option Nat} {v x : Val}
    {w w1 : World} (hr : Repeatable E true p)
    (h : run E n (.validate nm p inst v) w = (.ok x, w1)) (nm' : PyStr) (inst' : Option Nat)
    {m : Nat} (hm : n ≤ m) {w2 : World} (hk : ClsKept w1 w2) (hq : Silent w2 inst') :
    run E m (.validate nm' p inst' x) w2 = (.ok x, w2) :=
  validate_fixed n p nm nm' inst inst' v x w w1 hr h m hm w2 hk fun _ => hq

/-! ## Unions that are settled -/

/-- Any Instance properties, in any order, at the end of a settled list of
alternatives none of which changes an instance. -/
theorem settled_instances (E : Env) (ps qs : List PropSpec) (hp : Settled E ps)
    (hi : ∀ p ∈ ps, ∀ r, Leaves p.ty (.obj r)) (hq : ∀ q ∈ qs, ∃ c, q.ty = .inst c) : Settled E (ps ++ qs) := by
  refine List.pairwise_append.2 ⟨hp, ?_, fun p hp q hq' w x hx => ?_⟩
  · induction qs with
    | nil => exact .nil
    | cons q qs ih =>
      refine List.pairwise_cons.2 ⟨fun q' hq' w x hx => ?_, ih fun q h => hq q (by simp [h])⟩
      obtain ⟨c, hc⟩ := hq q (by simp)
      obtain ⟨c', hc'⟩ := hq q' (by simp [hq'])
      rw [hc'] at hx
      rw [hc]
      cases hx
      intro kvs h
      cases h
  · obtain ⟨c, hc⟩ := hq q hq'
    rw [hc] at hx
    cases hx
    exact hi p hp _

/-- Types that do not cast, each refusing what the others hold. -/
theorem settled_plain (E : Env) (a b c d e : Bool) (s g t : Option FnId) (df : Dflt) (mn mx : Option Rat) (cs : PyStr) (m : CaseMode)
    (re : Option Nat) : Settled E [.mk a s g df (.boolean false), .mk b s g df (.integer false mn mx),
      .mk c s t df .uuid, .mk d s t df (.string cs m re), .mk e s t df .color] := by
  unfold Settled
  simp only [List.pairwise_cons, List.mem_cons, List.not_mem_nil, or_false, forall_eq_or_imp, forall_eq,
    PropSpec.ty, List.Pairwise.nil, and_true, IsEmpty.forall_iff, implies_true]
  refine ⟨⟨?_, ?_, ?_, ?_⟩, ⟨?_, ?_, ?_⟩, ⟨?_, ?_⟩, ?_⟩ <;> intro w x hx <;> cases hx <;> first
    | exact .inl rfl
    | trivial
    | rfl
    | (rename_i h; obtain ⟨_, _, _, rfl, _⟩ := h; first | trivial | exact .inr (by simp))

/-! ## Strings that are stable -/

/-- No pattern, case unchanged: whatever is stripped. -/
theorem stable_plain (E : Env) (cs : PyStr) : StableText E cs .keep none where
  recase _ := rfl
  trim _ h := h
  found _ _ _ _ := by intro k h; cases h

/-- No pattern, nothing stripped: changing case twice must be changing it once. -/
theorem stable_cased (E : Env) (m : CaseMode) (h : ∀ s, recased E m (recased E m s) = recased E m s) :
    StableText E [] m none where
  recase := h
  trim _ _ := ⟨by simp, by simp⟩
  found _ _ _ _ := by intro k h; cases h

/-- A pattern, nothing stripped, case unchanged. -/
theorem stable_regex (E : Env) (r : Option Nat) : StableText E [] .keep r where
  recase _ := rfl
  trim _ h := h
  found s t hs ht := by
    have := (strip_spec [] s t).1 ht
    have e : strip [] s = s := trimmed_strip ⟨by simp, by simp⟩
    rw [e] at this
    subst this
    exact hs

/-! ## An example -/

/-- A List of Dictionaries from Integers to instances. -/
def c02Prop : PropSpec := .mk true none none .undef
  (.seq .list (.mk true none none .undef
    (.dict (.mk true none none .undef (.integer true none none))
      (.mk true none none .undef (.inst 0)) true)) none none true)

/-- The hypotheses are met by a validation that changes the value at several
levels and builds an instance. -/
theorem C02_example : Repeatable demoEnv false c02Prop ∧
    (run demoEnv 12 (.validate (s% "p") c02Prop none
      (.tup [.dict [(.float (.fin 1), .dict []), (.bool true, .dict [])], .list []])) {}).1 =
      .ok (.list [.dict [(.int 1, .obj 1)], .dict []]) := by
  refine ⟨?_, by with_unfolding_all rfl⟩
  simp [c02Prop, Repeatable, RepeatableTy]

/-- `List(Union([Boolean, Integer, String, Instance]))`. -/
def c02Mixed : PropSpec := .mk true none none .undef
  (.seq .list (.mk true none none .undef (.union [
    .mk true none none .undef (.boolean false),
    .mk true none none .undef (.integer false none none),
    .mk true none none .undef (.string (s% " ") .keep none),
    .mk true none none .undef (.inst 0)] false)) none none true)

/-- The hypotheses for Unions are met by a list with a value for each of the
alternatives, three of which are changed. -/
theorem C02_unions_example : Repeatable demoEnv true c02Mixed ∧ Silent {} none ∧
    (run demoEnv 12 (.validate (s% "p") c02Mixed none
      (.tup [.bool true, .float (.fin 7), .str (s% " a "), .dict []])) {}).1 =
      .ok (.list [.bool true, .int 7, .str (s% "a"), .obj 0]) := by
  refine ⟨?_, nofun, by with_unfolding_all rfl⟩
  refine ⟨rfl, ?_, trivial, trivial, stable_plain _ _, trivial, trivial⟩
  refine settled_instances demoEnv [_, _, _] [_] ?_ ?_ ?_
  · unfold Settled
    simp only [List.pairwise_cons, List.mem_cons, List.not_mem_nil, or_false, forall_eq_or_imp, forall_eq,
      PropSpec.ty, List.Pairwise.nil, and_true, IsEmpty.forall_iff, implies_true]
    refine ⟨⟨?_, ?_⟩, ?_⟩ <;> intro w x hx <;> cases hx <;> first | exact .inl rfl | rfl
  · intro p hp r
    simp only [List.mem_cons, List.not_mem_nil, or_false] at hp
    rcases hp with rfl | rfl | rfl
    · exact .inl rfl
    · trivial
    · exact .inr (by simp)
  · intro q hq
    simp only [List.mem_cons, List.not_mem_nil, or_false] at hq
    subst hq
    exact ⟨0, rfl⟩

/-! ## Where the claim is false -/

/-- `upper` for the letters a and b. -/
def c02Env : Env := { demoEnv with
  upper := fun s => s.map (fun c => if c = 'a' then 'A' else if c = 'b' then 'B' else c)
  floatOfStr := fun s => if s = s% "1.5" then some (.fin (3 / 2)) else none }

/-- `String(strip='A', change_case='upper')`. -/
def c02String : PropSpec := .mk true none none .undef (.string (s% "A") .upper none)

/-- `'aaB'` becomes `'AAB'`, which becomes `'B'`. -/
theorem C02_string_not_idempotent (n : Nat) :
    (run c02Env (n + 1) (.validate (s% "p") c02String none (.str (s% "aaB"))) {}).1 =
      .ok (.str (s% "AAB")) ∧
    (run c02Env (n + 1) (.validate (s% "p") c02String none (.str (s% "AAB"))) {}).1 =
      .ok (.str (s% "B")) :=
  ⟨by with_unfolding_all rfl, by with_unfolding_all rfl⟩

/-- `Union([Integer(cast=True), Float(cast=True)])`. -/
def c02Union : PropSpec := .mk true none none .undef (.union [
  .mk true none none .undef (.integer true none none),
  .mk true none none .undef (.float true none none)] false)

/-- `'1.5'` becomes the float 1.5, which becomes the int 1: data is lost. -/
theorem C02_union_not_idempotent (n : Nat) :
    (run c02Env (n + 2) (.validate (s% "p") c02Union none (.str (s% "1.5"))) {}).1 =
      .ok (.float (.fin (3 / 2))) ∧
    (run c02Env (n + 2) (.validate (s% "p") c02Union none (.float (.fin (3 / 2)))) {}).1 =
      .ok (.int 1) :=
  ⟨by with_unfolding_all rfl, by with_unfolding_all rfl⟩

end Verif
