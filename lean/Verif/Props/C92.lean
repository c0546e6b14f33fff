import Verif.Lemmas.Rejects
import Verif.Lemmas.Differs
import Verif.Lemmas.Mates
import Verif.Lemmas.Sure
import Verif.Props.C17

/-!
# C92: the exceptions calls end with

Statement (properties.jsonl C92).  Calls of the library end with the exceptions
of a fixed table, whatever the classes, values, listeners and recursion limit;
anything else comes out of user code.
-/

namespace Verif
open Spec Spec.Exc

variable {E : Env} {U : ErrKind → Prop} (hU : ∀ f args, Raises U (E.fn f args))
include hU

/-- Every call ends with an exception of its own or one of user code. -/
theorem C92_own (n : Nat) (c : Call) (w : World) (e : PyErr)
    (h : (run E n c w).1 = .error e) : own c e.kind ∨ U e.kind :=
  (run_errs hU n).calls c w e h

/-- A program that makes calls, of any length, raises what its own code
raises. -/
theorem C92_program (n : Nat) (p : Prog) (hp : Raises U p) (w : World) (e : PyErr)
    (h : (runProg E n p w).1 = .error e) : U e.kind :=
  errs_execProg (run_errs hU n) p hp w e h

/-- Exceptions of classes the library does not know come out of user code. -/
theorem C92_foreign (n : Nat) (c : Call) (w : World) (e : PyErr) (m : Nat)
    (h : (run E n c w).1 = .error e) (hk : e.kind = .other m) : U (.other m) := by
  rcases C92_own hU n c w e h with ho | hu
  · rw [hk] at ho
    exfalso
    cases c <;> simp [own, access] at ho
  · exact hk ▸ hu

/-- SelfReferenceError and KeyError come out of `serialize` and `copy` only. -/
theorem C92_serializing (n : Nat) (c : Call) (w : World) (e : PyErr)
    (h : (run E n c w).1 = .error e) (hk : e.kind = .selfRef ∨ e.kind = .key) (hn : ¬ U e.kind) :
    (∃ nm p v kw, c = .serializeP nm p v kw) ∨ (∃ r kw, c = .hpSerialize r kw) ∨
      ∃ v skw dkw, c = .copy v skw dkw := by
  rcases C92_own hU n c w e h with ho | hu
  · cases c <;> first
      | exact .inl ⟨_, _, _, _, rfl⟩
      | exact .inr (.inl ⟨_, _, rfl⟩)
      | exact .inr (.inr ⟨_, _, _, rfl⟩)
      | (exfalso; rcases hk with hk | hk <;> rw [hk] at ho <;> simp [own, access] at ho)
  · exact absurd hu hn

/-- A ValueError that is no ValidationError comes out of `deserialize` and
`copy` only. -/
theorem C92_deserializing (n : Nat) (c : Call) (w : World) (e : PyErr)
    (h : (run E n c w).1 = .error e) (hk : e.kind = .value) (hn : ¬ U .value) :
    (∃ nm p v kw, c = .deserializeP nm p v kw) ∨ (∃ d v kw, c = .hpDeserialize d v kw) ∨
      ∃ v skw dkw, c = .copy v skw dkw := by
  rcases C92_own hU n c w e h with ho | hu
  · cases c <;> first
      | exact .inl ⟨_, _, _, _, rfl⟩
      | exact .inr (.inl ⟨_, _, _, rfl⟩)
      | exact .inr (.inr ⟨_, _, _, rfl⟩)
      | (exfalso; rw [hk] at ho; simp [own, access] at ho)
  · exact absurd (hk ▸ hu) hn

/-- A value that refers to existing instances is rejected with a
ValidationError, except that declarations of sets and dictionaries may raise
TypeError, those of numbers OverflowError and those of instances OverflowError
and IndexError. -/
theorem C92_validate (n : Nat) (nm : PyStr) (p : PropSpec) (inst : Option Nat) (v : Val)
    (w : World) (hi : ∀ r, inst = some r → r < w.objs.length) (hv : Only (· < w.objs.length) v)
    (e : PyErr) (h : (run E n (.validate nm p inst v) w).1 = .error e) :
    rejects p e.kind ∨ U e.kind :=
  (((run_calls hU n).validate _ nm p inst v hi hv) w (Nat.le_refl _)).2 e h

/-- Without numbers, sets, dictionaries and instances a rejected value raises
ValidationError. -/
theorem C92_plain (n : Nat) (nm : PyStr) (p : PropSpec) (inst : Option Nat) (v : Val)
    (w : World) (hi : ∀ r, inst = some r → r < w.objs.length) (hv : Only (· < w.objs.length) v)
    (hp : ¬ Hashes p ∧ ¬ Converts p ∧ ¬ Builds p)
    (e : PyErr) (h : (run E n (.validate nm p inst v) w).1 = .error e) :
    e.kind = .validation ∨ e.kind = .recursion ∨ U e.kind := by
  rcases C92_validate hU n nm p inst v w hi hv e h with
    (h | h | ⟨_, h⟩ | ⟨_, h⟩ | ⟨_, h⟩) | h
  · exact .inl h
  · exact .inr (.inl h)
  · exact absurd h hp.1
  · exact absurd h hp.2.1
  · exact absurd h hp.2.2
  · exact .inr (.inr h)

omit hU

/-! ## A class with a listener that sets another property -/

def anyP : PropSpec := .mk false none none .undef .any
def setP : PropSpec := .mk false none none .undef (.seq .set anyP none none true)
def intP : PropSpec := .mk false none none .undef (.integer false none none)
def dictP : PropSpec := .mk false none none .undef (.dict anyP anyP false)
def selfP : PropSpec := .mk false none none .undef (.inst 0)

def excEnv : Env := { demoEnv with
  classes := fun _ => {
    name := s% "A"
    props := [(s% "a", .mutable anyP), (s% "n", .mutable intP), (s% "me", .mutable selfP),
      (s% "fixed", .gettable anyP)]
    observers := [⟨.names [s% "a"], .change, 0⟩] }
  fn := fun _ args => match args with
    | .obj r :: _ :: _ :: v :: _ => .call (.setattr r (s% "n") v) fun x => match x with
        | .ok _ => .ret v
        | .error e => .raise e
    | _ => .ret .none }

/-- The listener lets the exceptions of the assignment through. -/
theorem C92_example_fns : ∀ f args, Raises access (excEnv.fn f args) := by
  intro f args
  show Raises access (match args with
    | .obj r :: _ :: _ :: v :: _ => .call (.setattr r (s% "n") v) fun x => match x with
        | .ok _ => .ret v
        | .error e => .raise e
    | _ => .ret .none)
  split
  · intro x hx
    cases x with
    | ok a => trivial
    | error e => exact (hx e rfl).elim id id
  · trivial

def kindOf {α : Type} : Except PyErr α → Option ErrKind
  | .ok _ => none
  | .error e => some e.kind

/-- One instance that holds itself. -/
def excWorld : World := { objs := [
  { cls := 0, gv := some false, backend := [(s% "me", .obj 0)],
    listeners := [⟨s% "a", .change, 0⟩] }] }

def strayWorld : World := { objs := [
  { cls := 0, gv := some false, backend := [(s% "stray", .int 1)] }] }

/-- Each class of exceptions in the table occurs: OverflowError of an
assignment made by a listener, TypeError for an unhashable item of a set,
IndexError of comparing lists as dictionaries, AttributeError for an immutable
property, SelfReferenceError, ValueError and KeyError. -/
theorem C92_occurs :
    kindOf (run excEnv 9 (.setattr 0 (s% "a") (.float .pinf)) excWorld).1 = some .overflow ∧
    kindOf (run excEnv 9 (.setattr 0 (s% "n") (.str [])) excWorld).1 = some .validation ∧
    kindOf (run excEnv 9 (.validate [] setP none (.list [.list []])) excWorld).1 = some .type ∧
    kindOf (run excEnv 9 (.propEqual dictP (.list [.int 5]) (.list [.int 5])) excWorld).1
      = some .index ∧
    kindOf (run excEnv 9 (.setattr 0 (s% "fixed") .none) excWorld).1 = some .attr ∧
    kindOf (run excEnv 9 (.hpSerialize 0 {}) excWorld).1 = some .selfRef ∧
    kindOf (run excEnv 9 (.hpDeserialize 0 .none {}) excWorld).1 = some .value ∧
    kindOf (run excEnv 9 (.hpSerialize 0 {}) strayWorld).1 = some .key ∧
    kindOf (run excEnv 2 (.construct 0 []) excWorld).1 = some .recursion := by
  decide +kernel

/-- The listener of the example raises nothing but what assignments raise. -/
theorem C92_example (n : Nat) (r : Nat) (nm : PyStr) (v : Val) (w : World) (e : PyErr)
    (h : (run excEnv n (.setattr r nm v) w).1 = .error e) : access e.kind :=
  (C92_own C92_example_fns n _ w e h).elim id id

/-- The declarations the theorems distinguish. -/
theorem C92_declarations : ¬ Hashes anyP ∧ ¬ Converts anyP ∧ ¬ Builds anyP ∧ Hashes setP ∧
    ¬ Converts setP ∧ Hashes dictP ∧ Converts intP ∧ ¬ Hashes intP ∧ Builds selfP := by
  have h1 : ¬ Hashes anyP := by rintro (h | ⟨h, _⟩ | h) <;> cases h
  have h2 : ¬ Converts anyP := by
    rintro (h | h | h | h | ⟨h, _⟩ | ⟨h, _⟩ | ⟨h, _⟩ | ⟨h, _, _⟩) <;> cases h
  refine ⟨h1, h2, ?_, .set rfl, ?_, .dict rfl, .integer rfl, ?_, .inst rfl⟩
  · rintro (h | ⟨h, _⟩ | ⟨h, _⟩ | ⟨h, _⟩ | ⟨h, _, _⟩) <;> cases h
  · rintro (h | h | h | h | ⟨h, h'⟩ | ⟨h, _⟩ | ⟨h, _⟩ | ⟨h, _, _⟩) <;> cases h
    exact h2 h'
  · rintro (h | ⟨h, _⟩ | h) <;> cases h

/-- Comparing any two values by a property that holds no instances answers, or
ends with RecursionError, OverflowError of a difference of numbers or IndexError
of lists given to a Dictionary.  No user code runs. -/
theorem C92_comparing (E : Env) (n : Nat) (p : PropSpec) (hp : ¬ Visits p) (a b : Val) (w : World)
    (e : PyErr) (h : (run E n (.propEqual p a b) w).1 = .error e) : differs p e.kind :=
  run_differs n p hp a b w e h

/-- Hence a property without Floats, Complexes, Dictionaries and Instances
compares any two values without exceptions, the recursion limit aside. -/
theorem C92_answers (E : Env) (n : Nat) (p : PropSpec)
    (hp : ¬ Visits p ∧ ¬ Subtracts p ∧ ¬ Looks p) (a b : Val) (w : World) (e : PyErr)
    (h : (run E n (.propEqual p a b) w).1 = .error e) : e.kind = .recursion := by
  rcases C92_comparing E n p hp.1 a b w e h with h | ⟨_, h⟩ | ⟨_, h⟩
  · exact h
  · exact absurd h hp.2.1
  · exact absurd h hp.2.2

/-- A Set property is such a property, and calls a set and a tuple, a number or
a dictionary different; a Dictionary calls a dictionary and a set different. -/
theorem C92_answers_example : (¬ Visits setP ∧ ¬ Subtracts setP ∧ ¬ Looks setP) ∧
    (run excEnv 9 (.propEqual setP (.set [.int 1]) (.tup [.int 1])) excWorld).1
      = .ok (.bool false) ∧
    (run excEnv 9 (.propEqual setP (.set [.int 1]) (.int 1)) excWorld).1 = .ok (.bool false) ∧
    (run excEnv 9 (.propEqual setP (.set [.int 1]) (.dict [(.int 1, .none)])) excWorld).1
      = .ok (.bool false) ∧
    (run excEnv 9 (.propEqual dictP (.dict [(.int 1, .none)]) (.set [.int 1])) excWorld).1
      = .ok (.bool false) := by
  refine ⟨⟨?_, ?_, ?_⟩, ?_⟩
  · rintro (h | ⟨h, h'⟩ | ⟨h, _⟩ | ⟨h, _, _⟩) <;> cases h
    rcases h' with h | ⟨h, _⟩ | ⟨h, _⟩ | ⟨h, _, _⟩ <;> cases h
  · rintro (h | h | ⟨h, h'⟩ | ⟨h, _⟩ | ⟨h, _, _⟩) <;> cases h
    rcases h' with h | h | ⟨h, _⟩ | ⟨h, _⟩ | ⟨h, _, _⟩ <;> cases h
  · rintro (h | ⟨h, h'⟩ | ⟨h, _, _⟩) <;> cases h
    rcases h' with h | ⟨h, _⟩ | ⟨h, _, _⟩ <;> cases h
  · refine ⟨?_, ?_, ?_, ?_⟩ <;> with_unfolding_all rfl

/-- Two values of the type of the property are always compared, unless a Union
compares them by a type that is not theirs: with the nesting of the declaration
as recursion limit or more there is one answer, at every limit, in every state,
and the state is left alone. -/
theorem C92_values (E : Env) (p : PropSpec) (hp : ¬ Visits p ∧ ¬ Mixes p) {w1 w2 : World} {a b : Val}
    (ha : Admits E w1 p.ty a) (hb : Admits E w2 p.ty b) :
    ∃ y, ∀ n w, depth p ≤ n → run E n (.propEqual p a b) w = (.ok y, w) := by
  obtain ⟨x, hk, hx⟩ := run_sure (E := E) (depth p) p (Nat.le_refl _) hp.1 a b
  cases x with
  | ok y => exact ⟨y, fun n w hn => hx ⟨n, hn⟩ w⟩
  | error e =>
    have h1 : run E (depth p) (.propEqual p a b) {} = (.error e, {}) := hx ⟨depth p, Nat.le_refl _⟩ {}
    exact absurd (run_mates (depth p) p hp.1 hp.2 a b ha hb {} e (by rw [h1])) (hk e rfl)

/-- A List of Dictionaries of Floats. -/
def tableP : PropSpec := .mk false none none .undef (.seq .list (.mk false none none .undef
  (.dict anyP (.mk false none none .undef (.float false none none)) false)) none none true)

/-- A Union of Float and Integer. -/
def mixP : PropSpec := .mk false none none .undef (.union
  [.mk false none none .undef (.float false none none), .mk false none none .undef (.integer false none none)] false)

/-- Floats end at 2 to the power 1024. -/
def mixEnv : Env := { excEnv with rnd := fun q => if 2 ^ 1024 ≤ q then .pinf else .fin q }

/-- The hypotheses are met by a List of Dictionaries of Floats.  A Union of
Float and Integer is outside, and does raise OverflowError: it compares the
integer 10 to the power 400 with 1.5 as Floats. -/
theorem C92_values_example : (¬ Visits tableP ∧ ¬ Mixes tableP) ∧
    Admits mixEnv excWorld tableP.ty (.list [.dict [(.int 1, .float (.fin 1))]]) ∧
    (run mixEnv 3 (.propEqual tableP (.list [.dict [(.int 1, .float (.fin 1))]])
      (.list [.dict [(.int 1, .float (.fin 2))]])) excWorld).1 = .ok (.bool false) ∧
    (Mixes mixP ∧ Admits mixEnv excWorld mixP.ty (.int (10 ^ 400)) ∧
      Admits mixEnv excWorld mixP.ty (.float (.fin (3 / 2))) ∧
      kindOf (run mixEnv 9 (.propEqual mixP (.int (10 ^ 400)) (.float (.fin (3 / 2)))) excWorld).1
        = some .overflow) := by
  refine ⟨⟨?_, ?_⟩, ?_, ?_, .here rfl (List.mem_cons_self ..) (.inl (.float rfl)), ?_, ?_, ?_⟩
  · rintro (h | ⟨h, h'⟩ | ⟨h, _⟩ | ⟨h, _, _⟩) <;> cases h
    rcases h' with h | ⟨h, _⟩ | ⟨h, h'⟩ | ⟨h, _, _⟩ <;> cases h
    rcases h' with h | ⟨h, _⟩ | ⟨h, h'⟩ | ⟨h, _, _⟩ <;> cases h
  · rintro (⟨h, _, _⟩ | ⟨h, h'⟩ | ⟨h, _⟩) <;> cases h
    rcases h' with ⟨h, _, _⟩ | ⟨h, _⟩ | ⟨h, h'⟩ <;> cases h
    rcases h' with ⟨h, _, _⟩ | ⟨h, _⟩ | ⟨h, h'⟩ <;> cases h
  · refine .list _ _ _ _ _ fun x hx => ?_
    rw [List.mem_singleton] at hx
    subst hx
    refine .dict _ _ _ _ (fun _ _ => .any _) fun kv hkv => ?_
    rw [List.mem_singleton] at hkv
    subst hkv
    exact .float _ _ _ _ ⟨nofun, nofun⟩
  · with_unfolding_all rfl
  · exact .union _ _ _ _ (List.mem_cons_of_mem _ (List.mem_cons_self ..)) (.integer _ _ _ _ ⟨nofun, nofun⟩)
  · exact .union _ _ _ _ (List.mem_cons_self ..) (.float _ _ _ _ ⟨nofun, nofun⟩)
  · decide +kernel

end Verif
