import Verif.Lemmas.Typed
import Verif.Models.Demo

/-!
# C01: stored values always have their declared type
-/

namespace Verif
open Spec

/-- C01: start from a state in which every stored value is one its property
admits (for example the empty state), run any program against the API with any
recursion limit, whatever user functions do.  Unless the private attribute
`_backend` has been assigned, every stored value then is one its property
admits.  Validator listeners must not substitute the value. -/
theorem C01_stored_values_admitted (E : Env) (hd : DistinctNames E) (hs : NoSubstitution E)
    (n : Nat) (p : Prog) (w : World) (hw : WellTyped E w)
    (hb : (runProg E n p w).2.bypass = false) : WellTyped E (runProg E n p w).2 :=
  (runProg_pres (typed_base E) (typed_writer hs hd) (typed_post hs hd) n p p.uses_all w
    (fun _ => hw)).2 hb

/-- C01: no instance, no stored value: histories may start from nothing. -/
theorem C01_empty (E : Env) : WellTyped E {} := by
  intro r o h; simp at h

/-- C01: in any state, what a validation returns is admitted by the property
type. -/
theorem C01_validated_value_admitted (E : Env) (n : Nat) (nm : PyStr) (p : PropSpec)
    (inst : Option Nat) (v : Val) (w : World) (x : Val) (w' : World)
    (h : run E n (.validate nm p inst v) w = (.ok x, w')) : Admits E w' p.ty x :=
  (run_validated E n).post (.validate nm p inst v) trivial w trivial x w' h

/-- C01: reading a property that is not dynamic or renamed gives None or a
value it admits. -/
theorem C01_read_admitted (E : Env) (hd : DistinctNames E) (hs : NoSubstitution E)
    (n m : Nat) (p : Prog) (w : World) (hw : WellTyped E w)
    (hb : (runProg E n p w).2.bypass = false) (r : Nat) (o : Obj) (nm : PyStr) (q : PropSpec)
    (ho : (runProg E n p w).2.objs[r]? = some o)
    (hq : lookupS nm (E.classes o.cls).props = some (.mutable q) ∨
      lookupS nm (E.classes o.cls).props = some (.gettable q)) (x : Val) (w' : World)
    (h : run E (m + 1) (.getattr r nm) (runProg E n p w).2 = (.ok x, w')) :
    x = .none ∨ Admits E w' q.ty x := by
  have hT := C01_stored_values_admitted E hd hs n p w hw hb
  generalize (runProg E n p w).2 = w1 at *
  have e : ∀ en, lookupS nm (E.classes o.cls).props = some en →
      entryOf E r nm w1 = (.ok (some en), w1) := by
    intro en hen
    unfold entryOf
    rw [bind_ok (getObj_some ho), hen]; rfl
  have hget : getStored r nm w1 = (.ok x, w') := by
    have hu : run E (m + 1) (.getattr r nm) = getattrBody E (run E m) r nm := rfl
    rw [hu] at h
    unfold getattrBody at h
    rcases hq with hq | hq
    · rw [bind_ok (e _ hq)] at h; exact h
    · rw [bind_ok (e _ hq)] at h; exact h
  unfold getStored at hget
  rw [bind_ok (getObj_some ho)] at hget
  cases hget
  cases hl : lookupS nm o.backend with
  | none => exact .inl rfl
  | some v =>
    right
    have hm : (nm, v) ∈ o.backend := mem_of_lookupS hl
    obtain ⟨en, h1, h2⟩ := hT r o ho nm v hm
    rcases hq with hq | hq
    · rw [hq] at h1; cases h1; exact h2
    · rw [hq] at h1; cases h1; exact h2

/-! ## The conditions are needed and can be met -/

/-- A class with a list of strings, an instance property with an observer that
deletes the list, and a validator that only looks. -/
def typedEnv : Env := { demoEnv with
  classes := fun _ => {
    name := s% "C"
    props := [
      (s% "p", .mutable (.mk true none none .undef
        (.seq .list (.mk true none none .undef (.string [] .keep none)) none none true))),
      (s% "q", .mutable (.mk true none none .undef (.inst 0)))]
    observers := [⟨.names [s% "q"], .set, 1⟩, ⟨.names [s% "p"], .validate, 2⟩] }
  fn := fun f args => match args with
    | [.obj r, _, _, v, _] =>
        if f = 1 then .call (.delattr r (s% "p")) fun _ => .ret v
        else if f = 3 then .ret (.int 7)
        else .call .userGet fun _ => .ret v
    | _ => .ret .none }

/-- Two instances; the first gets a list, then the second, which deletes the
list. -/
def typedProg : Prog :=
  .call (.construct 0 [(s% "p", .str (s% "ab"))]) fun _ =>
  .call (.construct 0 [(s% "q", .obj 0), (s% "p", .tup [.str (s% "x")])]) fun _ =>
  .call (.setattr 0 (s% "q") (.dict [])) fun _ => .ret .none

/-- Without function 3, which substitutes, the condition on validators holds. -/
def typedEnv' : Env := { typedEnv with fn := fun f args => typedEnv.fn (if f = 3 then 2 else f) args }

example : DistinctNames typedEnv' := by
  intro c
  have e : (typedEnv'.classes c).props.map (·.1) = [s% "p", s% "q"] := by with_unfolding_all rfl
  rw [e]; decide

example : NoSubstitution typedEnv' := by
  intro f r name prev v
  show OnlyReturns v (if (if f = 3 then 2 else f) = 1 then
      .call (.delattr r (s% "p")) fun _ => .ret v
    else if (if f = 3 then 2 else f) = 3 then .ret (.int 7)
    else .call .userGet fun _ => .ret v)
  by_cases h : f = 3
  · subst h; exact fun _ => rfl
  · rw [if_neg h]
    split
    · exact fun _ => rfl
    · exact fun _ => rfl

/-- The program runs, stores coerced values and does not use `_backend`. -/
theorem typed_example :
    (runProg typedEnv' 12 typedProg {}).2.bypass = false ∧
    (runProg typedEnv' 12 typedProg {}).2.objs.map (fun o => o.backend.map (·.1)) =
      [[s% "q"], [s% "q", s% "p"], []] := by
  refine ⟨?_, ?_⟩ <;> with_unfolding_all rfl

/-- With a validator that substitutes, a list property comes to hold an int. -/
theorem C01_substitution_breaks : (runProg typedEnv 12
    (.call (.construct 0 []) fun _ =>
     .call (.observe 0 (.names [s% "p"]) .validate 3) fun _ =>
     .call (.setattr 0 (s% "p") (.str (s% "ab"))) fun _ => .ret .none) {}).2.objs.map (·.backend) =
      [[(s% "p", .int 7)]] := by with_unfolding_all rfl

/-- With the keyword `_backend`, which the constructor accepts, too. -/
theorem C01_private_keyword_breaks : (runProg typedEnv' 12
    (.call (.construct 0 [(s% "_backend", .dict [(.str (s% "p"), .int 7)])]) fun _ => .ret .none)
      {}).2.objs.map (·.backend) = [[(s% "p", .int 7)]] := by with_unfolding_all rfl

end Verif
