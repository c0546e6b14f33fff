import Verif.Lemmas.Telling
import Verif.Props.C15Keywords
import Verif.Models.Demo

/-!
# C101: ValidationErrors and error hooks are told what went wrong
-/

namespace Verif
open Verif.Spec Verif.Spec.Tell

section
variable {E : Env} {T : ErrTuple → Prop} (hT : ∀ t, Form t → T t)
  (hU : ∀ f args, Honest T (E.fn f args))
include hT hU

/-- C101: a ValidationError that a call ends with has at least one error tuple,
and each of them is one of the library's or one of those user code raises. -/
theorem C101_tells {n : Nat} {c : Call} {w w' : World} {e : PyErr} (hw : Spec.Tell.Kept T w)
    (h : run E n c w = (.error e, w')) (he : e.kind = .validation) : Says T e.tuples := by
  have := ((run_tell hT hU n).calls c w hw).2 e (by rw [h])
  exact this he

/-- C101: error hooks are called with at least one error tuple, of the same
kinds; this holds after every call. -/
theorem C101_kept {n : Nat} {c : Call} {w : World} (hw : Spec.Tell.Kept T w) :
    Spec.Tell.Kept T (run E n c w).2 :=
  ((run_tell hT hU n).calls c w hw).1

/-- C101: so it is in every state a program reaches, and for the error it ends
with. -/
theorem C101_program {n : Nat} {p : Prog} (hp : Honest T p) :
    Spec.Tell.Kept T (runProg E n p {}).2 ∧
      ∀ e, (runProg E n p {}).1 = .error e → e.kind = .validation → Says T e.tuples := by
  have hw : Spec.Tell.Kept T ({} : World) := ⟨(fun _ ho => nomatch ho), (fun _ hh => nomatch hh)⟩
  have := tell_execProg (run_tell hT hU n) p hp {} hw
  exact ⟨this.1, fun e he hk => this.2 e he hk⟩

omit hT hU in
theorem kept_begun {r : Nat} {w : World} (hw : Spec.Tell.Kept T w) : Spec.Tell.Kept T (begun r w) :=
  kept_setObj hw r _ fun o _ es he t ht => by cases he; cases ht

omit hT hU in
theorem kept_noted {r : Nat} {w : World} {ts : List ErrTuple} (hw : Spec.Tell.Kept T w)
    (ht : ∀ t ∈ ts, T t) : Spec.Tell.Kept T (noted r ts w) :=
  kept_setObj hw r _ fun o ho es he t h => by
    cases hx : o.errs with
    | none => rw [hx] at he; cases he
    | some es0 =>
      rw [hx] at he
      cases he
      rcases List.mem_append.1 h with h | h
      · exact ho es0 hx t h
      · exact ht t h

/-- Assigning keywords keeps that, and the errors tell. -/
theorem tries_kept {n r : Nat} {c : ClassDef} {kw : List (PyStr × Val)} {w w2 : World}
    {xs : List (Except PyErr Val)} {stop : Option PyErr} (ht : Tries E n r c kw w xs stop w2) :
    Spec.Tell.Kept T w → Spec.Tell.Kept T w2 ∧ ∀ e, .error e ∈ xs → Tells T e := by
  induction ht with
  | done w => exact fun h => ⟨h, fun e he => nomatch he⟩
  | refused k v rest w _ => exact fun h => ⟨h, fun e he => nomatch he⟩
  | tried k v rest w w1 w2 x xs stop _ hs _ _ ih =>
    intro h
    have a := (run_tell hT hU n).calls (.setattr r k v) w h
    rw [hs] at a
    have hx : ∀ t ∈ tuplesOf x, T t := by
      intro t ht
      cases x with
      | ok v => cases ht
      | error e =>
        by_cases hk : e.kind = .validation
        · simp only [tuplesOf, if_pos hk] at ht
          exact (a.2 e rfl hk).2 t ht
        · simp [tuplesOf, hk] at ht
    obtain ⟨i1, i2⟩ := ih (kept_noted a.1 hx)
    refine ⟨i1, fun e he => ?_⟩
    rcases List.mem_cons.1 he with he | he
    · exact a.2 e he.symm
    · exact i2 e he
  | broken k v rest w w1 e _ hs _ =>
    intro h
    have a := (run_tell hT hU n).calls (.setattr r k v) w h
    rw [hs] at a
    exact ⟨a.1, fun e he => nomatch he⟩

/-- C16: if construction with keywords succeeds, every one of the assignments
did. -/
theorem C16_succeeds (hI : ∀ f args, Indirect (E.fn f args)) {n : Nat} {c : ClsId}
    (hh : (E.classes c).hook = none) {w w' : World} {x : Val} {kw : List (PyStr × Val)}
    (hw : Spec.Tell.Kept T w) (hcls : ∀ kv ∈ kw, kv.1 ≠ s% "cls") (hself : ∀ kv ∈ kw, kv.1 ≠ s% "self")
    (h : run E (n + 1) (.construct c kw) w = (.ok x, w')) :
    ∃ r w0 xs w2, x = .obj r ∧ run E (n + 1) (.construct c []) w = (.ok (.obj r), w0) ∧
      Tries E n r (E.classes c) kw (begun r w0) xs none w2 ∧ xs.length = kw.length ∧
      (∀ y ∈ xs, ∃ v, y = .ok v) ∧ w' = clearValidating r w2 := by
  obtain ⟨w3, o3, ho3, hc3, h0⟩ := construct_without h
  obtain ⟨r, xs, stop, w2, hr, ht, hs, hn⟩ := C16_construct hI hh h0 kw hcls hself
  cases hr
  cases stop with
  | some e => rw [hs e rfl] at h; cases h
  | none =>
    obtain ⟨hlen, g1, g2, g3⟩ := hn rfl
    have hf : xs.flatMap tuplesOf = [] := by
      by_contra hne
      rw [g1 hne] at h; cases h
    have hfo : firstOther xs = none := by
      cases hx : firstOther xs with
      | none => rfl
      | some e => rw [g2 hf e hx] at h; cases h
    rw [g3 hf hfo] at h
    have hw3 : Spec.Tell.Kept T w3 := by
      have := C101_kept hT hU (n := n + 1) (c := .construct c []) hw
      rw [h0] at this; exact this
    have hk := tries_kept hT hU ht (kept_begun hw3)
    refine ⟨_, w3, xs, w2, by cases h; rfl, h0, ht, hlen, fun y hy => ?_, by cases h; rfl⟩
    cases y with
    | ok v => exact ⟨v, rfl⟩
    | error e =>
      exfalso
      have hv := firstOther_none hfo hy e rfl
      have := List.flatMap_eq_nil_iff.1 hf _ hy
      simp only [tuplesOf, if_pos hv] at this
      exact (hk.2 e hy hv).1 this

/-- C15: a property given as a keyword holds, after construction, what the
validators left of the coerced value of the (last) keyword of that name. -/
theorem C15_keyword_coerced {n : Nat} {c : ClsId} {w w' : World} {x v : Val} {k : PyStr}
    {p : PropSpec} {pre post : List (PyStr × Val)} (hw : Spec.Tell.Kept T w)
    (hE : ∀ f args, Spares w.objs.length (E.fn f args)) (hI : ∀ f args, Indirect (E.fn f args))
    (hh : (E.classes c).hook = none)
    (hkw : ∀ kv ∈ pre ++ (k, v) :: post, kv.1 ≠ s% "cls" ∧ kv.1 ≠ s% "self" ∧
      ∃ p, lookupS kv.1 (E.classes c).props = some (.mutable p))
    (hp : lookupS k (E.classes c).props = some (.mutable p)) (hlast : ∀ kv ∈ post, kv.1 ≠ k)
    (h : run E n (.construct c (pre ++ (k, v) :: post)) w = (.ok x, w')) :
    x = .obj w.objs.length ∧ ∃ j u o, u.objs[w.objs.length]? = some o ∧ o.cls = c ∧
      ∃ v0 v1 ev, (v = .undef ∧ v0 = .undef ∨ v ≠ .undef ∧
            ∃ u1, run E j (.validate k p (some w.objs.length) v) u = (.ok v0, u1)) ∧
          Notified w.objs.length .validate k (storedOr u w.objs.length k)
            (SelfReturned E j o w.objs.length k (storedOr u w.objs.length k) .validate
              (storedOr u w.objs.length k))
            (enabled u o .validate k) v0 ev v1 ∧
          ∀ m, run E (m + 1) (.getattr w.objs.length k) w' = (.ok (asRead v1), w') := by
  obtain ⟨hx, w3, j, u, o, xs1, _, h0, ht, h1, h2, h3⟩ := keyword_values hE hI hh hkw hp hlast h
  refine ⟨hx, j, u, o, h1, h2, ?_⟩
  rcases h3 with h3 | ⟨e, a1, a2, a3⟩
  · exact h3
  · exfalso
    have hw3 : Spec.Tell.Kept T w3 := by
      have := C101_kept hT hU (n := n) (c := .construct c []) hw
      rw [h0] at this; exact this
    have hu := (tries_kept hT hU ht (kept_begun hw3)).1
    have := ((run_tell hT hU (j + 1)).calls (.setattr w.objs.length k v) u hu).2 e a1 a2
    exact this.1 a3

end

/-! ## Examples -/

/-- A required Integer, and a class validator that returns False. -/
def c101Env : Env := { demoEnv with
  classes := fun _ => { (default : ClassDef) with
    props := [(s% "a", .mutable (.mk true none none .undef (.integer false none none)))]
    hook := some 1
    validators := [none, some 0] }
  fn := fun _ _ => .ret (.bool false) }

/-- Both failures are told, and so is the hook. -/
theorem C101_example :
    (run c101Env 8 (.hpValidate 0) (run c101Env 8 (.construct 0 []) {}).2).1 =
      .error ⟨.validation, [⟨some (s% "missing"), some (s% "a"), some 0⟩, ⟨none, none, some 0⟩]⟩ ∧
    (run c101Env 8 (.hpValidate 0) (run c101Env 8 (.construct 0 []) {}).2).2.hooks =
      [(0, [⟨some (s% "missing"), some (s% "a"), some 0⟩, ⟨none, none, some 0⟩])] := by
  constructor <;> with_unfolding_all rfl

/-- The hypotheses hold there. -/
example : (∀ f args, Honest Form (c101Env.fn f args)) ∧ Spec.Tell.Kept Form ({} : World) :=
  ⟨fun _ _ => trivial, (fun _ ho => nomatch ho), (fun _ hh => nomatch hh)⟩

/-- A listener that raises a ValidationError with an empty list of error tuples. -/
def c101Silent : Env := { demoEnv with
  classes := fun _ => { (default : ClassDef) with
    props := [(s% "a", .mutable (.mk true none none (.val (.int 1)) (.integer false none none)))]
    observers := [⟨.everything, .validate, 0⟩]
    validators := [none] }
  fn := fun _ _ => .raise ⟨.validation, []⟩ }

/-- The constructor drops it: the keyword has no effect, and no error. -/
theorem C101_dropped :
    (run c101Silent 8 (.construct 0 [(s% "a", .int 2)]) {}).1.toOption = some (.obj 0) ∧
    (run c101Silent 8 (.construct 0 [(s% "a", .int 2)]) {}).2.objs.map Obj.backend =
      [[(s% "a", .int 1)]] := by
  constructor <;> with_unfolding_all rfl

end Verif
