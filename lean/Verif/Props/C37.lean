import Verif.Lemmas.Access
import Verif.Models.Demo
import Verif.Spec.Renamed

/-!
# C37: renamed properties alias the new name
-/

namespace Verif
open Spec

section
variable {E : Env} {w : World} {r : Nat} {o : Obj} (ho : w.objs[r]? = some o)
include ho

/-- C37: reading through the old name gives the same result, exception and
effects as reading the new name; each renaming costs one level of recursion. -/
theorem C37_get (k : Nat) (nm target : PyStr)
    (h : RenamedTo (E.classes o.cls).props k nm target) (n : Nat) :
    run E (n + k) (.getattr r nm) w = run E n (.getattr r target) w := by
  induction h with
  | here nm => rfl
  | step k nm new target hl _ ih =>
    rw [← ih]
    exact getattr_renamed (rec := run E (n + k)) ho hl

/-- C37 for assignment. -/
theorem C37_set (k : Nat) (nm target : PyStr)
    (h : RenamedTo (E.classes o.cls).props k nm target) (n : Nat) (v : Val) :
    run E (n + k) (.setattr r nm v) w = run E n (.setattr r target v) w := by
  induction h with
  | here nm => rfl
  | step k nm new target hl _ ih =>
    rw [← ih]
    exact setattr_renamed (rec := run E (n + k)) ho v hl

/-- C37 for deletion. -/
theorem C37_del (k : Nat) (nm target : PyStr)
    (h : RenamedTo (E.classes o.cls).props k nm target) (n : Nat) :
    run E (n + k) (.delattr r nm) w = run E n (.delattr r target) w := by
  induction h with
  | here nm => rfl
  | step k nm new target hl _ ih =>
    rw [← ih]
    exact delattr_renamed (rec := run E (n + k)) ho hl

/-- C37: a cycle of renamings ends in RecursionError at every recursion limit,
for reading, assigning and deleting, and nothing happens before. -/
theorem C37_cycle (S : PyStr → Prop) (hS : RenamedForever (E.classes o.cls).props S) (n : Nat)
    (nm : PyStr) (hn : S nm) (v : Val) :
    run E n (.getattr r nm) w = (.error ⟨.recursion, []⟩, w) ∧
    run E n (.setattr r nm v) w = (.error ⟨.recursion, []⟩, w) ∧
    run E n (.delattr r nm) w = (.error ⟨.recursion, []⟩, w) := by
  induction n generalizing nm with
  | zero => exact ⟨rfl, rfl, rfl⟩
  | succ n ih =>
    obtain ⟨new, hl, hs⟩ := hS nm hn
    obtain ⟨h1, h2, h3⟩ := ih new hs
    exact ⟨(getattr_renamed (rec := run E n) ho hl).trans h1,
      (setattr_renamed (rec := run E n) ho v hl).trans h2,
      (delattr_renamed (rec := run E n) ho hl).trans h3⟩

end

/-- The constructor accepts the old name as keyword and treats it as an
assignment of it, which by `C37_set` is one of the new name: the loop over the
keywords does the same with either. -/
theorem C37_keyword (E : Env) (n k : Nat) (c : ClsId) (r : Nat) (o : Obj) (w : World)
    (ho : w.objs[r]? = some o) (hc : o.cls = c) (nm target : PyStr) (p : PropSpec) (v : Val)
    (nv : Option PyErr) (h : RenamedTo (E.classes c).props k nm target)
    (ht : lookupS target (E.classes c).props = some (.mutable p)) :
    initStep (run E (n + k)) r (E.classes c) nv (nm, v) w =
      initStep (run E n) r (E.classes c) nv (target, v) w := by
  subst hc
  have h1 := C37_set ho k nm target h n v
  have h2 : ∀ (m : Nat) (x : PyStr) (e : Entry), lookupS x (E.classes o.cls).props = some e →
      (∀ p g s d, e ≠ .dynamic p g s d) →
      initStep (run E m) r (E.classes o.cls) nv (x, v) w =
      ((M.attempt (run E m (.setattr r x v))) >>= fun res => match res with
        | .ok _ => pure nv
        | .error e => if e.kind = .validation then do
              addErrs r e.tuples
              pure nv
            else if e.kind.isGeneric then pure (nv.or (some e))
            else M.raise e) w := by
    intro m x e hx hd
    unfold initStep
    dsimp only
    rw [hx]
    cases e with
    | dynamic p g s d => exact absurd rfl (hd p g s d)
    | mutable _ => rfl
    | gettable _ => rfl
    | renamed _ => rfl
  rw [h2 n target _ ht (by simp)]
  have h3 : ∃ e, lookupS nm (E.classes o.cls).props = some e ∧ ∀ p g s d, e ≠ .dynamic p g s d := by
    cases h with
    | here => exact ⟨_, ht, by simp⟩
    | step k nm new target hl _ => exact ⟨_, hl, by simp⟩
  obtain ⟨e, he, hd⟩ := h3
  rw [h2 (n + k) nm e he hd]
  have h4 : M.attempt (run E (n + k) (.setattr r nm v)) w =
      M.attempt (run E n (.setattr r target v)) w := by
    simp only [attempt_apply, h1]
  show M.bind _ _ w = M.bind _ _ w
  unfold M.bind
  rw [h4]

/-! ## Examples -/

/-- `old` → `mid` → `p`, and the cycle `x` → `y` → `x`. -/
def c37Env : Env := { demoEnv with
  classes := fun _ => {
    name := s% "C"
    props := [(s% "old", .renamed (s% "mid")), (s% "mid", .renamed (s% "p")),
      (s% "p", .mutable (.mk true none none .undef (.string [] .keep none))),
      (s% "x", .renamed (s% "y")), (s% "y", .renamed (s% "x"))] } }

example : RenamedTo (c37Env.classes 0).props 2 (s% "old") (s% "p") :=
  .step _ _ (s% "mid") _ (by with_unfolding_all rfl)
    (.step _ _ (s% "p") _ (by with_unfolding_all rfl) (.here _))

example : RenamedForever (c37Env.classes 0).props (fun nm => nm = s% "x" ∨ nm = s% "y") := by
  intro nm h
  rcases h with rfl | rfl
  · exact ⟨s% "y", by with_unfolding_all rfl, .inr rfl⟩
  · exact ⟨s% "x", by with_unfolding_all rfl, .inl rfl⟩

/-- Assigning through the chain stores under the last name. -/
theorem C37_example :
    (run c37Env 6 (.setattr 0 (s% "old") (.str (s% "v"))) (run c37Env 6 (.construct 0 []) {}).2).2.objs.map
      (·.backend) = [[(s% "p", .str (s% "v"))]] := by
  with_unfolding_all rfl

end Verif
