import Verif.Props.C111
import Verif.Lemmas.PlusClass

/-!
# C112: include_class only adds the names of classes
-/

namespace Verif
open Spec

/-- **C112**.  Where classes have no registered serializers, `serialize()` with
and without `include_class` returns in both cases or raises the same in both,
nothing changes, and what it returns with `include_class` is what it returns without,
with `__class__` entries put at the end of dictionaries. -/
theorem C112_include_class {E : Env} (hE : OwnWriters E) {D : Nat} {w : World} (ht : TameWorld E D w) (n r : Nat) :
    (∃ j j', run E n (.hpSerialize r ⟨true, false⟩) w = (.ok j, w) ∧
      run E n (.hpSerialize r ⟨false, false⟩) w = (.ok j', w) ∧ PlusClass j j') ∨
    (∃ e, run E n (.hpSerialize r ⟨true, false⟩) w = (.error e, w) ∧
      run E n (.hpSerialize r ⟨false, false⟩) w = (.error e, w)) := by
  refine Plus.hp_both hE n (fun i o ho => ⟨(ht i o ho).1, fun nm v hm => ?_⟩) r
  obtain ⟨e, p, h1, h2, h3, _⟩ := (ht i o ho).2 nm v hm
  exact ⟨e, p, h1, h2, h3⟩

/-! ## A line with two points -/

def c112Ends : PropSpec := .mk true none none .undef (.seq .list c110Inst none none false)

/-- Class 0 is `P` with an integer `a`; the others are `L` with a list of them. -/
def c112Env : Env := { demoEnv with
  classes := fun c => { (default : ClassDef) with
    name := if c = 0 then s% "P" else s% "L"
    props := if c = 0 then [(s% "a", .mutable c110Num)] else [(s% "i", .mutable c112Ends)] } }

def c112W : World := (run c112Env 12 (.hpDeserialize 1 (.dict [(.str (s% "i"),
  .list [.dict [(.str (s% "a"), .int 3)], .dict []])]) {}) {}).2

/-- The hypotheses hold, and `__class__` is added for the line and each point. -/
theorem C112_example : OwnWriters c112Env ∧ TameWorld c112Env 2 c112W ∧
    (run c112Env 12 (.hpSerialize 2 ⟨true, false⟩) c112W).1 = .ok (.dict [(.str (s% "i"),
      .list [.dict [(.str (s% "a"), .int 3), (.str (s% "__class__"), .str (s% "P"))],
        .dict [(.str (s% "__class__"), .str (s% "P"))]]), (.str (s% "__class__"), .str (s% "L"))]) ∧
    (run c112Env 12 (.hpSerialize 2 ⟨false, false⟩) c112W).1 = .ok (.dict [(.str (s% "i"),
      .list [.dict [(.str (s% "a"), .int 3)], .dict []])]) := by
  refine ⟨fun c => ?_, fun r o ho => ?_, by with_unfolding_all rfl, by with_unfolding_all rfl⟩
  · have hp : (c112Env.classes c).props = [(s% "a", .mutable c110Num)] ∨
        (c112Env.classes c).props = [(s% "i", .mutable c112Ends)] := by
      simp only [c112Env]
      split
      · exact .inl rfl
      · exact .inr rfl
    rcases hp with hp | hp <;> rw [hp] <;> refine ⟨rfl, fun nm e p h ho => ?_⟩ <;>
      simp only [lookupS] at h <;> split at h <;> cases h <;> rcases ho with ho | ho <;> cases ho
    · exact .scalar _ rfl trivial
    · exact .seq _ _ _ _ _ _ rfl rfl (.inst _ 0 rfl rfl)
  · have h1 : c112W.objs.map (fun o => (o.cls, o.backend)) = [(0, [(s% "a", .int 3)]), (0, []),
        (1, [(s% "i", .list [.obj 0, .obj 1])])] := by with_unfolding_all rfl
    have hm : (o.cls, o.backend) ∈ c112W.objs.map (fun o => (o.cls, o.backend)) :=
      List.mem_map.2 ⟨o, List.mem_of_getElem? ho, rfl⟩
    rw [h1] at hm
    simp only [List.mem_cons, List.not_mem_nil, or_false, Prod.mk.injEq] at hm
    rcases hm with ⟨hc, hb⟩ | ⟨hc, hb⟩ | ⟨hc, hb⟩ <;> rw [hc, hb] <;> refine ⟨by simp, fun nm v hv => ?_⟩
    · obtain ⟨rfl, rfl⟩ := Prod.mk.inj (List.mem_singleton.1 hv)
      exact ⟨.mutable c110Num, c110Num, rfl, .inl rfl, .inl ⟨rfl, trivial⟩, by decide⟩
    · cases hv
    · obtain ⟨rfl, rfl⟩ := Prod.mk.inj (List.mem_singleton.1 hv)
      refine ⟨.mutable c112Ends, c112Ends, rfl, .inl rfl, .inl ⟨rfl, ?_⟩, by decide⟩
      intro xs _ x _
      exact .inl ⟨rfl, trivial⟩

end Verif
