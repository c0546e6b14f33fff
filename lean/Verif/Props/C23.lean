import Verif.Lemmas.Serialize
import Verif.Models.Demo

/-!
# C23: serialize() detects self reference
-/

namespace Verif
open Spec

/-! ## Serialized forms are well founded -/

/-- The instances `v` leads to, by type. -/
def VisitsBody (E : Env) (w : World) (nm : PyStr) (ty : PropTy) (v : Val) (s : Nat) : Prop :=
  match ty with
  | .seq _ it _ _ _ => ∃ xs, v.iter? = some xs ∧ ∃ x ∈ xs, Visits E w nm it x s
  | .dict kp vp _ => ∃ kvs, v = .dict kvs ∧ ∃ kv ∈ kvs, Visits E w nm kp kv.1 s ∨
      Visits E w nm vp kv.2 s
  | .inst _ => v = .obj s
  | .union ps _ => ∃ o, Picks E w nm v ps o ∧ VisitPick E w nm v s o
  | _ => False

theorem visits_inv {E : Env} {w : World} {nm : PyStr} {p : PropSpec} {v : Val} {s : Nat}
    (h : Visits E w nm p v s) : VisitsBody E w nm p.ty v s := by
  cases h
  case inst => rename p.ty = _ => hty; rw [hty]; rfl
  case item =>
    rename p.ty = _ => hty; rw [hty]
    exact ⟨_, by assumption, _, by assumption, by assumption⟩
  case key =>
    rename p.ty = _ => hty; rw [hty]
    exact ⟨_, rfl, _, by assumption, .inl (by assumption)⟩
  case value =>
    rename p.ty = _ => hty; rw [hty]
    exact ⟨_, rfl, _, by assumption, .inr (by assumption)⟩
  case union =>
    rename p.ty = _ => hty; rw [hty]
    exact ⟨some _, by assumption, by assumption⟩
  case unionObj =>
    rename p.ty = _ => hty; rw [hty]
    exact ⟨none, by assumption, rfl⟩

theorem visits_ser {E : Env} {w : World} {nm : PyStr} {p : PropSpec} {v : Val} {s : Nat}
    (h : Visits E w nm p v s) : p.ser = none := by
  cases h <;> assumption

theorem tame_ty {E : Env} {p : PropSpec} {v : Val} (h : Tame E p v) (hs : p.ser = none) :
    TameTy E p.ty v := by
  rcases tame_cases h with h | ⟨f, h, _⟩
  · exact h.2
  · rw [hs] at h; cases h

theorem visits_ne_none {E : Env} {w : World} {nm : PyStr} {p : PropSpec} {v : Val} {s : Nat}
    (h : Visits E w nm p v s) : v ≠ .none := by
  induction h with
  | inst => simp
  | item => rename_i hi _ _ _; rintro rfl; cases hi
  | key => simp
  | value => simp
  | union => rename_i ih; exact ih
  | unionObj => simp

/-- `s` is only a finite number of references away from anything it leads to. -/
def Grounded (E : Env) (w : World) : Nat → Prop := Acc (fun s r => RefersOn E w r s)

mutual
theorem serP_grounded {E : Env} {D : Nat} {w : World} {ic : Bool} (ht : TameWorld E D w) :
    ∀ {nm : PyStr} {p : PropSpec} {v j : Val}, SerP E w ic nm p v j → Tame E p v →
      ∀ s, Visits E w nm p v s → Grounded E w s
  | _, _, _, _, .custom nm p f v j h _, _, s, hv => by
    rw [visits_ser hv] at h; cases h
  | _, _, _, _, .none nm p _, _, s, hv => absurd rfl (visits_ne_none hv)
  | _, _, _, _, .scalar nm p v j _ _ h, _, s, hv => by
    have := visits_inv hv
    cases hty : p.ty <;> rw [hty] at this h <;> first | (cases h; done) | exact this.elim
  | _, _, _, _, .seq nm p it k lo hi c v xs js hser _ hty hi' h, htm, s, hv => by
    have hb := visits_inv hv
    have htt := tame_ty htm hser
    rw [hty] at hb htt
    obtain ⟨xs', h1, x, hx, h2⟩ := hb
    rw [hi'] at h1; cases h1
    unfold TameTy at htt
    exact serL_grounded ht h (htt xs hi') x hx s h2
  | _, _, _, _, .dict nm p kp vp c kvs jvs hser hty h _, htm, s, hv => by
    have hb := visits_inv hv
    have htt := tame_ty htm hser
    rw [hty] at hb htt
    obtain ⟨kvs', h1, kv, hkv, h2⟩ := hb
    cases h1
    unfold TameTy at htt
    exact serD_grounded ht h (htt kvs rfl) kv hkv s h2
  | _, _, _, _, .inst nm p c r j _ hty h, _, s, hv => by
    have hb := visits_inv hv
    rw [hty] at hb
    cases hb
    exact serO_grounded ht h
  | _, _, _, _, .copy nm p c v j _ hty _ hno _, _, s, hv => by
    have hb := visits_inv hv
    rw [hty] at hb
    exact absurd hb (hno s)
  | _, _, _, _, .union nm p ps st v q j hser _ hty hpk h, htm, s, hv => by
    have hb := visits_inv hv
    have htt := tame_ty htm hser
    rw [hty] at hb htt
    unfold TameTy at htt
    have htt := tameAll_iff.1 htt
    obtain ⟨o, hpk', h2⟩ := hb
    cases picks_det (fun q hq => (htt q hq).1) hpk' hpk
    exact serP_grounded ht h (htt q (picks_mem hpk)).2 s h2
  | _, _, _, _, .unionObj nm p ps st r j hser hty hpk h, htm, s, hv => by
    have hb := visits_inv hv
    have htt := tame_ty htm hser
    rw [hty] at hb htt
    unfold TameTy at htt
    have htt := tameAll_iff.1 htt
    obtain ⟨o, hpk', h2⟩ := hb
    cases picks_det (fun q hq => (htt q hq).1) hpk' hpk
    cases h2
    exact serO_grounded ht h
  | _, _, _, _, .unionAsIs nm p ps st v hser _ hty hpk hno, htm, s, hv => by
    have hb := visits_inv hv
    have htt := tame_ty htm hser
    rw [hty] at hb htt
    unfold TameTy at htt
    have htt := tameAll_iff.1 htt
    obtain ⟨o, hpk', h2⟩ := hb
    cases picks_det (fun q hq => (htt q hq).1) hpk' hpk
    exact absurd h2 (hno s)
theorem serL_grounded {E : Env} {D : Nat} {w : World} {ic : Bool} (ht : TameWorld E D w) :
    ∀ {nm : PyStr} {p : PropSpec} {xs js : List Val}, SerL E w ic nm p xs js →
      (∀ x ∈ xs, Tame E p x) → ∀ x ∈ xs, ∀ s, Visits E w nm p x s → Grounded E w s
  | _, _, _, _, .nil nm p, _, x, hx, _, _ => absurd hx (by simp)
  | _, _, _, _, .cons nm p y j xs js h hs, htm, x, hx, s, hv => by
    rcases List.mem_cons.1 hx with hxy | hx
    · rw [hxy] at hv
      exact serP_grounded ht h (htm y (by simp)) s hv
    · exact serL_grounded ht hs (fun z hz => htm z (by simp [hz])) x hx s hv
theorem serD_grounded {E : Env} {D : Nat} {w : World} {ic : Bool} (ht : TameWorld E D w) :
    ∀ {nm : PyStr} {kp vp : PropSpec} {kvs jvs : List (Val × Val)},
      SerD E w ic nm kp vp kvs jvs → (∀ kv ∈ kvs, Tame E kp kv.1 ∧ Tame E vp kv.2) →
      ∀ kv ∈ kvs, ∀ s, Visits E w nm kp kv.1 s ∨ Visits E w nm vp kv.2 s → Grounded E w s
  | _, _, _, _, _, .nil nm kp vp, _, x, hx, _, _ => absurd hx (by simp)
  | _, _, _, _, _, .cons nm kp vp k x jk jx kvs jvs hk hx hs, htm, kv, hkv, s, hv => by
    rcases List.mem_cons.1 hkv with hxy | hkv
    · rw [hxy] at hv
      rcases hv with hv | hv
      · exact serP_grounded ht hk (htm (k, x) (by simp)).1 s hv
      · exact serP_grounded ht hx (htm (k, x) (by simp)).2 s hv
    · exact serD_grounded ht hs (fun z hz => htm z (by simp [hz])) kv hkv s hv
theorem serO_grounded {E : Env} {D : Nat} {w : World} {ic : Bool} (ht : TameWorld E D w) :
    ∀ {r : Nat} {j : Val}, SerO E w ic r j → Grounded E w r
  | _, _, .mk r o data ho h => by
    refine Acc.intro r fun s hs => ?_
    obtain ⟨o', nm, v, e, p, ho', hm, hl, hown, hv⟩ := hs
    rw [ho] at ho'; cases ho'
    exact serF_grounded ht h (fun nm v hm => by
      obtain ⟨e, p, h1, h2, h3, _⟩ := (ht r o ho).2 nm v hm
      exact ⟨e, p, h1, h2, h3⟩) nm v hm e p hl hown s hv
theorem serF_grounded {E : Env} {D : Nat} {w : World} {ic : Bool} (ht : TameWorld E D w) :
    ∀ {c : ClsId} {b : List (PyStr × Val)} {data : List (Val × Val)}, SerF E w ic c b data →
      (∀ nm v, (nm, v) ∈ b → ∃ e p, lookupS nm (E.classes c).props = some e ∧
        OwnSpec e p ∧ Tame E p v) →
      ∀ nm v, (nm, v) ∈ b → ∀ e p, lookupS nm (E.classes c).props = some e → OwnSpec e p →
      ∀ s, Visits E w nm p v s → Grounded E w s
  | _, _, _, .nil c, _, _, _, hx, _, _, _, _, _, _ => absurd hx (by simp)
  | _, _, _, .cons c nm v e p j rest data hl hown h hs, htm, nm', v', hm, e', p', hl', hown', s, hv => by
    rcases List.mem_cons.1 hm with hxy | hm
    · cases hxy
      rw [hl] at hl'; cases hl'
      have hpp : p = p' := by
        rcases hown with rfl | rfl <;> rcases hown' with h' | h' <;> cases h' <;> rfl
      subst hpp
      obtain ⟨e2, p2, hl2, ho2, ht2⟩ := htm nm v (by simp)
      rw [hl] at hl2; cases hl2
      have hpp : p = p2 := by
        rcases hown with rfl | rfl <;> rcases ho2 with h' | h' <;> cases h' <;> rfl
      subst hpp
      exact serP_grounded ht h ht2 s hv
    · exact serF_grounded ht hs (fun a b hab => htm a b (by simp [hab])) nm' v' hm e' p' hl' hown' s hv
end

theorem grounded_reaches {E : Env} {w : World} {r s : Nat} (h : Reaches E w r s)
    (hg : Grounded E w r) : Grounded E w s := by
  induction h with
  | refl => exact hg
  | step _ _ _ h1 _ ih => exact ih (hg.inv h1)

theorem grounded_no_cycle {E : Env} {w : World} {r : Nat} (hg : Grounded E w r) :
    ¬ OnCycle E w r := by
  induction hg with
  | intro r _ ih =>
    rintro ⟨s, h1, h2⟩
    -- `s` refers, through `r`, to itself
    refine ih s h1 ?_
    cases h2 with
    | refl => exact ⟨_, h1, .refl _⟩
    | step _ t _ h3 h4 => exact ⟨t, h3, reaches_trans h4 (.step _ _ _ h1 (.refl _))⟩

/-! ## C23 -/

theorem idleGs_le (w : World) : idleGs w ≤ w.objs.length := List.countP_le_length

theorem serDepth_mono {D k k' : Nat} (h : k ≤ k') : serDepth D k ≤ serDepth D k' := by
  unfold serDepth
  exact Nat.add_le_add_left (Nat.mul_le_mul_right _ h) 1

/-- **C23** (termination).  On every finite graph of instances `serialize()`
ends, whatever it contains: with recursion depth `1 + instances * (nesting + 2)`
there is no RecursionError.  It leaves every instance as it was. -/
theorem C23_ends {E : Env} {D : Nat} {w : World} {kw : SerKw} (hs : kw.saveDynamic = false)
    (ht : TameWorld E D w) {n : Nat} (hn : serDepth D w.objs.length ≤ n) (r : Nat) :
    (run E n (.hpSerialize r kw) w).2 = w ∧
    ∀ e, (run E n (.hpSerialize r kw) w).1 = .error e → e.kind ≠ .recursion := by
  obtain ⟨x, hx, hq⟩ := hpSerialize_res (L := True) (F := False) (fun _ => trivial) hs ht (fun h => h.elim) _ w (sameCore_refl w)
    (idleGs_le w) n (fun _ => hn) r
  rw [hx]
  refine ⟨rfl, fun e he => ?_⟩
  cases he
  exact hq.1 trivial

/-- **C23** (detection).  If a cycle can be reached from `r`, `serialize()` does
not succeed; it raises SelfReferenceError if nothing else stands in the way. -/
theorem C23_cycle {E : Env} {D : Nat} {w : World} {kw : SerKw} (hs : kw.saveDynamic = false)
    (ht : TameWorld E D w) {n : Nat} (hn : serDepth D w.objs.length ≤ n) {r s : Nat}
    (hr : Reaches E w r s) (hc : OnCycle E w s) :
    ∃ e, run E n (.hpSerialize r kw) w = (.error e, w) ∧ e.kind ≠ .recursion ∧
      (FineWorld E kw.includeClass w → e.kind = .selfRef) := by
  obtain ⟨x, hx, hq⟩ := hpSerialize_res (L := True) (F := FineWorld E kw.includeClass w)
    (fun _ => trivial) hs ht id _ w
    (sameCore_refl w) (idleGs_le w) n (fun _ => hn) r
  cases x with
  | ok j => exact absurd hc (grounded_no_cycle (grounded_reaches hr (serO_grounded ht hq)))
  | error e =>
    refine ⟨e, hx, hq.1 trivial, fun hF => (hq.2 ⟨hF, ?_⟩).1⟩
    cases hr with
    | refl => obtain ⟨s, ⟨o, _, _, _, _, ho, _⟩, _⟩ := hc; exact ⟨o, ho⟩
    | step _ t _ h1 _ => obtain ⟨o, _, _, _, _, ho, _⟩ := h1; exact ⟨o, ho⟩

theorem not_marked {w : World} (h : Unmarked w) (r : Nat) : ¬ Marked w r := by
  rintro ⟨o, ho, hg⟩
  rw [h r o ho] at hg; cases hg

/-- **C23** (no false alarms).  If no cycle can be reached from `r` and all
values can be serialized, `serialize()` succeeds. -/
theorem C23_acyclic {E : Env} {D : Nat} {w : World} {kw : SerKw} (hs : kw.saveDynamic = false)
    (ht : TameWorld E D w) (hu : Unmarked w) (hf : FineWorld E kw.includeClass w) {n : Nat}
    (hn : serDepth D w.objs.length ≤ n) {r : Nat} {o : Obj} (ho : w.objs[r]? = some o)
    (hr : ∀ s, Reaches E w r s → ¬ OnCycle E w s) :
    ∃ j, run E n (.hpSerialize r kw) w = (.ok j, w) := by
  obtain ⟨x, hx, hq⟩ := hpSerialize_res (L := True) (F := FineWorld E kw.includeClass w)
    (fun _ => trivial) hs ht id _ w
    (sameCore_refl w) (idleGs_le w) n (fun _ => hn) r
  cases x with
  | ok j => exact ⟨j, hx⟩
  | error e =>
    obtain ⟨_, s, rfl, t, hst, h⟩ := hq.2 ⟨hf, o, ho⟩
    rcases h with h | h
    · exact absurd h (not_marked hu t)
    · exact absurd h (hr t hst)

/-! ## An example: a tree node whose list of children leads back to it -/

/-- `class Node(HasProperties): kids = List('', Instance('', Node))`. -/
def c23Env : Env :=
  { demoEnv with classes := fun _ => { (default : ClassDef) with
      name := s% "Node"
      props := [(s% "kids", .mutable (.mk false none none .undef
        (.seq .list (.mk true none none .undef (.inst 0)) none none false)))] } }

/-- Node 0 has child 1, node 1 has children 2 and 0, node 2 has none. -/
def c23World : World :=
  { objs := [
      { cls := 0, backend := [(s% "kids", .list [.obj 1])] },
      { cls := 0, backend := [(s% "kids", .list [.obj 2, .obj 0])] },
      { cls := 0, backend := [] }] }

theorem c23_tame : TameWorld c23Env 2 c23World := by
  intro r o ho
  match r, ho with
  | 0, ho =>
    cases ho
    refine ⟨by decide, fun nm v h => ?_⟩
    simp only [List.mem_singleton, Prod.mk.injEq] at h
    obtain ⟨rfl, rfl⟩ := h
    refine ⟨_, _, rfl, .inl rfl, ?_, by simp [depth, depthTy]⟩
    simp [Tame, TameTy]
  | 1, ho =>
    cases ho
    refine ⟨by decide, fun nm v h => ?_⟩
    simp only [List.mem_singleton, Prod.mk.injEq] at h
    obtain ⟨rfl, rfl⟩ := h
    refine ⟨_, _, rfl, .inl rfl, ?_, by simp [depth, depthTy]⟩
    simp [Tame, TameTy]
  | 2, ho => cases ho; exact ⟨by decide, fun nm v h => by cases h⟩
  | n + 3, ho => cases ho

theorem c23_fine (ic : Bool) : FineWorld c23Env ic c23World := by
  intro r o ho nm v h e p hl hown
  have hl0 : ∀ nm, lookupS nm (c23Env.classes o.cls).props = some e → e = .mutable (.mk false none none .undef
        (.seq .list (.mk true none none .undef (.inst 0)) none none false)) := by
    intro nm h
    have h : (if s% "kids" = nm then some (Entry.mutable (.mk false none none .undef
        (.seq .list (.mk true none none .undef (.inst 0)) none none false))) else none) = some e := h
    split at h <;> cases h
    rfl
  rw [hl0 nm hl] at hown
  have hp := hown.resolve_right (by simp)
  cases hp
  match r, ho with
  | 0, ho =>
    cases ho
    simp only [List.mem_singleton, Prod.mk.injEq] at h
    obtain ⟨rfl, rfl⟩ := h
    exact .seq _ _ _ _ _ _ _ _ _ rfl rfl rfl fun x hx => by
      simp at hx; subst hx; exact .inst _ _ _ 1 _ rfl rfl rfl
  | 1, ho =>
    cases ho
    simp only [List.mem_singleton, Prod.mk.injEq] at h
    obtain ⟨rfl, rfl⟩ := h
    exact .seq _ _ _ _ _ _ _ _ _ rfl rfl rfl fun x hx => by
      simp at hx
      rcases hx with rfl | rfl
      · exact .inst _ _ _ 2 _ rfl rfl rfl
      · exact .inst _ _ _ 0 _ rfl rfl rfl
  | 2, ho => cases ho; cases h
  | n + 3, ho => cases ho

theorem c23_cyclic : OnCycle c23Env c23World 0 := by
  refine ⟨1, ⟨_, s% "kids", _, _, _, rfl, List.mem_singleton.2 rfl, rfl, .inl rfl, ?_⟩,
    .step 1 0 0 ⟨_, s% "kids", _, _, _, rfl, List.mem_singleton.2 rfl, rfl, .inl rfl, ?_⟩ (.refl 0)⟩
  · exact .item _ _ _ _ _ _ _ _ (.obj 1) _ 1 rfl rfl rfl (by simp) (.inst _ _ 0 1 rfl rfl)
  · exact .item _ _ _ _ _ _ _ _ (.obj 0) _ 0 rfl rfl rfl (by simp) (.inst _ _ 0 0 rfl rfl)

/-- The example meets the hypotheses, and node 2 alone is serialized. -/
theorem C23_example :
    (∃ e, run c23Env 13 (.hpSerialize 0 {}) c23World = (.error e, c23World) ∧ e.kind = .selfRef) ∧
    (∃ e, run c23Env 13 (.hpSerialize 1 {}) c23World = (.error e, c23World) ∧ e.kind = .selfRef) ∧
    (run c23Env 13 (.hpSerialize 2 {}) c23World).1 =
      .ok (.dict [(.str (s% "__class__"), .str (s% "Node"))]) := by
  have h1 : Reaches c23Env c23World 1 0 :=
    .step 1 0 0 ⟨_, s% "kids", _, _, _, rfl, List.mem_singleton.2 rfl, rfl, .inl rfl,
      .item _ _ _ _ _ _ _ _ (.obj 0) _ 0 rfl rfl rfl (by simp) (.inst _ _ 0 0 rfl rfl)⟩ (.refl 0)
  refine ⟨?_, ?_, by with_unfolding_all rfl⟩
  · obtain ⟨e, h1, _, h2⟩ := C23_cycle (kw := {}) rfl c23_tame (n := 13) (by decide) (.refl 0) c23_cyclic
    exact ⟨e, h1, h2 (c23_fine _)⟩
  · obtain ⟨e, h1, _, h2⟩ := C23_cycle (kw := {}) rfl c23_tame (n := 13) (by decide) h1 c23_cyclic
    exact ⟨e, h1, h2 (c23_fine _)⟩

end Verif
