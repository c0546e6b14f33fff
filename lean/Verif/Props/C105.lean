import Verif.Lemmas.QuietVal
import Verif.Lemmas.Serialize
import Verif.Props.C104

/-!
# C105: constructing with keywords is constructing and then assigning
-/

namespace Verif
open Spec Spec.Exc

variable {E : Env}

/-- A ValidationError of a validation tells what failed. -/
theorem pval_telling {c : Nat → Option ClsId} {x : Ctx} : ∀ (d : Nat) {p : PropSpec}, depth p ≤ d →
    ∀ v e, pval E c x p v = .error e → e.kind = .validation → e.tuples ≠ []
  | 0, p, h, _, _, _ => by rw [depth_eq] at h; omega
  | d + 1, p, h, v, e, he => by
    have ih := fun {q : PropSpec} => pval_telling (c := c) (x := x) d (p := q)
    have hwrap : ∀ {q : PropSpec} {y : Val}, depth q ≤ d → wrapE x (pval E c x q y) = .error e →
        e.kind = .validation → e.tuples ≠ [] := by
      intro q y hq hw hk
      cases hp : pval E c x q y with
      | ok a => rw [hp] at hw; cases hw
      | error e' =>
        rw [hp] at hw
        unfold wrapE at hw
        split at hw
        · cases hw
        · rename_i heq
          cases heq
          split at hw
          · cases hw; simp [verr]
          · cases hw; exact ih hq y e hp hk
    rw [depth_eq] at h
    obtain ⟨rq, s, er, df, ty⟩ := p
    simp only [PropSpec.ty] at h
    unfold pval at he
    have bindErr : ∀ {α β : Type} {r : Except PyErr α} {f : α → Except PyErr β}, bindE r f = .error e →
        r = .error e ∨ ∃ a, f a = .error e := by
      intro α β r f h
      cases r with
      | error e' => exact .inl (by cases h; rfl)
      | ok a => exact .inr ⟨a, h⟩
    cases ty with
    | seq k item lo hi co =>
      unfold depthTy at h
      simp only [pvalTy] at he
      split at he
      · cases he; simp [verr]
      · rcases bindErr he with he | ⟨ys, he⟩
        · obtain ⟨y, _, hy⟩ := mapE_error he
          exact hwrap (by omega) hy
        · unfold mkSeqE at he
          split at he
          · cases he
          · cases he
          · split at he
            · cases he
            · cases he; exact fun h => nomatch h
    | dict kp vp co =>
      unfold depthTy at h
      simp only [pvalTy] at he
      split at he
      · cases he; simp [verr]
      · rcases bindErr he with he | ⟨ys, he⟩
        · obtain ⟨kv, _, b', hy⟩ := foldE_error he
          unfold pairE at hy
          rcases bindErr hy with hy | ⟨key, hy⟩
          · exact hwrap (by omega) hy
          · rcases bindErr hy with hy | ⟨val, hy⟩
            · exact hwrap (by omega) hy
            · split at hy
              · cases hy
              · cases hy; exact fun h => nomatch h
        · cases he
    | inst c =>
      simp only [pvalTy] at he
      split at he
      · split at he
        · cases he; exact fun h => nomatch h
        · split at he
          · cases he
          · cases he; simp [verr]
      · cases he; simp [verr]
    | union ps st =>
      unfold depthTy at h
      simp only [pvalTy] at he
      have key : ∀ qs : List PropSpec, (∀ q ∈ qs, q ∈ ps) → pvalAll E c x qs v = .error e →
          e.kind = .validation → e.tuples ≠ [] := by
        intro qs
        induction qs with
        | nil => intro _ h1; unfold pvalAll at h1; cases h1; simp [verr]
        | cons q qs ihq =>
          intro hq h1
          have hm := hq q (by simp)
          unfold pvalAll at h1
          split at h1
          · cases h1
          · rename_i e' hy
            split at h1
            · exact ihq (fun z hz => hq z (by simp [hz])) h1
            · cases h1
              exact ih (by have := depthAll_le hm; omega) v e hy
      exact key ps (fun _ h => h) he
    | _ =>
      simp only [pvalTy] at he
      revert he
      generalize hr : scalarValidate E 0 _ v = r
      intro he
      cases r with
      | none => cases he; exact fun h => nomatch h
      | some r =>
        cases r with
        | ok a => cases he
        | error e' =>
          cases e' with
          | raw k => cases he; rw [scalar_raw hr]; exact fun h => nomatch h
          | invalid n => cases he; simp [verr]

/-- One assignment to an instance that is not under construction. -/
theorem setattr_quiet {j r : Nat} {c : ClsId} {k : PyStr} {p : PropSpec} {v : Val} {w : World} {o : Obj}
    (ho : w.objs[r]? = some o) (hc : o.cls = c) (hh : (E.classes c).hook = none)
    (hl : ∀ l ∈ o.listeners, l.name ≠ k)
    (hp : lookupS k (E.classes c).props = some (.mutable p)) (hv : v ≠ .undef) (hs : Still p v)
    (hd : depth p ≤ j) (hi : ¬ Visits p) :
    ∃ hs, run E (j + 1) (.setattr r k v) w =
      ((asgOut E j (clsAt w) r k p v ((lookupS k o.backend).getD .undef)).1,
        { w.setObj r (fun q => { q with backend := (putOut k
          (asgOut E j (clsAt w) r k p v ((lookupS k o.backend).getD .undef)).2 q.backend) }) with hooks := hs }) := by
  subst hc
  have hu : v.isUndef = false := by cases v <;> first | rfl | exact absurd rfl hv
  have e0 : run E (j + 1) (.setattr r k v) w = assignBody E (run E j) r k p v w :=
    setattr_assign (rec := run E j) ho v hp
  obtain ⟨h2, a2⟩ := run_quiet (E := E) (nm := k) (inst := some r) (w := w) hd hs
    (fun r' hr => by cases hr; exact ⟨o, ho, hh⟩)
  refine ⟨h2, ?_⟩
  rw [e0]
  unfold assignBody asgOut
  simp only [hu, Bool.false_eq_true, if_false]
  cases hx : pval E (clsAt w) ⟨k, some r⟩ p v with
  | error e =>
    rw [hx] at a2
    rw [bind_err a2, setObj_id ho rfl]
  | ok v1 =>
    rw [hx] at a2
    rw [bind_ok a2]
    obtain ⟨y, hy, hout⟩ := setBody_outcome (E := E) (j := j) (v := v1) (w := { w with hooks := h2 }) ho hl hi
    have hcl : clsAt { w with hooks := h2 } = clsAt w := rfl
    rcases hout with ⟨rfl, hor | ⟨t, ht⟩⟩ | ⟨e, prev, rfl, hpr, hor, he⟩
    · rw [bind_ok hy]
      simp only [hor, if_true]
      rfl
    · rw [bind_ok hy]
      simp only [ht, ite_self]
      rfl
    · rw [bind_err hy]
      simp only [hpr, Option.getD_some, hor, Bool.false_eq_true, if_false, he]
      rfl

/-- The assignments of the keywords after the construction. -/
theorem assignEach_out {j r : Nat} {c : ClsId} (hh : (E.classes c).hook = none) :
    ∀ {kw : List (PyStr × Val)} {w : World} {o : Obj}, PlainKeywords E j c kw →
    w.objs[r]? = some o → o.cls = c → (∀ l ∈ o.listeners, ∀ kv ∈ kw, l.name ≠ kv.1) →
    ∀ out, (∀ kv ∈ kw, kwOut E j (clsAt w) r c (fun k => lookupS k o.backend) kv = out kv) →
    ∃ hs, assignEach E (j + 1) r kw w = (kw.map (fun kv => (out kv).1),
      { w.setObj r (fun q => { q with backend := putAll out kw q.backend }) with hooks := hs }) := by
  intro kw
  induction kw with
  | nil =>
    intro w o _ ho _ _ out _
    exact ⟨w.hooks, by rw [setObj_id ho rfl]; rfl⟩
  | cons kv kw ih =>
    intro w o hk ho hc hl out hout
    obtain ⟨hv, p, hp, hs, hd, hi⟩ := hk.plain kv (by simp)
    obtain ⟨h1, hrun⟩ := setattr_quiet (E := E) ho hc hh (fun l h => hl l h kv (by simp)) hp hv hs hd hi
    have h0 : asgOut E j (clsAt w) r kv.1 p kv.2 ((lookupS kv.1 o.backend).getD .undef) = out kv := by
      rw [← hout kv (by simp)]; unfold kwOut; rw [hp]
    rw [h0] at hrun
    have hnd := (List.nodup_cons.1 hk.nodup).1
    have hne : ∀ kv' ∈ kw, kv'.1 ≠ kv.1 := fun kv' h' he => hnd (by
      rw [← he]; exact List.mem_map_of_mem h')
    generalize hw1 : ({ w.setObj r (fun q => { q with backend := putOut kv.1 (out kv).2 q.backend }) with
      hooks := h1 } : World) = w1 at hrun
    have ho1 : w1.objs[r]? = some { o with backend := putOut kv.1 (out kv).2 o.backend } := by
      rw [← hw1]; simp [World.setObj, ho]
    have hcl : clsAt w1 = clsAt w := by
      rw [← hw1]
      exact clsAt_setObj (f := fun q => { q with backend := putOut kv.1 (out kv).2 q.backend }) (fun _ => rfl)
    obtain ⟨h2, i2⟩ := ih hk.tail ho1 hc (fun l h kv' h' => hl l h kv' (by simp [h'])) out (by
      intro kv' h'
      rw [← hout kv' (by simp [h']), hcl]
      exact kwOut_congr (lookup_putOut_ne (hne kv' h') _ _))
    refine ⟨h2, ?_⟩
    simp only [assignEach, hrun, i2, List.map_cons, Prod.mk.injEq, true_and]
    rw [← hw1]
    have : ∀ (a : World) (f : Obj → Obj) (h h' : List (Nat × List ErrTuple)),
        ({ ({ a with hooks := h } : World).setObj r f with hooks := h' } : World) = { a.setObj r f with hooks := h' } :=
      fun _ _ _ _ => rfl
    rw [this, setObj_setObj]
    rfl

/-- C105: take keywords that name distinct properties without listeners, which
hold no instances.  Constructing with them and constructing without them and
then assigning them come to the same.  If every assignment returns, so does the
constructor, and the instances are the same; if the constructor returns, so do
the assignments; if it raises a ValidationError, this reports what the
ValidationErrors of the assignments report. -/
theorem C105_assign (hE : ∀ f args, Indirect (E.fn f args)) {j : Nat} {c : ClsId}
    (hh : (E.classes c).hook = none) {w w0 : World} {v0 : Val}
    (h0 : run E (j + 2) (.construct c []) w = (.ok v0, w0)) {kw : List (PyStr × Val)}
    (hk : PlainKeywords E j c kw)
    (hl : ∀ o, w0.objs[w.objs.length]? = some o → ∀ l ∈ o.listeners, ∀ kv ∈ kw, l.name ≠ kv.1) :
    v0 = .obj w.objs.length ∧
    ((∃ x w1, run E (j + 2) (.construct c kw) w = (.ok x, w1)) ↔
      ∀ x ∈ (assignEach E (j + 1) w.objs.length kw w0).1, ∃ y, x = .ok y) ∧
    (∀ x w1, run E (j + 2) (.construct c kw) w = (.ok x, w1) → x = v0 ∧
      ∃ hs, w1 = { (assignEach E (j + 1) w.objs.length kw w0).2 with hooks := hs }) ∧
    (∀ e w1, run E (j + 2) (.construct c kw) w = (.error e, w1) → e.kind = .validation →
      e.tuples = (assignEach E (j + 1) w.objs.length kw w0).1.flatMap tuplesOf) := by
  obtain ⟨hv0, ⟨o, ho, hc, _⟩, _⟩ := construct_keywords h0 kw hk.cls hk.self
  have A := (construct_out hE hh h0 ho hk (hl o ho) (fun _ => rfl)).2
  have hnil : PlainKeywords E j c [] :=
    ⟨List.nodup_nil, fun _ h => (nomatch h), fun _ h => (nomatch h), fun _ h => (nomatch h)⟩
  have B := (construct_out hE hh h0 ho hnil (fun _ _ _ h => (nomatch h)) (fun _ => rfl)).2
  obtain ⟨hs, hass⟩ := assignEach_out hh hk ho hc (hl o ho) _ (fun _ _ => rfl)
  generalize hout : kwOut E j (clsAt w0) w.objs.length c (fun k => lookupS k o.backend) = out at A B hass
  have tell : ∀ kv ∈ kw, ∀ e, (out kv).1 = .error e → e.kind = .validation → e.tuples ≠ [] := by
    intro kv hm e he hkind
    obtain ⟨hv, p, hp, hst, hd, hi⟩ := hk.plain kv hm
    rw [← hout] at he
    unfold kwOut at he
    rw [hp] at he
    simp only [asgOut] at he
    cases hx : pval E (clsAt w0) ⟨kv.1, some w.objs.length⟩ p kv.2 with
    | error e' => rw [hx] at he; cases he; exact pval_telling _ (Nat.le_refl _) _ _ hx hkind
    | ok v1 =>
      rw [hx] at he
      dsimp only at he
      split at he
      · cases he
      · split at he
        · cases he
        · rename_i e' hr
          cases he
          rcases run_differs j p hi _ _ _ _ hr with h | ⟨h, _⟩ | ⟨h, _⟩ <;> rw [h] at hkind <;> cases hkind
  have quiet : (∀ kv ∈ kw, ∀ e, (out kv).1 = .error e → e.kind = .validation) →
      kw.flatMap (fun kv => tuplesOf (out kv).1) = [] → ∀ kv ∈ kw, ∃ y, (out kv).1 = .ok y := by
    intro hall hf kv hm
    cases hx : (out kv).1 with
    | ok y => exact ⟨y, rfl⟩
    | error e =>
      have h1 := List.flatMap_eq_nil_iff.1 hf kv hm
      rw [hx] at h1
      simp only [tuplesOf, hall kv hm e hx, if_true] at h1
      exact absurd h1 (tell kv hm e hx (hall kv hm e hx))
  have iff1 : (∀ x ∈ (assignEach E (j + 1) w.objs.length kw w0).1, ∃ y, x = .ok y) ↔
      ∀ kv ∈ kw, ∃ y, (out kv).1 = .ok y := by
    rw [hass]
    simp only [List.mem_map, forall_exists_index, and_imp, forall_apply_eq_imp_iff₂]
  have hfm : (assignEach E (j + 1) w.objs.length kw w0).1.flatMap tuplesOf =
      kw.flatMap (fun kv => tuplesOf (out kv).1) := by rw [hass, List.flatMap_map]
  refine ⟨hv0, ?_⟩
  rw [iff1, hfm]
  rcases A with ⟨kv, hm, e, w1, a1, a2, a3⟩ | ⟨ag, ⟨af, w1, a3⟩ | ⟨af, ⟨⟨kv, hm, e, a1, a2⟩, e1, w1, a4, a3⟩ | ⟨a1, a3⟩⟩⟩
  · rw [a3]
    refine ⟨⟨fun ⟨_, _, h⟩ => (by cases h), fun h => ?_⟩, fun _ _ h => (by cases h), fun e' w' h hkd => ?_⟩
    · obtain ⟨y, hy⟩ := h kv hm; rw [a1] at hy; cases hy
    · cases h; rw [hkd] at a2; cases a2
  · rw [a3]
    refine ⟨⟨fun ⟨_, _, h⟩ => (by cases h), fun h => ?_⟩, fun _ _ h => (by cases h), fun e' w' h hkd => ?_⟩
    · refine absurd (List.flatMap_eq_nil_iff.2 fun kv hm => ?_) af
      obtain ⟨y, hy⟩ := h kv hm
      rw [hy]; rfl
    · cases h; rfl
  · rw [a3]
    refine ⟨⟨fun ⟨_, _, h⟩ => (by cases h), fun h => ?_⟩, fun _ _ h => (by cases h), fun e' w' h hkd => ?_⟩
    · obtain ⟨y, hy⟩ := h kv hm; rw [a1] at hy; cases hy
    · cases h; exact absurd hkd a4
  · rw [a3]
    refine ⟨⟨fun _ => quiet a1 af, fun _ => ⟨_, _, rfl⟩⟩, fun x w1 h => ?_, fun e' w' h hkd => (by cases h)⟩
    cases h
    refine ⟨hv0.symm, w0.hooks, ?_⟩
    rw [hass]
    have hb : w0 = w0.setObj w.objs.length (fun q => { q with gv := some false, errs := none }) := by
      rcases B with ⟨_, hm, _⟩ | ⟨_, ⟨hf, _⟩ | ⟨_, ⟨⟨_, hm, _⟩, _⟩ | ⟨_, b3⟩⟩⟩
      · cases hm
      · exact absurd rfl hf
      · cases hm
      · rw [h0] at b3
        exact (Prod.mk.inj b3).2
    have : ∀ (a : World) (f : Obj → Obj) (h h' : List (Nat × List ErrTuple)),
        ({ ({ a with hooks := h } : World) with hooks := h' } : World) = { a with hooks := h' } :=
      fun _ _ _ _ => rfl
    have ob : o.gv = some false ∧ o.errs = none := by
      rw [hb] at ho
      simp only [World.setObj, List.getElem?_modify, if_true, Option.map_eq_map] at ho
      obtain ⟨o', _, rfl⟩ := Option.map_eq_some_iff.1 ho
      exact ⟨rfl, rfl⟩
    unfold World.setObj
    simp only [World.mk.injEq, and_true]
    apply List.ext_getElem?
    intro i
    simp only [List.getElem?_modify]
    by_cases hi : w.objs.length = i
    · subst hi; simp [ho, ob.1, ob.2]
    · simp [hi]

/-- The hypotheses hold for the class of C103; here one keyword is refused, and
both ways report it. -/
theorem C105_example : PlainKeywords ordEnv 6 0 [(s% "a", .int 3), (s% "b", .str (s% "x"))] ∧
    (run ordEnv 8 (.construct 0 []) {}).1 = .ok (.obj 0) ∧
    (run ordEnv 8 (.construct 0 []) {}).2.objs.map Obj.listeners = [[]] ∧
    (run ordEnv 8 (.construct 0 [(s% "a", .int 3), (s% "b", .str (s% "x"))]) {}).1 =
      .error ⟨.validation, [⟨some (s% "invalid"), some (s% "b"), some 0⟩]⟩ ∧
    (assignEach ordEnv 7 0 [(s% "a", .int 3), (s% "b", .str (s% "x"))]
      (run ordEnv 8 (.construct 0 []) {}).2).1 =
      [.ok .none, .error ⟨.validation, [⟨some (s% "invalid"), some (s% "b"), some 0⟩]⟩] ∧
    (assignEach ordEnv 7 0 ordKw (run ordEnv 8 (.construct 0 []) {}).2).2.objs.map Obj.backend =
      [[(s% "a", .int 3), (s% "b", .float (.fin 4))]] := by
  refine ⟨⟨by decide, by decide, by decide, ?_⟩, ?_, ?_, ?_, ?_, ?_⟩
  · intro kv hm
    simp only [List.mem_cons, List.not_mem_nil, or_false] at hm
    rcases hm with rfl | rfl
    · exact ⟨nofun, ordA, rfl, trivial, by decide, by rintro (h | ⟨h, _⟩ | ⟨h, _⟩ | ⟨h, _, _⟩) <;> cases h⟩
    · exact ⟨nofun, ordB, rfl, trivial, by decide, by rintro (h | ⟨h, _⟩ | ⟨h, _⟩ | ⟨h, _, _⟩) <;> cases h⟩
  · with_unfolding_all rfl
  · with_unfolding_all rfl
  · with_unfolding_all rfl
  · with_unfolding_all rfl
  · with_unfolding_all rfl

end Verif
