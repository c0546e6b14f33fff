import Verif.Spec.Dynamic
import Verif.Lemmas.Monad
import Verif.Lemmas.Access
import Verif.Lemmas.Notify
import Verif.Models.Demo

/-!
# C78: registrations of dynamic properties

Which getter, setter, deleter and property a dynamic property uses after any sequence
of registrations, accepted or refused, mixed with uses of its instances.
-/

namespace Verif.Dynamic
open Verif.Dynamic.Spec

theorem wrongArity_iff (f : Func) (n : Nat) : f.wrongArity n = false ↔ ∀ k, f.argcount = some k → k = n := by
  unfold Func.wrongArity
  cases f.argcount with
  | none => simp
  | some k => simp

theorem checkName_ok (f : Func) (s : PyStr) : checkName f s = .ok () ↔ f.name = some s := by
  unfold checkName
  cases f.name with
  | none => simp
  | some t => by_cases h : t = s <;> simp [h]

/-- What a registration that is allowed does. -/
def effect : Op → Dyn → Dyn
  | .getter f, d => { d with func := f }
  | .prop (some p), d => { d with prop := p }
  | .prop none, d => d
  | .setter f, d => { d with setFunc := some f }
  | .deleter f, d => { d with delFunc := some f }
  | .named s, d => { d with name := s }

theorem register_allowed {o : Op} {d : Dyn} (h : Allowed d.name o) : register o d = .ok (effect o d) := by
  cases o with
  | getter f =>
    obtain ⟨h1, h2⟩ := h
    show setGetter f d = _
    unfold setGetter
    rw [h1, (wrongArity_iff f 1).2 h2]
    rfl
  | prop o =>
    obtain ⟨p, rfl, h2⟩ := h
    show setProp (some p) d = _
    unfold setProp
    dsimp only
    rw [h2]
    rfl
  | setter f =>
    obtain ⟨⟨h1, h2⟩, h3⟩ := h
    show Dynamic.setter f d = _
    unfold Dynamic.setter
    rw [h1, (wrongArity_iff f 2).2 h2, (checkName_ok f d.name).2 h3]
    rfl
  | deleter f =>
    obtain ⟨⟨h1, h2⟩, h3⟩ := h
    show Dynamic.deleter f d = _
    unfold Dynamic.deleter
    rw [h1, (wrongArity_iff f 1).2 h2, (checkName_ok f d.name).2 h3]
    rfl
  | named s => rfl

theorem register_refused {o : Op} {d : Dyn} (h : ¬ Allowed d.name o) : ∃ e, register o d = .error e := by
  have key : ∀ (f : Func) (k : Nat), ¬ (Takes k f ∧ f.name = some d.name) →
      f.callable = false ∨ f.wrongArity k = true ∨ ∃ e, checkName f d.name = .error e := by
    intro f k hf
    cases hc : f.callable with
    | false => exact .inl rfl
    | true =>
      cases hw : f.wrongArity k with
      | true => exact .inr (.inl rfl)
      | false =>
        refine .inr (.inr ?_)
        cases hn : checkName f d.name with
        | error e => exact ⟨e, rfl⟩
        | ok u => exact (hf ⟨⟨hc, (wrongArity_iff f k).1 hw⟩, (checkName_ok f d.name).1 hn⟩).elim
  cases o with
  | getter f =>
    show ∃ e, setGetter f d = .error e
    unfold setGetter
    cases hc : f.callable with
    | false => exact ⟨_, rfl⟩
    | true =>
      cases hw : f.wrongArity 1 with
      | true => exact ⟨_, rfl⟩
      | false => exact (h ⟨hc, (wrongArity_iff f 1).1 hw⟩).elim
  | prop o =>
    show ∃ e, setProp o d = .error e
    unfold setProp
    cases o with
    | none => exact ⟨_, rfl⟩
    | some p =>
      dsimp only
      cases hd : p.default with
      | undef => exact (h ⟨p, rfl, hd⟩).elim
      | _ => exact ⟨_, rfl⟩
  | setter f =>
    show ∃ e, Dynamic.setter f d = .error e
    unfold Dynamic.setter
    rcases key f 2 h with h1 | h1 | ⟨e, h1⟩
    · rw [h1]; exact ⟨_, rfl⟩
    · rw [h1]; cases f.callable <;> exact ⟨_, rfl⟩
    · rw [h1]; cases f.callable <;> cases f.wrongArity 2 <;> exact ⟨_, rfl⟩
  | deleter f =>
    show ∃ e, Dynamic.deleter f d = .error e
    unfold Dynamic.deleter
    rcases key f 1 h with h1 | h1 | ⟨e, h1⟩
    · rw [h1]; exact ⟨_, rfl⟩
    · rw [h1]; cases f.callable <;> exact ⟨_, rfl⟩
    · rw [h1]; cases f.callable <;> cases f.wrongArity 1 <;> exact ⟨_, rfl⟩
  | named s => exact (h trivial).elim

/-- C78: a registration succeeds exactly if the object may be registered; a refused one
changes nothing. -/
theorem C78_register (o : Op) (d : Dyn) :
    ((∃ d', register o d = .ok d') ↔ Allowed d.name o) ∧ (¬ Allowed d.name o → attempt o d = d) := by
  refine ⟨⟨fun ⟨d', h⟩ => ?_, fun h => ⟨_, register_allowed h⟩⟩, fun h => ?_⟩
  · refine Classical.byContradiction fun hn => ?_
    obtain ⟨e, he⟩ := register_refused hn
    rw [h] at he
    cases he
  · obtain ⟨e, he⟩ := register_refused h
    unfold attempt
    rw [he]

/-- C78: decorating succeeds exactly with a property without default and a function of
one argument that has a name; the new property has that name, getter and property, and
neither setter nor deleter. -/
theorem C78_decorate (o : Offer) (f : Func) :
    ((∃ d, decorate o f = .ok d) ↔ NoDefault o ∧ Takes 1 f ∧ f.name ≠ none) ∧
    ∀ d, decorate o f = .ok d →
      d.func = f ∧ o = some d.prop ∧ f.name = some d.name ∧ d.setFunc = none ∧ d.delFunc = none := by
  have good : NoDefault o → Takes 1 f → ∀ s, f.name = some s →
      ∃ p, o = some p ∧ decorate o f = .ok { func := f, prop := p, name := s } := by
    rintro ⟨p, rfl, hp⟩ ht s hs
    refine ⟨p, rfl, ?_⟩
    unfold decorate
    rw [show setGetter f { func := f, prop := default, name := [] } = _ from register_allowed (o := .getter f) ht]
    show (setProp (some p) _ >>= fun d => _) = _
    rw [show setProp (some p) _ = _ from register_allowed (o := .prop (some p)) ⟨p, rfl, hp⟩, hs]
    rfl
  have back : ∀ d, decorate o f = .ok d → NoDefault o ∧ Takes 1 f ∧ f.name ≠ none := by
    intro d h
    by_cases ht : Takes 1 f
    · by_cases ho : NoDefault o
      · refine ⟨ho, ht, fun hn => ?_⟩
        obtain ⟨p, rfl, hp⟩ := ho
        unfold decorate at h
        rw [show setGetter f { func := f, prop := default, name := [] } = _ from register_allowed (o := .getter f) ht] at h
        replace h : (setProp (some p) _ >>= fun d => _) = _ := h
        rw [show setProp (some p) _ = _ from register_allowed (o := .prop (some p)) ⟨p, rfl, hp⟩, hn] at h
        cases h
      · unfold decorate at h
        rw [show setGetter f { func := f, prop := default, name := [] } = _ from register_allowed (o := .getter f) ht] at h
        replace h : (setProp o _ >>= fun d => _) = _ := h
        obtain ⟨e, he⟩ := register_refused (o := .prop o) (d := effect (.getter f) { func := f, prop := default, name := [] }) ho
        rw [show setProp o _ = _ from he] at h
        cases h
    · obtain ⟨e, he⟩ := register_refused (o := .getter f) (d := { func := f, prop := default, name := [] }) ht
      unfold decorate at h
      rw [show setGetter f _ = _ from he] at h
      cases h
  refine ⟨⟨fun ⟨d, h⟩ => back d h, fun ⟨h1, h2, h3⟩ => ?_⟩, fun d h => ?_⟩
  · cases hs : f.name with
    | none => exact (h3 hs).elim
    | some s => obtain ⟨p, _, h⟩ := good h1 h2 s hs; exact ⟨_, h⟩
  · obtain ⟨h1, h2, h3⟩ := back d h
    cases hs : f.name with
    | none => exact (h3 hs).elim
    | some s =>
      obtain ⟨p, ho, h'⟩ := good h1 h2 s hs
      rw [h'] at h
      cases h
      exact ⟨rfl, ho, rfl, rfl, rfl⟩

/-! ## Sequences -/

theorem nameAfter_cons (s : PyStr) (o : Op) (ops : List Op) :
    nameAfter s (o :: ops) = nameAfter (nameAfter s [o]) ops := by
  cases o <;> simp [nameAfter, List.getLast?_cons]

theorem attempt_name (o : Op) (d : Dyn) : (attempt o d).name = nameAfter d.name [o] := by
  by_cases h : Allowed d.name o
  · unfold attempt
    rw [register_allowed h]
    cases o with
    | prop o => cases o <;> rfl
    | _ => rfl
  · rw [(C78_register o d).2 h]
    cases o with
    | named s => exact (h trivial).elim
    | _ => rfl

theorem registerAll_append (a b : List Op) (d : Dyn) : registerAll (a ++ b) d = registerAll b (registerAll a d) := by
  induction a generalizing d with
  | nil => rfl
  | cons o a ih => exact ih (attempt o d)

theorem registerAll_name (ops : List Op) (d : Dyn) : (registerAll ops d).name = nameAfter d.name ops := by
  induction ops generalizing d with
  | nil => rfl
  | cons o ops ih => rw [nameAfter_cons, ← attempt_name]; exact ih _

/-- A part of the property which only the registrations picked by `pick` change. -/
structure Part {α : Type} (pick : Pick α) (field : Dyn → Option α) : Prop where
  hit : ∀ o d x, pick o = some x → Allowed d.name o → field (attempt o d) = some x
  miss : ∀ o d, pick o = none → field (attempt o d) = field d

section
variable {α : Type} {pick : Pick α} {field : Dyn → Option α}

theorem Part.none (hp : Part pick field) {ops : List Op} {d : Dyn} (h : NoneAllowed pick d.name ops) :
    field (registerAll ops d) = field d := by
  induction ops generalizing d with
  | nil => rfl
  | cons o ops ih =>
    have h1 : field (attempt o d) = field d := by
      cases hk : pick o with
      | none => exact hp.miss o d hk
      | some x => rw [(C78_register o d).2 (h [] o ops rfl (by rw [hk]; rfl))]
    rw [← h1]
    refine ih (d := attempt o d) fun before o' after he hs => ?_
    have := h (o :: before) o' after (by rw [he]; rfl) hs
    rw [attempt_name]
    rwa [nameAfter_cons] at this

theorem Part.last (hp : Part pick field) {ops : List Op} {d : Dyn} {x : α} (h : LastAllowed pick d.name ops x) :
    field (registerAll ops d) = some x := by
  obtain ⟨before, o, after, rfl, hx, ha, hn⟩ := h
  rw [registerAll_append]
  show field (registerAll after (attempt o (registerAll before d))) = _
  rw [hp.none]
  · exact hp.hit o _ x hx (by rw [registerAll_name]; exact ha)
  · have : (attempt o (registerAll before d)).name = nameAfter d.name (before ++ [o]) := by
      rw [← registerAll_name, registerAll_append]
      rfl
    rw [this]
    exact hn

/-- There is a last one, or none. -/
theorem last_or_none (pick : Pick α) (s : PyStr) (ops : List Op) :
    (∃ x, LastAllowed pick s ops x) ∨ NoneAllowed pick s ops := by
  induction ops generalizing s with
  | nil => exact .inr fun before o after h => by cases before <;> cases h
  | cons o ops ih =>
    rcases ih (nameAfter s [o]) with ⟨x, b, o', a, he, hx, ha, hn⟩ | h
    · refine .inl ⟨x, o :: b, o', a, by rw [he]; rfl, hx, by rw [nameAfter_cons]; exact ha, ?_⟩
      rw [List.cons_append, nameAfter_cons]
      exact hn
    · by_cases hk : (pick o).isSome ∧ Allowed s o
      · obtain ⟨hk1, hk2⟩ := hk
        obtain ⟨x, hx⟩ := Option.isSome_iff_exists.1 hk1
        exact .inl ⟨x, [], o, ops, rfl, hx, hk2, h⟩
      · refine .inr fun before o' after he hs ha => ?_
        cases before with
        | nil => cases he; exact hk ⟨hs, ha⟩
        | cons o'' before =>
          cases he
          rw [nameAfter_cons] at ha
          exact h before o' after rfl hs ha

end

theorem part_getter : Part getters (fun d => some d.func) where
  hit o d x hx ha := by
    cases o <;> cases hx
    unfold attempt
    rw [register_allowed ha]
    rfl
  miss o d hn := by
    by_cases h : Allowed d.name o
    · unfold attempt
      rw [register_allowed h]
      cases o with
      | getter f => cases hn
      | prop o => cases o <;> rfl
      | _ => rfl
    · rw [(C78_register o d).2 h]

theorem part_prop : Part props (fun d => some (some d.prop)) where
  hit o d x hx ha := by
    cases o <;> cases hx
    obtain ⟨p, rfl, hp⟩ := id ha
    unfold attempt
    rw [register_allowed ha]
    rfl
  miss o d hn := by
    by_cases h : Allowed d.name o
    · unfold attempt
      rw [register_allowed h]
      cases o with
      | prop o => cases hn
      | _ => rfl
    · rw [(C78_register o d).2 h]

theorem part_setter : Part setters (fun d => d.setFunc) where
  hit o d x hx ha := by
    cases o <;> cases hx
    unfold attempt
    rw [register_allowed ha]
    rfl
  miss o d hn := by
    by_cases h : Allowed d.name o
    · unfold attempt
      rw [register_allowed h]
      cases o with
      | setter f => cases hn
      | prop o => cases o <;> rfl
      | _ => rfl
    · rw [(C78_register o d).2 h]

theorem part_deleter : Part deleters (fun d => d.delFunc) where
  hit o d x hx ha := by
    cases o <;> cases hx
    unfold attempt
    rw [register_allowed ha]
    rfl
  miss o d hn := by
    by_cases h : Allowed d.name o
    · unfold attempt
      rw [register_allowed h]
      cases o with
      | deleter f => cases hn
      | prop o => cases o <;> rfl
      | _ => rfl
    · rw [(C78_register o d).2 h]

/-- The getter `g`, property `p`, setter `s` and deleter `t` a dynamic property, first
declared as `d`, should be using: for each the last one allowed, otherwise that of `d`. -/
structure Spec.Current (d : Dyn) (ops : List Op) (g : Func) (p : PropSpec) (s t : Option Func) : Prop where
  getter : LastAllowed getters d.name ops g ∨ NoneAllowed getters d.name ops ∧ g = d.func
  prop : LastAllowed props d.name ops (some p) ∨ NoneAllowed props d.name ops ∧ p = d.prop
  setter : (∃ f, s = some f ∧ LastAllowed setters d.name ops f) ∨ NoneAllowed setters d.name ops ∧ s = d.setFunc
  deleter : (∃ f, t = some f ∧ LastAllowed deleters d.name ops f) ∨ NoneAllowed deleters d.name ops ∧ t = d.delFunc

theorem lastAllowed_prop {s : PyStr} {ops : List Op} {o : Offer} (h : LastAllowed props s ops o) : ∃ p, o = some p := by
  obtain ⟨_, op, _, _, hx, ha, _⟩ := h
  cases op <;> cases hx
  obtain ⟨p, rfl, _⟩ := ha
  exact ⟨p, rfl⟩

theorem current_iff {d : Dyn} {ops : List Op} {g : Func} {p : PropSpec} {s t : Option Func} (h : Current d ops g p s t) :
    registerAll ops d = { func := g, prop := p, name := nameAfter d.name ops, setFunc := s, delFunc := t } := by
  have h1 : (registerAll ops d).func = g := by
    rcases h.getter with hl | ⟨hn, rfl⟩
    · exact Option.some.inj (part_getter.last hl)
    · exact Option.some.inj (part_getter.none hn)
  have h2 : (registerAll ops d).prop = p := by
    rcases h.prop with hl | ⟨hn, rfl⟩
    · exact Option.some.inj (Option.some.inj (part_prop.last hl))
    · exact Option.some.inj (Option.some.inj (part_prop.none hn))
  have h3 : (registerAll ops d).setFunc = s := by
    rcases h.setter with ⟨f, rfl, hl⟩ | ⟨hn, rfl⟩
    · exact part_setter.last hl
    · exact part_setter.none hn
  have h4 : (registerAll ops d).delFunc = t := by
    rcases h.deleter with ⟨f, rfl, hl⟩ | ⟨hn, rfl⟩
    · exact part_deleter.last hl
    · exact part_deleter.none hn
  rw [← h1, ← h2, ← h3, ← h4, ← registerAll_name]

/-- C78: for every sequence of attempts there is exactly one getter, property, setter and
deleter to be used. -/
theorem C78_current (d : Dyn) (ops : List Op) : ∃ g p s t, Current d ops g p s t ∧
    ∀ g' p' s' t', Current d ops g' p' s' t' → g' = g ∧ p' = p ∧ s' = s ∧ t' = t := by
  have hg : ∃ g, LastAllowed getters d.name ops g ∨ NoneAllowed getters d.name ops ∧ g = d.func := by
    rcases last_or_none getters d.name ops with ⟨x, h⟩ | h
    · exact ⟨x, .inl h⟩
    · exact ⟨_, .inr ⟨h, rfl⟩⟩
  have hp : ∃ p, LastAllowed props d.name ops (some p) ∨ NoneAllowed props d.name ops ∧ p = d.prop := by
    rcases last_or_none props d.name ops with ⟨x, h⟩ | h
    · obtain ⟨p, rfl⟩ := lastAllowed_prop h
      exact ⟨p, .inl h⟩
    · exact ⟨_, .inr ⟨h, rfl⟩⟩
  have hs : ∃ s, (∃ f, s = some f ∧ LastAllowed setters d.name ops f) ∨ NoneAllowed setters d.name ops ∧ s = d.setFunc := by
    rcases last_or_none setters d.name ops with ⟨x, h⟩ | h
    · exact ⟨_, .inl ⟨x, rfl, h⟩⟩
    · exact ⟨_, .inr ⟨h, rfl⟩⟩
  have ht : ∃ t, (∃ f, t = some f ∧ LastAllowed deleters d.name ops f) ∨ NoneAllowed deleters d.name ops ∧ t = d.delFunc := by
    rcases last_or_none deleters d.name ops with ⟨x, h⟩ | h
    · exact ⟨_, .inl ⟨x, rfl, h⟩⟩
    · exact ⟨_, .inr ⟨h, rfl⟩⟩
  obtain ⟨g, hg⟩ := hg
  obtain ⟨p, hp⟩ := hp
  obtain ⟨s, hs⟩ := hs
  obtain ⟨t, ht⟩ := ht
  refine ⟨g, p, s, t, ⟨hg, hp, hs, ht⟩, fun g' p' s' t' h' => ?_⟩
  have h1 := current_iff ⟨hg, hp, hs, ht⟩
  rw [current_iff h'] at h1
  injection h1 with a b _ c e
  exact ⟨a, b, c, e⟩

/-! ## Uses -/

theorem play_registrations (E : Env) (n : Nat) (has : ClsId → Bool) (nm : PyStr) (steps : List Step) (x : Dyn × World) :
    (play E n has nm steps x).1 = registerAll (regsOf steps) x.1 := by
  induction steps generalizing x with
  | nil => rfl
  | cons st l ih => cases st with
    | reg o => exact ih _
    | call c => exact ih _

theorem install_lookup {E : Env} {has : ClsId → Bool} {nm : PyStr} {d : Dyn} {c : ClsId} (h : has c = true) :
    lookupS nm ((install E has nm d).classes c).props = some d.entry := by
  show lookupS nm (if has c then _ else E.classes c : ClassDef).props = _
  rw [if_pos h]
  exact lookupS_setS _ _ _

variable {E : Env} {N k : Nat} {has : ClsId → Bool} {nm : PyStr} {steps : List Step} {d : Dyn} {w : World}
  {g : Func} {p : PropSpec} {s t : Option Func} {r : Nat} {o : Obj}

/-- C78: after any program that registers functions and uses the instances, reading the
attribute of any instance - of the class or of one that inherits the property, made
before or after - calls the last getter allowed; None and undefined give None, every
other value is validated by the last property allowed. -/
theorem C78_read (hc : Current d (regsOf steps) g p s t)
    (ho : (play E N has nm steps (d, w)).2.objs[r]? = some o) (hh : has o.cls = true) :
    let x := play E N has nm steps (d, w)
    let E' := install E has nm x.1
    run E' (k + 1) (.getattr r nm) x.2 = match runProg E' k (E.fn g.fn [.obj r]) x.2 with
      | (.error e, w1) => (.error e, w1)
      | (.ok .none, w1) => (.ok .none, w1)
      | (.ok .undef, w1) => (.ok .none, w1)
      | (.ok v, w1) => run E' k (.validate nm p (some r) v) w1 := by
  intro x E'
  have hx : x.1 = _ := (play_registrations E N has nm steps (d, w)).trans (current_iff hc)
  have hl : lookupS nm (E'.classes o.cls).props = some (.dynamic p g.fn (s.map (·.fn)) (t.map (·.fn))) :=
    (install_lookup hh).trans (by rw [hx]; rfl)
  refine (getattr_dynamic (rec := run E' k) ho hl).trans ?_
  show bind (runProg E' k (E.fn g.fn [.obj r])) _ x.2 = _
  cases hr : runProg E' k (E.fn g.fn [.obj r]) x.2 with
  | mk res w1 => cases res with
    | error e => exact bind_err hr
    | ok v =>
      rw [bind_ok hr]
      cases v <;> rfl

/-- C78: assigning calls the last setter allowed with the value as the last property
allowed validates it; if there is none it raises AttributeError and changes nothing. -/
theorem C78_assign (hc : Current d (regsOf steps) g p s t)
    (ho : (play E N has nm steps (d, w)).2.objs[r]? = some o) (hh : has o.cls = true) (v : Val) :
    let x := play E N has nm steps (d, w)
    let E' := install E has nm x.1
    (s = none → run E' (k + 1) (.setattr r nm v) x.2 = (.error ⟨.attr, []⟩, x.2)) ∧
    ∀ f, s = some f → run E' (k + 1) (.setattr r nm v) x.2 =
      match run E' k (.validate nm p (some r) v) x.2 with
      | (.error e, w1) => (.error e, w1)
      | (.ok y, w1) => match runProg E' k (E.fn f.fn [.obj r, y]) w1 with
        | (.error e, w2) => (.error e, w2)
        | (.ok _, w2) => (.ok .none, w2) := by
  intro x E'
  have hx : x.1 = _ := (play_registrations E N has nm steps (d, w)).trans (current_iff hc)
  have hl : lookupS nm (E'.classes o.cls).props = some (.dynamic p g.fn (s.map (·.fn)) (t.map (·.fn))) :=
    (install_lookup hh).trans (by rw [hx]; rfl)
  have h1 := setattr_dynamic (rec := run E' k) ho v hl
  refine ⟨fun hs => ?_, fun f hs => ?_⟩
  · refine Eq.trans ?_ (h1.trans ?_)
    · rfl
    · rw [hs]; rfl
  · subst hs
    refine Eq.trans (b := (do
      let v' ← run E' k (.validate nm p (some r) v)
      let _ ← callFn E' (run E' k) f.fn [.obj r, v']
      pure .none : M Val) x.2) h1 ?_
    cases hv : run E' k (.validate nm p (some r) v) x.2 with
    | mk res w1 => cases res with
      | error e => exact bind_err hv
      | ok y =>
        rw [bind_ok hv]
        show bind (runProg E' k (E.fn f.fn [.obj r, y])) _ w1 = _
        dsimp only
        cases hr : runProg E' k (E.fn f.fn [.obj r, y]) w1 with
        | mk res w2 => cases res with
          | error e => exact bind_err hr
          | ok z => rw [bind_ok hr]; rfl

/-- C78: deleting calls the last deleter allowed; if there is none it raises
AttributeError and changes nothing. -/
theorem C78_delete (hc : Current d (regsOf steps) g p s t)
    (ho : (play E N has nm steps (d, w)).2.objs[r]? = some o) (hh : has o.cls = true) :
    let x := play E N has nm steps (d, w)
    let E' := install E has nm x.1
    (t = none → run E' (k + 1) (.delattr r nm) x.2 = (.error ⟨.attr, []⟩, x.2)) ∧
    ∀ f, t = some f → run E' (k + 1) (.delattr r nm) x.2 =
      match runProg E' k (E.fn f.fn [.obj r]) x.2 with
        | (.error e, w1) => (.error e, w1)
        | (.ok _, w1) => (.ok .none, w1) := by
  intro x E'
  have hx : x.1 = _ := (play_registrations E N has nm steps (d, w)).trans (current_iff hc)
  have hl : lookupS nm (E'.classes o.cls).props = some (.dynamic p g.fn (s.map (·.fn)) (t.map (·.fn))) :=
    (install_lookup hh).trans (by rw [hx]; rfl)
  have h1 := delattr_dynamic (rec := run E' k) ho hl
  refine ⟨fun hs => ?_, fun f hs => ?_⟩
  · refine Eq.trans ?_ (h1.trans ?_)
    · rfl
    · rw [hs]; rfl
  · subst hs
    refine Eq.trans (b := (do
      let _ ← callFn E' (run E' k) f.fn [.obj r]
      pure .none : M Val) x.2) h1 ?_
    show bind (runProg E' k (E.fn f.fn [.obj r])) _ x.2 = _
    cases hr : runProg E' k (E.fn f.fn [.obj r]) x.2 with
    | mk res w1 => cases res with
      | error e => exact bind_err hr
      | ok z => rw [bind_ok hr]; rfl

/-! ## Example -/

theorem noneAllowed_nil {α : Type} (pick : Pick α) (s : PyStr) : NoneAllowed pick s [] :=
  fun before _ _ h => by cases before <;> cases h

theorem noneAllowed_cons {α : Type} {pick : Pick α} {s : PyStr} {o : Op} {ops : List Op}
    (h1 : pick o = none ∨ ¬ Allowed s o) (h2 : NoneAllowed pick (nameAfter s [o]) ops) :
    NoneAllowed pick s (o :: ops) := by
  intro before o' after he hs ha
  cases before with
  | nil =>
    cases he
    rcases h1 with h1 | h1
    · rw [h1] at hs; cases hs
    · exact h1 ha
  | cons o'' before =>
    cases he
    rw [nameAfter_cons] at ha
    exact h2 before o' after rfl hs ha

/-- Class 0 declares the dynamic property, class 1 inherits it. -/
def c78Env : Env := { demoEnv with
  classes := fun _ => { name := s% "C", props := [(s% "p", .mutable (.mk true none none .undef (.string [] .keep none)))] }
  fn := fun f args => match f, args with
    | 1, [.obj r] => .call (.getattr r (s% "p")) fun | .ok v => .ret v | .error e => .raise e
    | 2, [.obj r, v] => .call (.setattr r (s% "p") v) fun _ => .ret .none
    | _, _ => .ret (.int 1) }

def c78Func (args fn : Nat) (name : PyStr := s% "d") : Func := ⟨true, some args, some name, fn⟩
def c78Dyn : Dyn := ⟨c78Func 1 0, .mk true none none .undef (.string [] .keep none), s% "d", none, none⟩

/-- An instance is made; a setter with one argument and one with another name are
refused; then a setter and a getter are registered. -/
def c78Steps : List Step :=
  [.reg (.setter (c78Func 1 7)), .call (.construct 1 []), .reg (.setter (c78Func 2 2)),
   .reg (.setter (c78Func 2 7 (s% "e"))), .call (.setattr 0 (s% "d") (.str (s% "x"))),
   .reg (.getter (c78Func 2 7)), .reg (.getter (c78Func 1 1)),
   .reg (.prop (some (.mk true none none (.val (.str [])) (.string [] .keep none))))]

theorem C78_example_current :
    decorate (some c78Dyn.prop) (c78Func 1 0) = .ok c78Dyn ∧
    Current c78Dyn (regsOf c78Steps) (c78Func 1 1) c78Dyn.prop (some (c78Func 2 2)) none := by
  refine ⟨rfl, .inl ⟨[_, _, _, _], _, [_], rfl, rfl, ⟨rfl, fun k h => by cases h; rfl⟩, ?_⟩, .inr ⟨?_, rfl⟩,
    .inl ⟨_, rfl, [_], _, [_, _, _, _], rfl, rfl, ⟨⟨rfl, fun k h => by cases h; rfl⟩, rfl⟩, ?_⟩, .inr ⟨?_, rfl⟩⟩
  · exact noneAllowed_cons (.inl rfl) (noneAllowed_nil _ _)
  · refine noneAllowed_cons (.inl rfl) (noneAllowed_cons (.inl rfl) (noneAllowed_cons (.inl rfl)
      (noneAllowed_cons (.inl rfl) (noneAllowed_cons (.inl rfl) (noneAllowed_cons (.inr ?_) (noneAllowed_nil _ _))))))
    rintro ⟨p, h, hp⟩
    cases h
    cases hp
  · refine noneAllowed_cons (.inr ?_) (noneAllowed_cons (.inl rfl) (noneAllowed_cons (.inl rfl)
      (noneAllowed_cons (.inl rfl) (noneAllowed_nil _ _))))
    rintro ⟨_, h⟩
    exact absurd h (by decide)
  · exact noneAllowed_cons (.inl rfl) (noneAllowed_cons (.inl rfl) (noneAllowed_cons (.inl rfl)
      (noneAllowed_cons (.inl rfl) (noneAllowed_cons (.inl rfl) (noneAllowed_cons (.inl rfl) (noneAllowed_nil _ _))))))

/-- The instance of class 1 then reads what was assigned. -/
theorem C78_example :
    let x := play c78Env 6 (fun c => c < 2) (s% "d") c78Steps (c78Dyn, {})
    (∃ o, x.2.objs[0]? = some o ∧ o.cls = 1) ∧
    (run (install c78Env (fun c => c < 2) (s% "d") x.1) 6 (.getattr 0 (s% "d")) x.2).1.toOption = some (.str (s% "x")) := by
  refine ⟨⟨_, by with_unfolding_all rfl, by with_unfolding_all rfl⟩, by with_unfolding_all rfl⟩

end Verif.Dynamic
