import Verif.Lemmas.Ends

/-!
# validate(): decision procedure for validity
-/

namespace Verif
open Spec

section
variable {E : Env} {m : Nat} {w : World}

/-! ### Validity is monotone -/

mutual
theorem checks_mono {R R' : Nat → Prop} (h : ∀ x, R x → R' x) {nm : PyStr} {r : Nat} :
    ∀ (p : PropSpec) (v : Val), Checks E m w R nm r p v → Checks E m w R' nm r p v
  | .mk req s d df ty, v, hc => by
      unfold Checks at hc ⊢
      exact ⟨hc.1, fun hn => ⟨(hc.2 hn).1, tyChecks_mono h ty _ (hc.2 hn).2⟩⟩
theorem tyChecks_mono {R R' : Nat → Prop} (h : ∀ x, R x → R' x) {nm : PyStr} {r : Nat} :
    ∀ (ty : PropTy) (v : Val), TyChecks E m w R nm r ty v → TyChecks E m w R' nm r ty v
  | .seq k item lo hi c, v, hc => by
      unfold TyChecks at hc ⊢
      obtain ⟨xs, h1, h2, h3⟩ := hc
      exact ⟨xs, h1, h2, fun x hx => checks_mono h item x (h3 x hx)⟩
  | .dict kp vp c, v, hc => by
      unfold TyChecks at hc ⊢
      obtain ⟨kvs, h1, h2⟩ := hc
      exact ⟨kvs, h1, fun kv hkv => ⟨checks_mono h kp _ (h2 kv hkv).1, checks_mono h vp _ (h2 kv hkv).2⟩⟩
  | .inst c, v, hc => by
      unfold TyChecks at hc ⊢
      exact fun r' hv => h _ (hc r' hv)
  | .union ps s, v, hc => by
      unfold TyChecks at hc ⊢
      exact anyChecks_mono h ps v hc
  | .any, _, _ | .boolean .., _, _ | .integer .., _, _ | .float .., _, _ | .complex .., _, _
  | .string .., _, _ | .choice .., _, _ | .color, _, _ | .datetime, _, _ | .uuid, _, _ => by
      unfold TyChecks; trivial
theorem anyChecks_mono {R R' : Nat → Prop} (h : ∀ x, R x → R' x) {nm : PyStr} {r : Nat} :
    ∀ (ps : List PropSpec) (v : Val), AnyChecks E m w R nm r ps v → AnyChecks E m w R' nm r ps v
  | [], _, hc => by unfold AnyChecks at hc; exact hc.elim
  | p :: ps, v, hc => by
      unfold AnyChecks at hc ⊢
      exact hc.imp (checks_mono h p v) (anyChecks_mono h ps v)
end

theorem propOk_mono {R R' : Nat → Prop} (h : ∀ x, R x → R' x) {nm : PyStr} {r : Nat} {e : Entry}
    (hc : PropOk E m w R r nm e) : PropOk E m w R' r nm e := by
  refine ⟨hc.1, ?_⟩
  have h2 := hc.2
  cases e with
  | «mutable» p => exact checks_mono h p .none h2
  | gettable p => exact h2
  | dynamic p a b c => exact h2
  | renamed a => exact h2

theorem locallyValid_mono {R R' : Nat → Prop} (h : ∀ x, R x → R' x) {r : Nat}
    (hl : LocallyValid E m w R r) : LocallyValid E m w R' r := by
  obtain ⟨o, ho, hv⟩ := hl
  refine ⟨o, ho, fun x hx => ?_⟩
  have := hv x hx
  cases x with
  | none => exact fun ne hne => propOk_mono h (this ne hne)
  | some f => exact this

theorem validGiven_of {G : Nat → Prop} {r : Nat} (h : G r) : ValidGiven E m w G r :=
  ⟨fun x => x = r, rfl, fun _ hx => .inl (hx ▸ h)⟩

theorem validGiven_mono {G G' : Nat → Prop} (h : ∀ x, G x → G' x) {r : Nat}
    (hv : ValidGiven E m w G r) : ValidGiven E m w G' r := by
  obtain ⟨S, hr, hS⟩ := hv
  exact ⟨S, hr, fun x hx => (hS x hx).imp_left (h x)⟩

/-- Validity of an instance that is not taken for granted: it is in order,
taking itself for granted. -/
theorem validGiven_iff {G : Nat → Prop} {r : Nat} (hr : ¬ G r) :
    ValidGiven E m w G r ↔ LocallyValid E m w (ValidGiven E m w fun x => G x ∨ x = r) r := by
  constructor
  · rintro ⟨S, hSr, hS⟩
    have hl := (hS r hSr).resolve_left hr
    exact locallyValid_mono (fun x hx => ⟨S, hx, fun y hy => (hS y hy).imp_left .inl⟩) hl
  · intro hl
    refine ⟨fun x => x = r ∨ ValidGiven E m w (fun x => G x ∨ x = r) x, .inl rfl, fun x hx => ?_⟩
    by_cases hxr : x = r
    · subst hxr
      exact .inr (locallyValid_mono (fun y hy => .inr hy) hl)
    · obtain ⟨S, hSx, hS⟩ := hx.resolve_left hxr
      rcases hS x hSx with (hg | hg) | hv
      · exact .inl hg
      · exact absurd hg hxr
      · exact .inr (locallyValid_mono (fun y hy => .inr ⟨S, hy, hS⟩) hv)

/-! ### Decisions -/

variable {Z : PyErr → Prop}

/-- The computation succeeds if `P` and raises an error satisfying `Z`
otherwise. -/
def Dec {α : Type} (Z : PyErr → Prop) (P : Prop) (T : α → Prop) (c : M α) (w : World) : Prop :=
  ∃ w', Same w w' ∧ ((P ∧ ∃ a, T a ∧ c w = (.ok a, w')) ∨
    (¬ P ∧ ∃ e, Z e ∧ c w = (.error e, w')))

theorem Dec.congr {α : Type} {P Q : Prop} {T : α → Prop} {c : M α} {w : World} (h : P ↔ Q)
    (hd : Dec Z P T c w) : Dec Z Q T c w := by
  obtain ⟨w', hs, h'⟩ := hd
  exact ⟨w', hs, h'.imp (fun x => ⟨h.1 x.1, x.2⟩) (fun x => ⟨fun q => x.1 (h.2 q), x.2⟩)⟩

theorem dec_pure {α : Type} {T : α → Prop} {a : α} {P : Prop} (hP : P) (h : T a) :
    Dec Z P T (pure a) w := ⟨w, Same.refl w, .inl ⟨hP, a, h, rfl⟩⟩

theorem dec_raiseK {α : Type} {T : α → Prop} {k : ErrKind} {P : Prop} (hP : ¬ P)
    (hk : Z ⟨k, []⟩) : Dec Z P T (raiseK k : M α) w :=
  ⟨w, Same.refl w, .inr ⟨hP, ⟨k, []⟩, hk, rfl⟩⟩

theorem dec_bind {α β : Type} {P Q : Prop} {T : α → Prop} {U : β → Prop} {c : M α} {f : α → M β}
    (hc : Dec Z P T c w) (hf : P → ∀ a w', T a → Same w w' → Dec Z Q U (f a) w') :
    Dec Z (P ∧ Q) U (c >>= f) w := by
  obtain ⟨w1, hs, ⟨hP, a, ha, h1⟩ | ⟨hP, e, he, h1⟩⟩ := hc
  · obtain ⟨w2, hs2, h2⟩ := hf hP a w1 ha hs
    refine ⟨w2, hs.trans hs2, ?_⟩
    rw [bind_ok h1]
    exact h2.imp (fun x => ⟨⟨hP, x.1⟩, x.2⟩) (fun x => ⟨fun q => x.1 q.2, x.2⟩)
  · exact ⟨w1, hs, .inr ⟨fun q => hP q.1, e, he, bind_err h1⟩⟩

theorem dec_raiseVal (hh : NoHook E) (hZ : ∀ ts, ts ≠ [] → Z ⟨.validation, ts⟩) (rec : Rec)
    {w0 : World} {α : Type} {T : α → Prop} {P : Prop} (hP : ¬ P) {r : Nat} {o : Obj}
    (ho : w0.objs[r]? = some o) (ha : Agree w0 w) (reason prop : Option PyStr) :
    Dec Z P T (raiseVal E rec reason prop (some r) : M α) w := by
  have hs := (steady_raiseVal (α := α) hh rec reason prop (some r)).same w
  rcases raiseVal_result (α := α) hh rec reason prop (some r) w with h | ⟨r', e, hn, h⟩
  · exact ⟨_, hs, .inr ⟨hP, _, hZ _ (by simp), h⟩⟩
  · cases e
    have := ha.symm.none hn
    rw [ho] at this; cases this

theorem dec_catchIf {α : Type} {P Q : Prop} {T : α → Prop} {c : M α} {k : PyErr → M α}
    (hO : ∀ e, Z e → Ordinary e) (hc : Dec Z P T c w) (hk : ¬ P → ∀ e w', Z e → Same w w' → Dec Z Q T (k e) w') :
    Dec Z (P ∨ Q) T (M.catchIf ErrKind.isGeneric c k) w := by
  obtain ⟨w1, hs, ⟨hP, a, ha, h1⟩ | ⟨hP, e, he, h1⟩⟩ := hc
  · exact ⟨w1, hs, .inl ⟨.inl hP, a, ha, catchIf_ok h1⟩⟩
  · obtain ⟨w2, hs2, h2⟩ := hk hP e w1 he hs
    refine ⟨w2, hs.trans hs2, ?_⟩
    rw [catchIf_err h1 (hO e he).1]
    exact h2.imp (fun x => ⟨.inr x.1, x.2⟩) (fun x => ⟨fun q => q.elim hP x.1, x.2⟩)

/-- A result that is the same in all agreeing states is decided by it. -/
theorem dec_steady {α : Type} {P : Prop} {T : α → Prop} {c : M α} {w0 w1 : World} (hc : Steady c)
    (ha : Agree w0 w1) (hT : ∀ a, (c w0).1 = .ok a → P ∧ T a)
    (hF : ∀ e, (c w0).1 = .error e → ¬ P ∧ Z e) : Dec Z P T c w1 := by
  refine ⟨(c w1).2, hc.same w1, ?_⟩
  have h1 := (hc w0 w1 ha).1
  cases h0 : (c w0).1 with
  | ok a => exact .inl ⟨(hT a h0).1, a, (hT a h0).2, by rw [← h0, h1]⟩
  | error e => exact .inr ⟨(hF e h0).1, e, (hF e h0).2, by rw [← h0, h1]⟩

/-! ### Results do not depend on the recursion depth -/

theorem fuel_run (hT : ∀ f args, Transparent (E.fn f args)) {L n : Nat} {c : Call}
    (h : ¬ Overflows (run E L c w)) (hn : L ≤ n) : run E n c w = run E L c w := by
  obtain ⟨k, rfl⟩ := Nat.exists_eq_add_of_le hn
  rcases run_approx hT L k c w with h1 | h1
  · exact absurd h1 h
  · exact h1.symm

theorem fuel_prog (hT : ∀ f args, Transparent (E.fn f args)) {L n : Nat} {p : Prog}
    (hp : Transparent p) (h : ¬ Overflows (runProg E L p w)) (hn : L ≤ n) :
    runProg E n p w = runProg E L p w := by
  obtain ⟨k, rfl⟩ := Nat.exists_eq_add_of_le hn
  rcases approx_execProg (fun c => run_approx hT L k c) p hp w with h1 | h1
  · exact absurd h1 h
  · exact h1.symm

theorem part_depth {K D : Nat} (hp : Prompt E K D) {r : Nat} {nm : PyStr} {p : PropSpec} {v : Val}
    (h : Part E w r nm p v) : depth p ≤ D := by
  induction h with
  | root o e p ho hm hs =>
    have := hp.depth _ _ hm
    cases e <;> simp only [specOf, Option.some.injEq, reduceCtorEq] at hs <;>
    · subst hs; exact this
  | item p item k lo hi c v xs x _ hty _ _ ih =>
    rw [depth_eq, hty] at ih; unfold depthTy at ih; omega
  | key p kp vp c kvs kv _ hty _ ih =>
    rw [depth_eq, hty] at ih; unfold depthTy at ih; omega
  | value p kp vp c kvs kv _ hty _ ih =>
    rw [depth_eq, hty] at ih; unfold depthTy at ih; omega
  | alternative p q ps s v _ hty hq ih =>
    rw [depth_eq, hty] at ih; unfold depthTy at ih
    have := depthAll_le hq; omega

end

/-- Recursion depth at which single checks end. -/
def baseDepth (K D : Nat) (w : World) : Nat := D + eqDepth K D (idleTe w) + K

/-- The fixed data of one validation. -/
structure Setting (E : Env) (K D m : Nat) (w0 : World) (Z : PyErr → Prop) : Prop where
  looks : Looks E
  prompt : Prompt E K D
  calm : Calm E K m w0 Z
  deep : baseDepth K D w0 ≤ m
  ordinary : ∀ e, Z e → Ordinary e
  raised : ∀ ts, ts ≠ [] → Z ⟨.validation, ts⟩
  other : (Z ⟨.type, []⟩ ∧ Z ⟨.attr, []⟩) ∨ Tidy E w0

section
variable {E : Env} {K D m : Nat} {w0 : World} {Z : PyErr → Prop}

theorem Setting.validate (S : Setting E K D m w0 Z) {n : Nat} (hn : baseDepth K D w0 ≤ n) {nm : PyStr}
    {p : PropSpec} {inst : Option Nat} {v : Val} (hd : depth p ≤ D) (hs : Still p v) :
    Steady (run E n (.validate nm p inst v)) ∧
      (run E n (.validate nm p inst v) w0).1 = (run E m (.validate nm p inst v) w0).1 := by
  unfold baseDepth at hn
  have hb := S.deep
  unfold baseDepth at hb
  have e := ends_validate (P := fun _ => True) S.looks (fun _ _ _ h => h) D nm p inst v hd hs
  refine ⟨(ends_validate (P := fun _ => True) S.looks (fun _ _ _ h => h) n nm p inst v (by omega)
    hs).steady, ?_⟩
  rw [fuel_run S.prompt.transparent (e.ends w0 trivial) (by omega : D ≤ n),
    fuel_run S.prompt.transparent (e.ends w0 trivial) (by omega : D ≤ m)]

theorem Setting.propEqual (S : Setting E K D m w0 Z) {n : Nat} (hn : baseDepth K D w0 ≤ n)
    {p : PropSpec} {a b : Val} (hd : depth p ≤ D) :
    Steady (run E n (.propEqual p a b)) ∧
      (run E n (.propEqual p a b) w0).1 = (run E m (.propEqual p a b) w0).1 := by
  unfold baseDepth at hn
  have hb := S.deep
  unfold baseDepth at hb
  have e := ends_propEqual S.looks S.prompt (idleTe w0) (D + eqDepth K D (idleTe w0)) p a b (by omega)
  refine ⟨(run_looks S.looks n).propEqual p a b, ?_⟩
  rw [fuel_run S.prompt.transparent (e.ends w0 (Nat.le_refl _)) (by omega : _ ≤ n),
    fuel_run S.prompt.transparent (e.ends w0 (Nat.le_refl _)) (by omega : _ ≤ m)]

theorem Setting.prog (S : Setting E K D m w0 Z) {n : Nat} (hn : baseDepth K D w0 ≤ n) {f : FnId}
    {args : List Val} (hp : Civil E K w0 Z (E.fn f args)) :
    Steady (runProg E n (E.fn f args)) ∧
      (runProg E n (E.fn f args) w0).1 = (runProg E m (E.fn f args) w0).1 := by
  unfold baseDepth at hn
  have hb := S.deep
  unfold baseDepth at hb
  have e : ¬ Overflows (runProg E K (E.fn f args) w0) := by
    rintro ⟨e, he, hk⟩
    have := (S.ordinary e (hp.2 K (Nat.le_refl _) e he)).1
    rw [hk] at this; cases this
  refine ⟨steady_runProg S.looks n _ hp.1, ?_⟩
  rw [fuel_prog S.prompt.transparent (S.prompt.transparent _ _) e (by omega : K ≤ n),
    fuel_prog S.prompt.transparent (S.prompt.transparent _ _) e (by omega : K ≤ m)]

/-- States met while the instances in `G` are being validated. -/
structure InG (w0 : World) (G : Nat → Prop) (w : World) : Prop where
  agree : Agree w0 w
  busy : ∀ x, Busy w x ↔ G x

theorem InG.same {G : Nat → Prop} {w w' : World} (h : InG w0 G w) (hs : Same w w') : InG w0 G w' := by
  refine ⟨h.agree.trans hs.agree, fun x => ?_⟩
  rw [← h.busy x]
  exact hs.busy

theorem getStored_agree {w : World} (ha : Agree w0 w) {r : Nat} {o : Obj}
    (ho : w0.objs[r]? = some o) (nm : PyStr) : getStored r nm w = (.ok (held w0 r nm), w) := by
  obtain ⟨o', h', e⟩ := ha.some ho
  unfold getStored
  rw [bind_ok (getObj_some h')]
  have hb : o'.backend = o.backend := (congrArg Obj.backend e : (bareO o').backend = (bareO o).backend)
  unfold held
  rw [ho, hb]
  rfl

theorem dec_held {w : World} (ha : Agree w0 w) {r : Nat} {o : Obj} (ho : w0.objs[r]? = some o)
    (nm : PyStr) (v : Val) :
    (if v.isNone then getStored r nm else pure v) w = (.ok (heldOr w0 r nm v), w) := by
  cases v with
  | none => exact getStored_agree ha ho nm
  | _ => rfl

/-- Validating a value again and comparing. -/
theorem dec_recheck (S : Setting E K D m w0 Z) {n : Nat} (hn : baseDepth K D w0 ≤ n) {nm : PyStr}
    {p : PropSpec} {r : Nat} {v : Val} {o : Obj} (ho0 : w0.objs[r]? = some o)
    (hp : Part E w0 r nm p v) (hv : v ≠ .none) {w : World} (ha : Agree w0 w) {α : Type} {T : α → Prop} {a : α} (hT : T a) :
    Dec Z (Rechecks E m w0 nm p r v) T (do
      let v' ← run E n (.validate nm p (some r) v)
      let eq ← run E n (.propEqual p v v')
      if eq.truthy then pure a
      else raiseVal E (run E n) (some (s% "invalid")) (some nm) (some r)) w := by
  have hd := part_depth S.prompt hp
  obtain ⟨s1, e1⟩ := S.validate hn (nm := nm) (inst := some r) hd (S.calm.still r nm p v hp hv)
  cases h1 : (run E m (.validate nm p (some r) v) w0).1 with
  | error e =>
    have ho := S.calm.validate r nm p v e hp hv h1
    rw [h1] at e1
    obtain ⟨w', h2, hs⟩ := s1.err ha e1
    refine ⟨w', hs, .inr ⟨?_, e, ho, bind_err h2⟩⟩
    rintro ⟨v', t, hr, _⟩
    rw [h1] at hr; cases hr
  | ok v' =>
    rw [h1] at e1
    obtain ⟨w1, h2, hs⟩ := s1.ok ha e1
    obtain ⟨s2, e2⟩ := S.propEqual hn (a := v) (b := v') hd
    cases h3 : (run E m (.propEqual p v v') w0).1 with
    | error e =>
      have ho := S.calm.equal r nm p v v' e hp hv h1 h3
      rw [h3] at e2
      obtain ⟨w2, h4, hs2⟩ := s2.err (ha.trans hs.agree) e2
      refine ⟨w2, hs.trans hs2, .inr ⟨?_, e, ho, by rw [bind_ok h2, bind_err h4]⟩⟩
      rintro ⟨v'', t, hr, ht, _⟩
      rw [h1] at hr; cases hr
      rw [h3] at ht; cases ht
    | ok t =>
      rw [h3] at e2
      obtain ⟨w2, h4, hs2⟩ := s2.ok (ha.trans hs.agree) e2
      cases ht : t.truthy with
      | true =>
        refine ⟨w2, hs.trans hs2, .inl ⟨⟨v', t, h1, h3, ht⟩, a, hT, ?_⟩⟩
        rw [bind_ok h2, bind_ok h4]
        simp only [ht, if_true]
        rfl
      | false =>
        have hR : ¬ Rechecks E m w0 nm p r v := by
          rintro ⟨v'', t', hr, hq, ht'⟩
          rw [h1] at hr; cases hr
          rw [h3] at hq; cases hq
          rw [ht] at ht'; cases ht'
        obtain ⟨w3, hs3, ⟨hP, _⟩ | ⟨_, e, he, h5⟩⟩ := dec_raiseVal (α := α) (T := T) (w := w2)
          S.looks.hook S.raised (run E n) hR ho0 ((ha.trans hs.agree).trans hs2.agree)
          (some (s% "invalid")) (some nm)
        · exact absurd hP hR
        · refine ⟨w3, (hs.trans hs2).trans hs3, .inr ⟨hR, e, he, ?_⟩⟩
          rw [bind_ok h2, bind_ok h4]
          simp only [ht, Bool.false_eq_true, if_false]
          exact h5

theorem dec_tryProps (S : Setting E K D m w0 Z) {rec : Rec} {nm : PyStr} {f : PropSpec → Call}
    {R : Nat → Prop} {r : Nat} {o : Obj} (ho : w0.objs[r]? = some o) {v : Val} {T : Val → Prop}
    {G : Nat → Prop} : ∀ (ps : List PropSpec) {w : World},
    InG w0 G w → (∀ p ∈ ps, ∀ w', InG w0 G w' → Dec Z (Checks E m w0 R nm r p v) T (rec (f p)) w') →
    Dec Z (AnyChecks E m w0 R nm r ps v) T (tryProps E rec nm (some r) f ps) w
  | [], w, hg, _ => dec_raiseVal S.looks.hook S.raised rec (by unfold AnyChecks; exact fun h => h) ho
      hg.agree _ _
  | p :: ps, w, hg, hr => by
      unfold AnyChecks tryProps
      exact dec_catchIf S.ordinary (hr p (by simp) w hg) fun _ e w' _ hs =>
        dec_tryProps S ho ps (hg.same hs) fun q hq => hr q (by simp [hq])

theorem dec_assertItems {rec : Rec} {nm : PyStr} {item : PropSpec} {R : Nat → Prop} {r : Nat}
    {G : Nat → Prop} : ∀ (xs : List Val) {w : World}, InG w0 G w →
    (∀ x ∈ xs, ∀ w', InG w0 G w' → Dec Z (Checks E m w0 R nm r item x) (fun v => v.truthy = true)
      (rec (.assertValid nm item r x)) w') →
    Dec Z (∀ x ∈ xs, Checks E m w0 R nm r item x) (fun v => v.truthy = true)
      (assertItems rec nm item r xs) w
  | [], w, _, _ => dec_pure (by simp) rfl
  | x :: xs, w, hg, hr => by
      unfold assertItems
      refine (dec_bind (Q := ∀ y ∈ xs, Checks E m w0 R nm r item y) (hr x (by simp) w hg)
        fun _ a w' ha hs => ?_).congr (by simp)
      simp only [ha, if_true]
      exact dec_assertItems xs (hg.same hs) fun q hq => hr q (by simp [hq])

theorem dec_forML {α : Type} {f : α → M Unit} {G : Nat → Prop} {P : α → Prop} :
    ∀ (xs : List α) {w : World}, InG w0 G w →
    (∀ x ∈ xs, ∀ w', InG w0 G w' → Dec Z (P x) (fun _ => True) (f x) w') →
    Dec Z (∀ x ∈ xs, P x) (fun _ => True) (forML f xs) w
  | [], w, _, _ => dec_pure (by simp) trivial
  | x :: xs, w, hg, hr => by
      unfold forML
      refine (dec_bind (Q := ∀ y ∈ xs, P y) (hr x (by simp) w hg) fun _ a w' _ hs => ?_).congr (by simp)
      exact dec_forML xs (hg.same hs) fun q hq => hr q (by simp [hq])

theorem lengthOk_iff {lo hi : Option Nat} {n : Nat} : lengthOk lo hi n = true ↔ WithinLength lo hi n := by
  unfold lengthOk WithinLength
  cases lo <;> cases hi <;> simp

theorem checks_iff {R : Nat → Prop} {nm : PyStr} {r : Nat} {p : PropSpec} {v : Val} :
    Checks E m w0 R nm r p v ↔ (heldOr w0 r nm v = .none → p.required = false) ∧
      (heldOr w0 r nm v ≠ .none → Rechecks E m w0 nm p r (heldOr w0 r nm v) ∧
        TyChecks E m w0 R nm r p.ty (heldOr w0 r nm v)) := by
  cases p; unfold Checks; exact Iff.rfl

theorem heldOr_of_ne {r : Nat} {nm : PyStr} {v : Val} (h : v ≠ .none) : heldOr w0 r nm v = v := by
  cases v <;> first | rfl | exact absurd rfl h

theorem isNone_iff {v : Val} : v.isNone = true ↔ v = .none := by
  cases v <;> simp [Val.isNone]

theorem isNone_false {v : Val} (h : v ≠ .none) : v.isNone = false := by
  cases v <;> first | rfl | exact absurd rfl h

/-- The part of `assert_valid` that depends on the type. -/
def tyAssert (E : Env) (rec : Rec) (nm : PyStr) (r : Nat) (v : Val) : PropTy → M Val
  | .seq _ item minL maxL _ => do
      let v ← (if v.isNone then getStored r nm else pure v)
      if v.isNone then pure (.bool true)
      else match v.iter? with
        | none => raiseK .type
        | some xs => do
            if lengthOk minL maxL xs.length then pure () else propError E rec nm (some r)
            assertItems rec nm item r xs
  | .dict kp vp _ => do
      let v ← (if v.isNone then getStored r nm else pure v)
      match v with
      | .none => pure (.bool true)
      | .dict kvs => do
          forML (fun kv => do
            let _ ← rec (.assertValid nm kp r kv.1)
            let _ ← rec (.assertValid nm vp r kv.2)
            pure ()) kvs
          pure (.bool true)
      | _ => raiseK .attr
  | .inst _ => do
      let v ← (if v.isNone then getStored r nm else pure v)
      match v with
      | .obj r' => do
          let _ ← rec (.hpValidate r')
          pure (.bool true)
      | _ => pure (.bool true)
  | .union ps _ => do
      let v ← (if v.isNone then getStored r nm else pure v)
      if v.isNone then pure (.bool true)
      else tryProps E rec nm (some r) (fun p => .assertValid nm p r v) ps
  | _ => pure (.bool true)

theorem assertValidBody_eq (rec : Rec) (nm : PyStr) (p : PropSpec) (r : Nat) (v : Val) :
    assertValidBody E rec nm p r v =
      (do baseAssert E rec nm p r v; tyAssert E rec nm r v p.ty) := by
  unfold assertValidBody tyAssert
  cases p.ty <;> rfl

theorem dec_tyAssert (S : Setting E K D m w0 Z) {R G : Nat → Prop} {rec : Rec} {nm : PyStr} {r : Nat}
    {o : Obj} (ho : w0.objs[r]? = some o) {v : Val} (hv : heldOr w0 r nm v ≠ .none) (p : PropSpec)
    (hp : Part E w0 r nm p (heldOr w0 r nm v))
    (hr : ∀ q x, depth q ≤ depthTy p.ty →
      (heldOr w0 r nm x ≠ .none → Part E w0 r nm q (heldOr w0 r nm x)) → ∀ w, InG w0 G w →
      Dec Z (Checks E m w0 R nm r q x) (fun v => v.truthy = true) (rec (.assertValid nm q r x)) w)
    (hi : ∀ r', ((∃ o, w0.objs[r']? = some o) ∨ Z ⟨.attr, []⟩) → ∀ w, InG w0 G w →
      Dec Z (R r') (fun v => v.truthy = true) (rec (.hpValidate r')) w)
    {w : World} (hg : InG w0 G w) :
    Dec Z (TyChecks E m w0 R nm r p.ty (heldOr w0 r nm v)) (fun v => v.truthy = true)
      (tyAssert E rec nm r v p.ty) w := by
  have hh := S.looks.hook
  generalize hty : p.ty = ty at hr
  generalize hv1 : heldOr w0 r nm v = v1 at hv hp
  have held1 : (if v.isNone then getStored r nm else pure v) w = (.ok v1, w) := by
    rw [dec_held hg.agree ho, hv1]
  have hn := isNone_false hv
  have lift : ∀ {P : Prop} {f : Val → M Val}, Dec Z P (fun v => v.truthy = true) (f v1) w →
      Dec Z P (fun v => v.truthy = true) ((if v.isNone then getStored r nm else pure v) >>= f) w := by
    intro P f h
    unfold Dec
    rw [bind_ok held1]
    exact h
  cases ty with
  | seq k item lo hi' c =>
    unfold tyAssert TyChecks
    refine lift ?_
    simp only [hn, Bool.false_eq_true, if_false]
    cases hit : v1.iter? with
    | none =>
      refine dec_raiseK (by rintro ⟨xs, h, _⟩; cases h) (S.other.elim (fun h => h.1) fun h => ?_)
      obtain ⟨xs, hxs⟩ := h.seq r nm p v1 k item lo hi' c hp hv hty
      rw [hit] at hxs; cases hxs
    | some xs =>
      have e : (∃ ys, some xs = some ys ∧ WithinLength lo hi' ys.length ∧
          ∀ x ∈ ys, Checks E m w0 R nm r item x) ↔
          WithinLength lo hi' xs.length ∧ ∀ x ∈ xs, Checks E m w0 R nm r item x := by
        constructor
        · rintro ⟨ys, h, h2⟩
          cases h; exact h2
        · exact fun h => ⟨xs, rfl, h⟩
      refine Dec.congr e.symm ?_
      by_cases hl : lengthOk lo hi' xs.length = true
      · simp only [hl, if_true]
        refine (dec_assertItems xs hg fun x hx w' hg' => hr item x ?_ ?_ w' hg').congr
          ⟨fun h => ⟨lengthOk_iff.1 hl, h⟩, fun h => h.2⟩
        · unfold depthTy; exact Nat.le_refl _
        · exact fun _ => .item p item k lo hi' c v1 xs x hp hty hit hx
      · have hl' : lengthOk lo hi' xs.length = false := by simpa using hl
        simp only [hl', Bool.false_eq_true, if_false]
        refine dec_bind (P := WithinLength lo hi' xs.length) (T := fun _ => True)
          (dec_raiseVal hh S.raised rec (fun h => hl (lengthOk_iff.2 h)) ho hg.agree _ _) fun h => absurd (lengthOk_iff.2 h) hl
  | dict kp vp c =>
    unfold tyAssert TyChecks
    refine lift ?_
    split
    · exact absurd rfl hv
    · rename_i kvs
      have e : (∃ ys, Val.dict kvs = .dict ys ∧ ∀ kv ∈ ys, Checks E m w0 R nm r kp kv.1 ∧
          Checks E m w0 R nm r vp kv.2) ↔ ((∀ kv ∈ kvs, Checks E m w0 R nm r kp kv.1 ∧
          Checks E m w0 R nm r vp kv.2) ∧ True) := by
        constructor
        · rintro ⟨ys, h, h2⟩
          cases h; exact ⟨h2, trivial⟩
        · exact fun h => ⟨kvs, rfl, h.1⟩
      refine Dec.congr e.symm ?_
      refine dec_bind (T := fun _ => True) (dec_forML kvs hg fun kv hkv w' hg' => ?_) fun _ _ _ _ _ =>
        dec_pure trivial rfl
      refine (dec_bind (hr kp kv.1 ?_ ?_ w' hg') fun _ _ w1 _ hs =>
        (dec_bind (Q := True) (T := fun v => v.truthy = true) (U := fun _ => True)
          (hr vp kv.2 ?_ ?_ w1 (hg'.same hs)) fun _ _ w2 _ _ => dec_pure trivial trivial)).congr (by simp)
      · unfold depthTy; exact Nat.le_max_left _ _
      · exact fun _ => .key p kp vp c kvs kv hp hty hkv
      · unfold depthTy; exact Nat.le_max_right _ _
      · exact fun _ => .value p kp vp c kvs kv hp hty hkv
    · rename_i h1 h2
      refine dec_raiseK (by rintro ⟨ys, h, _⟩; exact h2 ys h) (S.other.elim (fun h => h.2) fun h => ?_)
      obtain ⟨kvs, hkvs⟩ := h.dict r nm p v1 kp vp c hp hv hty
      exact absurd hkvs (h2 kvs)
  | inst c =>
    unfold tyAssert TyChecks
    refine lift ?_
    split
    · rename_i r'
      refine (dec_bind (Q := True) (U := fun v : Val => v.truthy = true) (hi r' (S.other.elim (fun h => .inr h.2) fun h => .inl (h.ref r nm p r' c hp hty)) w hg)
        fun _ _ _ _ _ => dec_pure trivial rfl).congr ?_
      constructor
      · rintro ⟨h, _⟩ r'' h'
        cases h'; exact h
      · exact fun h => ⟨h r' rfl, trivial⟩
    · rename_i h1
      exact dec_pure (fun r' h => absurd h (h1 r')) rfl
  | union ps s =>
    unfold tyAssert TyChecks
    refine lift ?_
    simp only [hn, Bool.false_eq_true, if_false]
    refine dec_tryProps S ho ps hg fun q hq w' hg' => hr q v1 ?_ ?_ w' hg'
    · unfold depthTy; exact depthAll_le hq
    · rw [heldOr_of_ne hv]
      exact fun _ => .alternative p q ps s v1 hp hty hq
  | _ => unfold TyChecks; exact dec_pure trivial rfl

theorem dec_baseAssert (S : Setting E K D m w0 Z) {n : Nat} (hn : baseDepth K D w0 ≤ n) {nm : PyStr}
    {p : PropSpec} {r : Nat} {o : Obj} (ho : w0.objs[r]? = some o) {v : Val}
    (hp : heldOr w0 r nm v ≠ .none → Part E w0 r nm p (heldOr w0 r nm v)) {w : World}
    (ha : Agree w0 w) :
    Dec Z ((heldOr w0 r nm v = .none → p.required = false) ∧
      (heldOr w0 r nm v ≠ .none → Rechecks E m w0 nm p r (heldOr w0 r nm v))) (fun _ => True)
      (baseAssert E (run E n) nm p r v) w := by
  unfold baseAssert Dec
  rw [bind_ok (dec_held ha ho nm v)]
  change Dec Z _ _ _ w
  by_cases hv : heldOr w0 r nm v = .none
  · rw [isNone_iff.2 hv]
    simp only [if_true]
    cases hq : p.required with
    | true =>
      simp only [if_true]
      exact dec_raiseVal S.looks.hook S.raised _ (fun h => by cases h.1 hv) ho ha _ _
    | false =>
      simp only [Bool.false_eq_true, if_false]
      exact dec_pure ⟨by simp, fun h => absurd hv h⟩ trivial
  · rw [isNone_false hv]
    simp only [Bool.false_eq_true, if_false]
    exact (dec_recheck S hn ho (hp hv) hv ha (T := fun _ => True) trivial).congr
      ⟨fun h => ⟨fun h' => absurd h' hv, fun _ => h⟩, fun h => h.2 hv⟩

/-- `assert_valid` decides `Checks`. -/
theorem dec_assertValid (S : Setting E K D m w0 Z) {G : Nat → Prop} {N : Nat}
    (H : ∀ n, N ≤ n → ∀ r', ((∃ o, w0.objs[r']? = some o) ∨ Z ⟨.attr, []⟩) → ∀ w, InG w0 G w → Dec Z (ValidGiven E m w0 G r') (fun v => v.truthy = true)
      (run E n (.hpValidate r')) w) {r : Nat} {o : Obj} (ho : w0.objs[r]? = some o) :
    ∀ n nm p v, depth p + max (baseDepth K D w0) N ≤ n →
      (heldOr w0 r nm v ≠ .none → Part E w0 r nm p (heldOr w0 r nm v)) → ∀ w, InG w0 G w →
      Dec Z (Checks E m w0 (ValidGiven E m w0 G) nm r p v) (fun v => v.truthy = true)
        (run E n (.assertValid nm p r v)) w
  | 0, nm, p, v, hd, _, _, _ => by rw [depth_eq] at hd; omega
  | n + 1, nm, p, v, hd, hp, w, hg => by
      rw [depth_eq] at hd
      show Dec Z _ _ (assertValidBody E (run E n) nm p r v) w
      rw [assertValidBody_eq]
      by_cases hv : heldOr w0 r nm v = .none
      · have hb := dec_baseAssert S (by omega : baseDepth K D w0 ≤ n) ho hp hg.agree
        refine (dec_bind (Q := True) hb fun _ _ w' _ hs => ?_).congr ?_
        · have : tyAssert E (run E n) nm r v p.ty w' = (.ok (.bool true), w') := by
            have h1 := dec_held (hg.agree.trans hs.agree) ho nm v
            rw [hv] at h1
            cases p.ty <;> first | rfl | exact bind_ok h1
          exact ⟨w', Same.refl w', .inl ⟨trivial, .bool true, rfl, this⟩⟩
        · rw [checks_iff]
          simp [hv]
      · have hb := dec_baseAssert S (by omega : baseDepth K D w0 ≤ n) ho hp hg.agree
        refine (dec_bind hb fun _ _ w' _ hs => dec_tyAssert S ho hv p (hp hv)
          (fun q x hq hx w1 hg1 => dec_assertValid S H ho n nm q x (by omega) hx w1 hg1)
          (fun r' hx w1 hg1 => H n (by omega) r' hx w1 hg1) (hg.same hs)).congr ?_
        rw [checks_iff]
        simp only [hv, ne_eq, false_implies, true_and, not_false_eq_true, forall_const]

/-! ### One property -/

theorem validatorsOf_eq {w : World} (ha : Agree w0 w) {r : Nat} {o : Obj}
    (ho : w0.objs[r]? = some o) {o' : Obj} (ho' : w.objs[r]? = some o') (nm : PyStr) :
    ((if w.quar.has .validate then []
      else o'.listeners.filter (fun l => l.name == nm && l.mode == .validate)).map (·.fn)) =
    validatorsOf w0 r nm := by
  obtain ⟨o2, h2, e⟩ := ha.some ho
  rw [ho'] at h2; cases h2
  have hl : o'.listeners = o.listeners :=
    (congrArg Obj.listeners e : (bareO o').listeners = (bareO o).listeners)
  unfold validatorsOf
  rw [ho, hl, ← ha.quar]
  cases hq : w0.quar.validate <;> simp [Quar.has, hq]

theorem notify_loop (S : Setting E K D m w0 Z) {n : Nat} (hn : baseDepth K D w0 ≤ n) {r : Nat}
    {nm : PyStr} {v0 : Val} : ∀ (ls : List Listener) (v : Val) {w : World}, Agree w0 w →
    (∀ l ∈ ls, l.fn ∈ validatorsOf w0 r nm) →
    ∃ w', Same w w' ∧
      ((∃ v', Passes E m w0 r nm v0 (ls.map (·.fn)) v v' ∧
        foldML (notifyOne E (run E n) r .validate nm v0) v ls w = (.ok v', w')) ∨
       ((∀ v', ¬ Passes E m w0 r nm v0 (ls.map (·.fn)) v v') ∧ ∃ e, Z e ∧
        foldML (notifyOne E (run E n) r .validate nm v0) v ls w = (.error e, w')))
  | [], v, w, _, _ => ⟨w, Same.refl w, .inl ⟨v, .nil v, rfl⟩⟩
  | l :: ls, v, w, ha, hl => by
      have hc := S.calm.validator r nm l.fn v0 v (hl l (by simp))
      obtain ⟨s1, e1⟩ := S.prog hn hc
      unfold foldML notifyOne
      have hlog : Same w { w with trace := w.trace ++ [⟨r, .validate, nm, v0, v, l.fn⟩] } :=
        same_trace w _
      have ha1 := ha.trans hlog.agree
      cases h1 : (runProg E m (E.fn l.fn [.obj r, .str nm, v0, v, .str (s% "validate")]) w0).1 with
      | error e =>
        rw [h1] at e1
        obtain ⟨w2, h2, hs⟩ := s1.err ha1 e1
        refine ⟨w2, hlog.trans hs, .inr ⟨?_, e, hc.2 n ?_ e e1, bind_err h2⟩⟩
        · intro v' hp
          cases hp with
          | cons f fs v v1 v2 h _ => rw [h1] at h; cases h
        · unfold baseDepth at hn; omega
      | ok v1 =>
        rw [h1] at e1
        obtain ⟨w2, h2, hs⟩ := s1.ok ha1 e1
        obtain ⟨w3, hs3, h3⟩ := notify_loop S hn ls v1 (ha1.trans hs.agree)
          fun l' hl' => hl l' (by simp [hl'])
        refine ⟨w3, (hlog.trans hs).trans hs3, ?_⟩
        have hb : ∀ {α : Type} (f : Val → M α), ((do
            M.modify (fun w => { w with trace := w.trace ++ [⟨r, .validate, nm, v0, v, l.fn⟩] })
            callFn E (run E n) l.fn [.obj r, .str nm, v0, v, .str Mode.validate.toStr]) >>= f) w =
            f v1 w2 := fun f => bind_ok h2
        rw [hb]
        rcases h3 with ⟨v', hp, h4⟩ | ⟨hp, e, he, h4⟩
        · exact .inl ⟨v', .cons _ _ _ _ _ h1 hp, h4⟩
        · refine .inr ⟨fun v' h => ?_, e, he, h4⟩
          cases h with
          | cons f fs v v1' v2 h h' =>
            rw [h1] at h
            rw [← Except.ok.inj h] at h'
            exact hp v' h'

theorem notify_validate (S : Setting E K D m w0 Z) {n : Nat} (hn : baseDepth K D w0 ≤ n) {r : Nat}
    {o : Obj} (ho : w0.objs[r]? = some o) {nm : PyStr} {v : Val} {w : World} (ha : Agree w0 w) :
    ∃ w', Same w w' ∧
      ((∃ v', Passes E m w0 r nm v (validatorsOf w0 r nm) v v' ∧
        notify E (run E n) r .validate nm v v w = (.ok v', w')) ∨
       ((∀ v', ¬ Passes E m w0 r nm v (validatorsOf w0 r nm) v v') ∧ ∃ e, Z e ∧
        notify E (run E n) r .validate nm v v w = (.error e, w'))) := by
  obtain ⟨o', ho', _⟩ := ha.some ho
  have hv := validatorsOf_eq ha ho ho' nm
  have := notify_loop S hn (r := r) (nm := nm) (v0 := v) _ v ha (fun l hl => by
    rw [← hv]; exact List.mem_map_of_mem hl)
  rw [hv] at this
  unfold notify
  rw [bind_ok (getObj_some ho'), bind_ok (get_apply w)]
  exact this

theorem passes_det {r : Nat} {nm : PyStr} {v0 : Val} {fs : List FnId} {v a b : Val}
    (ha : Passes E m w0 r nm v0 fs v a) (hb : Passes E m w0 r nm v0 fs v b) : a = b := by
  induction ha with
  | nil v => cases hb; rfl
  | cons f fs v v1 v2 h _ ih =>
    cases hb with
    | cons f fs v v1' v2' h' hb' =>
      rw [h] at h'
      rw [← Except.ok.inj h'] at hb'
      exact ih hb'

theorem spec_depth (hp : Prompt E K D) {c : ClsId} {nm : PyStr} {e : Entry} {p : PropSpec}
    (hm : (nm, e) ∈ (E.classes c).props) (hs : specOf e = some p) : depth p ≤ D := by
  have := hp.depth _ _ hm
  cases e <;> simp only [specOf, Option.some.injEq, reduceCtorEq] at hs <;>
  · subst hs; exact this

theorem dec_entryEqual (S : Setting E K D m w0 Z) {n : Nat} (hn : baseDepth K D w0 ≤ n) {r : Nat}
    {o : Obj} (ho : w0.objs[r]? = some o) {nm : PyStr} {e : Entry}
    (hm : (nm, e) ∈ (E.classes o.cls).props) {v' : Val}
    (hp : Passes E m w0 r nm (held w0 r nm) (validatorsOf w0 r nm) (held w0 r nm) v')
    {w : World} (ha : Agree w0 w) {α : Type} {T : α → Prop} {Q : Prop} {k kf : M α}
    (hk : ∀ w', Same w w' → Dec Z Q T k w') (hf : ∀ w', Same w w' → Dec Z False T kf w') :
    Dec Z (EntrySame E m w0 e (held w0 r nm) v' ∧ Q) T (do
      let eq ← entryEqual (run E n) e (held w0 r nm) v'
      if eq.truthy then k else kf) w := by
  have key : ∀ p, specOf e = some p →
      (∀ a b, entryEqual (run E n) e a b = run E n (.propEqual p a b)) →
      (EntrySame E m w0 e (held w0 r nm) v' ↔
        ∃ t, (run E m (.propEqual p (held w0 r nm) v') w0).1 = .ok t ∧ t.truthy = true) →
      Dec Z (EntrySame E m w0 e (held w0 r nm) v' ∧ Q) T (do
        let eq ← entryEqual (run E n) e (held w0 r nm) v'
        if eq.truthy then k else kf) w := by
    intro p hs he hiff
    obtain ⟨s2, e2⟩ := S.propEqual hn (a := held w0 r nm) (b := v') (spec_depth S.prompt hm hs)
    rw [he]
    cases h3 : (run E m (.propEqual p (held w0 r nm) v') w0).1 with
    | error er =>
      have hor := S.calm.listened r nm o e p v' er ho hm hs hp h3
      rw [h3] at e2
      obtain ⟨w2, h4, hs2⟩ := s2.err ha e2
      refine ⟨w2, hs2, .inr ⟨?_, er, hor, bind_err h4⟩⟩
      rintro ⟨h, _⟩
      obtain ⟨t, ht, _⟩ := hiff.1 h
      rw [h3] at ht; cases ht
    | ok t =>
      rw [h3] at e2
      obtain ⟨w2, h4, hs2⟩ := s2.ok ha e2
      cases ht : t.truthy with
      | true =>
        obtain ⟨w3, hs3, h5⟩ := hk w2 hs2
        refine ⟨w3, hs2.trans hs3, ?_⟩
        rw [bind_ok h4]
        simp only [ht, if_true]
        exact h5.imp (fun x => ⟨⟨hiff.2 ⟨t, h3, ht⟩, x.1⟩, x.2⟩) (fun x => ⟨fun q => x.1 q.2, x.2⟩)
      | false =>
        obtain ⟨w3, hs3, ⟨h, _⟩ | ⟨_, er, hor, h5⟩⟩ := hf w2 hs2
        · exact h.elim
        · refine ⟨w3, hs2.trans hs3, .inr ⟨?_, er, hor, ?_⟩⟩
          · rintro ⟨h, _⟩
            obtain ⟨t', ht', h'⟩ := hiff.1 h
            rw [h3] at ht'
            rw [← Except.ok.inj ht', ht] at h'
            cases h'
          · rw [bind_ok h4]
            simp only [ht, Bool.false_eq_true, if_false]
            exact h5
  cases e with
  | renamed x =>
    show Dec Z (pyEq (held w0 r nm) v' = true ∧ Q) T ((pure (.bool (pyEq (held w0 r nm) v')) : M Val) >>= _) w
    unfold Dec
    rw [bind_ok (pure_apply _ _)]
    cases hq : pyEq (held w0 r nm) v' with
    | true =>
      obtain ⟨w3, hs3, h5⟩ := hk w (Same.refl w)
      refine ⟨w3, hs3, ?_⟩
      simp only [Val.truthy]
      exact h5.imp (fun x => ⟨⟨trivial, x.1⟩, x.2⟩) (fun x => ⟨fun q => x.1 q.2, x.2⟩)
    | false =>
      obtain ⟨w3, hs3, ⟨h, _⟩ | ⟨_, er, hor, h5⟩⟩ := hf w (Same.refl w)
      · exact h.elim
      · refine ⟨w3, hs3, .inr ⟨fun h => by simp at h, er, hor, ?_⟩⟩
        simp only [Val.truthy, Bool.false_eq_true]
        exact h5
  | _ => exact key _ rfl (fun _ _ => rfl) Iff.rfl

theorem dec_gettableAssert (S : Setting E K D m w0 Z) {n : Nat} (hn : baseDepth K D w0 ≤ n) {r : Nat}
    {o : Obj} (ho : w0.objs[r]? = some o) {nm : PyStr} {e : Entry}
    (hm : (nm, e) ∈ (E.classes o.cls).props) {w : World} (ha : Agree w0 w) {P : Prop}
    (hP : P ↔ (held w0 r nm ≠ .none → match specOf e with
      | some p => Rechecks E m w0 nm p r (held w0 r nm)
      | none => pyEq (held w0 r nm) (held w0 r nm) = true)) :
    Dec Z P (fun v => v.truthy = true) (gettableAssert E (run E n) nm e r) w := by
  refine Dec.congr hP.symm ?_
  unfold gettableAssert Dec
  rw [bind_ok (getStored_agree ha ho nm)]
  change Dec Z _ _ _ w
  by_cases hv : held w0 r nm = .none
  · simp only [hv, Val.isNone, if_true]
    exact dec_pure (fun h => absurd rfl h) rfl
  · rw [isNone_false hv]
    simp only [Bool.false_eq_true, if_false]
    have key : ∀ p, specOf e = some p → Dec Z (Rechecks E m w0 nm p r (held w0 r nm))
        (fun v => v.truthy = true) (do
          let v' ← run E n (.validate nm p (some r) (held w0 r nm))
          let eq ← run E n (.propEqual p (held w0 r nm) v')
          if eq.truthy then pure (Val.bool true)
          else raiseVal E (run E n) (some (s% "invalid")) (some nm) (some r)) w := by
      intro p hs
      exact dec_recheck S hn ho (.root o e p ho hm hs) hv ha rfl
    cases e with
    | renamed x =>
      show Dec Z _ _ ((pure (held w0 r nm) : M Val) >>= _) w
      unfold Dec
      rw [bind_ok (pure_apply _ _)]
      show Dec Z _ _ ((pure (.bool (pyEq (held w0 r nm) (held w0 r nm))) : M Val) >>= _) w
      unfold Dec
      rw [bind_ok (pure_apply _ _)]
      cases hq : pyEq (held w0 r nm) (held w0 r nm) with
      | true => exact dec_pure (fun _ => rfl) rfl
      | false => 
        exact dec_raiseVal (T := fun v : Val => v.truthy = true) (w := w) S.looks.hook S.raised (run E n)
          (P := held w0 r nm ≠ .none → false = true) (fun h => by cases h hv) ho ha (some (s% "invalid")) (some nm)
    | _ => exact (key _ rfl).congr ⟨fun h _ => h, fun h => h hv⟩

/-- One property of `_validate_props`, up to the handler. -/
theorem dec_propStep (S : Setting E K D m w0 Z) {G : Nat → Prop} {N : Nat}
    (H : ∀ n, N ≤ n → ∀ r', ((∃ o, w0.objs[r']? = some o) ∨ Z ⟨.attr, []⟩) → ∀ w, InG w0 G w → Dec Z (ValidGiven E m w0 G r') (fun v => v.truthy = true)
      (run E n (.hpValidate r')) w) {n : Nat} (hn : D + max (baseDepth K D w0) N ≤ n) {r : Nat}
    {o : Obj} (ho : w0.objs[r]? = some o) {nm : PyStr} {e : Entry}
    (hm : (nm, e) ∈ (E.classes o.cls).props) {w : World} (hg : InG w0 G w) :
    Dec Z (PropOk E m w0 (ValidGiven E m w0 G) r nm e) (fun _ => True) (do
      let v ← getStored r nm
      if v.isNone then pure () else do
        let v' ← notify E (run E n) r .validate nm v v
        let eq ← entryEqual (run E n) e v v'
        if eq.truthy then pure ()
        else raiseVal E (run E n) (some (s% "invalid")) (some nm) (some r)
      let ok ← entryAssert E (run E n) nm e r
      if ok.truthy then pure ()
      else raiseVal E (run E n) (some (s% "invalid")) (some nm) (some r)) w := by
  have hb : baseDepth K D w0 ≤ n := by omega
  have hh := S.looks.hook
  -- the second part
  have h2 : ∀ w', InG w0 G w' → Dec Z (EntryOk E m w0 (ValidGiven E m w0 G) r nm e)
      (fun _ => True) (do
        let ok ← entryAssert E (run E n) nm e r
        if ok.truthy then pure ()
        else raiseVal E (run E n) (some (s% "invalid")) (some nm) (some r) : M Unit) w' := by
    intro w' hg'
    have fin : ∀ {P : Prop} {c : M Val}, Dec Z P (fun v => v.truthy = true) c w' →
        Dec Z P (fun _ => True) (do
          let ok ← c
          if ok.truthy then pure ()
          else raiseVal E (run E n) (some (s% "invalid")) (some nm) (some r) : M Unit) w' := by
      intro P c hc
      refine (dec_bind (Q := True) hc fun _ a w2 ha hs => ?_).congr (by simp)
      simp only [ha, if_true]
      exact dec_pure trivial trivial
    refine fin ?_
    cases e with
    | «mutable» p =>
      have hd : depth p ≤ D := spec_depth S.prompt hm rfl
      exact dec_assertValid S H ho n nm p .none (by omega)
        (fun _ => .root o _ p ho hm rfl) w' hg'
    | gettable p => exact dec_gettableAssert S hb ho hm hg'.agree Iff.rfl
    | dynamic p a b c => exact dec_gettableAssert S hb ho hm hg'.agree Iff.rfl
    | renamed x => exact dec_gettableAssert S hb ho hm hg'.agree Iff.rfl
  unfold PropOk Dec
  rw [bind_ok (getStored_agree hg.agree ho nm)]
  change Dec Z _ _ _ w
  by_cases hv : held w0 r nm = .none
  · simp only [isNone_iff.2 hv, if_true]
    exact (h2 w hg).congr ⟨fun h => ⟨fun h' => absurd hv h', h⟩, fun h => h.2⟩
  · simp only [isNone_false hv, Bool.false_eq_true, if_false]
    obtain ⟨w1, hs1, ⟨v', hp, h1⟩ | ⟨hp, er, hor, h1⟩⟩ :=
      notify_validate S hb ho (nm := nm) (v := held w0 r nm) hg.agree
    · have h3 := dec_entryEqual S hb ho hm hp (hg.agree.trans hs1.agree)
        (k := do
          let ok ← entryAssert E (run E n) nm e r
          if ok.truthy then pure ()
          else raiseVal E (run E n) (some (s% "invalid")) (some nm) (some r))
        (kf := do
          let x : Unit ← raiseVal E (run E n) (some (s% "invalid")) (some nm) (some r)
          let ok ← entryAssert E (run E n) nm e r
          if ok.truthy then pure ()
          else raiseVal E (run E n) (some (s% "invalid")) (some nm) (some r))
        (fun w' hs => h2 w' ((hg.same hs1).same hs)) (fun w' hs => (dec_bind (P := False) (Q := True)
          (T := fun _ => True) (dec_raiseVal hh S.raised _ (fun h => h) ho ((hg.agree.trans hs1.agree).trans hs.agree) _ _) (fun h => h.elim)).congr (by simp))
      obtain ⟨w2, hs2, h4⟩ := h3
      refine ⟨w2, hs1.trans hs2, ?_⟩
      rw [bind_ok h1]
      refine h4.imp (fun x => ⟨⟨fun _ => ⟨v', hp, x.1.1⟩, x.1.2⟩, x.2⟩) (fun x => ⟨fun q => ?_, x.2⟩)
      obtain ⟨v'', hp', he⟩ := q.1 hv
      rw [passes_det hp' hp] at he
      exact x.1 ⟨he, q.2⟩
    · refine ⟨w1, hs1, .inr ⟨fun q => ?_, er, hor, bind_err h1⟩⟩
      obtain ⟨v'', hp', _⟩ := q.1 hv
      exact hp v'' hp'

/-! ### Collecting errors -/

/-- The errors `r` has collected, with `ts` added. -/
def addTo (r : Nat) (ts : List ErrTuple) (w : World) : World :=
  w.setObj r (fun o => { o with errs := o.errs.map (· ++ ts) })

/-- Nothing but the errors `r` has collected changes. -/
def Grew (r : Nat) (ts : List ErrTuple) (w w' : World) : Prop := Same (addTo r ts w) w'

theorem addTo_get {r : Nat} {ts : List ErrTuple} {w : World} {x : Nat} :
    (addTo r ts w).objs[x]? = (w.objs[x]?).map fun o =>
      if r = x then { o with errs := o.errs.map (· ++ ts) } else o := by
  unfold addTo World.setObj
  simp only [List.getElem?_modify]
  cases w.objs[x]? with
  | none => rfl
  | some o => by_cases h : r = x <;> simp [h]

theorem agree_addTo {r : Nat} {ts : List ErrTuple} {w : World} : Agree w (addTo r ts w) := by
  rw [agree_iff]
  refine ⟨?_, rfl, rfl, rfl, rfl⟩
  apply List.ext_getElem?
  intro j
  simp only [List.getElem?_map, addTo_get]
  cases w.objs[j]? with
  | none => rfl
  | some o => by_cases h : r = j <;> simp [h, bareO]

theorem addTo_addTo {r : Nat} {ts us : List ErrTuple} {w : World} :
    addTo r us (addTo r ts w) = addTo r (ts ++ us) w := by
  unfold addTo
  rw [setObj_setObj]
  congr 1
  funext o
  cases o.errs <;> simp

theorem addTo_nil {r : Nat} {w : World} : addTo r [] w = w := by
  unfold addTo World.setObj
  have : w.objs.modify r (fun o => { o with errs := o.errs.map (· ++ []) }) = w.objs := by
    apply List.ext_getElem?
    intro j
    simp only [List.getElem?_modify]
    cases w.objs[j]? with
    | none => rfl
    | some o => by_cases h : r = j <;> simp [h]
  rw [this]

theorem busy_addTo {r : Nat} {ts : List ErrTuple} {w : World} {x : Nat} :
    Busy (addTo r ts w) x ↔ Busy w x := by
  unfold Busy
  rw [addTo_get]
  constructor
  · rintro ⟨o, h, hg⟩
    cases e : w.objs[x]? with
    | none => rw [e] at h; cases h
    | some a =>
      rw [e] at h
      simp only [Option.map_some, Option.some.injEq] at h
      refine ⟨a, rfl, ?_⟩
      subst h
      split at hg <;> exact hg
  · rintro ⟨o, h, hg⟩
    rw [h]
    refine ⟨_, rfl, ?_⟩
    split <;> exact hg

theorem same_addTo {r : Nat} {ts : List ErrTuple} {w w' : World} (h : Same w w') :
    Same (addTo r ts w) (addTo r ts w') := by
  refine ⟨(agree_addTo.symm.trans h.agree).trans agree_addTo, fun x o1 o2 h1 h2 => ?_, ?_⟩
  rotate_left
  · obtain ⟨hs, e, n⟩ := h.hooks
    exact ⟨hs, e, fun x hx => by rw [busy_addTo]; exact n x hx⟩
  rw [addTo_get] at h1 h2
  cases e1 : w.objs[x]? with
  | none => rw [e1] at h1; cases h1
  | some a =>
    cases e2 : w'.objs[x]? with
    | none => rw [e2] at h2; cases h2
    | some b =>
      rw [e1] at h1; rw [e2] at h2
      simp only [Option.map_some, Option.some.injEq] at h1 h2
      have := h.gv x a b e1 e2
      subst h1 h2
      split
      · exact ⟨this.1, fun g => by simp only [this.2 g]⟩
      · exact this

theorem grew_refl {r : Nat} {w : World} : Grew r [] w w := by
  unfold Grew; rw [addTo_nil]; exact Same.refl w

theorem grew_same {r : Nat} {w w' : World} (h : Same w w') : Grew r [] w w' := by
  unfold Grew; rw [addTo_nil]; exact h

theorem Grew.trans {r : Nat} {ts us : List ErrTuple} {a b c : World} (h : Grew r ts a b)
    (k : Grew r us b c) : Grew r (ts ++ us) a c := by
  unfold Grew at *
  rw [← addTo_addTo]
  exact (same_addTo h).trans k

theorem Grew.agree {r : Nat} {ts : List ErrTuple} {a b : World} (h : Grew r ts a b) : Agree a b :=
  agree_addTo.trans (Same.agree h)

theorem InG.grew {G : Nat → Prop} {r : Nat} {ts : List ErrTuple} {w w' : World} (h : InG w0 G w)
    (hs : Grew r ts w w') : InG w0 G w' :=
  InG.same (w := addTo r ts w) ⟨h.agree.trans agree_addTo, fun x => busy_addTo.trans (h.busy x)⟩ hs

/-- `r` is being validated and has collected `es`. -/
def Collected (r : Nat) (es : List ErrTuple) (w : World) : Prop :=
  ∃ o, w.objs[r]? = some o ∧ o.gv = some true ∧ o.errs = some es

theorem Collected.same {r : Nat} {es : List ErrTuple} {w w' : World} (h : Collected r es w)
    (hs : Same w w') : Collected r es w' := by
  obtain ⟨o, ho, hg, he⟩ := h
  obtain ⟨o', ho', _⟩ := hs.agree.some ho
  have := hs.gv r o o' ho ho'
  exact ⟨o', ho', this.1.2 hg, by rw [this.2 hg, he]⟩

theorem Collected.grew {r : Nat} {es ts : List ErrTuple} {w w' : World} (h : Collected r es w)
    (hs : Grew r ts w w') : Collected r (es ++ ts) w' := by
  refine Collected.same ?_ hs
  obtain ⟨o, ho, hg, he⟩ := h
  refine ⟨{ o with errs := some (es ++ ts) }, ?_, hg, rfl⟩
  rw [addTo_get, ho]
  simp [he]

theorem addErrs_collected {r : Nat} {es : List ErrTuple} {w : World} (h : Collected r es w)
    (ts : List ErrTuple) : addErrs r ts w = (.ok (), addTo r ts w) := by
  obtain ⟨o, ho, hg, he⟩ := h
  unfold addErrs
  rw [bind_ok (getObj_some ho), he]
  show modObj r _ w = _
  rw [modObj_apply]
  unfold addTo World.setObj
  have : w.objs.modify r (fun o => { o with errs := some (es ++ ts) }) =
      w.objs.modify r (fun o => { o with errs := o.errs.map (· ++ ts) }) := by
    apply List.ext_getElem?
    intro j
    simp only [List.getElem?_modify]
    by_cases h : r = j
    · subst h; simp [ho, he]
    · simp [h]
  rw [this]

/-- What `_validate_props` reports: the properties up to `rest` contributed
`tss`, and `rest` is empty unless its first check raised something else. -/
structure PropsReport (Z : PyErr → Prop) (P : PyStr × Entry → Prop) (ps : List (PyStr × Entry))
    (tss : List (List ErrTuple)) (x : Except PyErr Unit) : Prop where
  ok : x = .ok () → Matched (fun ne ts => P ne ↔ ts = []) ps tss
  err : ∀ e, x = .error e → Z e ∧ e.kind ≠ .validation ∧ ∃ done ne rest,
    ps = done ++ ne :: rest ∧ Matched (fun ne ts => P ne ↔ ts = []) done tss ∧ ¬ P ne

theorem props_loop (S : Setting E K D m w0 Z) {G : Nat → Prop} {N : Nat}
    (H : ∀ n, N ≤ n → ∀ r', ((∃ o, w0.objs[r']? = some o) ∨ Z ⟨.attr, []⟩) → ∀ w, InG w0 G w → Dec Z (ValidGiven E m w0 G r') (fun v => v.truthy = true)
      (run E n (.hpValidate r')) w) {n : Nat} (hn : D + max (baseDepth K D w0) N ≤ n) {r : Nat}
    {o : Obj} (ho : w0.objs[r]? = some o) : ∀ (ps : List (PyStr × Entry)) {w : World},
    (∀ ne ∈ ps, ne ∈ (E.classes o.cls).props) → InG w0 G w → ∀ {es}, Collected r es w →
    ∃ w' tss, Grew r tss.flatten w w' ∧ (forML (validatePropStep E (run E n) r) ps w).2 = w' ∧
      PropsReport Z (fun ne => PropOk E m w0 (ValidGiven E m w0 G) r ne.1 ne.2) ps tss
        (forML (validatePropStep E (run E n) r) ps w).1
  | [], w, _, _, _, _ => ⟨w, [], grew_refl, rfl, ⟨fun _ => .nil, fun e h => by cases h⟩⟩
  | ne :: ps, w, hm, hg, es, hc => by
      obtain ⟨w1, hs1, h1⟩ := dec_propStep S H hn ho (hm ne (by simp)) hg
      have hstep : (∃ w2 ts, Grew r ts w w2 ∧ validatePropStep E (run E n) r ne w = (.ok (), w2) ∧
            (PropOk E m w0 (ValidGiven E m w0 G) r ne.1 ne.2 ↔ ts = [])) ∨
          (∃ e, Z e ∧ e.kind ≠ .validation ∧
            validatePropStep E (run E n) r ne w = (.error e, w1) ∧
            ¬ PropOk E m w0 (ValidGiven E m w0 G) r ne.1 ne.2) := by
        unfold validatePropStep
        rcases h1 with ⟨hP, a, _, h1⟩ | ⟨hP, e, he, h1⟩
        · exact .inl ⟨w1, [], grew_same hs1, catchIf_ok h1, by simp [hP]⟩
        · by_cases hk : e.kind = .validation
          · left
            have hc1 := hc.same hs1
            refine ⟨addTo r e.tuples w1, e.tuples, same_addTo hs1, ?_, ?_⟩
            · rw [catchIf_err h1 (by simp [hk])]
              obtain ⟨o1, ho1, hg1, he1⟩ := hc1
              rw [bind_ok (getObj_some ho1), he1]
              exact addErrs_collected ⟨o1, ho1, hg1, he1⟩ _
            · exact ⟨fun h => absurd h hP, fun h => absurd h ((S.ordinary e he).2 hk)⟩
          · exact .inr ⟨e, he, hk, catchIf_pass h1 (by simp [hk]), hP⟩
      unfold forML
      rcases hstep with ⟨w2, ts, hg2, h2, hiff⟩ | ⟨e, he, hk, h2, hP⟩
      · rw [bind_ok h2]
        obtain ⟨w3, tss, hg3, h3, rep⟩ := props_loop S H hn ho ps (fun x hx => hm x (by simp [hx]))
          (hg.grew hg2) (hc.grew hg2)
        refine ⟨w3, ts :: tss, by simpa using hg2.trans hg3, h3, ⟨fun h => .cons hiff (rep.ok h), ?_⟩⟩
        intro e he
        obtain ⟨h4, h5, done, ne', rest, h6, h7, h8⟩ := rep.err e he
        exact ⟨h4, h5, ne :: done, ne', rest, by rw [h6]; rfl, .cons hiff h7, h8⟩
      · rw [bind_err h2]
        refine ⟨w1, [], grew_same hs1, rfl, ⟨fun h => (by cases h), fun e' he' => ?_⟩⟩
        cases he'
        exact ⟨he, hk, [], ne, ps, rfl, .nil, hP⟩

theorem matched_flatten {α β : Type} {P : α → Prop} {as : List α} {bss : List (List β)}
    (h : Matched (fun a bs => P a ↔ bs = []) as bss) : bss.flatten = [] ↔ ∀ a ∈ as, P a := by
  induction h with
  | nil => simp
  | cons h _ ih => simp [ih, h]

/-- `x` among the class validators is satisfied. -/
def StepOk (E : Env) (m : Nat) (w0 : World) (R : Nat → Prop) (r : Nat) (o : Obj) :
    Option FnId → Prop
  | none => ∀ ne ∈ (E.classes o.cls).props, PropOk E m w0 R r ne.1 ne.2
  | some f => ValidatorOk E m w0 r f

/-- Calling one class validator. -/
def validatorBody (E : Env) (rec : Rec) (r : Nat) (x : Option FnId) : M Unit := do
  let valid ← (match x with
    | none => rec (.validateProps r)
    | some f => callFn E rec f [.obj r])
  match valid with
  | .bool false => raiseVal E rec none none (some r)
  | _ => pure ()

/-- What is done with its outcome. -/
def collect (r : Nat) (nv : Option PyErr) : Except PyErr Unit → M (Option PyErr)
  | .ok () => pure nv
  | .error e =>
      if e.kind = .validation then do
        addErrs r e.tuples
        pure nv
      else if e.kind.isGeneric then pure (nv.or (some e))
      else M.raise e

theorem validatorStep_eq (rec : Rec) (r : Nat) (nv : Option PyErr) (x : Option FnId) :
    validatorStep E rec r nv x = M.attempt (validatorBody E rec r x) >>= collect r nv := by
  unfold validatorStep validatorBody
  congr 1

theorem validatorBody_false {rec : Rec} {r : Nat} {x : Option FnId} {w w1 : World}
    (h : (match x with
      | none => rec (.validateProps r)
      | some f => callFn E rec f [.obj r]) w = (.ok (.bool false), w1)) :
    validatorBody E rec r x w = raiseVal E rec none none (some r) w1 := by
  unfold validatorBody
  exact bind_ok h

theorem validatorBody_ok {rec : Rec} {r : Nat} {x : Option FnId} {w w1 : World} {v : Val}
    (h : (match x with
      | none => rec (.validateProps r)
      | some f => callFn E rec f [.obj r]) w = (.ok v, w1)) (hv : v ≠ .bool false) :
    validatorBody E rec r x w = (.ok (), w1) := by
  unfold validatorBody
  refine (bind_ok h).trans ?_
  split
  · exact absurd rfl hv
  · rfl

theorem validatorBody_err {rec : Rec} {r : Nat} {x : Option FnId} {w w1 : World} {e : PyErr}
    (h : (match x with
      | none => rec (.validateProps r)
      | some f => callFn E rec f [.obj r]) w = (.error e, w1)) :
    validatorBody E rec r x w = (.error e, w1) := by
  unfold validatorBody
  exact bind_err h

theorem Spec.Reported.left {R : Nat → Prop} {r : Nat} {o : Obj} {ts : List ErrTuple} (us : List ErrTuple)
    (h : Reported E m w0 R r o ts) : Reported E m w0 R r o (us ++ ts) := by
  obtain ⟨pre, tss, post, e, hm⟩ := h
  exact ⟨us ++ pre, tss, post, by rw [e]; simp, hm⟩

theorem Spec.Reported.right {R : Nat → Prop} {r : Nat} {o : Obj} {ts : List ErrTuple} (us : List ErrTuple)
    (h : Reported E m w0 R r o ts) : Reported E m w0 R r o (ts ++ us) := by
  obtain ⟨pre, tss, post, e, hm⟩ := h
  exact ⟨pre, tss, post ++ us, by rw [e]; simp, hm⟩

/-- One class validator: errors collected, or a first other error. -/
theorem validator_step (S : Setting E K D m w0 Z) {G : Nat → Prop} {N : Nat}
    (H : ∀ n, N ≤ n → ∀ r', ((∃ o, w0.objs[r']? = some o) ∨ Z ⟨.attr, []⟩) → ∀ w, InG w0 G w → Dec Z (ValidGiven E m w0 G r') (fun v => v.truthy = true)
      (run E n (.hpValidate r')) w) {n : Nat} (hn : D + max (baseDepth K D w0) N + 1 ≤ n) {r : Nat}
    {o : Obj} (ho : w0.objs[r]? = some o) (nv : Option PyErr) (x : Option FnId)
    (hx : x ∈ (E.classes o.cls).validators) {w : World} (hg : InG w0 G w) {es : List ErrTuple}
    (hc : Collected r es w) :
    ∃ w' ts nv', Grew r ts w w' ∧ validatorStep E (run E n) r nv x w = (.ok nv', w') ∧
      (ts = [] ∧ nv' = nv ∨ ¬ StepOk E m w0 (ValidGiven E m w0 G) r o x) ∧
      (ts = [] ∧ nv' = none → nv = none ∧ StepOk E m w0 (ValidGiven E m w0 G) r o x) ∧
      (∀ e, nv' = some e → nv = some e ∨ (Z e ∧ e.kind ≠ .validation)) ∧
      ((∀ e, Z e → e.kind = .validation) → x = none →
        Reported E m w0 (ValidGiven E m w0 G) r o ts) := by
  obtain ⟨n, rfl⟩ : ∃ k, n = k + 1 := ⟨n - 1, by omega⟩
  have hh := S.looks.hook
  rw [validatorStep_eq]
  -- what the body does
  have key : ∃ w1 ts, Grew r ts w w1 ∧
      ((∀ e, Z e → e.kind = .validation) → x = none →
        Reported E m w0 (ValidGiven E m w0 G) r o ts) ∧ (
      (validatorBody E (run E (n + 1)) r x w = (.ok (), w1) ∧
          (StepOk E m w0 (ValidGiven E m w0 G) r o x ↔ ts = [])) ∨
      (∃ e, Z e ∧ validatorBody E (run E (n + 1)) r x w = (.error e, w1) ∧
          ¬ StepOk E m w0 (ValidGiven E m w0 G) r o x)) := by
    cases x with
    | none =>
      obtain ⟨o', ho', eo⟩ := hg.agree.some ho
      have hcls : o'.cls = o.cls := (congrArg Obj.cls eo : (bareO o').cls = (bareO o).cls)
      obtain ⟨w1, tss, hg1, h1, rep⟩ := props_loop S H (by omega : D + max (baseDepth K D w0) N ≤ n) ho
        (E.classes o.cls).props (fun _ h => h) hg hc
      have hrep : (∀ e, Z e → e.kind = .validation) → none = none (α := FnId) →
          Reported E m w0 (ValidGiven E m w0 G) r o tss.flatten := by
        intro hz _
        refine ⟨[], tss, [], by simp, ?_⟩
        cases hx : (forML (validatePropStep E (run E n) r) (E.classes o.cls).props w).1 with
        | ok u => exact rep.ok hx
        | error e =>
          obtain ⟨h2, h3, _⟩ := rep.err e hx
          exact absurd (hz e h2) h3
      refine ⟨w1, tss.flatten, hg1, hrep, ?_⟩
      have hrun : run E (n + 1) (.validateProps r) w = (do
          forML (validatePropStep E (run E n) r) (E.classes o.cls).props
          pure (Val.bool true)) w := by
        show validatePropsBody E (run E n) r w = _
        unfold validatePropsBody
        rw [bind_ok (getObj_some ho'), hcls]
      cases hx : (forML (validatePropStep E (run E n) r) (E.classes o.cls).props w).1 with
      | ok u =>
        left
        have hl : forML (validatePropStep E (run E n) r) (E.classes o.cls).props w = (.ok u, w1) := by
          rw [← hx, ← h1]
        rw [bind_ok hl] at hrun
        refine ⟨?_, ?_⟩
        · exact validatorBody_ok hrun (by simp)
        · exact (matched_flatten (rep.ok (by rw [hx]))).symm
      | error e =>
        right
        have hl : forML (validatePropStep E (run E n) r) (E.classes o.cls).props w = (.error e, w1) := by
          rw [← hx, ← h1]
        rw [bind_err hl] at hrun
        obtain ⟨h2, h3, done, ne, rest, h4, h5, h6⟩ := rep.err e hx
        refine ⟨e, h2, ?_, ?_⟩
        · exact validatorBody_err hrun
        · intro h
          exact h6 (h ne (by rw [h4]; simp))
    | some f =>
      have hcv := S.calm.classValidator r o f ho hx
      obtain ⟨s1, e1⟩ := S.prog (by omega : baseDepth K D w0 ≤ n + 1) hcv
      cases h1 : (runProg E m (E.fn f [.obj r]) w0).1 with
      | error e =>
        rw [h1] at e1
        obtain ⟨w1, h2, hs⟩ := s1.err hg.agree e1
        refine ⟨w1, [], grew_same hs, (fun _ h => by cases h), .inr ⟨e, hcv.2 (n + 1) ?_ e e1, ?_, ?_⟩⟩
        · unfold baseDepth at hn; omega
        · exact validatorBody_err h2
        · rintro ⟨v, hv, _⟩
          rw [h1] at hv; cases hv
      | ok v =>
        rw [h1] at e1
        obtain ⟨w1, h2, hs⟩ := s1.ok hg.agree e1
        have h2 : callFn E (run E (n + 1)) f [.obj r] w = (.ok v, w1) := h2
        by_cases hv : v = .bool false
        · subst hv
          obtain ⟨w2, hs2, ⟨h, _⟩ | ⟨_, e, he, h3⟩⟩ := dec_raiseVal (α := Unit) (T := fun _ => True)
            (w := w1) hh S.raised (run E (n + 1)) (fun h : False => h) ho (hg.agree.trans hs.agree) none none
          · exact h.elim
          · refine ⟨w2, [], grew_same (hs.trans hs2), (fun _ h => by cases h), .inr ⟨e, he, ?_, ?_⟩⟩
            · rw [validatorBody_false (x := some f) h2, h3]
            · rintro ⟨v', hv', hne⟩
              rw [h1] at hv'
              rw [← Except.ok.inj hv'] at hne
              exact hne rfl
        · refine ⟨w1, [], grew_same hs, (fun _ h => by cases h), .inl ⟨?_, ?_⟩⟩
          · exact validatorBody_ok h2 hv
          · simp only [iff_true]
            exact ⟨v, h1, hv⟩
  have att : ∀ {y : Except PyErr Unit} {w1 : World}, validatorBody E (run E (n + 1)) r x w = (y, w1) →
      (M.attempt (validatorBody E (run E (n + 1)) r x) >>= collect r nv) w = collect r nv y w1 := by
    intro y w1 h
    refine bind_ok (a := y) ?_
    rw [attempt_apply, h]
  obtain ⟨w1, ts, hg1, hrep, ⟨h1, hiff⟩ | ⟨e, he, h1, hno⟩⟩ := key
  · refine ⟨w1, ts, nv, hg1, ?_, ?_, fun h => ⟨h.2, hiff.2 h.1⟩, fun e h => .inl h, hrep⟩
    · rw [att h1]; rfl
    · by_cases h : ts = []
      · exact .inl ⟨h, rfl⟩
      · exact .inr fun h' => h (hiff.1 h')
  · by_cases hk : e.kind = .validation
    · refine ⟨addTo r e.tuples w1, ts ++ e.tuples, nv, hg1.trans (Same.refl _), ?_, .inr hno,
        ?_, fun e h => .inl h, fun hz hx => (hrep hz hx).right _⟩
      · rw [att h1]
        unfold collect
        simp only [hk, if_true]
        exact bind_ok (addErrs_collected (hc.grew hg1) _)
      · intro h
        exact absurd (List.append_eq_nil_iff.1 h.1).2 ((S.ordinary e he).2 hk)
    · refine ⟨w1, ts, nv.or (some e), hg1, ?_, .inr hno, ?_, ?_, hrep⟩
      · rw [att h1]
        unfold collect
        simp only [hk, if_false, (S.ordinary e he).1, if_true]
        rfl
      · intro h
        cases nv <;> simp at h
      · intro e' h
        cases nv with
        | none => simp at h; subst h; exact .inr ⟨he, hk⟩
        | some a => simp at h; subst h; exact .inl rfl

theorem validators_loop (S : Setting E K D m w0 Z) {G : Nat → Prop} {N : Nat}
    (H : ∀ n, N ≤ n → ∀ r', ((∃ o, w0.objs[r']? = some o) ∨ Z ⟨.attr, []⟩) → ∀ w, InG w0 G w → Dec Z (ValidGiven E m w0 G r') (fun v => v.truthy = true)
      (run E n (.hpValidate r')) w) {n : Nat} (hn : D + max (baseDepth K D w0) N + 1 ≤ n) {r : Nat}
    {o : Obj} (ho : w0.objs[r]? = some o) : ∀ (xs : List (Option FnId)) (nv : Option PyErr) {w : World},
    (∀ x ∈ xs, x ∈ (E.classes o.cls).validators) → InG w0 G w → ∀ {es}, Collected r es w →
    ∃ w' ts nv', Grew r ts w w' ∧ foldML (validatorStep E (run E n) r) nv xs w = (.ok nv', w') ∧
      ((ts = [] ∧ nv' = none) ↔ (nv = none ∧ ∀ x ∈ xs, StepOk E m w0 (ValidGiven E m w0 G) r o x)) ∧
      (∀ e, nv' = some e → nv = some e ∨ (Z e ∧ e.kind ≠ .validation)) ∧
      ((∀ e, Z e → e.kind = .validation) → none ∈ xs →
        Reported E m w0 (ValidGiven E m w0 G) r o ts)
  | [], nv, w, _, _, _, _ => ⟨w, [], nv, grew_refl, rfl, by simp, fun e h => .inl h, fun _ h => by cases h⟩
  | x :: xs, nv, w, hm, hg, es, hc => by
      obtain ⟨w1, ts, nv1, hg1, h1, ha, hb, he, hrep⟩ := validator_step S H hn ho nv x (hm x (by simp)) hg hc
      obtain ⟨w2, us, nv2, hg2, h2, hiff, he2, hrep2⟩ := validators_loop S H hn ho xs nv1
        (fun y hy => hm y (by simp [hy])) (hg.grew hg1) (hc.grew hg1)
      refine ⟨w2, ts ++ us, nv2, hg1.trans hg2, ?_, ?_, ?_, ?_⟩
      · unfold foldML; rw [bind_ok h1]; exact h2
      · constructor
        · rintro ⟨h, h'⟩
          obtain ⟨q1, q2⟩ := List.append_eq_nil_iff.1 h
          obtain ⟨q3, q4⟩ := hiff.1 ⟨q2, h'⟩
          obtain ⟨q5, q6⟩ := hb ⟨q1, q3⟩
          refine ⟨q5, fun y hy => ?_⟩
          rcases List.mem_cons.1 hy with rfl | hy
          · exact q6
          · exact q4 y hy
        · rintro ⟨h, h'⟩
          rcases ha with ⟨q1, q2⟩ | q
          · obtain ⟨q3, q4⟩ := hiff.2 ⟨by rw [q2, h], fun y hy => h' y (by simp [hy])⟩
            exact ⟨by rw [q1, q3]; rfl, q4⟩
          · exact absurd (h' x (by simp)) q
      · intro e h
        rcases he2 e h with h | h
        · exact he e h
        · exact .inr h
      · intro hz hx
        rcases List.mem_cons.1 hx with hx | hx
        · exact (hrep hz hx.symm).right us
        · exact (hrep2 hz hx).left ts

/-! ### validate() -/

/-- Instances that are not being validated. -/
def idleGv (w : World) : Nat := w.objs.countP (fun o => !(o.gv == some true))

theorem countP_same {α : Type} {p : α → Bool} : ∀ {l1 l2 : List α}, l1.length = l2.length →
    (∀ (i : Nat) (a b : α), l1[i]? = some a → l2[i]? = some b → p a = p b) → l1.countP p = l2.countP p
  | [], [], _, _ => rfl
  | x :: xs, y :: ys, hl, h => by
      have h0 := h 0 x y rfl rfl
      have := countP_same (l1 := xs) (l2 := ys) (by simpa using hl)
        fun i a b ha hb => h (i + 1) a b (by simpa using ha) (by simpa using hb)
      rw [List.countP_cons, List.countP_cons, this, h0]

theorem idleGv_inG {G : Nat → Prop} {w w' : World} (h : InG w0 G w) (h' : InG w0 G w') :
    idleGv w = idleGv w' := by
  refine countP_same (h.agree.symm.trans h'.agree).len fun i a b ha hb => ?_
  have e1 : a.gv = some true ↔ G i := by
    rw [← h.busy i]
    exact ⟨fun g => ⟨a, ha, g⟩, fun ⟨o, ho, g⟩ => by rw [ha] at ho; cases ho; exact g⟩
  have e2 : b.gv = some true ↔ G i := by
    rw [← h'.busy i]
    exact ⟨fun g => ⟨b, hb, g⟩, fun ⟨o, ho, g⟩ => by rw [hb] at ho; cases ho; exact g⟩
  have : a.gv = some true ↔ b.gv = some true := e1.trans e2.symm
  by_cases g : a.gv = some true
  · simp [g, this.1 g]
  · have g' : ¬ b.gv = some true := fun x => g (this.2 x)
    have x1 : (a.gv == some true) = false := by simpa using g
    have x2 : (b.gv == some true) = false := by simpa using g'
    rw [x1, x2]

/-- Marking `r`. -/
def mark (r : Nat) (w : World) : World :=
  w.setObj r (fun o => { o with gv := some true, errs := some [] })

theorem setObj_at {r : Nat} {f : Obj → Obj} {w : World} {x : Nat} :
    (w.setObj r f).objs[x]? = (w.objs[x]?).map fun o => if r = x then f o else o := by
  unfold World.setObj
  simp only [List.getElem?_modify]
  cases w.objs[x]? with
  | none => rfl
  | some o => by_cases h : r = x <;> simp [h]

theorem agree_setObj {r : Nat} {f : Obj → Obj} {w : World} (hf : ∀ o, bareO (f o) = bareO o) :
    Agree w (w.setObj r f) := by
  rw [agree_iff]
  refine ⟨?_, rfl, rfl, rfl, rfl⟩
  apply List.ext_getElem?
  intro j
  simp only [List.getElem?_map, setObj_at]
  cases w.objs[j]? with
  | none => rfl
  | some o => by_cases h : r = j <;> simp [h, hf]

theorem inG_mark {G : Nat → Prop} {w : World} (h : InG w0 G w) {r : Nat} {o : Obj}
    (ho : w.objs[r]? = some o) : InG w0 (fun x => G x ∨ x = r) (mark r w) := by
  refine ⟨h.agree.trans (agree_setObj fun _ => rfl), fun x => ?_⟩
  rw [← h.busy x]
  unfold Busy mark
  rw [setObj_at]
  constructor
  · rintro ⟨o1, h1, hg⟩
    cases e : w.objs[x]? with
    | none => rw [e] at h1; cases h1
    | some a =>
      rw [e] at h1
      simp only [Option.map_some, Option.some.injEq] at h1
      by_cases hx : r = x
      · exact .inr hx.symm
      · rw [if_neg hx] at h1
        exact .inl ⟨a, rfl, h1 ▸ hg⟩
  · rintro (⟨o1, h1, hg⟩ | rfl)
    · rw [h1]
      refine ⟨_, rfl, ?_⟩
      split
      · rfl
      · exact hg
    · rw [ho]
      exact ⟨_, rfl, by simp⟩

theorem idleGv_mark {w : World} {r : Nat} {o : Obj} (ho : w.objs[r]? = some o)
    (hg : (o.gv == some true) = false) : idleGv (mark r w) + 1 = idleGv w := by
  unfold idleGv mark World.setObj
  exact countP_modify ho (by rw [hg]; rfl) rfl

theorem collected_mark {w : World} {r : Nat} {o : Obj} (ho : w.objs[r]? = some o) :
    Collected r [] (mark r w) := by
  refine ⟨{ o with gv := some true, errs := some [] }, ?_, rfl, rfl⟩
  unfold mark; rw [setObj_at, ho]; simp

/-- After the marker is taken away again. -/
theorem same_clear {w w' : World} {r : Nat} {o : Obj} (ho : w.objs[r]? = some o)
    (hg : (o.gv == some true) = false) {ts : List ErrTuple} (h : Grew r ts (mark r w) w')
    (tss : List (List ErrTuple)) :
    Same w (clearValidating r { w' with hooks := w'.hooks ++ tss.map fun ts => (r, ts) }) := by
  have hnb : ¬ Busy w r := by
    rintro ⟨o1, h1, g1⟩
    rw [ho] at h1; cases h1
    rw [g1] at hg; cases hg
  have hag : Agree w (clearValidating r { w' with hooks := w'.hooks ++ tss.map fun ts => (r, ts) }) :=
    (((agree_setObj (f := fun o => { o with gv := some true, errs := some [] }) (r := r)
      fun _ => rfl).trans h.agree).trans rfl).trans (agree_setObj fun _ => rfl)
  have hho : ∃ hs, (clearValidating r { w' with hooks := w'.hooks ++ tss.map fun ts => (r, ts) }).hooks =
      w.hooks ++ hs ∧ ∀ h ∈ hs, ¬ Busy w h.1 := by
    obtain ⟨hs, e, n⟩ := Same.hooks h
    refine ⟨hs ++ tss.map fun ts => (r, ts), ?_, fun x hx => ?_⟩
    · show w'.hooks ++ _ = _
      rw [e, List.append_assoc]
      rfl
    · rcases List.mem_append.1 hx with hx | hx
      · intro hb
        refine n x hx ?_
        rw [busy_addTo]
        obtain ⟨o1, h1, g1⟩ := hb
        refine ⟨_, (setObj_at (w := w)).trans (by rw [h1]; rfl), ?_⟩
        split
        · rfl
        · exact g1
      · obtain ⟨ts, _, rfl⟩ := List.mem_map.1 hx
        exact hnb
  refine ⟨hag, fun x o1 o2 h1 h2 => ?_, hho⟩
  unfold clearValidating at h2
  rw [setObj_at] at h2
  change Option.map _ w'.objs[x]? = _ at h2
  cases e : w'.objs[x]? with
  | none => rw [e] at h2; cases h2
  | some b =>
    rw [e] at h2
    simp only [Option.map_some, Option.some.injEq] at h2
    by_cases hx : r = x
    · subst hx
      rw [ho] at h1; cases h1
      rw [if_pos rfl] at h2
      have : o.gv ≠ some true := by simpa using hg
      subst h2
      exact ⟨⟨fun h => (by cases h), fun h => absurd h this⟩, fun h => absurd h this⟩
    · rw [if_neg hx] at h2
      subst h2
      refine Same.gv h x o1 b ?_ e
      rw [addTo_get]
      unfold mark
      rw [setObj_at, h1]
      simp [hx]

theorem same_clear' {w w' : World} {r : Nat} {o : Obj} (ho : w.objs[r]? = some o)
    (hg : (o.gv == some true) = false) {ts : List ErrTuple} (h : Grew r ts (mark r w) w') :
    Same w (clearValidating r w') := by
  have := same_clear ho hg h []
  simpa using this

theorem runHook_none (hh : NoHook E) (rec : Rec) {r : Nat} {o : Obj} {w : World}
    (ho : w.objs[r]? = some o) (ts : List ErrTuple) :
    runHook E rec r ts w = (.ok (), { w with hooks := w.hooks ++ [(r, ts)] }) := by
  unfold runHook
  rw [bind_ok (getObj_some ho), bind_ok (modify_apply _ _), hh]
  rfl

/-- Depth for `k` instances that are not being validated. -/
def hpDepth (K D : Nat) (w0 : World) (k : Nat) : Nat := baseDepth K D w0 + 1 + k * (D + 2)

theorem hpDepth_succ (k : Nat) : hpDepth K D w0 (k + 1) = hpDepth K D w0 k + (D + 2) := by
  unfold hpDepth; rw [Nat.succ_mul]; omega

theorem locallyValid_iff {R : Nat → Prop} {r : Nat} {o : Obj} (ho : w0.objs[r]? = some o) :
    LocallyValid E m w0 R r ↔ ∀ x ∈ (E.classes o.cls).validators, StepOk E m w0 R r o x := by
  unfold LocallyValid
  constructor
  · rintro ⟨o', ho', h⟩ x hx
    rw [ho] at ho'; cases ho'
    have := h x hx
    cases x <;> exact this
  · intro h
    refine ⟨o, ho, fun x hx => ?_⟩
    have := h x hx
    cases x <;> exact this

/-- `validate()` decides validity. -/
theorem dec_hpValidate (S : Setting E K D m w0 Z) : ∀ k n, hpDepth K D w0 k ≤ n → ∀ r, ((∃ o, w0.objs[r]? = some o) ∨ Z ⟨.attr, []⟩) → ∀ {G w},
    InG w0 G w → idleGv w ≤ k →
    Dec Z (ValidGiven E m w0 G r) (fun v => v.truthy = true) (run E n (.hpValidate r)) w := by
  intro k
  induction k with
  | zero =>
    intro n hn r hex G w hg hk
    obtain ⟨n, rfl⟩ : ∃ j, n = j + 1 := ⟨n - 1, by unfold hpDepth at hn; omega⟩
    show Dec Z _ _ (hpValidateBody E (run E n) r) w
    unfold hpValidateBody
    cases ho : w.objs[r]? with
    | none =>
      refine ⟨w, Same.refl w, .inr ⟨?_, _, ?_, bind_err (getObj_none ho)⟩⟩
      · rintro ⟨S', hS, h⟩
        rcases h r hS with h | ⟨o, h, _⟩
        · obtain ⟨o, h, _⟩ := (hg.busy r).2 h
          rw [ho] at h; cases h
        · have := hg.agree.symm.none ho
          rw [h] at this; cases this
      · refine hex.resolve_left ?_
        rintro ⟨o, h⟩
        have := hg.agree.symm.none ho
        rw [h] at this; cases this
    | some o =>
      unfold Dec
      rw [bind_ok (getObj_some ho)]
      cases hgv : (o.gv == some true) with
      | true =>
        exact dec_pure (validGiven_of ((hg.busy r).1 ⟨o, ho, by simpa using hgv⟩)) rfl
      | false => have := idleGv_mark ho hgv; omega
  | succ k ih =>
    intro n hn r hex G w hg hk
    rw [hpDepth_succ] at hn
    obtain ⟨n, rfl⟩ : ∃ j, n = j + 1 := ⟨n - 1, by omega⟩
    show Dec Z _ _ (hpValidateBody E (run E n) r) w
    unfold hpValidateBody
    cases ho : w.objs[r]? with
    | none =>
      refine ⟨w, Same.refl w, .inr ⟨?_, _, ?_, bind_err (getObj_none ho)⟩⟩
      · rintro ⟨S', hS, h⟩
        rcases h r hS with h | ⟨o, h, _⟩
        · obtain ⟨o, h, _⟩ := (hg.busy r).2 h
          rw [ho] at h; cases h
        · have := hg.agree.symm.none ho
          rw [h] at this; cases this
      · refine hex.resolve_left ?_
        rintro ⟨o, h⟩
        have := hg.agree.symm.none ho
        rw [h] at this; cases this
    | some o =>
      unfold Dec
      rw [bind_ok (getObj_some ho)]
      cases hgv : (o.gv == some true) with
      | true =>
        exact dec_pure (validGiven_of ((hg.busy r).1 ⟨o, ho, by simpa using hgv⟩)) rfl
      | false =>
        simp only [Bool.false_eq_true, if_false]
        rw [bind_ok (modObj_apply _ _ _)]
        obtain ⟨o0, ho0, eo⟩ := hg.agree.symm.some ho
        have hcls : o.cls = o0.cls := (congrArg Obj.cls eo : (bareO o0).cls = (bareO o).cls).symm
        have hnG : ¬ G r := by
          intro h
          obtain ⟨o1, h1, g1⟩ := (hg.busy r).2 h
          rw [ho] at h1; cases h1
          rw [g1] at hgv; cases hgv
        have hgm := inG_mark hg ho
        have hidle := idleGv_mark ho hgv
        obtain ⟨w1, ts, nv, hg1, h1, hiff, he, _⟩ := validators_loop S (N := hpDepth K D w0 k)
          (fun n' hn' r' hx' w' hg' => ih n' hn' r' hx' hg' (by have := idleGv_inG hgm hg'; omega))
          (n := n) (by have : baseDepth K D w0 ≤ hpDepth K D w0 k := by unfold hpDepth; omega
                       omega) ho0 (E.classes o0.cls).validators none
          (fun _ h => h) hgm (collected_mark ho)
        rw [← locallyValid_iff ho0, ← validGiven_iff hnG] at hiff
        have hc1 := (collected_mark ho).grew hg1
        obtain ⟨o1, ho1, _, he1⟩ := hc1
        rw [List.nil_append] at he1
        rw [hcls]
        show ∃ w', Same w w' ∧ (_ ∨ _)
        have hfold : foldML (validatorStep E (run E n) r) none (E.classes o0.cls).validators (mark r w) =
            (.ok nv, w1) := h1
        by_cases hts : ts = []
        · cases nv with
          | none =>
            refine ⟨clearValidating r w1, same_clear' ho hgv hg1, .inl ⟨(hiff.1 ⟨hts, rfl⟩).2, .bool true, rfl, ?_⟩⟩
            rw [fin_apply]
            have : ((do
                let nv ← foldML (validatorStep E (run E n) r) none (E.classes o0.cls).validators
                raiseCollected E (run E n) r nv
                pure (Val.bool true)) : M Val) (mark r w) = (.ok (.bool true), w1) := by
              rw [bind_ok hfold]
              refine bind_ok (a := ()) (w' := w1) ?_
              unfold raiseCollected
              rw [bind_ok (getObj_some ho1), he1, hts]
              rfl
            exact congrArg (fun x : Except PyErr Val × World => (x.1, clearValidating r x.2)) this
          | some e =>
            have hor : Z e := ((he e rfl).resolve_left (by simp)).1
            refine ⟨clearValidating r w1, same_clear' ho hgv hg1, .inr ⟨?_, e, hor, ?_⟩⟩
            · intro h
              have := (hiff.2 ⟨rfl, h⟩).2
              cases this
            · rw [fin_apply]
              have : ((do
                  let nv ← foldML (validatorStep E (run E n) r) none (E.classes o0.cls).validators
                  raiseCollected E (run E n) r nv
                  pure (Val.bool true)) : M Val) (mark r w) = (.error e, w1) := by
                rw [bind_ok hfold]
                refine bind_err ?_
                unfold raiseCollected
                rw [bind_ok (getObj_some ho1), he1, hts]
                rfl
              exact congrArg (fun x : Except PyErr Val × World => (x.1, clearValidating r x.2)) this
        · refine ⟨_, same_clear ho hgv hg1 [ts], .inr ⟨?_, ⟨.validation, ts⟩, S.raised ts hts, ?_⟩⟩
          · intro h
            exact hts (hiff.2 ⟨rfl, h⟩).1
          · rw [fin_apply]
            have : ((do
                let nv ← foldML (validatorStep E (run E n) r) none (E.classes o0.cls).validators
                raiseCollected E (run E n) r nv
                pure (Val.bool true)) : M Val) (mark r w) =
                (.error ⟨.validation, ts⟩, { w1 with hooks := w1.hooks ++ [(r, ts)] }) := by
              rw [bind_ok hfold]
              refine bind_err ?_
              unfold raiseCollected
              rw [bind_ok (getObj_some ho1), he1]
              simp only [Option.getD_some, ne_eq, hts, not_false_eq_true, if_true]
              rw [bind_ok (runHook_none S.looks.hook _ ho1 ts)]
              rfl
            exact congrArg (fun x : Except PyErr Val × World => (x.1, clearValidating r x.2)) this

/-- What `validate()` raises, if all errors are ValidationErrors. -/
theorem hpValidate_report (S : Setting E K D m w0 Z) (hz : ∀ e, Z e → e.kind = .validation) {n r : Nat}
    {o : Obj} (ho : w0.objs[r]? = some o) (hgv : (o.gv == some true) = false)
    (hn : hpDepth K D w0 (idleGv w0) + 1 ≤ n) (hnone : none ∈ (E.classes o.cls).validators) {e : PyErr}
    {w' : World} (h : run E n (.hpValidate r) w0 = (.error e, w')) :
    e.kind = .validation ∧ e.tuples ≠ [] ∧
      Reported E m w0 (ValidGiven E m w0 (fun x => Busy w0 x ∨ x = r)) r o e.tuples ∧
      ∃ hs, w'.hooks = w0.hooks ++ hs ++ [(r, e.tuples)] ∧ ∀ x ∈ hs, x.1 ≠ r := by
  obtain ⟨n, rfl⟩ : ∃ j, n = j + 1 := ⟨n - 1, by omega⟩
  have h : hpValidateBody E (run E n) r w0 = (.error e, w') := h
  unfold hpValidateBody at h
  rw [bind_ok (getObj_some ho), hgv] at h
  simp only [Bool.false_eq_true, if_false] at h
  rw [bind_ok (modObj_apply _ _ _)] at h
  have hg : InG w0 (Busy w0) w0 := ⟨rfl, fun _ => Iff.rfl⟩
  have hgm := inG_mark hg ho
  have hidle := idleGv_mark ho hgv
  obtain ⟨k, hk⟩ : ∃ k, idleGv w0 = k + 1 := ⟨_, hidle.symm⟩
  rw [hk, hpDepth_succ] at hn
  obtain ⟨w1, ts, nv, hg1, h1, _, he, hrep⟩ := validators_loop S (N := hpDepth K D w0 k)
    (fun n' hn' r' hx' w' hg' => dec_hpValidate S k n' hn' r' hx' hg'
      (by have := idleGv_inG hgm hg'; omega))
    (n := n) (by have : baseDepth K D w0 ≤ hpDepth K D w0 k := by unfold hpDepth; omega
                 omega) ho (E.classes o.cls).validators none
    (fun _ h => h) hgm (collected_mark ho)
  have hrep := hrep hz hnone
  have hnv : nv = none := by
    cases nv with
    | none => rfl
    | some e' =>
      rcases he e' rfl with h | h
      · cases h
      · exact absurd (hz _ h.1) h.2
  subst hnv
  obtain ⟨o1, ho1, _, he1⟩ := (collected_mark ho).grew hg1
  rw [List.nil_append] at he1
  have hfold : foldML (validatorStep E (run E n) r) none (E.classes o.cls).validators (mark r w0) =
      (.ok none, w1) := h1
  rw [fin_apply] at h
  have hb : ((do
      let nv ← foldML (validatorStep E (run E n) r) none (E.classes o.cls).validators
      raiseCollected E (run E n) r nv
      pure (Val.bool true)) : M Val) (mark r w0) =
      if ts ≠ [] then (.error ⟨.validation, ts⟩, { w1 with hooks := w1.hooks ++ [(r, ts)] })
      else (.ok (.bool true), w1) := by
    rw [bind_ok hfold]
    by_cases hts : ts = []
    · simp only [hts, ne_eq, not_true_eq_false, if_false]
      refine bind_ok (a := ()) (w' := w1) ?_
      unfold raiseCollected
      rw [bind_ok (getObj_some ho1), he1, hts]
      rfl
    · simp only [ne_eq, hts, not_false_eq_true, if_true]
      refine bind_err ?_
      unfold raiseCollected
      rw [bind_ok (getObj_some ho1), he1]
      simp only [Option.getD_some, ne_eq, hts, not_false_eq_true, if_true]
      rw [bind_ok (runHook_none S.looks.hook _ ho1 ts)]
      rfl
  have h := (congrArg (fun x : Except PyErr Val × World => (x.1, clearValidating r x.2)) hb).symm.trans h
  by_cases hts : ts = []
  · simp only [hts, ne_eq, not_true_eq_false, if_false] at h
    cases h
  · simp only [ne_eq, hts, not_false_eq_true, if_true] at h
    cases h
    refine ⟨rfl, hts, hrep, ?_⟩
    obtain ⟨hs, e2, n2⟩ := Same.hooks hg1
    refine ⟨hs, ?_, fun x hx hxr => n2 x hx ?_⟩
    · show w1.hooks ++ _ = _
      rw [e2]
      rfl
    · rw [busy_addTo, hxr]
      exact (hgm.busy r).2 (.inr rfl)

end
end Verif
