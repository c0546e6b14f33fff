import Verif.Lemmas.Complete

/-!
# C93: what validate() adds to the checks of every assignment
-/

namespace Verif
open Spec

section
variable {E : Env} {D : Nat} {w : World}

theorem declares_looks (hE : HasDecl E D) : Looks E where
  hook := hE.hook
  getter c nm p g s d h := by
    rcases hE.entries c nm _ h with ⟨q, hq | hq, _⟩ | ⟨_, _, _, h, _⟩ <;> first | cases hq | cases h
  dynamic c nm p g s d h := by
    rcases hE.entries c nm _ h with ⟨q, hq | hq, _⟩ | ⟨_, _, _, h, _⟩ <;> first | cases hq | cases h

theorem declares_prompt (hE : HasDecl E D) : Prompt E 2 D where
  transparent := hE.transparent
  depth c ne h := by
    obtain ⟨nm, e⟩ := ne
    rcases hE.entries c nm e h with ⟨q, hq | hq, _, hd⟩ | ⟨_, _, _, he, _⟩
    · subst hq; exact hd
    · subst hq; exact hd
    · subst he; exact Nat.zero_le _
  getattr n hn r nm w := by
    obtain ⟨n, rfl⟩ : ∃ j, n = j + 1 + 1 := ⟨n - 2, by omega⟩
    have err : ∀ n, w.objs[r]? = none ∨ (∃ o, w.objs[r]? = some o ∧ lookupS nm (E.classes o.cls).props = none) →
        ¬ Overflows (run E (n + 1) (.getattr r nm) w) := by
      rintro n (h | ⟨o, h, h2⟩) ⟨e, he, hk⟩
      · change (getattrBody E (run E n) r nm w).1 = _ at he
        unfold getattrBody entryOf at he
        rw [bind_err (bind_err (getObj_none h))] at he
        cases he; cases hk
      · change (getattrBody E (run E n) r nm w).1 = _ at he
        have he' : entryOf E r nm w = (.ok none, w) := by
          unfold entryOf; rw [bind_ok (getObj_some h), h2]; rfl
        unfold getattrBody at he
        rw [bind_ok he'] at he
        cases he; cases hk
    cases ho : w.objs[r]? with
    | none => exact err _ (.inl ho)
    | some o =>
      cases hl : lookupS nm (E.classes o.cls).props with
      | none => exact err _ (.inr ⟨o, ho, hl⟩)
      | some e =>
        have hm := lookupS_mem_props hl
        rcases hE.entries o.cls nm e hm with ⟨q, hq, _, _⟩ | ⟨new, e', p, rfl, h1, h2⟩
        · rintro ⟨x, hx, _⟩
          rw [getattr_own ho hl hq] at hx
          cases hx
        · rintro ⟨x, hx, _⟩
          have he' : entryOf E r nm w = (.ok (some (.renamed new)), w) := by
            unfold entryOf; rw [bind_ok (getObj_some ho), hl]; rfl
          change (getattrBody E (run E (n + 1)) r nm w).1 = _ at hx
          unfold getattrBody at hx
          rw [bind_ok he'] at hx
          change (run E (n + 1) (.getattr r new) w).1 = _ at hx
          rw [getattr_own ho h1 h2] at hx
          cases hx

/-- Validating what is held builds nothing. -/
theorem still_of_admits (hE : HasDecl E D) (hw : WellTyped E w) (hv : Regular E w) :
    ∀ (n : Nat) (p : PropSpec) (r : Nat) (nm : PyStr) (v : Val), depth p ≤ n → Part E w r nm p v →
    v ≠ .none → Still p v := by
  intro n
  induction n with
  | zero =>
    intro p r nm v hd
    cases p
    unfold depth at hd
    omega
  | succ n ih =>
    intro p r nm v hd hp hne
    obtain ⟨_, hr, ha⟩ := part_admits hE hw hv hp
    have ha := ha hne
    obtain ⟨rq, se, de, df, ty⟩ := p
    have hr' : RepeatableTy E false ty := hr
    simp only [PropSpec.ty] at ha
    show StillTy ty v
    have hseq : ∀ k item lo hi co xs, ty = .seq k item lo hi co → v = ofKind k xs →
        StillTy (.seq k item lo hi co) (ofKind k xs) := by
      rintro k item lo hi co xs rfl rfl
      refine ⟨fun x hx => ?_, fun h => by cases k <;> cases h⟩
      have hx : x ∈ xs := by cases k <;> exact hx
      obtain ⟨h1, h2⟩ := part_item hv hp rfl (iter_ofKind k xs) hx
      exact ih item r nm x (by unfold depth depthTy at hd; omega) h2 h1
    cases ha with
    | tup item lo hi co xs _ => exact hseq .tup item lo hi co xs rfl rfl
    | list item lo hi co xs _ => exact hseq .list item lo hi co xs rfl rfl
    | set item lo hi co xs _ => exact hseq .set item lo hi co xs rfl rfl
    | dict kp vp co kvs _ _ =>
      intro kvs' e kv hkv
      cases e
      obtain ⟨⟨h1, h2⟩, h3, h4⟩ := part_entry hv hp rfl hkv
      unfold depth depthTy at hd
      exact ⟨ih kp r nm kv.1 (by omega) h2 h1, ih vp r nm kv.2 (by omega) h4 h3⟩
    | inst c s _ => intro kvs h; cases h
    | union => exact absurd hr'.1 (by simp)
    | color _ h =>
      obtain ⟨a, b, c, rfl, _⟩ := h
      intro s h
      cases h
    | _ => trivial

/-- None is compared with None without error. -/
theorem equal_none (hE : HasDecl E D) {p : PropSpec} (hr : Repeatable E false p) (m : Nat) :
    ∃ x, run E (m + 2) (.propEqual p .none .none) w = (.ok x, w) := by
  obtain ⟨rq, se, de, df, ty⟩ := p
  have hr' : RepeatableTy E false ty := hr
  show ∃ x, propEqualBody E (run E (m + 1)) (.mk rq se de df ty) .none .none w = _
  unfold propEqualBody
  simp only [PropSpec.ty]
  cases ty with
  | seq k => cases k <;> exact ⟨_, rfl⟩
  | union => exact absurd hr'.1 (by simp)
  | _ => exact ⟨_, rfl⟩

theorem declares_calm (hE : HasDecl E D) (hw : WellTyped E w) (hv : Regular E w) (hn : NoValidators w)
    (ht : Uncompared w) {m : Nat} (hm : D < m) (Z : PyErr → Prop) : Calm E 2 m w Z where
  classValidator r o f ho hf := by
    rw [hE.validators] at hf
    simp at hf
  validator r nm f v v' hf := by rw [hn] at hf; cases hf
  still r nm p v hp hne := still_of_admits hE hw hv _ p r nm v (Nat.le_refl _) hp hne
  validate r nm p v e hp hne h := by
    rw [validate_held hE hw hv m p r nm v _ (by have := part_depth (declares_prompt hE) hp; omega) hp hne] at h
    cases h
  equal r nm p v v' e hp hne h1 h2 := by
    have hd := part_depth (declares_prompt hE) hp
    rw [validate_held hE hw hv m p r nm v _ (by omega) hp hne] at h1
    cases h1
    obtain ⟨b, hb, _⟩ := equal_held hE hw hv ht m p r nm v (by omega) hp hne
    rw [hb] at h2
    cases h2
  listened r nm o en p v' e ho hmem hs hpass h := by
    rw [hn] at hpass
    cases hpass
    have hp : Part E w r nm p (held w r nm) := .root o en p ho hmem hs
    have hd := part_depth (declares_prompt hE) hp
    by_cases hne : held w r nm = .none
    · have hr := (part_admits hE hw hv hp).2.1
      obtain ⟨m, rfl⟩ : ∃ j, m = j + 2 := ⟨m - 2, by
        have : 0 < depth p := by cases p; unfold depth; omega
        omega⟩
      obtain ⟨x, hx⟩ := equal_none (w := w) hE hr m
      rw [hne, hx] at h
      cases h
    · obtain ⟨b, hb, _⟩ := equal_held hE hw hv ht m p r nm _ (by omega) hp hne
      rw [hb] at h
      cases h


theorem declares_tidy (hE : HasDecl E D) (hw : WellTyped E w) (hv : Regular E w) : Tidy E w where
  seq r nm p v k item lo hi c hp hne hty := by
    have ha := (part_admits hE hw hv hp).2.2 hne
    rw [hty] at ha
    cases ha <;> exact ⟨_, rfl⟩
  dict r nm p v kp vp c hp hne hty := by
    have ha := (part_admits hE hw hv hp).2.2 hne
    rw [hty] at ha
    cases ha; exact ⟨_, rfl⟩
  ref r nm p r' c hp hty := by
    have ha := (part_admits hE hw hv hp).2.2 (by simp)
    rw [hty] at ha
    cases ha with
    | inst _ _ h => obtain ⟨o, ho, _⟩ := h; exact ⟨o, ho⟩

/-! ## Valid and complete are the same -/

theorem inside_part {r : Nat} {nm : PyStr} (hv : Regular E w) {p : PropSpec} {v : Val}
    (h : Inside E w r nm p v) : Part E w r nm p v := by
  induction h with
  | root o p ho hm => exact .root o _ p ho hm rfl
  | item p item k lo hi c v xs x _ hty hi' hx ih => exact (part_item hv ih hty hi' hx).2
  | key p kp vp c kvs kv _ hty hx ih => exact (part_entry hv ih hty hx).1.2
  | value p kp vp c kvs kv _ hty hx ih => exact (part_entry hv ih hty hx).2.2

theorem finiteAs_none (ty : PropTy) : FiniteAs ty .none := by cases ty <;> trivial

/-- If what the properties hold contains only finite numbers, so do its parts. -/
theorem parts_finite (hE : HasDecl E D) (hw : WellTyped E w) (hv : Regular E w) {r : Nat}
    (h : ∀ o nm e p, w.objs[r]? = some o → (nm, e) ∈ (E.classes o.cls).props → specOf e = some p →
      held w r nm ≠ .none → AllFinite p (held w r nm)) {nm : PyStr} {p : PropSpec} {v : Val}
    (hp : Part E w r nm p v) : v ≠ .none → AllFinite p v := by
  induction hp with
  | root o e p ho hm hs => exact h o nm e p ho hm hs
  | item p item k lo hi c v xs x hp hty hi' hx ih =>
    intro _
    have := ih (by rintro rfl; cases hi')
    obtain ⟨rq, se, de, df, ty⟩ := p
    simp only [PropSpec.ty] at hty
    subst hty
    rw [heldOr_of (part_item hv hp rfl hi' hx).1]
    exact this xs hi' x hx
  | key p kp vp c kvs kv hp hty hx ih =>
    intro _
    have := ih (by simp)
    obtain ⟨rq, se, de, df, ty⟩ := p
    simp only [PropSpec.ty] at hty
    subst hty
    rw [heldOr_of (part_entry hv hp rfl hx).1.1]
    exact (this kvs rfl kv hx).1
  | value p kp vp c kvs kv hp hty hx ih =>
    intro _
    have := ih (by simp)
    obtain ⟨rq, se, de, df, ty⟩ := p
    simp only [PropSpec.ty] at hty
    subst hty
    rw [heldOr_of (part_entry hv hp rfl hx).2.1]
    exact (this kvs rfl kv hx).2
  | alternative p q ps s v hp hty hx ih =>
    have hr' := repeatable_inv (part_admits hE hw hv hp).2.1
    rw [hty] at hr'
    exact absurd hr'.1 (by simp)

theorem finiteAs_of {p : PropSpec} {v : Val} (h : AllFinite p v) : FiniteAs p.ty v := by
  obtain ⟨rq, se, de, df, ty⟩ := p
  cases ty <;> first | exact h | trivial

/-- If all parts are finite, the value is. -/
theorem finite_parts (hv : Regular E w) {r : Nat} {nm : PyStr}
    (h : ∀ p v, Part E w r nm p v → FiniteAs p.ty v) : ∀ (n : Nat) (p : PropSpec) (v : Val), depth p ≤ n →
    Part E w r nm p v → AllFinite p v := by
  intro n
  induction n with
  | zero =>
    intro p v hd
    cases p
    unfold depth at hd
    omega
  | succ n ih =>
    intro p v hd hp
    have hf := h p v hp
    obtain ⟨rq, se, de, df, ty⟩ := p
    unfold depth at hd
    cases ty with
    | seq k item lo hi c =>
      unfold depthTy at hd
      intro xs hi' x hx
      exact ih item x (by omega) (part_item hv hp rfl hi' hx).2
    | dict kp vp c =>
      unfold depthTy at hd
      rintro kvs rfl kv hx
      obtain ⟨⟨_, h1⟩, _, h2⟩ := part_entry hv hp rfl hx
      exact ⟨ih kp kv.1 (by omega) h1, ih vp kv.2 (by omega) h2⟩
    | _ => first | exact hf | trivial

/-- Values inside what an instance in order holds pass their checks. -/
theorem checks_inside (hE : HasDecl E D) (hw : WellTyped E w) (hv : Regular E w) (ht : Uncompared w) {m : Nat}
    (hm : D < m) {r : Nat} {nm : PyStr} {R : Nat → Prop} (ho : InOrder E w r)
    (hR : ∀ p s c, Inside E w r nm p (.obj s) → p.ty = .inst c → R s) : ∀ (n : Nat) (p : PropSpec) (v : Val),
    depth p ≤ n → Inside E w r nm p v → v ≠ .none → Rechecks E m w nm p r v ∧ TyChecks E m w R nm r p.ty v := by
  intro n
  induction n with
  | zero =>
    intro p v hd
    cases p
    unfold depth at hd
    omega
  | succ n ih =>
    intro p v hd hp hne
    have hpart := inside_part hv hp
    have hdp := part_depth (declares_prompt hE) hpart
    refine ⟨?_, ?_⟩
    · have h1 := validate_held hE hw hv m p r nm v (some r) (by omega) hpart hne
      obtain ⟨b, h2, h3⟩ := equal_held hE hw hv ht m p r nm v (by omega) hpart hne
      have h4 : b = true := h3.2 (finite_parts hv (fun p v => ho.finite nm p v) _ p v (Nat.le_refl _) hpart)
      exact ⟨v, .bool b, by rw [h1], by rw [h2], h4⟩
    have sub : ∀ q x, depth q ≤ n → Inside E w r nm q x → x ≠ .none → Checks E m w R nm r q x := by
      intro q x h1 h2 h3
      have := ih q x h1 h2 h3
      obtain ⟨rq, se, de, df, ty⟩ := q
      unfold Checks
      rw [heldOr_of h3]
      exact ⟨fun h => absurd h h3, fun _ => this⟩
    have ha := (part_admits hE hw hv hpart).2.2 hne
    have hr := (part_admits hE hw hv hpart).2.1
    obtain ⟨rq, se, de, df, ty⟩ := p
    unfold depth at hd
    simp only [PropSpec.ty] at ha ⊢
    cases ty with
    | seq k item lo hi c =>
      unfold depthTy at hd
      obtain ⟨xs, hxs⟩ : ∃ xs, v.iter? = some xs := by cases ha <;> exact ⟨_, rfl⟩
      refine ⟨xs, hxs, ho.lengths nm _ v k item lo hi c xs hp rfl hxs, fun x hx => ?_⟩
      exact sub item x (by omega) (.item _ item k lo hi c v xs x hp rfl hxs hx) (part_item hv hpart rfl hxs hx).1
    | dict kp vp c =>
      unfold depthTy at hd
      obtain ⟨kvs, rfl⟩ : ∃ kvs, v = .dict kvs := by cases ha; exact ⟨_, rfl⟩
      refine ⟨kvs, rfl, fun kv hkv => ?_⟩
      obtain ⟨⟨h1, _⟩, h2, _⟩ := part_entry hv hpart rfl hkv
      exact ⟨sub kp kv.1 (by omega) (.key _ kp vp c kvs kv hp rfl hkv) h1,
        sub vp kv.2 (by omega) (.value _ kp vp c kvs kv hp rfl hkv) h2⟩
    | inst c =>
      rintro s rfl
      exact hR _ s c hp rfl
    | union => exact absurd (repeatable_inv hr).1 (by simp)
    | _ => trivial

theorem valid_complete (hE : HasDecl E D) (hw : WellTyped E w) (hv : Regular E w) (hn : NoValidators w)
    (ht : Uncompared w) {m : Nat} (hm : D < m) {r : Nat} (hr : ∃ o, w.objs[r]? = some o) :
    Valid E m w r ↔ Complete E w r := by
  constructor
  · rintro ⟨S, hS, hloc⟩
    have step : ∀ x, S x → InOrder E w x ∧ ∀ nm p s c, Inside E w x nm p (.obj s) → p.ty = .inst c → S s := by
      intro x hx
      obtain ⟨o, ho, hvs⟩ := hloc x hx
      have hprops := hvs none (by rw [hE.validators]; simp)
      simp only at hprops
      have hfin : ∀ o' nm e p, w.objs[x]? = some o' → (nm, e) ∈ (E.classes o'.cls).props → specOf e = some p →
          held w x nm ≠ .none → AllFinite p (held w x nm) := by
        intro o' nm e p ho' hmem hs hne
        rw [ho] at ho'; cases ho'
        have hpart : Part E w x nm p (held w x nm) := .root o e p ho hmem hs
        have hd := part_depth (declares_prompt hE) hpart
        obtain ⟨b, h2, h3⟩ := equal_held hE hw hv ht m p x nm _ (by omega) hpart hne
        obtain ⟨v', hpass, hsame⟩ := (hprops _ hmem).1 hne
        have hpass : Passes E m w x nm (held w x nm) (validatorsOf w x nm) (held w x nm) v' := hpass
        rw [hn x nm] at hpass
        cases hpass
        refine h3.1 ?_
        have : ∃ t, (run E m (.propEqual p (held w x nm) (held w x nm)) w).1 = .ok t ∧ t.truthy = true := by
          cases e <;> first | (cases hs; exact hsame) | cases hs
        obtain ⟨t, h4, h5⟩ := this
        rw [h2] at h4
        cases h4
        exact h5
      refine ⟨⟨?_, ?_, ?_⟩, ?_⟩
      · intro o' nm rq s d df ty ho' hmem hrq hnone
        rw [ho] at ho'; cases ho'
        have := (hprops _ hmem).2
        simp only [EntryOk] at this
        unfold Checks at this
        have h1 : heldOr w x nm .none = held w x nm := rfl
        rw [h1] at this
        rw [this.1 hnone] at hrq
        cases hrq
      · intro nm p v k item lo hi c xs hi' hty hxs
        have := inside_checks ho hprops hi' (by rintro rfl; cases hxs)
        rw [hty] at this
        unfold TyChecks at this
        obtain ⟨ys, h1, h2, _⟩ := this
        rw [hxs] at h1; cases h1
        exact h2
      · intro nm p v hp
        by_cases hne : v = .none
        · rw [hne]; exact finiteAs_none _
        · exact finiteAs_of (parts_finite hE hw hv hfin hp hne)
      · intro nm p s c hi' hty
        have := inside_checks ho hprops hi' (by simp)
        rw [hty] at this
        exact this s rfl
    intro s hs
    have key : ∀ a b, Leads E w a b → S a → S b := by
      intro a b h
      induction h with
      | refl => exact id
      | step a b c nm p cl hi' hty _ ih => exact fun h => ih ((step a h).2 nm p b cl hi' hty)
    exact (step s (key r s hs hS)).1
  · intro hc
    have exist : ∀ a b, Leads E w a b → (∃ o, w.objs[a]? = some o) → ∃ o, w.objs[b]? = some o := by
      intro a b h
      induction h with
      | refl => exact id
      | step a b c nm p cl hi' hty _ ih =>
        exact fun _ => ih ((declares_tidy hE hw hv).ref a nm p b cl (inside_part hv hi') hty)
    have trans : ∀ a b, Leads E w a b → ∀ c nm p cl, Inside E w b nm p (.obj c) → p.ty = .inst cl → Leads E w a c := by
      intro a b h
      induction h with
      | refl a => exact fun c nm p cl h1 h2 => .step a c c nm p cl h1 h2 (.refl c)
      | step a b c nm p cl hi' hty _ ih => exact fun d nm' p' cl' h1 h2 => .step a b d nm p cl hi' hty (ih d nm' p' cl' h1 h2)
    refine ⟨fun x => Leads E w r x, .refl r, fun x hx => ?_⟩
    obtain ⟨o, ho⟩ := exist r x hx hr
    have hin := hc x hx
    refine ⟨o, ho, fun y hy => ?_⟩
    rw [hE.validators, List.mem_singleton] at hy
    subst hy
    rintro ⟨nm, e⟩ hmem
    have root : ∀ p, specOf e = some p → held w x nm ≠ .none →
        (run E m (.validate nm p (some x) (held w x nm)) w).1 = .ok (held w x nm) ∧
        (run E m (.propEqual p (held w x nm) (held w x nm)) w).1 = .ok (.bool true) := by
      intro p hs hne
      have hpart : Part E w x nm p (held w x nm) := .root o e p ho hmem hs
      have hd := part_depth (declares_prompt hE) hpart
      have h1 := validate_held hE hw hv m p x nm _ (some x) (by omega) hpart hne
      obtain ⟨b, h2, h3⟩ := equal_held hE hw hv ht m p x nm _ (by omega) hpart hne
      have h4 : b = true := h3.2 (finite_parts hv (fun p v => hin.finite nm p v) _ p _ (Nat.le_refl _) hpart)
      rw [h1, h2, h4]
      exact ⟨rfl, rfl⟩
    refine ⟨fun hne => ⟨held w x nm, by rw [hn]; exact .nil _, ?_⟩, ?_⟩
    · cases e with
      | mutable p => exact ⟨_, (root p rfl hne).2, rfl⟩
      | gettable p => exact ⟨_, (root p rfl hne).2, rfl⟩
      | dynamic p g s d => exact ⟨_, (root p rfl hne).2, rfl⟩
      | renamed new => exact absurd (hv.old x o nm new ho hmem) hne
    · cases e with
      | mutable p =>
        show Checks E m w _ nm x p .none
        by_cases hne : held w x nm = .none
        · obtain ⟨rq, se, de, df, ty⟩ := p
          unfold Checks
          have h1 : heldOr w x nm .none = held w x nm := rfl
          rw [h1]
          refine ⟨fun _ => ?_, fun h => absurd hne h⟩
          cases rq with
          | false => rfl
          | true => exact absurd hne (hin.required o nm _ _ _ _ _ ho hmem rfl)
        · have := checks_inside hE hw hv ht hm hin (R := fun y => Leads E w r y) (nm := nm)
            (fun p s c h1 h2 => trans r x hx s nm p c h1 h2) _ p _ (Nat.le_refl _) (.root o p ho hmem) hne
          obtain ⟨rq, se, de, df, ty⟩ := p
          unfold Checks
          have h1 : heldOr w x nm .none = held w x nm := rfl
          rw [h1]
          exact ⟨fun h => absurd h hne, fun _ => this⟩
      | gettable p => exact fun hne => ⟨_, _, (root p rfl hne).1, (root p rfl hne).2, rfl⟩
      | dynamic p g s d => exact fun hne => ⟨_, _, (root p rfl hne).1, (root p rfl hne).2, rfl⟩
      | renamed new => exact fun hne => absurd (hv.old x o nm new ho hmem) hne


theorem idle_uncompared (hi : AllIdle w) : Uncompared w := by
  intro r o ho
  have := (hi r o ho).2.2.1
  unfold BeingCompared at this
  simpa using this

/-- C93: in a state between two calls whose values have passed the checks of
their declarations, `validate()` returns True exactly if the instance and all
it leads to have their required properties, containers of the declared lengths
and finite numbers; otherwise it raises ValidationError with details. -/
theorem C93_validate (hE : HasDecl E D) (hw : WellTyped E w) (hv : Regular E w) (hn : NoValidators w)
    (hi : AllIdle w) {r : Nat} (hr : ∃ o, w.objs[r]? = some o) {n : Nat}
    (hd : validationDepth 2 D w.objs.length ≤ n) :
    (Complete E w r ∧ (run E n (.hpValidate r) w).1 = .ok (.bool true)) ∨
    (¬ Complete E w r ∧ ∃ e, e.kind = .validation ∧ e.tuples ≠ [] ∧
      (run E n (.hpValidate r) w).1 = .error e) := by
  have ht := idle_uncompared hi
  have hm : D < validationDepth 2 D w.objs.length := by unfold validationDepth; omega
  have hvc := valid_complete hE hw hv hn ht hm hr
  have hb : ∀ x, ¬ Busy w x := by
    rintro x ⟨o, ho, hg⟩
    exact (hi x o ho).1 hg
  have hg : ValidGiven E (validationDepth 2 D w.objs.length) w (Busy w) r ↔
      Valid E (validationDepth 2 D w.objs.length) w r := by
    constructor
    · rintro ⟨S, hS, h⟩
      exact ⟨S, hS, fun x hx => (h x hx).resolve_left (hb x)⟩
    · rintro ⟨S, hS, h⟩
      exact ⟨S, hS, fun x hx => .inr (h x hx)⟩
  have S := setting_telling (declares_looks hE) (declares_prompt hE) (declares_calm hE hw hv hn ht hm Telling)
    (declares_tidy hE hw hv) (Nat.le_refl (validationDepth 2 D w.objs.length))
  have hd2 := (baseDepth_le (K := 2) (D := D) (w := w)).2
  obtain ⟨n, rfl⟩ : ∃ j, n = j + 1 := ⟨n - 1, by omega⟩
  obtain ⟨w', _, ⟨hP, v, _, h⟩ | ⟨hP, e, he, h⟩⟩ := dec_hpValidate S (idleGv w) (n + 1) (by omega) r
    (.inl hr) (G := Busy w) (w := w) ⟨rfl, fun _ => Iff.rfl⟩ (Nat.le_refl _)
  · have hv' : v = .bool true := hpValidate_true h
    exact .inl ⟨hvc.1 (hg.1 hP), by rw [h, hv']⟩
  · exact .inr ⟨fun hc => hP (hg.2 (hvc.2 hc)), e, he.1, he.2, by rw [h]⟩

/-- C93 after any history of calls: whatever the program did, `validate()`
afterwards never fails because of the type of a value. -/
theorem C93_history (hE : HasDecl E D) (hs : NoSubstitution E) (k : Nat) (p : Prog)
    (hb : (runProg E k p {}).2.bypass = false) (hv : Regular E (runProg E k p {}).2)
    (hn : NoValidators (runProg E k p {}).2) {r : Nat} (hr : ∃ o, (runProg E k p {}).2.objs[r]? = some o)
    {n : Nat} (hd : validationDepth 2 D (runProg E k p {}).2.objs.length ≤ n) :
    (Complete E (runProg E k p {}).2 r ∧
      (run E n (.hpValidate r) (runProg E k p {}).2).1 = .ok (.bool true)) ∨
    (¬ Complete E (runProg E k p {}).2 r ∧ ∃ e, e.kind = .validation ∧ e.tuples ≠ [] ∧
      (run E n (.hpValidate r) (runProg E k p {}).2).1 = .error e) :=
  C93_validate hE (C01_stored_values_admitted E hE.names hs k p {} (C01_empty E) hb) hv hn
    (C19_histories_end_idle E k p {} fun r o h => by simp at h) hr hd

/-- C93: a Float property that holds NaN or an infinity, here or in an instance
it leads to, makes `validate()` fail although the assignment was accepted. -/
theorem C93_infinite (hE : HasDecl E D) (hw : WellTyped E w) (hv : Regular E w) (hn : NoValidators w)
    (hi : AllIdle w) {r s : Nat} (hr : ∃ o, w.objs[r]? = some o) (hl : Leads E w r s) {o : Obj}
    (ho : w.objs[s]? = some o) {nm : PyStr} {q : PropSpec} {c : Bool} {lo hi' : Option Rat}
    (hq : (nm, Entry.mutable q) ∈ (E.classes o.cls).props) (hty : q.ty = .float c lo hi') {f : PyFloat}
    (hf : held w s nm = .float f) (hnf : ¬ IsFinite f) {n : Nat}
    (hd : validationDepth 2 D w.objs.length ≤ n) :
    ∃ e, e.kind = .validation ∧ (run E n (.hpValidate r) w).1 = .error e := by
  rcases C93_validate hE hw hv hn hi hr hd with ⟨hc, _⟩ | ⟨_, e, h1, _, h2⟩
  · exfalso
    have := (hc s hl).finite nm q _ (.root o _ q ho hq rfl)
    rw [hf, hty] at this
    exact hnf this
  · exact ⟨e, h1, h2⟩

end

/-! ### Examples -/

theorem nodeDeclares : HasDecl nodeEnv 2 where
  names c := by
    show ([s% "next", s% "tags"] : List PyStr).Nodup
    decide
  hook _ := rfl
  validators _ := rfl
  entries c nm e h := by
    simp only [nodeEnv, List.mem_cons, List.not_mem_nil, or_false, Prod.mk.injEq] at h
    rcases h with ⟨_, rfl⟩ | ⟨_, rfl⟩
    · exact .inl ⟨nodeNext, .inl rfl, trivial, by decide⟩
    · exact .inl ⟨nodeTags, .inl rfl, trivial, by decide⟩
  transparent _ _ := trivial
  zero := rfl

theorem nodeRegular (bad : Bool) : Regular nodeEnv (nodeWorld bad) where
  untyped r nm p v h hty := by
    obtain ⟨_, ⟨_, rfl, _⟩ | ⟨_, rfl, _⟩ | ⟨_, rfl, _⟩⟩ := nodePart h <;> cases hty
  items r nm p v k item lo hi c xs h hty hi' := by
    obtain ⟨hr, ⟨_, rfl, _⟩ | ⟨rfl, rfl, rfl⟩ | ⟨_, rfl, _⟩⟩ := nodePart h
    · cases hty
    · cases hty
      refine ⟨?_, fun h => by cases h⟩
      rcases hr with rfl | rfl
      · cases hi'
        simp
      · cases bad <;> (cases hi'; simp)
    · cases hty
  keys r nm p kvs kp vp c h hty := by
    obtain ⟨_, ⟨_, rfl, _⟩ | ⟨_, rfl, _⟩ | ⟨_, rfl, _⟩⟩ := nodePart h <;> cases hty
  old r o nm new ho h := by simp [nodeEnv] at h

theorem nodeTyped (bad : Bool) : WellTyped nodeEnv (nodeWorld bad) := by
  intro r o ho nm v hm
  have inst : ∀ r, r = 0 ∨ r = 1 → InstanceOf nodeEnv (nodeWorld bad) r 0 := by
    rintro r (rfl | rfl) <;> exact ⟨_, rfl, .inl rfl⟩
  have tags : ∀ xs : List Int, Admits nodeEnv (nodeWorld bad) nodeTags.ty (.list (xs.map .int)) := by
    intro xs
    refine .list _ _ _ _ _ fun x hx => ?_
    obtain ⟨i, _, rfl⟩ := List.mem_map.1 hx
    exact .integer _ _ _ i (by refine ⟨?_, ?_⟩ <;> intro _ h <;> cases h)
  match r, ho with
  | 0, ho =>
    cases ho
    simp only [List.mem_cons, List.not_mem_nil, or_false, Prod.mk.injEq] at hm
    rcases hm with ⟨rfl, rfl⟩ | ⟨rfl, rfl⟩
    · exact ⟨.mutable nodeNext, rfl, .inst 0 1 (inst 1 (.inr rfl))⟩
    · exact ⟨.mutable nodeTags, rfl, tags [7]⟩
  | 1, ho =>
    cases ho
    simp only [List.mem_cons, List.not_mem_nil, or_false, Prod.mk.injEq] at hm
    rcases hm with ⟨rfl, rfl⟩ | ⟨rfl, rfl⟩
    · exact ⟨.mutable nodeNext, rfl, .inst 0 0 (inst 0 (.inl rfl))⟩
    · cases bad
      · exact ⟨.mutable nodeTags, rfl, tags [1, 2]⟩
      · exact ⟨.mutable nodeTags, rfl, tags [1, 2, 3]⟩

theorem nodeQuiet (bad : Bool) : NoValidators (nodeWorld bad) := by
  intro r nm
  unfold validatorsOf
  match r with
  | 0 => rfl
  | 1 => rfl
  | _ + 2 => rfl

theorem nodeAllIdle (bad : Bool) : AllIdle (nodeWorld bad) := by
  intro r o ho
  match r, ho with
  | 0, h => cases h; exact ⟨fun h => (nomatch h), fun h => (nomatch h), fun h => (nomatch h), rfl⟩
  | 1, h => cases h; exact ⟨fun h => (nomatch h), fun h => (nomatch h), fun h => (nomatch h), rfl⟩

/-- The hypotheses hold of the two nodes that refer to each other; the one with
three tags where two are allowed makes both incomplete. -/
theorem C93_example : Complete nodeEnv (nodeWorld false) 0 ∧ ¬ Complete nodeEnv (nodeWorld true) 0 := by
  have h := fun b => C93_validate (n := 40) nodeDeclares (nodeTyped b) (nodeRegular b) (nodeQuiet b) (nodeAllIdle b)
    (r := 0) ⟨_, rfl⟩ (by cases b <;> decide)
  constructor
  · rcases h false with ⟨h, _⟩ | ⟨_, e, _, _, h⟩
    · exact h
    · exfalso
      have : (run nodeEnv 40 (.hpValidate 0) (nodeWorld false)).1 = .ok (.bool true) := by
        with_unfolding_all rfl
      rw [this] at h; cases h
  · rcases h true with ⟨_, h⟩ | ⟨h, _⟩
    · exfalso
      have : (run nodeEnv 40 (.hpValidate 0) (nodeWorld true)).1 =
          .error ⟨.validation, [⟨some (s% "invalid"), some (s% "tags"), some 1⟩]⟩ := by
        with_unfolding_all rfl
      rw [this] at h; cases h
    · exact h

/-- `class Size: x = Float('')`. -/
def sizeEnv : Env := { demoEnv with
  classes := fun _ => {
    name := s% "Size"
    props := [(s% "x", .mutable (.mk true none none .undef (.float false none none)))] }
  fn := fun _ _ => .ret (.bool true) }

/-- `size = Size(); size.x = v; size.validate()`. -/
def sizeProg (v : PyFloat) : Prog :=
  .call (.construct 0 []) fun _ =>
  .call (.setattr 0 (s% "x") (.float v)) fun _ =>
  .call (.hpValidate 0) fun x => match x with
    | .ok y => .ret y
    | .error e => .raise e

/-- An infinity is accepted and stored, but `validate()` refuses it. -/
theorem C93_example_infinite :
    (runProg sizeEnv 12 (sizeProg (.fin (3 / 2))) {}).1 = .ok (.bool true) ∧
    (∃ e, (runProg sizeEnv 12 (sizeProg .pinf) {}).1 = .error e ∧ e.kind = .validation) ∧
    (runProg sizeEnv 12 (sizeProg .pinf) {}).2.objs.map (·.backend) = [[(s% "x", .float .pinf)]] := by
  refine ⟨by with_unfolding_all rfl, ⟨_, by with_unfolding_all rfl, rfl⟩, by with_unfolding_all rfl⟩

end Verif
