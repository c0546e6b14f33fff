import Verif.Lemmas.Valid
import Verif.Models.Demo

/-!
# C17, C18, C21, C31: validate()
-/

namespace Verif
open Spec

section
variable {E : Env} {K D m n : Nat} {w : World}

theorem baseDepth_le : baseDepth K D w ≤ validationDepth K D w.objs.length ∧
    hpDepth K D w (idleGv w) + 1 ≤ validationDepth K D w.objs.length := by
  have ht : idleTe w ≤ w.objs.length := by
    unfold idleTe
    refine Nat.le_trans List.countP_le_length ?_
    simp [bare]
  have hg : idleGv w ≤ w.objs.length := List.countP_le_length
  have h1 : (idleTe w + 1) * (D + K + 2) ≤ (w.objs.length + 1) * (D + K + 2) :=
    Nat.mul_le_mul_right _ (by omega)
  have h2 : idleGv w * (D + 2) ≤ w.objs.length * (D + 2) := Nat.mul_le_mul_right _ hg
  have h3 : (w.objs.length + 1) * (2 * D + K + 4) =
      (w.objs.length + 1) * (D + K + 2) + (w.objs.length + 1) * (D + 2) := by
    rw [← Nat.mul_add]; congr 1; omega
  have h4 : (w.objs.length + 1) * (D + 2) = w.objs.length * (D + 2) + (D + 2) := Nat.succ_mul _ _
  unfold hpDepth baseDepth eqDepth validationDepth
  omega

theorem setting_ordinary (hE : Looks E) (hp : Prompt E K D) (hc : Calm E K m w Ordinary)
    (hm : validationDepth K D w.objs.length ≤ m) : Setting E K D m w Ordinary where
  looks := hE
  prompt := hp
  calm := hc
  deep := Nat.le_trans baseDepth_le.1 hm
  ordinary := fun _ h => h
  raised := fun _ h => ⟨rfl, fun _ => h⟩
  other := .inl ⟨⟨rfl, fun h => by cases h⟩, ⟨rfl, fun h => by cases h⟩⟩

theorem setting_telling (hE : Looks E) (hp : Prompt E K D) (hc : Calm E K m w Telling)
    (ht : Tidy E w) (hm : validationDepth K D w.objs.length ≤ m) : Setting E K D m w Telling where
  looks := hE
  prompt := hp
  calm := hc
  deep := Nat.le_trans baseDepth_le.1 hm
  ordinary := fun _ h => ⟨by rw [h.1]; rfl, fun _ => h.2⟩
  raised := fun _ h => ⟨rfl, h⟩
  other := .inr ht

/-- `validate()` returns nothing but True. -/
theorem hpValidate_true {r : Nat} {v : Val} {w' : World} {rec : Rec}
    (h : hpValidateBody E rec r w = (.ok v, w')) : v = .bool true := by
  unfold hpValidateBody at h
  obtain ⟨o, w1, h1, h⟩ := bind_ok_inv h
  split at h
  · cases h; rfl
  · obtain ⟨u, w2, h2, h⟩ := bind_ok_inv h
    rw [fin_apply] at h
    generalize hb : ((do
        let nv ← foldML (validatorStep E rec r) none (E.classes o.cls).validators
        raiseCollected E rec r nv
        pure (Val.bool true)) : M Val) w2 = x at h
    obtain ⟨x, w3⟩ := x
    cases h
    obtain ⟨_, _, _, hb⟩ := bind_ok_inv hb
    obtain ⟨_, _, _, hb⟩ := bind_ok_inv hb
    cases hb; rfl

/-- C17: `validate()` returns True if the instance is valid and raises an
error otherwise.  Instances that are being validated or initialised at the time
of the call are taken to be valid. -/
theorem C17_valid (hE : Looks E) (hp : Prompt E K D) (hc : Calm E K m w Ordinary)
    (hm : validationDepth K D w.objs.length ≤ m) (hn : validationDepth K D w.objs.length ≤ n)
    (r : Nat) :
    (ValidGiven E m w (Busy w) r ∧ (run E n (.hpValidate r) w).1 = .ok (.bool true)) ∨
    (¬ ValidGiven E m w (Busy w) r ∧ ∃ e, Ordinary e ∧ (run E n (.hpValidate r) w).1 = .error e) := by
  have S := setting_ordinary hE hp hc hm
  have hd := (baseDepth_le (K := K) (D := D) (w := w)).2
  obtain ⟨n, rfl⟩ : ∃ j, n = j + 1 := ⟨n - 1, by omega⟩
  have := dec_hpValidate S (idleGv w) (n + 1) (by omega) r
    (.inr ⟨rfl, fun h => by cases h⟩) (G := Busy w) (w := w) ⟨rfl, fun _ => Iff.rfl⟩ (Nat.le_refl _)
  obtain ⟨w', _, ⟨hP, v, _, h⟩ | ⟨hP, e, he, h⟩⟩ := this
  · left
    have hv : v = .bool true := hpValidate_true h
    exact ⟨hP, by rw [h, hv]⟩
  · exact .inr ⟨hP, e, he, by rw [h]⟩

/-- C17 where nothing is being validated or initialised: `validate()` returns
True exactly if the instance is valid. -/
theorem C17_validate (hE : Looks E) (hp : Prompt E K D) (hc : Calm E K m w Ordinary)
    (hm : validationDepth K D w.objs.length ≤ m) (hn : validationDepth K D w.objs.length ≤ n)
    (hidle : ∀ x, ¬ Busy w x) (r : Nat) :
    ((run E n (.hpValidate r) w).1 = .ok (.bool true) ↔ Valid E m w r) ∧
    ((∃ e, (run E n (.hpValidate r) w).1 = .error e ∧ Ordinary e) ↔ ¬ Valid E m w r) := by
  have hv : ValidGiven E m w (Busy w) r ↔ Valid E m w r := by
    constructor
    · rintro ⟨S, hS, h⟩
      exact ⟨S, hS, fun x hx => (h x hx).resolve_left (hidle x)⟩
    · rintro ⟨S, hS, h⟩
      exact ⟨S, hS, fun x hx => .inr (h x hx)⟩
  rcases C17_valid hE hp hc hm hn r with ⟨h1, h2⟩ | ⟨h1, e, he, h2⟩
  · rw [h2]
    exact ⟨by simp [hv.1 h1], by simp [hv.1 h1]⟩
  · rw [h2]
    have h1 : ¬ Valid E m w r := fun h => h1 (hv.2 h)
    exact ⟨by simp [h1], by simp [h1, he]⟩

/-- C21: `validate()` never exhausts the recursion depth `validationDepth`,
which is linear in the number of instances. -/
theorem C21_terminates (hE : Looks E) (hp : Prompt E K D) (hc : Calm E K m w Ordinary)
    (hm : validationDepth K D w.objs.length ≤ m) (hn : validationDepth K D w.objs.length ≤ n)
    (r : Nat) : ¬ Overflows (run E n (.hpValidate r) w) := by
  rintro ⟨e, h, hk⟩
  rcases C17_valid hE hp hc hm hn r with ⟨_, h2⟩ | ⟨_, e', he, h2⟩
  · rw [h2] at h; cases h
  · rw [h2] at h; cases h
    have := he.1
    rw [hk] at this; cases this

/-- C18: when all that checks raise are ValidationErrors, what `validate()`
raises has tuples for exactly the failing properties, in declaration order, and
it calls the error hook of the instance once, with these tuples. -/
theorem C18_report (hE : Looks E) (hp : Prompt E K D) (hc : Calm E K m w Telling) (ht : Tidy E w)
    (hm : validationDepth K D w.objs.length ≤ m) (hn : validationDepth K D w.objs.length ≤ n)
    {r : Nat} {o : Obj} (ho : w.objs[r]? = some o) (hb : ¬ Busy w r)
    (hnone : none ∈ (E.classes o.cls).validators) {e : PyErr} {w' : World}
    (h : run E n (.hpValidate r) w = (.error e, w')) :
    e.kind = .validation ∧ e.tuples ≠ [] ∧
    Reported E m w (ValidGiven E m w (fun x => Busy w x ∨ x = r)) r o e.tuples ∧
    ∃ hs, w'.hooks = w.hooks ++ hs ++ [(r, e.tuples)] ∧ ∀ x ∈ hs, x.1 ≠ r := by
  have hgv : (o.gv == some true) = false := by
    cases hg : (o.gv == some true) with
    | false => rfl
    | true => exact absurd ⟨o, ho, by simpa using hg⟩ hb
  exact hpValidate_report (setting_telling hE hp hc ht hm) (fun _ h => h.1) ho hgv
    (Nat.le_trans baseDepth_le.2 hn) hnone h

/-- Inside a value that passes its checks. -/
theorem inside_checks {R : Nat → Prop} {r : Nat} {o : Obj} {nm : PyStr}
    (ho : w.objs[r]? = some o) (hR : ∀ ne ∈ (E.classes o.cls).props, PropOk E m w R r ne.1 ne.2)
    {p : PropSpec} {v : Val} (h : Inside E w r nm p v) :
    v ≠ .none → TyChecks E m w R nm r p.ty v := by
  have use : ∀ {q : PropSpec} {x : Val}, Checks E m w R nm r q x → heldOr w r nm x ≠ .none →
      TyChecks E m w R nm r q.ty (heldOr w r nm x) := by
    intro q x hq hx
    cases q
    unfold Checks at hq
    exact (hq.2 hx).2
  have other : ∀ x, x ≠ Val.none → heldOr w r nm x = x := by
    intro x hx
    cases x <;> first | rfl | exact absurd rfl hx
  induction h with
  | root o' p ho' hm =>
    rw [ho] at ho'; cases ho'
    exact use (hR _ hm).2
  | item p item k lo hi c v xs x _ hty hit hx ih =>
    intro hne
    have hv : v ≠ .none := by rintro rfl; cases hit
    have := ih hv
    rw [hty] at this
    unfold TyChecks at this
    obtain ⟨ys, h1, _, h2⟩ := this
    rw [hit] at h1; cases h1
    have := use (h2 x hx)
    rw [other x hne] at this
    exact this hne
  | key p kp vp c kvs kv _ hty hx ih =>
    intro hne
    have := ih (by simp)
    rw [hty] at this
    unfold TyChecks at this
    obtain ⟨ys, h1, h2⟩ := this
    cases h1
    have := use (h2 kv hx).1
    rw [other _ hne] at this
    exact this hne
  | value p kp vp c kvs kv _ hty hx ih =>
    intro hne
    have := ih (by simp)
    rw [hty] at this
    unfold TyChecks at this
    obtain ⟨ys, h1, h2⟩ := this
    cases h1
    have := use (h2 kv hx).2
    rw [other _ hne] at this
    exact this hne

/-- C31: an instance that holds, at whatever depth of nested containers, a
tuple, list or set whose length is outside the limits does not pass
`validate()`. -/
theorem C31_lengths (hE : Looks E) (hp : Prompt E K D) (hc : Calm E K m w Ordinary)
    (hm : validationDepth K D w.objs.length ≤ m) (hn : validationDepth K D w.objs.length ≤ n)
    {r : Nat} {o : Obj} (ho : w.objs[r]? = some o) (hb : ¬ Busy w r)
    (hnone : none ∈ (E.classes o.cls).validators) {nm : PyStr} {p item : PropSpec} {v : Val}
    {k : SeqKind} {lo hi : Option Nat} {c : Bool} {xs : List Val} (hi' : Inside E w r nm p v)
    (hty : p.ty = .seq k item lo hi c) (hxs : v.iter? = some xs)
    (hbad : ¬ WithinLength lo hi xs.length) :
    ∃ e, (run E n (.hpValidate r) w).1 = .error e := by
  rcases C17_valid hE hp hc hm hn r with ⟨h1, _⟩ | ⟨_, e, _, h⟩
  · exfalso
    rw [validGiven_iff hb] at h1
    obtain ⟨o', ho', h⟩ := h1
    rw [ho] at ho'; cases ho'
    have := inside_checks ho (h none hnone) hi' (by rintro rfl; cases hxs)
    rw [hty] at this
    unfold TyChecks at this
    obtain ⟨ys, h1, h2, _⟩ := this
    rw [hxs] at h1; cases h1
    exact hbad h2
  · exact ⟨e, h⟩

end

/-! ### An example: two nodes that refer to each other -/

def nodeTags : PropSpec := .mk true none none .undef
  (.seq .list (.mk true none none .undef (.integer true none none)) (some 1) (some 2) true)
def nodeNext : PropSpec := .mk true none none .undef (.inst 0)

/-- `class Node: next = Instance('', Node); tags = List('', Integer(''), min_length=1, max_length=2)`. -/
def nodeEnv : Env := { demoEnv with
  classes := fun _ => {
    name := s% "Node"
    props := [(s% "next", .mutable nodeNext), (s% "tags", .mutable nodeTags)] }
  fn := fun _ _ => .ret (.bool true) }

/-- Node 0 refers to node 1 and node 1 to node 0; node 1 has three tags if
`bad`. -/
def nodeWorld (bad : Bool) : World := { objs := [
  { cls := 0, backend := [(s% "next", .obj 1), (s% "tags", .list [.int 7])] },
  { cls := 0, backend := [(s% "next", .obj 0),
      (s% "tags", .list (if bad then [.int 1, .int 2, .int 3] else [.int 1, .int 2]))] }] }

theorem nodeLooks : Looks nodeEnv where
  hook := fun _ => rfl
  getter := by
    intro c nm p g s d h
    simp [nodeEnv] at h
  dynamic := by
    intro c nm p g s d h
    simp [nodeEnv] at h

theorem nodePrompt : Prompt nodeEnv 1 2 where
  transparent := fun _ _ => trivial
  getattr := by
    intro n hn r nm w
    obtain ⟨n, rfl⟩ : ∃ j, n = j + 1 := ⟨n - 1, by omega⟩
    rintro ⟨e, h, hk⟩
    generalize hx : run nodeEnv (n + 1) (.getattr r nm) w = x at h
    obtain ⟨x, w'⟩ := x
    change getattrBody nodeEnv (run nodeEnv n) r nm w = _ at hx
    cases ho : w.objs[r]? with
    | none =>
      unfold getattrBody entryOf at hx
      rw [bind_err (bind_err (getObj_none ho))] at hx
      cases hx; cases h; cases hk
    | some o =>
      have he : entryOf nodeEnv r nm w = (.ok (lookupS nm (nodeEnv.classes o.cls).props), w) := by
        unfold entryOf; rw [bind_ok (getObj_some ho)]; rfl
      unfold getattrBody at hx
      rw [bind_ok he] at hx
      have hs : getStored r nm w = (.ok ((lookupS nm o.backend).getD .none), w) := by
        unfold getStored; rw [bind_ok (getObj_some ho)]; rfl
      have hl : lookupS nm (nodeEnv.classes o.cls).props = none ∨
          ∃ p, lookupS nm (nodeEnv.classes o.cls).props = some (.mutable p) := by
        simp only [nodeEnv, lookupS]
        by_cases h1 : (s% "next") = nm
        · exact .inr ⟨nodeNext, by simp [h1]⟩
        · by_cases h2 : (s% "tags") = nm
          · exact .inr ⟨nodeTags, by simp [h1, h2]⟩
          · exact .inl (by simp [h1, h2])
      rcases hl with hl | ⟨p, hl⟩
      · rw [hl] at hx
        cases hx; cases h; cases hk
      · rw [hl] at hx
        simp only [hs] at hx
        cases hx; cases h
  depth := by
    intro c ne h
    simp only [nodeEnv, List.mem_cons, List.not_mem_nil, or_false] at h
    rcases h with rfl | rfl <;> decide

theorem nodePart {bad : Bool} {r : Nat} {nm : PyStr} {p : PropSpec} {v : Val}
    (h : Part nodeEnv (nodeWorld bad) r nm p v) :
    (r = 0 ∨ r = 1) ∧ ((nm = s% "next" ∧ p = nodeNext ∧ v = held (nodeWorld bad) r nm) ∨
      (nm = s% "tags" ∧ p = nodeTags ∧ v = held (nodeWorld bad) r nm) ∨
      (nm = s% "tags" ∧ p = .mk true none none .undef (.integer true none none) ∧ ∃ i : Int, v = .int i ∧
        (i = 7 ∨ i = 1 ∨ i = 2 ∨ i = 3))) := by
  induction h with
  | root o e p ho hm hs =>
    refine ⟨?_, ?_⟩
    · match r, ho with
      | 0, _ => exact .inl rfl
      | 1, _ => exact .inr rfl
    · simp only [nodeEnv, List.mem_cons, List.not_mem_nil, or_false, Prod.mk.injEq] at hm
      rcases hm with ⟨rfl, rfl⟩ | ⟨rfl, rfl⟩
      · exact .inl ⟨rfl, (Option.some.inj hs).symm, rfl⟩
      · exact .inr (.inl ⟨rfl, (Option.some.inj hs).symm, rfl⟩)
  | item p item k lo hi c v xs x _ hty hit hx ih =>
    obtain ⟨hr, ⟨_, rfl, _⟩ | ⟨rfl, rfl, rfl⟩ | ⟨_, rfl, _⟩⟩ := ih
    · cases hty
    · cases hty
      refine ⟨hr, .inr (.inr ⟨rfl, rfl, ?_⟩)⟩
      rcases hr with rfl | rfl
      · have : xs = [.int 7] := (Option.some.inj hit).symm
        subst this
        simp only [List.mem_cons, List.not_mem_nil, or_false] at hx
        subst hx
        exact ⟨7, rfl, .inl rfl⟩
      · cases bad with
        | false =>
          have : xs = [.int 1, .int 2] := (Option.some.inj hit).symm
          subst this
          simp only [List.mem_cons, List.not_mem_nil, or_false] at hx
          rcases hx with rfl | rfl
          · exact ⟨1, rfl, by simp⟩
          · exact ⟨2, rfl, by simp⟩
        | true =>
          have : xs = [.int 1, .int 2, .int 3] := (Option.some.inj hit).symm
          subst this
          simp only [List.mem_cons, List.not_mem_nil, or_false] at hx
          rcases hx with rfl | rfl | rfl
          · exact ⟨1, rfl, by simp⟩
          · exact ⟨2, rfl, by simp⟩
          · exact ⟨3, rfl, by simp⟩
    · cases hty
  | key p kp vp c kvs kv _ hty _ ih =>
    obtain ⟨hr, ⟨_, rfl, _⟩ | ⟨_, rfl, _⟩ | ⟨_, rfl, _⟩⟩ := ih <;> cases hty
  | value p kp vp c kvs kv _ hty _ ih =>
    obtain ⟨hr, ⟨_, rfl, _⟩ | ⟨_, rfl, _⟩ | ⟨_, rfl, _⟩⟩ := ih <;> cases hty
  | alternative p q ps s v _ hty _ ih =>
    obtain ⟨hr, ⟨_, rfl, _⟩ | ⟨_, rfl, _⟩ | ⟨_, rfl, _⟩⟩ := ih <;> cases hty

def isOk {α : Type} : Except PyErr α → Bool
  | .ok _ => true
  | .error _ => false

theorem isOk_absurd {α : Type} {x : Except PyErr α} (h : isOk x = true) {e : PyErr} {P : Prop}
    (he : x = .error e) : P := by
  subst he; cases h


def equalOk (E : Env) (m : Nat) (w : World) (nm : PyStr) (p : PropSpec) (r : Nat) (v : Val) : Bool :=
  match (run E m (.validate nm p (some r) v) w).1 with
  | .ok v' => isOk (run E m (.propEqual p v v') w).1
  | .error _ => true

theorem equalOk_of {E : Env} {m : Nat} {w : World} {nm : PyStr} {p : PropSpec} {r : Nat} {v v' : Val}
    (h : equalOk E m w nm p r v = true)
    (hv : (run E m (.validate nm p (some r) v) w).1 = .ok v') :
    isOk (run E m (.propEqual p v v') w).1 = true := by
  unfold equalOk at h
  rw [hv] at h
  exact h

theorem nodeCalm (bad : Bool) : Calm nodeEnv 1 40 (nodeWorld bad) Telling where
  classValidator := by
    intro r o f ho h
    simp [nodeEnv] at h
  validator := by
    intro r nm f v v' h
    have : validatorsOf (nodeWorld bad) r nm = [] := by
      unfold validatorsOf
      match r with
      | 0 => rfl
      | 1 => rfl
      | _ + 2 => rfl
    rw [this] at h; cases h
  still := by
    intro r nm p v h _
    obtain ⟨rfl | rfl, ⟨rfl, rfl, rfl⟩ | ⟨rfl, rfl, rfl⟩ | ⟨rfl, rfl, i, rfl, hi⟩⟩ := nodePart h
    · intro kvs h; cases h
    · refine ⟨fun x _ => trivial, fun h => by cases h⟩
    · trivial
    · intro kvs h; cases h
    · refine ⟨fun x _ => trivial, fun h => by cases h⟩
    · trivial
  validate := by
    intro r nm p v e h _
    obtain ⟨rfl | rfl, ⟨rfl, rfl, rfl⟩ | ⟨rfl, rfl, rfl⟩ | ⟨rfl, rfl, i, rfl, rfl | rfl | rfl | rfl⟩⟩ :=
      nodePart h <;> cases bad <;> exact isOk_absurd (by decide +kernel)
  equal := by
    intro r nm p v v' e h _ hv
    refine isOk_absurd ?_
    obtain ⟨rfl | rfl, ⟨rfl, rfl, rfl⟩ | ⟨rfl, rfl, rfl⟩ | ⟨rfl, rfl, i, rfl, rfl | rfl | rfl | rfl⟩⟩ :=
      nodePart h <;> cases bad <;> exact equalOk_of (by decide +kernel) hv
  listened := by
    intro r nm o en p v' e ho hm hs hv
    refine isOk_absurd ?_
    have hnil : validatorsOf (nodeWorld bad) r nm = [] := by
      unfold validatorsOf
      rw [ho]
      match r, ho with
      | 0, h => cases h; rfl
      | 1, h => cases h; rfl
    rw [hnil] at hv
    cases hv
    obtain ⟨rfl | rfl, ⟨rfl, rfl, h⟩ | ⟨rfl, rfl, h⟩ | ⟨rfl, rfl, i, h, _⟩⟩ :=
      nodePart (.root o en p ho hm hs)
    · cases bad <;> decide +kernel
    · cases bad <;> decide +kernel
    · cases h
    · cases bad <;> decide +kernel
    · cases bad <;> decide +kernel
    · cases h

theorem nodeTidy (bad : Bool) : Tidy nodeEnv (nodeWorld bad) where
  seq := by
    intro r nm p v k item lo hi c h _ hty
    obtain ⟨rfl | rfl, ⟨rfl, rfl, rfl⟩ | ⟨rfl, rfl, rfl⟩ | ⟨rfl, rfl, i, rfl, hi⟩⟩ := nodePart h <;>
      first | cases hty; done | exact ⟨_, rfl⟩
  dict := by
    intro r nm p v kp vp c h _ hty
    obtain ⟨rfl | rfl, ⟨rfl, rfl, rfl⟩ | ⟨rfl, rfl, rfl⟩ | ⟨rfl, rfl, i, rfl, hi⟩⟩ := nodePart h <;>
      cases hty
  ref := by
    intro r nm p r' c h hty
    obtain ⟨rfl | rfl, ⟨rfl, rfl, hv⟩ | ⟨rfl, rfl, hv⟩ | ⟨rfl, rfl, i, hv, hi⟩⟩ := nodePart h
    · cases hv; exact ⟨_, rfl⟩
    · cases hv
    · cases hv
    · cases hv; exact ⟨_, rfl⟩
    · cases hv
    · cases hv


theorem Spec.Calm.weaken {E : Env} {K m : Nat} {w : World} {Y Z : PyErr → Prop} (h : ∀ e, Y e → Z e)
    (hc : Calm E K m w Y) : Calm E K m w Z where
  classValidator r o f ho hf := ⟨(hc.classValidator r o f ho hf).1,
    fun n hn e he => h e ((hc.classValidator r o f ho hf).2 n hn e he)⟩
  validator r nm f v v' hf := ⟨(hc.validator r nm f v v' hf).1,
    fun n hn e he => h e ((hc.validator r nm f v v' hf).2 n hn e he)⟩
  still := hc.still
  validate r nm p v e hp hv he := h e (hc.validate r nm p v e hp hv he)
  equal r nm p v v' e hp hv h1 he := h e (hc.equal r nm p v v' e hp hv h1 he)
  listened r nm o en p v' e ho hm hs hv he := h e (hc.listened r nm o en p v' e ho hm hs hv he)

theorem telling_ordinary {e : PyErr} (h : Telling e) : Ordinary e := ⟨by rw [h.1]; rfl, fun _ => h.2⟩

theorem nodeIdle (bad : Bool) (x : Nat) : ¬ Busy (nodeWorld bad) x := by
  rintro ⟨o, ho, h⟩
  match x, ho with
  | 0, h' => cases h'; cases h
  | 1, h' => cases h'; cases h

/-- The hypotheses of C17 and C21 hold of the two nodes, and `validate()` of
node 0 accepts the good cycle and rejects the bad one. -/
theorem C17_example :
    Valid nodeEnv 40 (nodeWorld false) 0 ∧ ¬ Valid nodeEnv 40 (nodeWorld true) 0 ∧
    ¬ Overflows (run nodeEnv 40 (.hpValidate 0) (nodeWorld true)) := by
  have hc := fun b => (nodeCalm b).weaken fun _ => telling_ordinary
  have hd : ∀ b, validationDepth 1 2 (nodeWorld b).objs.length ≤ 40 := by decide
  refine ⟨?_, ?_, C21_terminates nodeLooks nodePrompt (hc true) (hd _) (hd _) 0⟩
  · refine (C17_validate nodeLooks nodePrompt (hc false) (hd _) (hd _) (nodeIdle _) 0).1.1 ?_
    with_unfolding_all rfl
  · refine (C17_validate nodeLooks nodePrompt (hc true) (hd _) (hd _) (nodeIdle _) 0).2.1 ?_
    exact ⟨⟨.validation, [⟨some (s% "invalid"), some (s% "tags"), some 1⟩]⟩, by with_unfolding_all rfl,
      rfl, fun _ => by simp⟩

/-- The hypotheses of C18 and C31 hold of the bad cycle. -/
theorem C18_example : ∃ e w', run nodeEnv 40 (.hpValidate 1) (nodeWorld true) = (.error e, w') ∧
    Reported nodeEnv 40 (nodeWorld true)
      (ValidGiven nodeEnv 40 (nodeWorld true) (fun x => Busy (nodeWorld true) x ∨ x = 1)) 1
      { cls := 0, backend := [(s% "next", .obj 0), (s% "tags", .list [.int 1, .int 2, .int 3])] }
      e.tuples := by
  have hd : validationDepth 1 2 (nodeWorld true).objs.length ≤ 40 := by decide
  obtain ⟨e, he⟩ := C31_lengths (r := 1) (nm := s% "tags") nodeLooks nodePrompt
    ((nodeCalm true).weaken fun _ => telling_ordinary) hd hd rfl (nodeIdle _ _) (by simp [nodeEnv])
    (Inside.root _ nodeTags rfl (by simp [nodeEnv])) rfl rfl
    (by rintro ⟨_, h⟩; exact absurd (h 2 rfl) (by decide))
  generalize hx : run nodeEnv 40 (.hpValidate 1) (nodeWorld true) = x at he
  obtain ⟨x, w'⟩ := x
  cases he
  exact ⟨e, w', rfl, (C18_report nodeLooks nodePrompt (nodeCalm true) (nodeTidy true) hd hd rfl
    (nodeIdle _ _) (by simp [nodeEnv]) hx).2.2.1⟩

end Verif
