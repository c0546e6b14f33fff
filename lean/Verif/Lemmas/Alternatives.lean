import Verif.Lemmas.Rebuild

/-!
# Alternatives of a Union that refuse a value
-/

namespace Verif
open Spec

theorem liftScalar_refused {E : Env} {nm : PyStr} {inst : Option Nat} {w : World}
    (h : Silent w inst) (n : Nat) : ∃ e : PyErr, e.kind.isGeneric = true ∧
      ∀ rec : Rec, liftScalar E rec nm inst (.error (.invalid n)) w = (.error e, w) := by
  obtain ⟨e, he, hp⟩ := propError_silent' (E := E) (nm := nm) h
  have h2 : ∀ rec : Rec, M.catchIf isTypeOrValue (propError (α := Val) E rec nm inst)
      (fun _ => propError E rec nm inst) w = (.error e, w) := by
    intro rec
    by_cases hc : isTypeOrValue e.kind = true
    · rw [catchIf_err (hp rec _) hc]
      exact hp rec _
    · rw [catchIf_pass (hp rec _) (by simpa using hc)]
  refine ⟨e, he, fun rec => ?_⟩
  match n with
  | 0 => exact hp rec _
  | 1 => exact hp rec _
  | 2 => exact h2 rec
  | n + 3 => exact hp rec _

theorem alike_refl (v : Val) : Alike v v := by
  cases v <;> first | exact trivial | rfl

theorem seqKeeps_matches {k : SeqKind} {co : Bool} {v : Val} (h : SeqKeeps k co v) :
    co = false ∧ k.matches v = false := by
  cases v <;> first
    | exact ⟨h, by cases k <;> rfl⟩
    | (refine ⟨h.1, ?_⟩
       cases k <;> first | rfl | exact absurd rfl h.2)

/-- Refused by the scalar types. -/
def RefusesScalar (E : Env) (ty : PropTy) (v : Val) : Prop :=
  (∀ u, Alike v u → ∀ k, ∃ n, scalarValidate E k ty u = some (.error (.invalid n))) ∧
    (ty = .color → ∀ s, v = .str s → colorIsRandom E s = false)

theorem refuses_scalar {E : Env} {w : World} {ty : PropTy} {v : Val} (hs : ScalarTy ty) :
    Refuses E w ty v ↔ RefusesScalar E ty v := by
  cases ty <;> first | exact hs.elim | exact Iff.rfl

/-- What is refused is refused wherever the classes of the instances are the
same, without effect. -/
theorem refuses_run {E : Env} {w w' : World} {nm : PyStr} {p : PropSpec} {inst : Option Nat} {v : Val}
    (h : Refuses E w p.ty v) (hk : ClsKept w w') (hq : Silent w' inst) :
    ∃ e : PyErr, e.kind.isGeneric = true ∧ ∀ m, run E (m + 1) (.validate nm p inst v) w' = (.error e, w') := by
  obtain ⟨rq, se, de, df, ty⟩ := p
  simp only [PropSpec.ty] at h
  obtain ⟨e, he, hp⟩ := propError_silent' (E := E) (nm := nm) hq
  have body : ∀ m, run E (m + 1) (.validate nm (.mk rq se de df ty) inst v) w' =
      validateBody E (run E m) nm (.mk rq se de df ty) inst v w' := fun _ => rfl
  by_cases hs : ScalarTy ty
  · rw [refuses_scalar hs] at h
    by_cases hc : ty = .color
    · subst hc
      obtain ⟨n, hn⟩ := h.1 v (alike_refl v) 0
      have hn : colorValidate E 0 v = .error (.invalid n) := Option.some.inj hn
      obtain ⟨e', he', hl⟩ := liftScalar_refused (E := E) (nm := nm) hq n
      refine ⟨e', he', fun m => ?_⟩
      rw [body]
      unfold validateBody
      simp only [PropSpec.ty]
      cases v with
      | str s =>
        simp only [colorBody]
        rw [h.2 rfl s rfl]
        simp only [Bool.false_eq_true, if_false]
        rw [bind_ok (pure_apply _ _), hn]
        exact hl _
      | _ =>
        simp only [colorBody]
        rw [hn]
        exact hl _
    · obtain ⟨n, hn⟩ := h.1 v (alike_refl v) 0
      obtain ⟨e', he', hl⟩ := liftScalar_refused (E := E) (nm := nm) hq n
      refine ⟨e', he', fun m => ?_⟩
      rw [body, validateBody_scalar hs hc, hn]
      exact hl _
  · cases ty with
    | seq k item lo hi co =>
      obtain ⟨rfl, hm⟩ := seqKeeps_matches h
      refine ⟨e, he, fun m => ?_⟩
      rw [body]
      unfold validateBody
      simp only [PropSpec.ty]
      unfold seqValidate
      simp only [hm, Bool.not_false, Bool.and_self, if_true]
      exact bind_err (hp _ _)
    | dict kp vp co =>
      obtain ⟨rfl, hd⟩ : co = false ∧ ∀ kvs, v ≠ .dict kvs := h
      refine ⟨e, he, fun m => ?_⟩
      rw [body]
      unfold validateBody
      simp only [PropSpec.ty]
      unfold dictValidate
      refine bind_err ?_
      cases v with
      | dict kvs => exact absurd rfl (hd kvs)
      | _ => exact hp _ _
    | inst c =>
      obtain ⟨hd, ho⟩ : (∀ kvs, v ≠ .dict kvs) ∧
        ∀ r, v = .obj r → ∃ o, w.objs[r]? = some o ∧ isSub E o.cls c = false := h
      refine ⟨e, he, fun m => ?_⟩
      rw [body]
      unfold validateBody
      simp only [PropSpec.ty]
      unfold instValidate
      cases v with
      | dict kvs => exact absurd rfl (hd kvs)
      | obj r =>
        simp only
        obtain ⟨o, h1, h2⟩ := ho r rfl
        obtain ⟨o', h3, h4⟩ := hk r o.cls ⟨o, h1, rfl⟩
        rw [bind_ok (getObj_some h3), h4, h2]
        exact hp _ _
      | _ => exact hp _ _
    | union => exact False.elim h
    | _ => exact absurd trivial hs

theorem silent_none (w : World) : Silent w none := fun _ _ h => by cases h

theorem clsKept_trans {a b c : World} (h : ClsKept a b) (k : ClsKept b c) : ClsKept a c :=
  fun r x hx => k r x (h r x hx)

theorem refuses_rejects {E : Env} {w : World} {nm : PyStr} {p : PropSpec} {v : Val}
    (h : Refuses E w p.ty v) : Rejects E w nm v p := by
  obtain ⟨e, he, hr⟩ := refuses_run (nm := nm) h (clsKept_refl w) (silent_none w)
  refine ⟨1, e, he, fun n hn => ?_⟩
  obtain ⟨m, rfl⟩ : ∃ m, n = m + 1 := ⟨n - 1, by omega⟩
  rw [hr]

theorem picks_after {E : Env} {w : World} {nm : PyStr} {q : PropSpec} {post : List PropSpec} {v : Val}
    (ha : Accepts E w nm v q) : ∀ (pre : List PropSpec), (∀ p' ∈ pre, Refuses E w p'.ty v) →
    Picks E w nm v (pre ++ q :: post) (some q)
  | [], _ => .here q post ha
  | p :: pre, h => .later p _ _ (refuses_rejects (h p (by simp)))
      (picks_after ha pre fun p' hp' => h p' (by simp [hp']))

/-- At most one alternative is picked. -/
theorem picks_unique {E : Env} {w : World} {nm : PyStr} {v : Val} {ps : List PropSpec} {a b : Option PropSpec}
    (h1 : Picks E w nm v ps a) (h2 : Picks E w nm v ps b) : a = b := by
  have ex : ∀ q, Accepts E w nm v q → Rejects E w nm v q → False := by
    rintro q ⟨N, x, hx⟩ ⟨M, e, _, he⟩
    have h := hx (max N M) (Nat.le_max_left ..)
    rw [he (max N M) (Nat.le_max_right ..)] at h
    cases h
  induction h1 with
  | nil => cases h2; rfl
  | here q ps ha =>
    cases h2 with
    | here => rfl
    | later _ _ _ hr => exact (ex q ha hr).elim
  | later q ps o hr _ ih =>
    cases h2 with
    | here _ _ ha => exact (ex q ha hr).elim
    | later _ _ _ _ h2 => exact ih h2

/-- The loop of validate and serialize passes over what refuses the value. -/
theorem tryProps_after {E : Env} {rec : Rec} {nm : PyStr} {inst : Option Nat} {f : PropSpec → Call}
    {w : World} {q : PropSpec} {post : List PropSpec} {x : Val} {w' : World} (hq : rec (f q) w = (.ok x, w')) :
    ∀ (pre : List PropSpec), (∀ p ∈ pre, ∃ e : PyErr, e.kind.isGeneric = true ∧ rec (f p) w = (.error e, w)) →
    tryProps E rec nm inst f (pre ++ q :: post) w = (.ok x, w')
  | [], _ => by
    show M.catchIf ErrKind.isGeneric (rec (f q)) _ w = _
    rw [catchIf_ok hq]
  | p :: pre, h => by
    obtain ⟨e, he, hp⟩ := h p (by simp)
    show M.catchIf ErrKind.isGeneric (rec (f p)) _ w = _
    rw [catchIf_err hp he]
    exact tryProps_after hq pre fun p' hp' => h p' (by simp [hp'])

theorem unionSerialize_after {rec : Rec} {nm : PyStr} {v : Val} {kw : SerKw} {w : World} {q : PropSpec}
    {post : List PropSpec} {x j : Val} {w' : World} (hv : rec (.validate nm q none v) w = (.ok x, w))
    (hq : rec (.serializeP nm q v kw) w = (.ok j, w')) :
    ∀ (pre : List PropSpec), (∀ p ∈ pre, ∃ e : PyErr, e.kind.isGeneric = true ∧
      rec (.validate nm p none v) w = (.error e, w)) →
    unionSerialize rec nm v kw (pre ++ q :: post) w = (.ok j, w')
  | [], _ => by
    show unionSerialize rec nm v kw (q :: post) w = _
    unfold unionSerialize
    have : M.attempt (rec (.validate nm q none v)) w = (.ok (.ok x), w) := by rw [attempt_apply, hv]
    rw [bind_ok this]
    exact hq
  | p :: pre, h => by
    obtain ⟨e, he, hp⟩ := h p (by simp)
    show unionSerialize rec nm v kw (p :: (pre ++ q :: post)) w = _
    unfold unionSerialize
    have : M.attempt (rec (.validate nm p none v)) w = (.ok (.error e), w) := by rw [attempt_apply, hp]
    rw [bind_ok this]
    simp only [he, if_true]
    exact unionSerialize_after hv hq pre fun p' hp' => h p' (by simp [hp'])

/-! ## Reading -/

theorem namedAlternative_none {E : Env} {kvs : List (Val × Val)} {x : Val}
    (hx : dictGet? kvs (.str (s% "__class__")) = some x) (ht : x.truthy = true) : ∀ (ps : List PropSpec),
    (∀ p ∈ ps, ¬ NamesIt E (.dict kvs) p) → namedAlternative E x ps = none
  | [], _ => rfl
  | p :: ps, h => by
    have ih := namedAlternative_none hx ht ps fun p' hp' => h p' (by simp [hp'])
    unfold namedAlternative
    cases hty : p.ty with
    | inst c =>
      simp only
      rw [if_neg fun e => h p (by simp) ⟨kvs, x, c, rfl, hx, ht, hty, e⟩]
      exact ih
    | _ => exact ih

theorem namedAlternative_some {E : Env} {kvs : List (Val × Val)} {x : Val} {q : PropSpec} {c : ClsId}
    {b : List PropSpec} (hx : dictGet? kvs (.str (s% "__class__")) = some x) (ht : x.truthy = true)
    (hc : q.ty = .inst c) (he : pyEq x (.str (E.classes c).name) = true) : ∀ (a : List PropSpec),
    (∀ p ∈ a, ¬ NamesIt E (.dict kvs) p) → namedAlternative E x (a ++ q :: b) = some q
  | [], _ => by
    show namedAlternative E x (q :: b) = _
    unfold namedAlternative
    simp only [hc, he, if_true]
  | p :: a, h => by
    have ih := namedAlternative_some (b := b) hx ht hc he a fun p' hp' => h p' (by simp [hp'])
    show namedAlternative E x (p :: (a ++ q :: b)) = _
    unfold namedAlternative
    cases hty : p.ty with
    | inst c' =>
      simp only
      rw [if_neg fun e => h p (by simp) ⟨kvs, x, c', rfl, hx, ht, hty, e⟩]
      exact ih
    | _ => exact ih

/-- The alternative that `Union.deserialize` finds by name. -/
def namedIn (E : Env) (ps : List PropSpec) (v : Val) : Option PropSpec :=
  match v with
  | .dict kvs =>
      let clsname := (dictGet? kvs (.str (s% "__class__"))).getD .none
      if clsname.truthy then namedAlternative E clsname ps else none
  | _ => none

theorem deserialize_union {E : Env} {rec : Rec} {nm : PyStr} {p : PropSpec} {ps : List PropSpec} {v : Val}
    {kw : DeKw} (hd : p.deser = none) (hv : v ≠ .none) (hty : p.ty = .union ps false) (ha : kw.assertValid = false) :
    deserializeBody E rec nm p v kw = (match namedIn E ps v with
      | some q => rec (.deserializeP nm q v kw)
      | none => unionDeserialize rec nm v kw ps) := by
  have hkw : ({ kw with strict := kw.strict || false, assertValid := false } : DeKw) = kw := by
    cases kw
    cases ha
    simp
  unfold deserializeBody
  have hn : v.isNone = false := by cases v <;> first | rfl | exact absurd rfl hv
  simp only [hd, hn, Bool.false_eq_true, if_false, hty, hkw]
  rfl

theorem namedIn_none {E : Env} {ps : List PropSpec} {v : Val} (h : ∀ p ∈ ps, ¬ NamesIt E v p) :
    namedIn E ps v = none := by
  unfold namedIn
  cases v with
  | dict kvs =>
    simp only
    cases hx : dictGet? kvs (.str (s% "__class__")) with
    | none => rfl
    | some x =>
      simp only [Option.getD_some]
      by_cases ht : x.truthy = true
      · rw [if_pos ht]
        exact namedAlternative_none hx ht ps h
      · rw [if_neg ht]
  | _ => rfl

theorem namedIn_some {E : Env} {a b : List PropSpec} {q : PropSpec} {v : Val} (h : NamesIt E v q)
    (ha : ∀ p ∈ a, ¬ NamesIt E v p) : namedIn E (a ++ q :: b) v = some q := by
  obtain ⟨kvs, x, c, rfl, hx, ht, hc, he⟩ := h
  unfold namedIn
  simp only [hx, Option.getD_some, ht, if_true]
  exact namedAlternative_some hx ht hc he a ha

theorem unionDeserialize_after {rec : Rec} {nm : PyStr} {v : Val} {kw : DeKw} {w w' : World} {q : PropSpec}
    {post : List PropSpec} {x y : Val} (hq : rec (.deserializeP nm q v kw) w = (.ok x, w'))
    (hv : rec (.validate nm q none x) w' = (.ok y, w')) :
    ∀ (pre : List PropSpec), (∀ p ∈ pre,
      (∃ e : PyErr, e.kind.isGeneric = true ∧ rec (.deserializeP nm p v kw) w = (.error e, w)) ∨
      (∃ y, rec (.deserializeP nm p v kw) w = (.ok y, w) ∧ ∃ e : PyErr, e.kind.isGeneric = true ∧
        rec (.validate nm p none y) w = (.error e, w))) →
    unionDeserialize rec nm v kw (pre ++ q :: post) w = (.ok x, w')
  | [], _ => by
    show M.catchIf ErrKind.isGeneric (do
        let out ← rec (.deserializeP nm q v kw)
        let _ ← rec (.validate nm q none out)
        pure out) _ w = _
    refine (catchIf_ok (a := x) (w' := w') ?_)
    rw [bind_ok hq, bind_ok hv]
    rfl
  | p :: pre, h => by
    have ih := unionDeserialize_after (post := post) hq hv pre fun p' hp' => h p' (by simp [hp'])
    show M.catchIf ErrKind.isGeneric (do
        let out ← rec (.deserializeP nm p v kw)
        let _ ← rec (.validate nm p none out)
        pure out) _ w = _
    rcases h p (by simp) with ⟨e, he, hp⟩ | ⟨z, hz, e, he, hp⟩
    · rw [catchIf_err (bind_err hp) he]
      exact ih
    · have : (do
        let out ← rec (.deserializeP nm p v kw)
        let _ ← rec (.validate nm p none out)
        pure out : M Val) w = (.error e, w) := by
        rw [bind_ok hz]
        exact bind_err hp
      rw [catchIf_err this he]
      exact ih

end Verif
