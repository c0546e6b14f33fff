import Verif.Spec.Idempotent
import Verif.Lemmas.Typed
import Verif.Spec.Serialize

/-!
# Values that a type refuses or leaves as they are
-/

namespace Verif
open Spec

/-- Refused, without effect. -/
def Refused (x : Except PyErr Val × World) (w : World) : Prop :=
  ∃ e : PyErr, e.kind.isGeneric = true ∧ x = (.error e, w)

theorem propError_silent' {E : Env} {nm : PyStr} {inst : Option Nat} {w : World}
    (h : Silent w inst) : ∃ e : PyErr, e.kind.isGeneric = true ∧
      ∀ (rec : Rec) α, propError (α := α) E rec nm inst w = (.error e, w) := by
  unfold propError raiseVal
  cases inst with
  | none => exact ⟨_, rfl, fun _ _ => rfl⟩
  | some r =>
    dsimp only
    cases ho : w.objs[r]? with
    | none =>
      refine ⟨{ kind := .attr }, rfl, fun _ _ => bind_err ?_⟩
      unfold getObj
      rw [ho]
    | some o =>
      have : (o.gv == some false) = false := by
        rw [beq_eq_false_iff_ne]
        exact h r o rfl ho
      refine ⟨⟨.validation, [⟨some (s% "invalid"), some nm, some r⟩]⟩, rfl, fun _ α => ?_⟩
      rw [bind_ok (getObj_some ho), this]
      rfl

theorem propError_silent {E : Env} {rec : Rec} {nm : PyStr} {inst : Option Nat} {w : World}
    (h : Silent w inst) : ∃ e : PyErr, e.kind.isGeneric = true ∧
      ∀ α, propError (α := α) E rec nm inst w = (.error e, w) := by
  obtain ⟨e, he, h2⟩ := propError_silent' (E := E) (nm := nm) h
  exact ⟨e, he, h2 rec⟩

theorem liftScalar_silent {E : Env} {rec : Rec} {nm : PyStr} {inst : Option Nat} {w : World}
    (h : Silent w inst) (n : Nat) : Refused (liftScalar E rec nm inst (.error (.invalid n)) w) w := by
  obtain ⟨e, he, hp⟩ := propError_silent (E := E) (rec := rec) (nm := nm) h
  have h2 : Refused (M.catchIf isTypeOrValue (propError (α := Val) E rec nm inst)
      (fun _ => propError E rec nm inst) w) w := by
    by_cases hc : isTypeOrValue e.kind = true
    · rw [catchIf_err (hp _) hc]
      exact ⟨e, he, hp _⟩
    · rw [catchIf_pass (hp _) (by simpa using hc)]
      exact ⟨e, he, rfl⟩
  match n with
  | 0 => exact ⟨e, he, hp _⟩
  | 1 => exact ⟨e, he, hp _⟩
  | 2 => exact h2
  | n + 3 => exact ⟨e, he, hp _⟩

/-- A scalar that is refused or left as it is. -/
def ScalarKeeps (E : Env) (k : Nat) (ty : PropTy) (x : Val) : Prop :=
  scalarValidate E k ty x = some (.ok x) ∨ ∃ n, scalarValidate E k ty x = some (.error (.invalid n))

theorem bool_keeps {cast : Bool} {x : Val} (h : cast = false ∨ ∃ b, x = .bool b) :
    boolValidate cast x = .ok x ∨ ∃ n, boolValidate cast x = .error (.invalid n) := by
  unfold boolValidate
  rcases h with rfl | ⟨b, rfl⟩
  · cases x <;> first | exact .inl rfl | exact .inr ⟨1, rfl⟩
  · cases cast <;> cases b <;> exact .inl rfl

theorem int_keeps {E : Env} {cast : Bool} {mn mx : Option Rat} {x : Val} (h : IntegerKeeps cast x) :
    intValidate E cast mn mx x = .ok x ∨ ∃ n, intValidate E cast mn mx x = .error (.invalid n) := by
  unfold intValidate
  cases x with
  | bool b => exact h.elim
  | float f => exact h.elim
  | int i =>
    have h0 : ratAbs ((i : Rat) - i) > TOL ↔ False := by
      rw [sub_self]; simp only [ratAbs, TOL]; norm_num
    simp only [pyInt, intFar, h0, decide_false]
    cases hb : inBounds mn mx i <;> cases cast <;> simp
  | str s =>
    cases (h : cast = false)
    simp only [pyInt]
    cases E.intOfStr s with
    | none => exact .inr ⟨1, rfl⟩
    | some i => exact .inr ⟨1, rfl⟩
  | uuid n =>
    cases (h : cast = false)
    exact .inr ⟨1, rfl⟩
  | _ => exact .inr ⟨1, rfl⟩

theorem float_keeps {E : Env} {cast : Bool} {mn mx : Option Rat} {x : Val} (h : FloatKeeps cast x) :
    floatValidate E cast mn mx x = .ok x ∨ ∃ n, floatValidate E cast mn mx x = .error (.invalid n) := by
  unfold floatValidate
  cases x with
  | bool b => exact h.elim
  | int f => exact h.elim
  | float f =>
    simp only [pyFloat, Val.isStr, Bool.false_and, Bool.false_eq_true, if_false]
    cases inBoundsF mn mx f <;> simp
  | str s =>
    cases (h : cast = false)
    simp only [pyFloat]
    cases E.floatOfStr s with
    | none => exact .inr ⟨1, rfl⟩
    | some i => exact .inr ⟨1, rfl⟩
  | _ => exact .inr ⟨1, rfl⟩

theorem complex_keeps {E : Env} {cast : Bool} {x : Val} (h : ComplexKeeps cast x) :
    complexValidate E cast x = .ok x ∨ ∃ n, complexValidate E cast x = .error (.invalid n) := by
  unfold complexValidate
  cases x with
  | bool b => exact h.elim
  | int f => exact h.elim
  | float f => exact h.elim
  | cplx a b => exact .inl rfl
  | str s =>
    cases (h : cast = false)
    simp only [pyComplex]
    cases E.cplxOfStr s with
    | none => exact .inr ⟨1, rfl⟩
    | some i => exact .inr ⟨1, rfl⟩
  | _ => exact .inr ⟨1, rfl⟩

theorem strip_nil (s : PyStr) : strip [] s = s := by
  have h : ∀ t : PyStr, lstrip [] t = t := by
    intro t
    unfold lstrip
    cases t <;> simp
  unfold strip rstrip
  simp [h]

theorem scalar_keeps {E : Env} {k : Nat} {ty : PropTy} {x : Val} (hs : ScalarTy ty) (h : Leaves ty x) :
    ScalarKeeps E k ty x := by
  unfold ScalarKeeps
  cases ty with
  | any => exact .inl rfl
  | boolean c =>
    unfold Leaves at h
    unfold scalarValidate
    rcases bool_keeps h with h | ⟨n, h⟩
    · exact .inl (congrArg some h)
    · exact .inr ⟨n, congrArg some h⟩
  | integer c mn mx =>
    unfold Leaves at h
    unfold scalarValidate
    rcases int_keeps (E := E) (mn := mn) (mx := mx) h with h | ⟨n, h⟩
    · exact .inl (congrArg some h)
    · exact .inr ⟨n, congrArg some h⟩
  | float c mn mx =>
    unfold Leaves at h
    unfold scalarValidate
    rcases float_keeps (E := E) (mn := mn) (mx := mx) h with h | ⟨n, h⟩
    · exact .inl (congrArg some h)
    · exact .inr ⟨n, congrArg some h⟩
  | complex c =>
    unfold Leaves at h
    unfold scalarValidate
    rcases complex_keeps (E := E) h with h | ⟨n, h⟩
    · exact .inl (congrArg some h)
    · exact .inr ⟨n, congrArg some h⟩
  | string cs m r =>
    unfold Leaves at h
    unfold scalarValidate stringValidate
    cases x with
    | str s =>
      rcases h with ⟨rfl, rfl⟩ | h
      · simp only [strip_nil, changeCase]
        cases regexOk E r s
        · exact .inr ⟨1, rfl⟩
        · exact .inl rfl
      · exact absurd rfl (h s)
    | _ => exact .inr ⟨1, rfl⟩
  | choice cs b =>
    unfold Leaves at h
    unfold scalarValidate choiceValidate
    cases x with
    | str s => exact absurd rfl (h s)
    | _ => exact .inr ⟨1, rfl⟩
  | color =>
    unfold Leaves at h
    unfold scalarValidate colorValidate
    cases x with
    | str s => exact absurd rfl (h.1 s)
    | list xs => exact absurd rfl (h.2 xs)
    | tup xs =>
      simp only
      unfold colorOfItems
      split
      · split
        · exact .inl rfl
        · exact .inr ⟨1, rfl⟩
      · exact .inr ⟨1, rfl⟩
    | _ => exact .inr ⟨1, rfl⟩
  | datetime =>
    unfold Leaves at h
    unfold scalarValidate dtValidate
    cases x with
    | str s => exact absurd rfl (h s)
    | dt t => exact .inl rfl
    | _ => exact .inr ⟨1, rfl⟩
  | uuid =>
    unfold scalarValidate uuidValidate
    cases x with
    | uuid n => exact .inl rfl
    | _ => exact .inr ⟨1, rfl⟩
  | seq => exact hs.elim
  | dict => exact hs.elim
  | inst => exact hs.elim
  | union => exact hs.elim

/-- Left as it is or refused, without effect. -/
def KeptBy (E : Env) (m : Nat) (nm : PyStr) (p : PropSpec) (inst : Option Nat) (x : Val) (w : World) : Prop :=
  run E m (.validate nm p inst x) w = (.ok x, w) ∨ Refused (run E m (.validate nm p inst x) w) w

theorem lift_keeps {E : Env} {rec : Rec} {nm : PyStr} {inst : Option Nat} {w : World} {x : Val} {y : Except SErr Val}
    (hq : Silent w inst) (h : y = .ok x ∨ ∃ n, y = .error (.invalid n)) :
    liftScalar E rec nm inst y w = (.ok x, w) ∨ Refused (liftScalar E rec nm inst y w) w := by
  rcases h with rfl | ⟨n, rfl⟩
  · exact .inl rfl
  · exact .inr (liftScalar_silent hq n)

/-- A type with `Leaves` refuses the value or leaves it as it is. -/
theorem kept {E : Env} {nm : PyStr} {p : PropSpec} {inst : Option Nat} {x : Val} {w : World}
    (hq : Silent w inst) (h : Leaves p.ty x) (m : Nat) : KeptBy E (m + 1) nm p inst x w := by
  obtain ⟨rq, se, de, df, ty⟩ := p
  unfold KeptBy
  change Leaves ty x at h
  show validateBody E (run E m) nm (.mk rq se de df ty) inst x w = _ ∨
    Refused (validateBody E (run E m) nm (.mk rq se de df ty) inst x w) w
  obtain ⟨e, he, hp⟩ := propError_silent (E := E) (rec := run E m) (nm := nm) hq
  have hs : ∀ k, ScalarTy ty → ScalarKeeps E k ty x := fun k hs => scalar_keeps hs h
  unfold validateBody
  simp only [PropSpec.ty]
  cases ty with
  | seq k item lo hi co =>
    have hco : co = false ∧ k.matches x = false := by
      unfold Leaves at h
      cases x <;> first
        | exact ⟨h, by cases k <;> rfl⟩
        | (refine ⟨h.1, ?_⟩
           cases k <;> first | rfl | exact absurd rfl h.2)
    obtain ⟨rfl, hm⟩ := hco
    refine .inr ⟨e, he, ?_⟩
    simp only
    unfold seqValidate
    simp only [hm, Bool.not_false, Bool.and_self, if_true]
    exact bind_err (hp _)
  | dict kp vp co =>
    obtain ⟨rfl, hd⟩ : co = false ∧ ∀ kvs, x ≠ .dict kvs := h
    refine .inr ⟨e, he, ?_⟩
    simp only
    unfold dictValidate
    refine bind_err ?_
    cases x with
    | dict kvs => exact absurd rfl (hd kvs)
    | _ => exact hp _
  | inst c =>
    have hd : ∀ kvs, x ≠ .dict kvs := h
    simp only
    unfold instValidate
    cases x with
    | dict kvs => exact absurd rfl (hd kvs)
    | obj r =>
      simp only
      cases ho : w.objs[r]? with
      | none =>
        refine .inr ⟨{ kind := .attr }, rfl, bind_err ?_⟩
        unfold getObj
        rw [ho]
      | some o =>
        rw [bind_ok (getObj_some ho)]
        by_cases hb : isSub E o.cls c = true
        · rw [if_pos hb]; exact .inl rfl
        · rw [if_neg hb]; exact .inr ⟨e, he, hp _⟩
    | _ => exact .inr ⟨e, he, hp _⟩
  | union => exact False.elim h
  | color =>
    simp only
    unfold colorBody
    have hs' : ∀ s, x ≠ .str s := h.1
    have := hs 0 trivial
    have h2 : colorValidate E 0 x = .ok x ∨ ∃ n, colorValidate E 0 x = .error (.invalid n) :=
      this.imp Option.some.inj fun ⟨n, h⟩ => ⟨n, Option.some.inj h⟩
    cases x with
    | str s => exact absurd rfl (hs' s)
    | _ => exact lift_keeps hq h2
  | _ =>
    have := hs 0 trivial
    exact lift_keeps hq (this.imp Option.some.inj fun ⟨n, h⟩ => ⟨n, Option.some.inj h⟩)

end Verif
