import Verif.Props.C103
import Verif.Spec.Straight

/-!
# C110: strict and assert_valid only refuse
-/

namespace Verif
open Spec Spec.Exc

namespace Strict

/-- Where the first returns, the second returns the same. -/
def Le {α : Type} (m m' : M α) : Prop := ∀ w x w1, m w = (.ok x, w1) → m' w = (.ok x, w1)

theorem le_refl {α : Type} (m : M α) : Le m m := fun _ _ _ h => h

theorem le_bind {α β : Type} {m m' : M α} {f f' : α → M β} (h : Le m m') (hf : ∀ x, Le (f x) (f' x)) :
    Le (m >>= f) (m' >>= f') := by
  intro w x w1 hr
  obtain ⟨a, w2, h1, h2⟩ := bind_ok_inv hr
  rw [bind_ok (h _ _ _ h1)]
  exact hf a _ _ _ h2

theorem le_mapML {α β : Type} {f f' : α → M β} (h : ∀ x, Le (f x) (f' x)) : ∀ xs, Le (mapML f xs) (mapML f' xs)
  | [] => le_refl _
  | x :: xs => le_bind (h x) fun _ => le_bind (le_mapML h xs) fun _ => le_refl _

def loose (kw : DeKw) : DeKw := { kw with strict := false }

theorem le_class (E : Env) (c : ClsId) (nm : Val) (t s : Bool) :
    Le (deserializeClass E c nm t s) (deserializeClass E c nm t false) := by
  intro w x w1 h
  cases s with
  | false => exact h
  | true =>
    unfold deserializeClass at h ⊢
    split
    · rename_i h1; rw [if_pos h1] at h; exact h
    · rename_i h1
      rw [if_neg h1] at h
      dsimp only at h ⊢
      split
      · rename_i h2; rw [if_pos h2] at h; exact h
      · rename_i h2
        rw [if_neg h2] at h
        generalize (if t = true then _ else none : Option ClsId) = q at h ⊢
        cases q with
        | some d => exact h
        | none => cases h

theorem le_rec {E : Env} (hE : StraightEnv E) : ∀ n,
    (∀ nm p v kw, Straight p → Le (run E n (.deserializeP nm p v kw)) (run E n (.deserializeP nm p v (loose kw)))) ∧
    ∀ c v kw, Le (run E n (.hpDeserialize c v kw)) (run E n (.hpDeserialize c v (loose kw))) := by
  intro n
  induction n with
  | zero => exact ⟨fun _ _ _ _ _ => le_refl _, fun _ _ _ => le_refl _⟩
  | succ n ih =>
  obtain ⟨ihp, ihh⟩ := ih
  constructor
  · intro nm p v kw hp
    show Le (deserializeBody E (run E n) nm p v kw) (deserializeBody E (run E n) nm p v (loose kw))
    unfold deserializeBody
    cases hp with
    | scalar _ hd hty =>
      rw [hd]
      dsimp only
      split
      · exact le_refl _
      · generalize p.ty = ty at hty
        cases ty <;> first
          | exact hty.elim
          | exact le_refl _
    | seq _ k it lo hi co hd hty hit =>
      rw [hd, hty]
      dsimp only
      split
      · exact le_refl _
      · split
        · exact le_refl _
        · exact le_bind (le_mapML (fun x => ihp nm it x kw hit) _) fun _ => le_refl _
    | dict _ kp vp co hd hty hk hv =>
      rw [hd, hty]
      dsimp only
      split
      · exact le_refl _
      · split
        · exact le_bind (le_mapML (fun x => le_bind (ihp nm kp _ kw hk) fun _ =>
            le_bind (ihp nm vp _ kw hv) fun _ => le_refl _) _) fun _ => le_refl _
        · exact le_refl _
    | inst _ c hd hty =>
      rw [hd, hty]
      dsimp only
      split
      · exact le_refl _
      · exact ihh c v kw
  · intro c v kw
    show Le (hpDeserializeBody E (run E n) c v kw) (hpDeserializeBody E (run E n) c v (loose kw))
    unfold hpDeserializeBody
    cases v with
    | dict kvs =>
      dsimp only
      refine le_bind (le_class E c _ kw.trusted kw.strict) fun d => ?_
      refine le_bind (m' := raiseWhen _ _) ?_ fun _ => ?_
      · intro w x w1 h
        unfold raiseWhen at h ⊢
        simp only [loose, Bool.false_and, Bool.false_eq_true, if_false]
        split at h
        · cases h
        · exact h
      · refine le_bind (le_mapML (fun kv => ?_) _) fun _ => le_refl _
        unfold deserEntry
        cases hl : lookupS kv.1 (E.classes d).props with
        | none => exact le_refl _
        | some e =>
          refine le_bind ?_ fun _ => le_refl _
          have := hE d _ e hl
          cases e with
          | mutable p => exact ihp _ p _ _ this
          | gettable p => exact ihp _ p _ _ this
          | dynamic p g s dl =>
            unfold entryDeserialize
            dsimp only
            have hd : p.deser = none := this
            rw [hd]
            exact le_refl _
          | renamed _ => exact le_refl _
    | _ => exact le_refl _

end Strict

/-- **C110**.  Where no class has Unions or registered deserializers, `strict`
only refuses: what is returned with it, at any depth of the input, is returned
without it, and leaves the same state. -/
theorem C110_strict {E : Env} (hE : StraightEnv E) (n : Nat) (c : ClsId) (v : Val) (t a : Bool) {w w1 : World} {x : Val}
    (h : run E n (.hpDeserialize c v ⟨t, true, a⟩) w = (.ok x, w1)) :
    run E n (.hpDeserialize c v ⟨t, false, a⟩) w = (.ok x, w1) :=
  ((Strict.le_rec hE n).2 c v ⟨t, true, a⟩) _ _ _ h

/-- **C110**.  For any classes, `assert_valid` only refuses: `deserialize` with
it returns exactly if it does without it and `validate()` of the instance then
returns True, and the state is the one `validate()` leaves. -/
theorem C110_assert (E : Env) (n : Nat) (c : ClsId) (v : Val) (t s : Bool) (w w1 : World) (x : Val) :
    run E (n + 1) (.hpDeserialize c v ⟨t, s, true⟩) w = (.ok x, w1) ↔
    ∃ r w0 b, x = .obj r ∧ run E (n + 1) (.hpDeserialize c v ⟨t, s, false⟩) w = (.ok x, w0) ∧
      run E n (.hpValidate r) w0 = (.ok b, w1) ∧ b.truthy = true := by
  show hpDeserializeBody E (run E n) c v ⟨t, s, true⟩ w = _ ↔
    ∃ r w0 b, x = .obj r ∧ hpDeserializeBody E (run E n) c v ⟨t, s, false⟩ w = _ ∧ _
  have fin : ∀ (d : ClsId) (im : List (PyStr × Val)) (inst : Val) (u : World),
      deserFinish E (run E n) d ⟨t, s, true⟩ im inst u = (.ok x, w1) ↔
      ∃ r w0 b, x = .obj r ∧ deserFinish E (run E n) d ⟨t, s, false⟩ im inst u = (.ok x, w0) ∧
        run E n (.hpValidate r) w0 = (.ok b, w1) ∧ b.truthy = true := by
    intro d im inst u
    cases inst with
    | obj r =>
      unfold deserFinish assertBuilt
      simp only [if_true, Bool.false_eq_true, if_false]
      constructor
      · intro h
        obtain ⟨_, u1, h1, h⟩ := bind_ok_inv h
        obtain ⟨_, u2, h2, h⟩ := bind_ok_inv h
        obtain ⟨b, u3, h3, h4⟩ := bind_ok_inv h2
        cases h
        split at h4
        · rename_i hb
          cases h4
          exact ⟨r, u1, b, rfl, by rw [bind_ok h1]; rfl, h3, hb⟩
        · exact absurd (congrArg Prod.fst h4) (raiseVal_never_ok _ _ _ _ _ _ _)
      · rintro ⟨r', w0, b, rfl, h, hv, hb⟩
        obtain ⟨_, u1, h1, h⟩ := bind_ok_inv h
        cases h
        rw [bind_ok h1]
        refine (bind_ok (a := ()) (w' := w1) ?_).trans rfl
        rw [bind_ok hv, if_pos hb]
        rfl
    | _ =>
      constructor
      · intro h; cases h
      · rintro ⟨_, _, _, _, h, _⟩; cases h
  unfold hpDeserializeBody
  cases v with
  | dict kvs =>
    dsimp only
    constructor
    · intro h
      obtain ⟨d, u1, h1, h⟩ := bind_ok_inv h
      obtain ⟨_, u2, h2, h⟩ := bind_ok_inv h
      obtain ⟨ns, u3, h3, h⟩ := bind_ok_inv h
      obtain ⟨i, u4, h4, h⟩ := bind_ok_inv h
      obtain ⟨r, w0, b, hx, h5, h6⟩ := (fin _ _ _ _).1 h
      refine ⟨r, w0, b, hx, ?_, h6⟩
      rw [bind_ok h1, bind_ok h2, bind_ok h3, bind_ok h4]
      exact h5
    · rintro ⟨r, w0, b, hx, h, h6⟩
      obtain ⟨d, u1, h1, h⟩ := bind_ok_inv h
      obtain ⟨_, u2, h2, h⟩ := bind_ok_inv h
      obtain ⟨ns, u3, h3, h⟩ := bind_ok_inv h
      obtain ⟨i, u4, h4, h⟩ := bind_ok_inv h
      rw [bind_ok h1, bind_ok h2, bind_ok h3, bind_ok h4]
      exact (fin _ _ _ _).2 ⟨r, w0, b, hx, h, h6⟩
  | _ =>
    constructor
    · intro h; cases h
    · rintro ⟨_, _, _, _, h, _⟩; cases h

/-! ## Nested input, and a Union -/

def c110Num : PropSpec := .mk true none none .undef (.integer false none none)
def c110Inst : PropSpec := .mk true none none .undef (.inst 0)
def c110Union : PropSpec :=
  .mk true none none .undef (.union [.mk true none none .undef (.inst 0), .mk true none none .undef (.inst 1)] false)

/-- Classes 0 and 1 have an integer, `a` or `b`; the others have `i` of the given
kind. -/
def c110Env (p : PropSpec) : Env := { demoEnv with
  classes := fun c => { (default : ClassDef) with
    props := if c = 0 then [(s% "a", .mutable c110Num)] else if c = 1 then [(s% "b", .mutable c110Num)]
      else [(s% "i", .mutable p)] } }

/-- With an Instance, nested input with an unknown key is read but for `strict`,
and unset values are refused by `assert_valid` only.  With a Union, `strict`
takes the second alternative where otherwise the first is taken. -/
theorem C110_example : StraightEnv (c110Env c110Inst) ∧
    (run (c110Env c110Inst) 12 (.hpDeserialize 2 (.dict [(.str (s% "i"), .dict [(.str (s% "a"), .int 3)])])
      ⟨false, true, true⟩) {}).1 = .ok (.obj 1) ∧
    (run (c110Env c110Inst) 12 (.hpDeserialize 2 (.dict [(.str (s% "i"), .dict [(.str (s% "b"), .int 3)])])
      ⟨false, true, false⟩) {}).1 = .error ⟨.value, []⟩ ∧
    (run (c110Env c110Inst) 12 (.hpDeserialize 2 (.dict [(.str (s% "i"), .dict [(.str (s% "b"), .int 3)])])
      ⟨false, false, false⟩) {}).1 = .ok (.obj 1) ∧
    (run (c110Env c110Inst) 12 (.hpDeserialize 2 (.dict [(.str (s% "i"), .dict [(.str (s% "b"), .int 3)])])
      ⟨false, false, true⟩) {}).1 =
        .error ⟨.validation, [⟨some (s% "missing"), some (s% "a"), some 0⟩]⟩ ∧
    (run (c110Env c110Union) 12 (.hpDeserialize 2 (.dict [(.str (s% "i"), .dict [(.str (s% "b"), .int 3)])])
      ⟨false, true, false⟩) {}).2.objs.map Obj.cls = [1, 2] ∧
    (run (c110Env c110Union) 12 (.hpDeserialize 2 (.dict [(.str (s% "i"), .dict [(.str (s% "b"), .int 3)])])
      ⟨false, false, false⟩) {}).2.objs.map Obj.cls = [0, 2] := by
  refine ⟨?_, ?_, ?_, ?_, ?_, ?_, ?_⟩
  · intro c nm e h
    have : e = .mutable c110Num ∨ e = .mutable c110Inst := by
      simp only [c110Env] at h
      split at h
      · simp only [lookupS] at h; split at h <;> cases h; exact .inl rfl
      · split at h
        · simp only [lookupS] at h; split at h <;> cases h; exact .inl rfl
        · simp only [lookupS] at h; split at h <;> cases h; exact .inr rfl
    rcases this with rfl | rfl
    · exact .scalar _ rfl trivial
    · exact .inst _ 0 rfl rfl
  all_goals with_unfolding_all rfl

end Verif
