import Verif.Props.C15
import Verif.Props.C02
import Verif.Lemmas.Scalar

/-!
# C71: Instance properties
-/

namespace Verif
open Spec

/-- A dictionary whose keys are all text: keyword arguments. -/
def keywordDict (kw : List (PyStr × Val)) : Val := .dict (kw.map fun kv => (.str kv.1, kv.2))

theorem kwOfDict_iff : ∀ {kvs : List (Val × Val)} {kw : List (PyStr × Val)},
    kwOfDict? kvs = some kw ↔ kvs = kw.map fun kv => (.str kv.1, kv.2)
  | [], kw => by
    unfold kwOfDict?
    cases kw <;> simp
  | (k, v) :: kvs, kw => by
    have ih := @kwOfDict_iff kvs
    cases k with
    | str s =>
      unfold kwOfDict?
      rw [Option.map_eq_some_iff]
      constructor
      · rintro ⟨kw', h1, rfl⟩
        rw [List.map_cons, ← ih.1 h1]
      · intro h
        cases kw with
        | nil => cases h
        | cons a kw' =>
          rw [List.map_cons, List.cons.injEq, Prod.mk.injEq, Val.str.injEq] at h
          obtain ⟨⟨rfl, rfl⟩, h2⟩ := h
          exact ⟨kw', ih.2 h2, rfl⟩
    | _ =>
      unfold kwOfDict?
      constructor
      · intro h; cases h
      · intro h
        cases kw with
        | nil => cases h
        | cons a kw' =>
          rw [List.map_cons, List.cons.injEq, Prod.mk.injEq] at h
          cases h.1.1

section
variable {E : Env} {p : PropSpec} {c : ClsId} (hp : p.ty = .inst c)
include hp

theorem inst_run (n : Nat) (nm : PyStr) (inst : Option Nat) (v : Val) (w : World) :
    run E (n + 1) (.validate nm p inst v) w = instValidate E (run E n) nm inst c v w := by
  show validateBody E (run E n) nm p inst v w = _
  unfold validateBody
  simp only [hp]

theorem inst_dict (n : Nat) (nm : PyStr) (inst : Option Nat) (kw : List (PyStr × Val)) (w : World) :
    run E (n + 1) (.validate nm p inst (keywordDict kw)) w =
      M.catchIf ErrKind.isGeneric (run E n (.construct c kw)) (fun _ => propError E (run E n) nm inst) w := by
  rw [inst_run hp]
  unfold instValidate keywordDict
  simp only [kwOfDict_iff.2 rfl]

/-- C71: an Instance property accepts instances of its class and of classes
derived from it, which it returns as they are, without any effect; and
dictionaries with text keys from which its class can be built, for which it
returns what the constructor returns; nothing else. -/
theorem C71_accepts (n : Nat) (nm : PyStr) (inst : Option Nat) (v x : Val) (w w' : World) :
    run E (n + 1) (.validate nm p inst v) w = (.ok x, w') ↔
      (∃ r, v = .obj r ∧ InstanceOf E w r c ∧ x = v ∧ w' = w) ∨
      (∃ kw, v = keywordDict kw ∧ run E n (.construct c kw) w = (.ok x, w')) := by
  constructor
  · intro h
    rw [inst_run hp] at h
    unfold instValidate at h
    split at h
    · rename_i r
      obtain ⟨o, w1, h1, h2⟩ := bind_ok_inv h
      cases ho : w.objs[r]? with
      | none => unfold getObj at h1; rw [ho] at h1; cases h1
      | some o' =>
        rw [getObj_some ho] at h1
        cases h1
        split at h2
        · rename_i hs
          cases h2
          exact .inl ⟨r, rfl, ⟨o, ho, isSub_iff.1 hs⟩, rfl, rfl⟩
        · exact (propError_raises h2).elim
    · rename_i kvs
      cases hk : kwOfDict? kvs with
      | some kw =>
        simp only [hk] at h
        rcases catchIf_ok_inv h with h | ⟨_, _, _, h⟩
        · refine .inr ⟨kw, ?_, h⟩
          unfold keywordDict
          rw [kwOfDict_iff.1 hk]
        · exact (propError_raises h).elim
      | none =>
        simp only [hk] at h
        exact (propError_raises h).elim
    · exact (propError_raises h).elim
  · rintro (⟨r, rfl, ⟨o, ho, hs⟩, rfl, rfl⟩ | ⟨kw, rfl, h⟩)
    · rw [inst_run hp]
      unfold instValidate
      dsimp only
      rw [bind_ok (getObj_some ho), if_pos (isSub_iff.2 hs)]
      rfl
    · rw [inst_dict hp]
      exact catchIf_ok h

/-- C71: what is built from a dictionary is a new instance, of the class of the
property itself. -/
theorem C71_builds {n : Nat} {nm : PyStr} {inst : Option Nat} {kw : List (PyStr × Val)} {x : Val} {w w' : World}
    (h : run E n (.validate nm p inst (keywordDict kw)) w = (.ok x, w')) :
    x = .obj w.objs.length ∧ ∃ o, w'.objs[w.objs.length]? = some o ∧ o.cls = c := by
  cases n with
  | zero => cases h
  | succ n =>
    rcases (C71_accepts hp ..).1 h with ⟨r, h1, _⟩ | ⟨kw', h1, h2⟩
    · cases h1
    · have he : kw' = kw := by
        have := kwOfDict_iff.2 (Val.dict.inj h1)
        rw [kwOfDict_iff.2 rfl] at this
        exact (Option.some.inj this).symm
      subst he
      cases n with
      | zero => cases h2
      | succ n =>
        exact construct_result (restored_stable E).toBase (restored_stable E).writer
          ((restored_stable E).run_ok n) trivial h2

/-- C71: everything else is refused with ValidationError, and no instance is
touched (the error hook of the instance, if its class has one, is user code). -/
theorem C71_refuses {n : Nat} {nm : PyStr} {inst : Option Nat} {v : Val} {w : World} (hq : QuietInst E w inst)
    (ho : ∀ r, v = .obj r → r < w.objs.length ∧ ¬ InstanceOf E w r c) (hd : ∀ kw, v ≠ keywordDict kw) :
    ∃ e w', run E (n + 1) (.validate nm p inst v) w = (.error e, w') ∧ e.kind = .validation ∧ w'.objs = w.objs := by
  obtain ⟨w1, h1, h2⟩ := propError_quiet (α := Val) E (run E n) nm inst w hq
  refine ⟨⟨.validation, [⟨some (s% "invalid"), some nm, inst⟩]⟩, w1, ?_, rfl, h2⟩
  rw [inst_run hp]
  unfold instValidate
  split
  · rename_i r
    obtain ⟨hr, hn⟩ := ho r rfl
    have ho' := List.getElem?_eq_getElem hr
    rw [bind_ok (getObj_some ho'), if_neg]
    · exact h1
    · intro hs
      exact hn ⟨_, ho', isSub_iff.1 hs⟩
  · rename_i kvs
    cases hk : kwOfDict? kvs with
    | some kw =>
      exact absurd (by unfold keywordDict; rw [kwOfDict_iff.1 hk]) (hd kw)
    | none => exact h1
  · exact h1

/-- C71: a dictionary that the constructor refuses with one of the usual errors
(attributes, keys, values, types) is refused with ValidationError; any other
exception of the constructor goes through. -/
theorem C71_refused_dictionary {n : Nat} {nm : PyStr} {inst : Option Nat} {kw : List (PyStr × Val)} {w w' : World}
    {e : PyErr} (h : run E n (.construct c kw) w = (.error e, w')) (hq : QuietInst E w inst) :
    (e.kind.isGeneric = true → ∃ e' w'', run E (n + 1) (.validate nm p inst (keywordDict kw)) w = (.error e', w'') ∧
      e'.kind = .validation ∧ w''.objs = w'.objs) ∧
    (e.kind.isGeneric = false → run E (n + 1) (.validate nm p inst (keywordDict kw)) w = (.error e, w')) := by
  rw [inst_dict hp]
  constructor
  · intro hk
    have hq' : QuietInst E w' inst := by
      intro r hr
      obtain ⟨o, ho, hh⟩ := hq r hr
      have hk' := run_restored E n (.construct c kw) w
      rw [h] at hk'
      obtain ⟨o', ho', hk2⟩ := hk'.old r o ho
      exact ⟨o', ho', by rw [hk2.cls]; exact hh⟩
    obtain ⟨w1, h1, h2⟩ := propError_quiet (α := Val) E (run E n) nm inst w' hq'
    exact ⟨_, w1, by rw [catchIf_err h hk]; exact h1, rfl, h2⟩
  · intro hk
    rw [catchIf_pass h hk]

end

/-! ## A class as default -/

theorem declared_det {C : ClassDef} {k : PyStr} {e : Entry} {d d' : Dflt} (h : Declared C k e d) (h' : Declared C k e d') :
    d = d' := by
  cases h <;> cases h' <;> simp_all

/-- C71: an Instance property whose default is a class: every new owner holds an
instance of its own, built for it: it is neither the owner nor any instance that
was there before. -/
theorem C71_own_default {E : Env} {n : Nat} {c d : ClsId} {w w' : World} {v : Val}
    (hE : ∀ f args, Spares w.objs.length (E.fn f args)) (hnd : ((E.classes c).props.map Prod.fst).Nodup)
    (h : run E n (.construct c []) w = (.ok v, w')) {k : PyStr} {p : PropSpec} {a : ClsId} (hp : p.ty = .inst a)
    (hm : (k, .mutable p) ∈ (E.classes c).props) (hd : Declared (E.classes c) k (.mutable p) (.cls d)) :
    ∃ o r', v = .obj w.objs.length ∧ w'.objs[w.objs.length]? = some o ∧
      lookupS k o.backend = some (.obj r') ∧ w.objs.length < r' := by
  obtain ⟨hv, o, ho, _, h1, _⟩ := C15_defaults hE hnd h
  obtain ⟨n1, m1, d', w1, v1, w2, hlt, hd', hev, hst⟩ := h1 k p hm
  cases declared_det hd hd'
  cases hev with
  | cls _ _ _ _ hc =>
    have hv1 : v1 = .obj w1.objs.length := by
      cases n1 with
      | zero => cases hc
      | succ n1 =>
        exact (construct_result (restored_stable E).toBase (restored_stable E).writer
          ((restored_stable E).run_ok n1) trivial hc).1
    subst hv1
    rcases hst with ⟨h2, _⟩ | ⟨_, v', w3, h2, h3⟩
    · cases h2
    · cases m1 with
      | zero => cases h2
      | succ m1 =>
        rcases (C71_accepts hp ..).1 h2 with ⟨r, h4, _, rfl, _⟩ | ⟨kw, h4, _⟩
        · exact ⟨o, _, hv, ho, h3, hlt⟩
        · cases h4

/-! ## Examples -/

/-- `Instance('', Leaf, default=Leaf)`. -/
def c71Prop : PropSpec := .mk false none none (.cls 0) (.inst 0)

/-- `class Leaf` (0) with an Integer `x`, its subclass `Big` (2), and `class
Owner` (1) with a Leaf by default. -/
def c71Env : Env :=
  { demoEnv with
    classes := fun c => { (default : ClassDef) with
      ancestors := if c = 2 then [0] else []
      props := if c = 1 then [(s% "leaf", .mutable c71Prop)]
        else [(s% "x", .mutable (.mk false none none (.val (.int 0)) (.integer false none none)))] } }

/-- A Big and an Owner without a Leaf. -/
def c71World : World := { objs := [{ cls := 2 }, { cls := 1, gv := some false }] }

/-- An instance of the subclass is kept, a dictionary becomes a Leaf, a
dictionary with a wrong value, the Owner itself and a number are refused. -/
theorem C71_example : InstanceOf c71Env c71World 0 0 ∧ ¬ InstanceOf c71Env c71World 1 0 ∧
    QuietInst c71Env c71World (some 1) ∧
    run c71Env 9 (.validate (s% "leaf") c71Prop (some 1) (.obj 0)) c71World = (.ok (.obj 0), c71World) ∧
    (run c71Env 9 (.validate (s% "leaf") c71Prop (some 1) (keywordDict [(s% "x", .int 3)])) c71World).1 = .ok (.obj 2) ∧
    IsValidationError (run c71Env 9 (.validate (s% "leaf") c71Prop (some 1) (keywordDict [(s% "x", .none)])) c71World).1 ∧
    IsValidationError (run c71Env 9 (.validate (s% "leaf") c71Prop (some 1) (.obj 1)) c71World).1 ∧
    IsValidationError (run c71Env 9 (.validate (s% "leaf") c71Prop (some 1) (.int 3)) c71World).1 := by
  refine ⟨⟨_, rfl, .inr (by simp [c71Env])⟩, ?_, ?_, ?_, by with_unfolding_all rfl, ⟨_, by with_unfolding_all rfl, rfl⟩,
    ⟨_, by with_unfolding_all rfl, rfl⟩, ⟨_, by with_unfolding_all rfl, rfl⟩⟩
  · rintro ⟨o, ho, h⟩
    cases ho
    rcases h with h | h
    · cases h
    · cases h
  · rintro r h
    cases h
    exact ⟨_, rfl, rfl⟩
  · exact (C71_accepts rfl ..).2 (.inl ⟨0, rfl, ⟨_, rfl, .inr (by simp [c71Env])⟩, rfl, rfl⟩)

/-- Two Owners, each with a Leaf of its own. -/
theorem C71_own_example : (runProg c71Env 12 (.call (.construct 1 []) fun _ => .call (.construct 1 []) fun _ => .ret .none) {}).2.objs.map
      (fun o => (o.cls, o.backend)) =
    [(1, [(s% "leaf", .obj 1)]), (0, [(s% "x", .int 0)]), (1, [(s% "leaf", .obj 3)]), (0, [(s% "x", .int 0)])] ∧
    (∀ f args, Spares 2 (c71Env.fn f args)) ∧ ((c71Env.classes 1).props.map Prod.fst).Nodup ∧
    Declared (c71Env.classes 1) (s% "leaf") (.mutable c71Prop) (.cls 0) :=
  ⟨by with_unfolding_all rfl, fun _ _ => trivial, by decide, .ofProperty _ rfl⟩

end Verif
