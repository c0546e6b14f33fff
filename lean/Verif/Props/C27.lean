import Verif.Spec.Deserialize
import Verif.Lemmas.Silent
import Verif.Lemmas.Traced
import Verif.Lemmas.Idempotent
import Verif.Lemmas.Typed
import Verif.Models.Demo

/-!
# C27: deserialization calls no listeners
-/

namespace Verif
open Spec

/-- No listener call is recorded. -/
def SameTrace (w w' : World) : Prop := w'.trace = w.trace

theorem sameTrace_preord : Preord (fun _ => True) SameTrace where
  refl _ _ := rfl
  trans h k := k.trans h
  keep _ _ := trivial

/-- `m` records no listener call. -/
abbrev NoCalls {α : Type} (m : M α) : Prop := Pres (fun _ => True) SameTrace m

local notation "P0" => sameTrace_preord

theorem noCalls_runHook {E : Env} (hE : ∀ c, (E.classes c).hook = none) (rec : Rec) (r : Nat)
    (ts : List ErrTuple) : NoCalls (runHook E rec r ts) := by
  unfold runHook
  refine pres_bind P0 (pres_getObj P0 _) fun o => ?_
  refine pres_bind P0 (fun w _ => rfl) fun _ => ?_
  rw [hE]
  exact pres_pure P0 _

theorem noCalls_propError {α : Type} {E : Env} (hE : ∀ c, (E.classes c).hook = none) (rec : Rec)
    (nm : PyStr) (inst : Option Nat) : NoCalls (propError E rec nm inst : M α) := by
  unfold propError raiseVal
  cases inst with
  | none => exact pres_raise P0 _
  | some r =>
    refine pres_bind P0 (pres_getObj P0 _) fun o => ?_
    dsimp only
    split
    · exact pres_bind P0 (noCalls_runHook hE rec r _) fun _ => pres_raise P0 _
    · exact pres_raise P0 _

theorem noCalls_liftScalar {E : Env} (hE : ∀ c, (E.classes c).hook = none) (rec : Rec) (nm : PyStr)
    (inst : Option Nat) (x : Except SErr Val) : NoCalls (liftScalar E rec nm inst x) := by
  unfold liftScalar
  split
  · exact pres_pure P0 _
  · exact pres_raiseK P0 _
  · exact pres_catchIf P0 (noCalls_propError hE rec nm inst) fun _ => noCalls_propError hE rec nm inst
  · exact noCalls_propError hE rec nm inst

theorem noCalls_scalar {E : Env} (hE : ∀ c, (E.classes c).hook = none) (rec : Rec) (nm : PyStr)
    (p : PropSpec) (hp : IsScalar p.ty) (inst : Option Nat) (v : Val) :
    NoCalls (validateBody E rec nm p inst v) := by
  unfold validateBody
  split
  · rename_i h; rw [h] at hp; exact hp.elim
  · rename_i h; rw [h] at hp; exact hp.elim
  · rename_i h; rw [h] at hp; exact hp.elim
  · rename_i h; rw [h] at hp; exact hp.elim
  · unfold colorBody
    split
    · refine pres_bind P0 ?_ fun _ => noCalls_liftScalar hE rec nm inst _
      split
      · exact fun w _ => rfl
      · exact pres_pure P0 _
    · exact noCalls_liftScalar hE rec nm inst _
  · split
    · exact noCalls_liftScalar hE rec nm inst _
    · exact pres_raiseK P0 _

theorem pres_mapML_mem {α β : Type} {I : World → Prop} {R : World → World → Prop} (h : Preord I R)
    {f : α → M β} : ∀ xs, (∀ a ∈ xs, Pres I R (f a)) → Pres I R (mapML f xs)
  | [], _ => pres_pure h _
  | x :: xs, hf => pres_bind h (hf x (by simp)) fun _ =>
      pres_bind h (pres_mapML_mem h xs fun a ha => hf a (by simp [ha])) fun _ => pres_pure h _

theorem pres_foldML_mem {α β : Type} {I : World → Prop} {R : World → World → Prop} (h : Preord I R)
    {f : β → α → M β} : ∀ xs b, (∀ b, ∀ a ∈ xs, Pres I R (f b a)) → Pres I R (foldML f b xs)
  | [], _, _ => pres_pure h _
  | x :: xs, b, hf => pres_bind h (hf b x (by simp)) fun b' =>
      pres_foldML_mem h xs b' fun b a ha => hf b a (by simp [ha])

theorem noCalls_mkSeq (k : SeqKind) (xs : List Val) : NoCalls (mkSeq k xs) := by
  unfold mkSeq
  repeat' (first | exact pres_pure P0 _ | exact pres_raiseK P0 _ | split)

theorem noCalls_mkDict (xs : List (Val × Val)) : NoCalls (mkDict xs) := by
  unfold mkDict
  repeat' (first | exact pres_pure P0 _ | exact pres_raiseK P0 _ | split)

/-- Validating the value calls no listeners, whatever the recursion limit. -/
def Quietly (E : Env) (p : PropSpec) (v : Val) : Prop :=
  ∀ n nm inst, NoCalls (run E n (.validate nm p inst v))

section
variable {E : Env} (hE : ∀ c, (E.classes c).hook = none)
include hE

theorem quietly_scalar (p : PropSpec) (hp : IsScalar p.ty) (v : Val) : Quietly E p v
  | 0, _, _ => pres_raiseK P0 _
  | n + 1, nm, inst => noCalls_scalar hE (run E n) nm p hp inst v

theorem noCalls_item {p : PropSpec} {v : Val} {n : Nat} {nm : PyStr} {inst : Option Nat}
    (h : NoCalls (run E n (.validate nm p inst v))) :
    NoCalls (M.catchIf ErrKind.isValueError (run E n (.validate nm p inst v))
      (fun _ => propError E (run E n) nm inst)) :=
  pres_catchIf P0 h fun _ => noCalls_propError hE _ _ _

theorem noCalls_seqValidate {n : Nat} {nm : PyStr} {inst : Option Nat} {k : SeqKind}
    {item : PropSpec} {c : Bool} {v : Val}
    (h : ∀ x ∈ (if v.isContainer then v.items else [v]), NoCalls (run E n (.validate nm item inst x))) :
    NoCalls (seqValidate E (run E n) nm inst k item c v) := by
  unfold seqValidate
  dsimp only
  have h1 := pres_bind P0 (pres_mapML_mem P0 _ fun x hx => noCalls_item hE (h x hx)) fun out =>
    noCalls_mkSeq k out
  split
  · exact pres_bind P0 (noCalls_propError hE _ _ _) fun _ => h1
  · exact h1

omit hE in
/-- The items `Dictionary.validate` goes through. -/
def dictItems (c : Bool) (v : Val) : Option (List (Val × Val)) :=
  if c then dictCoerce? v else match v with | .dict kvs => some kvs | _ => none

omit hE in
theorem dictValidate_eq {rec : Rec} {nm : PyStr} {inst : Option Nat} {kp vp : PropSpec} {c : Bool}
    {v : Val} : dictValidate E rec nm inst kp vp c v = (match dictItems c v with
      | some kvs => (do
          let out ← foldML (fun d kv => do
            let key ← M.catchIf ErrKind.isValueError (rec (.validate nm kp inst kv.1))
              (fun _ => propError E rec nm inst)
            let val ← M.catchIf ErrKind.isValueError (rec (.validate nm vp inst kv.2))
              (fun _ => propError E rec nm inst)
            if key.hashable then pure (dictSet d key val) else raiseK .type) [] kvs
          pure (.dict out) : M Val)
      | none => propError E rec nm inst) := by
  funext w
  unfold dictValidate dictItems
  generalize (if c = true then dictCoerce? v else match v with | .dict kvs => some kvs | _ => none) = x
  cases x with
  | some kvs => rfl
  | none =>
    dsimp only
    cases hp : (propError E rec nm inst : M (List (Val × Val))) w with
    | mk y w1 => cases y with
      | ok y => exact absurd (by rw [hp]) (propError_never_ok E rec nm inst w y)
      | error e =>
        rw [bind_err hp]
        exact (raiseVal_cast hp).symm

theorem noCalls_dictValidate {n : Nat} {nm : PyStr} {inst : Option Nat} {kp vp : PropSpec} {c : Bool}
    {v : Val} (h : ∀ kvs, dictItems c v = some kvs → ∀ kv ∈ kvs,
      NoCalls (run E n (.validate nm kp inst kv.1)) ∧
      NoCalls (run E n (.validate nm vp inst kv.2))) :
    NoCalls (dictValidate E (run E n) nm inst kp vp c v) := by
  rw [dictValidate_eq]
  split
  · rename_i kvs hk
    refine pres_bind P0 (pres_foldML_mem P0 _ _ fun d kv hkv => ?_) fun _ => pres_pure P0 _
    refine pres_bind P0 (noCalls_item hE (h kvs hk kv hkv).1) fun _ => ?_
    refine pres_bind P0 (noCalls_item hE (h kvs hk kv hkv).2) fun _ => ?_
    split
    · exact pres_pure P0 _
    · exact pres_raiseK P0 _
  · exact noCalls_propError hE _ _ _

/-- None is validated quietly by every property type. -/
theorem quietly_none : ∀ (n : Nat) (p : PropSpec) nm inst, NoCalls (run E n (.validate nm p inst .none))
  | 0, _, _, _ => pres_raiseK P0 _
  | n + 1, p, nm, inst => by
    have ih := quietly_none n
    show NoCalls (validateBody E (run E n) nm p inst .none)
    by_cases hs : IsScalar p.ty
    · exact noCalls_scalar hE _ _ _ hs _ _
    unfold validateBody
    split
    · exact noCalls_seqValidate hE fun x hx => by
        simp [Val.isContainer] at hx; subst hx; exact ih _ _ _
    · refine noCalls_dictValidate hE fun kvs hk => ?_
      unfold dictItems at hk
      split at hk <;> cases hk
    · exact noCalls_propError hE _ _ _
    · rename_i ps _ _
      have : ∀ ps, NoCalls (tryProps E (run E n) nm inst (fun p => .validate nm p inst .none) ps) := by
        intro ps
        induction ps with
        | nil => exact noCalls_propError hE _ _ _
        | cons q qs ihq => exact pres_catchIf P0 (ih _ _ _) fun _ => ihq
      exact this ps
    · rename_i h; rw [h] at hs; exact absurd trivial hs
    · split
      · exact noCalls_liftScalar hE _ _ _ _
      · exact pres_raiseK P0 _

/-- Containers of quiet items are quiet. -/
theorem quietly_seq {p : PropSpec} {k : SeqKind} {item : PropSpec} {a b : Option Nat} {c : Bool}
    (hp : p.ty = .seq k item a b c) {v : Val} (hv : v.isContainer = true)
    (h : ∀ x ∈ v.items, Quietly E item x) : Quietly E p v
  | 0, _, _ => pres_raiseK P0 _
  | n + 1, nm, inst => by
    show NoCalls (validateBody E (run E n) nm p inst v)
    unfold validateBody
    rw [hp]
    exact noCalls_seqValidate hE fun x hx => by rw [if_pos hv] at hx; exact h x hx n nm inst

theorem quietly_dict {p kp vp : PropSpec} {c : Bool} (hp : p.ty = .dict kp vp c)
    {kvs : List (Val × Val)} (h : ∀ kv ∈ kvs, Quietly E kp kv.1 ∧ Quietly E vp kv.2) :
    Quietly E p (.dict kvs)
  | 0, _, _ => pres_raiseK P0 _
  | n + 1, nm, inst => by
    show NoCalls (validateBody E (run E n) nm p inst (.dict kvs))
    unfold validateBody
    rw [hp]
    refine noCalls_dictValidate hE fun kvs' hk kv hkv => ?_
    have : kvs' = kvs := by
      unfold dictItems at hk
      split at hk <;> cases hk <;> rfl
    subst this
    exact ⟨(h kv hkv).1 n nm inst, (h kv hkv).2 n nm inst⟩

theorem quietly_obj {p : PropSpec} {c : ClsId} (hp : p.ty = .inst c) (r : Nat) :
    Quietly E p (.obj r)
  | 0, _, _ => pres_raiseK P0 _
  | n + 1, nm, inst => by
    show NoCalls (validateBody E (run E n) nm p inst (.obj r))
    unfold validateBody
    rw [hp]
    refine pres_bind P0 (pres_getObj P0 _) fun o => ?_
    split
    · exact pres_pure P0 _
    · exact noCalls_propError hE _ _ _

end

theorem mapML_all {α β : Type} {f : α → M β} {T : β → Prop}
    (hf : ∀ a w b w', f a w = (.ok b, w') → T b) : ∀ (xs : List α) (w : World) (ys : List β) (w' : World),
    mapML f xs w = (.ok ys, w') → ∀ y ∈ ys, T y
  | [], _, _, _, h => by cases h; intro y hy; cases hy
  | x :: xs, w, ys, w', h => by
      obtain ⟨b, w1, h1, h2⟩ := bind_ok_inv h
      obtain ⟨bs, w2, h3, h4⟩ := bind_ok_inv h2
      obtain ⟨h4, h5⟩ := Prod.mk.inj h4
      have h4 := Except.ok.inj h4
      subst h4
      intro y hy
      rcases List.mem_cons.1 hy with rfl | hy
      · exact hf x w _ _ h1
      · exact mapML_all hf xs w1 bs w2 h3 y hy

theorem dictOfPairs_mem {ps : List (Val × Val)} {kv : Val × Val} (h : kv ∈ dictOfPairs ps) :
    (∃ x, (kv.1, x) ∈ ps) ∧ ∃ x, (x, kv.2) ∈ ps := by
  unfold dictOfPairs at h
  have : ∀ (ps d : List (Val × Val)), kv ∈ ps.foldl (fun d kv => dictSet d kv.1 kv.2) d →
      ((∃ x, (kv.1, x) ∈ d) ∨ ∃ x, (kv.1, x) ∈ ps) ∧ ((∃ x, (x, kv.2) ∈ d) ∨ ∃ x, (x, kv.2) ∈ ps) := by
    intro ps
    induction ps with
    | nil => intro d h; exact ⟨.inl ⟨_, h⟩, .inl ⟨_, h⟩⟩
    | cons a ps ih =>
      intro d h
      have mem1 : ∀ x, (kv.1, x) ∈ dictSet d a.1 a.2 →
          (∃ x, (kv.1, x) ∈ d) ∨ ∃ x, (kv.1, x) ∈ a :: ps := by
        intro x hx
        rcases dictSet_mem hx with h | ⟨_, h | h⟩
        · exact .inl ⟨_, h⟩
        · exact .inr ⟨a.2, by simp at h; simp [h]⟩
        · exact .inl h
      have mem2 : ∀ x, (x, kv.2) ∈ dictSet d a.1 a.2 →
          (∃ x, (x, kv.2) ∈ d) ∨ ∃ x, (x, kv.2) ∈ a :: ps := by
        intro x hx
        rcases dictSet_mem hx with h | ⟨h, _⟩
        · exact .inl ⟨_, h⟩
        · exact .inr ⟨a.1, by simp at h; simp [h]⟩
      obtain ⟨h1, h2⟩ := ih _ h
      refine ⟨?_, ?_⟩
      · rcases h1 with ⟨x, h1⟩ | ⟨x, h1⟩
        · exact mem1 x h1
        · exact .inr ⟨x, List.mem_cons_of_mem _ h1⟩
      · rcases h2 with ⟨x, h2⟩ | ⟨x, h2⟩
        · exact mem2 x h2
        · exact .inr ⟨x, List.mem_cons_of_mem _ h2⟩
  obtain ⟨h1, h2⟩ := this ps [] h
  refine ⟨?_, ?_⟩
  · rcases h1 with ⟨_, h1⟩ | h1
    · cases h1
    · exact h1
  · rcases h2 with ⟨_, h2⟩ | h2
    · cases h2
    · exact h2

/-- What is shown about deserialization with recursion limit `n`. -/
structure DeserOk (E : Env) (n : Nat) : Prop where
  prop : ∀ u p, Plain u p → ∀ nm v kw, kw.assertValid = false →
    NoCalls (run E n (.deserializeP nm p v kw))
  quiet : ∀ p, Plain false p → ∀ nm v kw w x w', kw.assertValid = false →
    run E n (.deserializeP nm p v kw) w = (.ok x, w') → Quietly E p x
  inst : ∀ c v kw, kw.assertValid = false → NoCalls (run E n (.hpDeserialize c v kw))
  obj : ∀ c v kw w x w', run E n (.hpDeserialize c v kw) w = (.ok x, w') → ∃ r, x = .obj r

theorem noCalls_deserializeClass (E : Env) (c : ClsId) (nm : Val) (t s : Bool) :
    NoCalls (deserializeClass E c nm t s) := by
  unfold deserializeClass
  dsimp only
  repeat' (first | exact pres_pure P0 _ | exact pres_raiseK P0 _ | split)

theorem namedAlternative_mem {E : Env} {x : Val} {q : PropSpec} : ∀ {ps : List PropSpec},
    namedAlternative E x ps = some q → q ∈ ps
  | [], h => by cases h
  | p :: ps, h => by
      unfold namedAlternative at h
      split at h
      · split at h
        · cases h; simp
        · exact List.mem_cons_of_mem _ (namedAlternative_mem h)
      · exact List.mem_cons_of_mem _ (namedAlternative_mem h)

section
variable {E : Env} (hE : PlainClasses E) {n : Nat} (H : DeserOk E n)
include hE H

theorem noCalls_hpDeserialize (c : ClsId) (v : Val) (kw : DeKw) (ha : kw.assertValid = false) :
    NoCalls (hpDeserializeBody E (run E n) c v kw) := by
  unfold hpDeserializeBody
  split
  · refine pres_bind P0 (noCalls_deserializeClass E _ _ _ _) fun outc => ?_
    dsimp only
    refine pres_bind P0 (pres_raiseWhen P0 _ _) fun _ => ?_
    refine pres_bind P0 (pres_mapML P0 (fun kv => ?_) _) fun newstate => ?_
    · unfold deserEntry
      split
      · exact pres_raiseK P0 _
      · rename_i e he
        refine pres_bind P0 ?_ fun _ => pres_pure P0 _
        have hp := hE.entry _ _ _ he
        cases e with
        | mutable p => exact H.prop true p hp _ _ _ rfl
        | gettable p => exact H.prop false p (.scalar _ _ hp.1 hp.2) _ _ _ rfl
        | dynamic p g s d =>
          unfold entryDeserialize
          dsimp only
          rw [hp.1]; exact pres_pure P0 _
        | renamed new => exact pres_pure P0 _
    · refine pres_bind P0 (fun w _ => withDisabled_silent E n _ w) fun inst => ?_
      unfold deserFinish
      split
      · refine pres_bind P0 (pres_forML_mem P0 _ fun kv hkv => ?_) fun _ => ?_
        · unfold setImmutable
          split
          · exact pres_raiseK P0 _
          · rename_i e he
            refine pres_bind P0 ?_ fun _ => fun w _ => rfl
            have hp := hE.entry _ _ _ he
            cases e with
            | mutable p =>
              have := (List.mem_filter.1 hkv).2
              simp [isSettable, he, Entry.settable] at this
            | gettable p => exact quietly_scalar hE.hook p hp.2 _ _ _ _
            | dynamic p g s d => exact quietly_scalar hE.hook p hp.2 _ _ _ _
            | renamed new => exact pres_pure P0 _
        · refine pres_bind P0 ?_ fun _ => pres_pure P0 _
          unfold assertBuilt
          rw [ha]; exact pres_pure P0 _
      · exact pres_raiseK P0 _
  · exact pres_raiseK P0 _

omit hE H in
theorem hpDeserialize_obj (c : ClsId) (v : Val) (kw : DeKw) (w : World) (x : Val) (w' : World)
    (h : hpDeserializeBody E (run E n) c v kw w = (.ok x, w')) : ∃ r, x = .obj r := by
  unfold hpDeserializeBody at h
  split at h
  · obtain ⟨_, _, _, h⟩ := bind_ok_inv h
    dsimp only at h
    obtain ⟨_, _, _, h⟩ := bind_ok_inv h
    obtain ⟨_, _, _, h⟩ := bind_ok_inv h
    obtain ⟨_, _, _, h⟩ := bind_ok_inv h
    unfold deserFinish at h
    split at h
    · obtain ⟨_, _, _, h⟩ := bind_ok_inv h
      obtain ⟨_, _, _, h⟩ := bind_ok_inv h
      cases h
      exact ⟨_, rfl⟩
    · cases h
  · cases h

theorem noCalls_deserialize (u : Bool) (p : PropSpec) (hp : Plain u p) (nm : PyStr) (v : Val)
    (kw : DeKw) (ha : kw.assertValid = false) :
    NoCalls (deserializeBody E (run E n) nm p v kw) := by
  have hd : p.deser = none := by cases hp <;> assumption
  unfold deserializeBody
  rw [hd]
  dsimp only
  split
  · exact pres_pure P0 _
  cases hp with
  | scalar _ _ hd hs =>
    split
    · rename_i h; rw [h] at hs; exact hs.elim
    · rename_i h; rw [h] at hs; exact hs.elim
    · rename_i h; rw [h] at hs; exact hs.elim
    · rename_i h; rw [h] at hs; exact hs.elim
    · split
      · exact pres_liftK P0 _
      · exact pres_raiseK P0 _
  | seq _ _ k item a b c hd ht hi =>
    rw [ht]
    dsimp only
    split
    · exact pres_raiseK P0 _
    · exact pres_bind P0 (pres_mapML P0 (fun x => H.prop u item hi nm x kw ha) _) fun _ =>
        noCalls_mkSeq _ _
  | dict _ _ kp vp c hd ht hk hv =>
    rw [ht]
    dsimp only
    split
    · refine pres_bind P0 (pres_mapML P0 (fun kv => ?_) _) fun _ => noCalls_mkDict _
      refine pres_bind P0 (H.prop u kp hk nm _ kw ha) fun _ => ?_
      exact pres_bind P0 (H.prop u vp hv nm _ kw ha) fun _ => pres_pure P0 _
    · exact pres_raiseK P0 _
  | inst _ _ c hd ht =>
    rw [ht]
    exact H.inst c v kw ha
  | union _ ps hd ht hq =>
    rw [ht]
    dsimp only
    split
    · rename_i q hn
      have hmem : q ∈ ps := by
        split at hn
        · split at hn
          · exact namedAlternative_mem hn
          · cases hn
        · cases hn
      exact H.prop false q (hq q hmem) nm v _ rfl
    · have : ∀ qs : List PropSpec, (∀ q ∈ qs, Plain false q) → NoCalls (unionDeserialize (run E n) nm v
          { kw with strict := kw.strict || false, assertValid := false } qs) := by
        intro qs
        induction qs with
        | nil => intro _; exact pres_pure P0 _
        | cons q qs ih =>
          intro hqs
          refine pres_catchIf P0 ?_ fun _ => ih fun q h => hqs q (by simp [h])
          have h0 := hqs q (by simp)
          intro w _
          have h1 := H.prop false q h0 nm v
            { kw with strict := kw.strict || false, assertValid := false } rfl w trivial
          cases hx : run E n (.deserializeP nm q v
              { kw with strict := kw.strict || false, assertValid := false }) w with
          | mk y w1 =>
            rw [hx] at h1
            cases y with
            | error e => rw [bind_err hx]; exact h1
            | ok x =>
              rw [bind_ok hx]
              have h2 := H.quiet q h0 nm v _ w x w1 rfl hx
              exact (P0).trans h1 (pres_bind P0 (h2 n nm none) (fun _ => pres_pure P0 _) w1 trivial)
      exact this ps hq

theorem quiet_deserialize (p : PropSpec) (hp : Plain false p) (nm : PyStr) (v : Val)
    (kw : DeKw) (w : World) (x : Val) (w' : World) (ha : kw.assertValid = false)
    (h : deserializeBody E (run E n) nm p v kw w = (.ok x, w')) : Quietly E p x := by
  have hd : p.deser = none := by cases hp <;> assumption
  unfold deserializeBody at h
  rw [hd] at h
  dsimp only at h
  split at h
  · cases h; exact fun n nm inst => quietly_none hE.hook n p nm inst
  cases hp with
  | scalar _ _ hd hs => exact quietly_scalar hE.hook p hs x
  | seq _ _ k item a b c hd ht hi =>
    rw [ht] at h
    dsimp only at h
    cases hv : v.iter? with
    | none => rw [hv] at h; cases h
    | some xs =>
      rw [hv] at h
      obtain ⟨out, w1, h1, h2⟩ := bind_ok_inv h
      have hall := mapML_all (T := Quietly E item)
        (fun a w b w' hb => H.quiet item hi nm a kw w b w' ha hb) _ _ _ _ h1
      unfold mkSeq at h2
      split at h2
      · cases h2; exact quietly_seq hE.hook ht rfl hall
      · cases h2; exact quietly_seq hE.hook ht rfl hall
      · split at h2
        · cases h2
          exact quietly_seq hE.hook ht rfl fun y hy => hall y (setOfList_sub _ y hy)
        · cases h2
  | dict _ _ kp vp c hd ht hk hv =>
    rw [ht] at h
    dsimp only at h
    split at h
    · obtain ⟨out, w1, h1, h2⟩ := bind_ok_inv h
      have hall := mapML_all (T := fun kv : Val × Val => Quietly E kp kv.1 ∧ Quietly E vp kv.2)
        (fun a w b w' hb => by
          obtain ⟨k, u1, g1, hb⟩ := bind_ok_inv hb
          obtain ⟨y, u2, g2, hb⟩ := bind_ok_inv hb
          cases hb
          exact ⟨H.quiet kp hk nm _ kw _ _ _ ha g1, H.quiet vp hv nm _ kw _ _ _ ha g2⟩) _ _ _ _ h1
      unfold mkDict at h2
      split at h2
      · cases h2
        refine quietly_dict hE.hook ht fun kv hkv => ?_
        obtain ⟨⟨y, h3⟩, z, h4⟩ := dictOfPairs_mem hkv
        exact ⟨(hall _ h3).1, (hall _ h4).2⟩
      · cases h2
    · cases h
  | inst _ _ c hd ht =>
    rw [ht] at h
    obtain ⟨r, rfl⟩ := H.obj c v kw w x w' h
    exact quietly_obj hE.hook ht r

end

theorem deserOk {E : Env} (hE : PlainClasses E) : ∀ n, DeserOk E n
  | 0 => ⟨fun _ _ _ _ _ _ _ => pres_raiseK P0 _, fun _ _ _ _ _ _ _ _ _ h => (by cases h),
      fun _ _ _ _ => pres_raiseK P0 _, fun _ _ _ _ _ _ h => (by cases h)⟩
  | n + 1 =>
    have H := deserOk hE n
    ⟨fun u p hp nm v kw ha => noCalls_deserialize hE H u p hp nm v kw ha,
     fun p hp nm v kw w x w' ha h => quiet_deserialize hE H p hp nm v kw w x w' ha h,
     fun c v kw ha => noCalls_hpDeserialize hE H c v kw ha,
     fun c v kw w x w' h => hpDeserialize_obj (n := n) c v kw w x w' h⟩

/-! ## Any declarations: the instance that is built -/

theorem liftScalar_ok_trace {E : Env} {rec : Rec} {nm : PyStr} {inst : Option Nat}
    {y : Except SErr Val} {w w' : World} {x : Val}
    (h : liftScalar E rec nm inst y w = (.ok x, w')) : w'.trace = w.trace := by
  obtain rfl := liftScalar_ok_inv h
  cases h; rfl

/-- Scalar validation that succeeds calls no listener, even if the error hook is
overridden. -/
theorem scalar_ok_trace {E : Env} {rec : Rec} {nm : PyStr} {p : PropSpec} (hp : IsScalar p.ty)
    {inst : Option Nat} {v x : Val} {w w' : World}
    (h : validateBody E rec nm p inst v w = (.ok x, w')) : w'.trace = w.trace := by
  obtain ⟨rq, se, de, df, ty⟩ := p
  have hp' : IsScalar ty := hp
  have hs : ScalarTy ty := by cases ty <;> first | trivial | exact hp'.elim
  by_cases hc : ty = .color
  · subst hc
    change colorBody E rec nm inst v w = _ at h
    unfold colorBody at h
    split at h
    · obtain ⟨u, w1, h1, h2⟩ := bind_ok_inv h
      have e := liftScalar_ok_trace h2
      split at h1
      · cases h1; exact e
      · cases h1; exact e
    · exact liftScalar_ok_trace h
  · rw [validateBody_scalar hs hc] at h
    obtain ⟨z, _, h⟩ := liftOpt_inv h
    exact liftScalar_ok_trace h

theorem setImmutable_trace {E : Env} {n : Nat} {c : ClsId} {r : Nat} {kv : PyStr × Val}
    (hs : isSettable E c kv = false)
    (hi : ∀ nm e, lookupS nm (E.classes c).props = some e → ReadOnlyScalar e)
    {w w' : World} {u : Unit} (h : setImmutable E (run E n) c r kv w = (.ok u, w')) :
    w'.trace = w.trace := by
  unfold setImmutable at h
  cases he : lookupS kv.1 (E.classes c).props with
  | none => simp only [he] at h; cases h
  | some e =>
    simp only [he] at h
    obtain ⟨x, w1, h1, h2⟩ := bind_ok_inv h
    have e2 : w'.trace = w1.trace := by cases h2; rfl
    rw [e2]
    have hp := hi _ _ he
    have key : ∀ p : PropSpec, IsScalar p.ty →
        run E n (.validate kv.1 p (some r) kv.2) w = (.ok x, w1) → w1.trace = w.trace := by
      intro p hp hr
      cases n with
      | zero => cases hr
      | succ n => exact scalar_ok_trace hp hr
    cases e with
    | mutable p => simp [isSettable, he, Entry.settable] at hs
    | gettable p => exact key p hp h1
    | dynamic p g s d => exact key p hp h1
    | renamed new => cases h1; rfl

theorem setImmutables_trace {E : Env} {n : Nat} {c : ClsId} {r : Nat}
    (hi : ∀ nm e, lookupS nm (E.classes c).props = some e → ReadOnlyScalar e) :
    ∀ (kvs : List (PyStr × Val)), (∀ kv ∈ kvs, isSettable E c kv = false) →
    ∀ {w w' : World} {u : Unit}, forML (setImmutable E (run E n) c r) kvs w = (.ok u, w') →
    w'.trace = w.trace
  | [], _, w, w', u, h => by cases h; rfl
  | kv :: kvs, hs, w, w', u, h => by
      obtain ⟨_, w1, h1, h2⟩ := bind_ok_inv h
      rw [setImmutables_trace hi kvs (fun kv hkv => hs kv (by simp [hkv])) h2]
      exact setImmutable_trace (hs kv (by simp)) hi h1

/-- C27, for all declarations, error hooks, custom deserializers and other user
code, without `assert_valid`: the listener calls that happen while
`deserialize` runs are for other instances than the one it returns (they can
only come from user code run for the entries, and from Unions trying raw
values).  The instances inside are covered too, since each is built by such a
call.  Immutable properties must be scalar. -/
theorem C27_built_instance (E : Env) (n : Nat) (c : ClsId) (v : Val) (kw : DeKw)
    (ha : kw.assertValid = false) (w w' : World) (r : Nat)
    (h : run E n (.hpDeserialize c v kw) w = (.ok (.obj r), w'))
    (hi : ∀ o, w'.objs[r]? = some o → ∀ nm e, lookupS nm (E.classes o.cls).props = some e →
      ReadOnlyScalar e) :
    ∃ es, w'.trace = w.trace ++ es ∧ ∀ e ∈ es, e.inst ≠ r := by
  cases n with
  | zero => cases h
  | succ n =>
    change hpDeserializeBody E (run E n) c v kw w = _ at h
    unfold hpDeserializeBody at h
    split at h
    · rename_i kvs
      obtain ⟨outc, w1, h1, h⟩ := bind_ok_inv h
      dsimp only at h
      obtain ⟨_, w2, h2, h⟩ := bind_ok_inv h
      obtain ⟨newstate, w3, h3, h⟩ := bind_ok_inv h
      obtain ⟨inst, w4, h4, h⟩ := bind_ok_inv h
      have S := traced_stable E
      have R := S.run_ok n
      have T1 : Traced w w1 := by
        have := pres_deserializeClass S.toBase R c
          ((dictGet? kvs (.str (s% "__class__"))).getD .none) kw.trusted kw.strict w trivial
        rw [h1] at this; exact this
      have T2 : Traced w1 w2 := by
        obtain rfl : w2 = w1 := by
          unfold raiseWhen at h2
          split at h2
          · cases h2
          · cases h2; rfl
        exact S.refl _ trivial
      have T3 : Traced w2 w3 := by
        have := pres_mapML S.toPreord (fun kv =>
          pres_deserEntry S.toBase R trivial outc { kw with assertValid := false } kv)
          (propState (E.classes outc).props kvs) w2 trivial
        rw [h3] at this; exact this
      obtain ⟨es, he, hes⟩ := (T1.trans (T2.trans T3)).2
      -- the constructor
      have q4 : w4.trace = w3.trace := by
        have := withDisabled_silent E n (.construct outc (newstate.filter (isSettable E outc))) w3
        rw [h4] at this; exact this
      have r4 : inst = .obj w3.objs.length ∧ HasCls w3.objs.length outc w4 := by
        unfold withDisabled at h4
        generalize hx : run E n (.construct outc (newstate.filter (isSettable E outc)))
          { w3 with quar := w3.quar.union Quar.all } = x at h4
        obtain ⟨x, wx⟩ := x
        cases h4
        cases n with
        | zero => cases hx
        | succ n =>
          have := construct_result (restored_stable E).toBase (restored_stable E).writer
            ((restored_stable E).run_ok n) trivial hx
          exact ⟨this.1, this.2⟩
      obtain ⟨rfl, hc⟩ := r4
      unfold deserFinish at h
      dsimp only at h
      obtain ⟨_, w5, h5, h⟩ := bind_ok_inv h
      obtain ⟨_, w6, h6, h⟩ := bind_ok_inv h
      cases h
      unfold assertBuilt at h6
      rw [ha] at h6
      obtain ⟨_, rfl⟩ : _ ∧ w5 = w' := ⟨trivial, by cases h6; rfl⟩
      have hc5 : HasCls w3.objs.length outc w5 := by
        have := pres_forML_mem (S.toPreord.with (P := HasCls w3.objs.length outc) fun h1 h2 => S.cls h1 h2)
          (newstate.filter (fun kv => !isSettable E outc kv)) (fun kv hkv =>
            S.writer.immutable (run E n) R w3.objs.length outc kv trivial
              (by simpa using (List.mem_filter.1 hkv).2)) w4 ⟨trivial, hc⟩
        rw [h5] at this
        exact S.cls this hc
      obtain ⟨o, ho, hoc⟩ := hc5
      have hi' := hi o ho
      rw [hoc] at hi'
      refine ⟨es, ?_, fun e hx => Nat.ne_of_lt (hes e hx)⟩
      rw [setImmutables_trace hi' _ (fun kv hkv => by simpa using (List.mem_filter.1 hkv).2) h5, q4, he]
    · cases h

/-- `assert instance.validate()` on the finished instance. -/
def thenValidate (E : Env) (rec : Rec) : Val → M Val
  | .obj r => do
      let ok ← rec (.hpValidate r)
      if ok.truthy then pure (.obj r) else raiseVal E rec none none none
  | x => pure x

theorem bind_assoc' {α β γ : Type} (m : M α) (f : α → M β) (g : β → M γ) :
    (m >>= f) >>= g = m >>= fun a => f a >>= g := by
  funext w
  simp only [bind_apply]
  rcases m w with ⟨x, w1⟩
  cases x <;> rfl

theorem deserFinish_then (E : Env) (rec : Rec) (c : ClsId) (t s : Bool) (im : List (PyStr × Val))
    (x : Val) : deserFinish E rec c ⟨t, s, true⟩ im x =
      deserFinish E rec c ⟨t, s, false⟩ im x >>= thenValidate E rec := by
  unfold deserFinish
  split
  · simp only [bind_assoc']
    refine congrArg _ (funext fun _ => ?_)
    funext w
    simp only [assertBuilt, thenValidate, bind_apply, pure_apply, if_true, Bool.false_eq_true, if_false]
    rcases rec (.hpValidate _) w with ⟨x, w1⟩
    cases x with
    | error e => rfl
    | ok v =>
      dsimp only
      cases v.truthy <;> rfl
  · rfl

/-- With `assert_valid` the same happens first; then the finished instance is
validated. -/
theorem C27_assert_valid_after (E : Env) (n : Nat) (c : ClsId) (v : Val) (kw : DeKw) (w : World) :
    run E (n + 1) (.hpDeserialize c v { kw with assertValid := true }) w =
      (do
        let x ← run E (n + 1) (.hpDeserialize c v { kw with assertValid := false })
        thenValidate E (run E n) x : M Val) w := by
  change hpDeserializeBody E (run E n) c v { kw with assertValid := true } w =
    (hpDeserializeBody E (run E n) c v { kw with assertValid := false } >>=
      thenValidate E (run E n)) w
  refine congrFun ?_ w
  unfold hpDeserializeBody
  split
  · simp only [bind_assoc', deserFinish_then]
    rfl
  · rfl

/-! ## Plain declarations: no listener at all -/

/-- C27, for plain declarations and without `assert_valid`: deserializing any
input calls no listener at all, on whatever instance, whatever the observers,
callable defaults and other user functions do.  For Unions inside Unions and
Unions with `strict_instances` this is false, see `C27_nested_union_calls`. -/
theorem C27_no_listener_called (E : Env) (hE : PlainClasses E) (n : Nat) (c : ClsId)
    (v : Val) (kw : DeKw) (ha : kw.assertValid = false) (w : World) :
    (run E n (.hpDeserialize c v kw) w).2.trace = w.trace :=
  (deserOk hE n).inst c v kw ha w trivial

/-- The same for the value of one property. -/
theorem C27_property (E : Env) (hE : PlainClasses E) (n : Nat) (nm : PyStr) (p : PropSpec)
    (hp : Plain true p) (v : Val) (kw : DeKw) (ha : kw.assertValid = false) (w : World) :
    (run E n (.deserializeP nm p v kw) w).2.trace = w.trace :=
  (deserOk hE n).prop true p hp nm v kw ha w trivial

/-! ## Examples -/

/-- Class 0 has an observed string property; class 1 holds instances of class 0
directly, in a list, and through a Union. -/
def c27Env : Env := { demoEnv with
  classes := fun c => match c with
    | 0 => {
        name := s% "A"
        props := [(s% "p", .mutable (.mk false none none .undef (.string [] .keep none)))]
        observers := [⟨.everything, .set, 0⟩, ⟨.everything, .validate, 0⟩] }
    | _ => {
        name := s% "B"
        props := [
          (s% "a", .mutable (.mk false none none .undef (.inst 0))),
          (s% "l", .mutable (.mk false none none .undef
            (.seq .list (.mk false none none .undef (.inst 0)) none none false))),
          (s% "u", .mutable (.mk false none none .undef
            (.union [.mk false none none .undef (.integer false none none),
              .mk false none none .undef (.inst 0)] false)))]
        observers := [⟨.everything, .change, 0⟩] } }

example : PlainClasses c27Env where
  hook := fun c => match c with
    | 0 => rfl
    | _ + 1 => rfl
  entry := fun c nm e h => by
    have ha : ∀ u r, Plain u (.mk r none none .undef (.inst 0)) := fun u r => .inst _ _ 0 rfl rfl
    match c with
    | 0 =>
      simp only [c27Env, lookupS] at h
      split at h <;> cases h
      exact .scalar _ _ rfl trivial
    | c + 1 =>
      simp only [c27Env, lookupS] at h
      split at h
      · cases h; exact ha _ _
      split at h
      · cases h; exact .seq _ _ _ _ _ _ _ rfl rfl (ha _ _)
      split at h
      · cases h
        refine .union _ _ rfl rfl fun q hq => ?_
        simp only [List.mem_cons, List.not_mem_nil, or_false] at hq
        rcases hq with rfl | rfl
        · exact .scalar _ _ rfl trivial
        · exact ha _ _
      · cases h

/-- The input used below: an instance directly, in a list and in the Union. -/
def c27Input : Val :=
  let a : Val := .dict [(.str (s% "p"), .str (s% "x"))]
  .dict [(.str (s% "a"), a), (.str (s% "l"), .list [a, a]), (.str (s% "u"), a)]

/-- Five instances are built without a listener call, while the assignment of
the same data to the resulting object does call listeners. -/
theorem C27_example :
    (run c27Env 9 (.hpDeserialize 1 c27Input {}) {}).2.objs.length = 5 ∧
    (run c27Env 9 (.hpDeserialize 1 c27Input {}) {}).2.trace.length = 0 ∧
    (run c27Env 9 (.setattr 4 (s% "a") (.dict [(.str (s% "p"), .str (s% "x"))]))
      (run c27Env 9 (.hpDeserialize 1 c27Input {}) {}).2).2.trace.length = 3 := by
  refine ⟨?_, ?_, ?_⟩ <;> decide +kernel

/-- As class 1 of `c27Env`, with a Union inside a Union whose inner one has
`strict_instances`. -/
def c27Strict : Env := { c27Env with
  classes := fun c => match c with
    | 0 => c27Env.classes 0
    | _ => {
        name := s% "B"
        props := [(s% "u", .mutable (.mk false none none .undef
          (.union [.mk false none none .undef
            (.union [.mk false none none .undef (.inst 0)] true)] false)))] } }

/-- As `c27Strict`, with a further required property in class 0. -/
def c27Required : Env := { c27Strict with
  classes := fun c => match c with
    | 0 => { c27Env.classes 0 with
        props := [(s% "p", .mutable (.mk false none none .undef (.string [] .keep none))),
          (s% "q", .mutable (.mk true none none .undef (.boolean false)))] }
    | n => c27Strict.classes n }

/-- The inner Union refuses an instance without `q`, the outer one builds it. -/
def c27Nested : Except PyErr Val × World := run c27Required 12 (.hpDeserialize 1 (.dict [(.str (s% "u"),
  .dict [(.str (s% "p"), .str (s% "x"))])]) {}) {}

/-- The instance a call returned. -/
def resultRef : Except PyErr Val → Option Nat
  | .ok (.obj r) => some r
  | _ => none

/-- The hypotheses of `C27_built_instance` are met by a run with listener calls:
they are for instances that the nested Union built. -/
theorem C27_built_example : resultRef c27Nested.1 = some 2 ∧
    (∀ o, c27Nested.2.objs[2]? = some o → ∀ nm e,
      lookupS nm (c27Required.classes o.cls).props = some e → ReadOnlyScalar e) ∧
    c27Nested.2.trace.map Event.inst = [0, 1, 1] := by
  refine ⟨by decide +kernel, ?_, by decide +kernel⟩
  intro o _ nm e h
  generalize o.cls = c at h
  rcases c with _ | c
  · simp only [c27Required, lookupS] at h
    split at h
    · cases h; trivial
    · split at h
      · cases h; trivial
      · cases h
  · simp only [c27Required, c27Strict, lookupS] at h
    split at h
    · cases h; trivial
    · cases h

/-- "No listener at all" is false without the restrictions: with a Union in a
Union, an input entry with an unknown key makes the inner Union give the raw dict back, and the outer one
validates it by building an instance with the listeners active. -/
theorem C27_nested_union_calls :
    (run c27Strict 12 (.hpDeserialize 1 (.dict [(.str (s% "u"),
      .dict [(.str (s% "p"), .str (s% "x")), (.str (s% "zzz"), .int 1)])]) {}) {}).2.trace.map
      (fun e => (e.inst, e.mode, e.name)) = [(0, .validate, s% "p"), (0, .set, s% "p")] := by
  decide +kernel

end Verif
