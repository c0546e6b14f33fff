import Verif.Lemmas.Monad
import Verif.Lemmas.Typed
import Verif.Lemmas.Idempotent
import Verif.Lemmas.Classes
import Verif.Spec.Proper

/-!
# Calls make proper sets and dictionaries
-/

namespace Verif.Prp
open Spec

/-- All instances (the methods are followed through as in `Lemmas/Locality`, here
without a restriction to some of the instances). -/
abbrev O : Nat → Prop := fun _ => True

/-- The invariant is kept, and a normal result satisfies `Q`. -/
def Safe {α : Type} (m : M α) (Q : α → Prop) : Prop :=
  ∀ w, ProperWorld w → ProperWorld (m w).2 ∧ ∀ a, (m w).1 = .ok a → Q a

section
variable {α β : Type}

theorem safe_pure {Q : α → Prop} {a : α} (h : Q a) : Safe (pure a) Q :=
  fun _ hw => ⟨hw, fun b e => by cases e; exact h⟩

theorem safe_raise {Q : α → Prop} {e : PyErr} : Safe (M.raise e : M α) Q :=
  fun _ hw => ⟨hw, fun b e => by cases e⟩

theorem safe_raiseK {Q : α → Prop} {k : ErrKind} : Safe (raiseK k : M α) Q := safe_raise

theorem safe_liftK {Q : α → Prop} {x : Except ErrKind α} (h : ∀ a, x = .ok a → Q a) :
    Safe (liftK x) Q := by
  cases x with
  | ok a => exact safe_pure (h a rfl)
  | error k => exact safe_raiseK

theorem safe_bind {m : M α} {f : α → M β} {Q : α → Prop} {T : β → Prop} (hm : Safe m Q)
    (hf : ∀ a, Q a → Safe (f a) T) : Safe (m >>= f) T := by
  intro w hw
  have h1 := hm w hw
  cases hx : m w with
  | mk x w1 =>
    rw [hx] at h1
    cases x with
    | ok a => rw [bind_ok hx]; exact hf a (h1.2 a rfl) w1 h1.1
    | error e => rw [bind_err hx]; exact ⟨h1.1, fun b e => by cases e⟩

/-- A step whose result does not matter. -/
theorem safe_seq {m : M α} {f : α → M β} {T : β → Prop} (hm : Safe m fun _ => True)
    (hf : ∀ a, Safe (f a) T) : Safe (m >>= f) T := safe_bind hm fun a _ => hf a

theorem safe_weaken {m : M α} {Q T : α → Prop} (h : Safe m Q) (hq : ∀ a, Q a → T a) :
    Safe m T := fun w hw => ⟨(h w hw).1, fun a e => hq a ((h w hw).2 a e)⟩

theorem safe_true {m : M α} {Q : α → Prop} (h : Safe m Q) : Safe m fun _ => True :=
  safe_weaken h fun _ _ => trivial

theorem safe_catchIf {p : ErrKind → Bool} {m : M α} {k : PyErr → M α} {Q : α → Prop}
    (hm : Safe m Q) (hk : ∀ e, Safe (k e) Q) : Safe (M.catchIf p m k) Q := by
  intro w hw
  have h1 := hm w hw
  unfold M.catchIf
  cases hx : m w with
  | mk x w1 =>
    rw [hx] at h1
    cases x with
    | ok a => exact h1
    | error e =>
      dsimp only
      split
      · exact hk e w1 h1.1
      · exact ⟨h1.1, fun b e => by cases e⟩

theorem safe_attempt {m : M α} {Q : α → Prop} (hm : Safe m Q) :
    Safe (M.attempt m) fun x => ∀ a, x = .ok a → Q a := by
  intro w hw
  have h1 := hm w hw
  exact ⟨h1.1, fun x e a ha => by cases e; exact h1.2 a ha⟩

theorem safe_fin {m : M α} {f : World → World} {Q : α → Prop} (hm : Safe m Q)
    (hf : ∀ w, ProperWorld w → ProperWorld (f w)) : Safe (M.fin m f) Q := by
  intro w hw
  have h1 := hm w hw
  exact ⟨hf _ h1.1, h1.2⟩

theorem safe_modify {f : World → World} (hf : ∀ w, ProperWorld w → ProperWorld (f w)) :
    Safe (M.modify f) fun _ => True :=
  fun w hw => ⟨hf w hw, fun _ _ => trivial⟩

theorem safe_get : Safe M.get fun _ => True := fun _ hw => ⟨hw, fun _ _ => trivial⟩

theorem safe_raiseWhen {b : Bool} {k : ErrKind} : Safe (raiseWhen b k) fun _ => True := by
  unfold raiseWhen
  split
  · exact safe_raiseK
  · exact safe_pure trivial

theorem safe_mapML {f : α → M β} {Q : β → Prop} : ∀ (xs : List α), (∀ a ∈ xs, Safe (f a) Q) →
    Safe (mapML f xs) fun ys => ∀ y ∈ ys, Q y
  | [], _ => safe_pure fun _ h => by cases h
  | x :: xs, h => safe_bind (h x (by simp)) fun y hy =>
      safe_bind (safe_mapML xs fun a ha => h a (List.mem_cons_of_mem _ ha)) fun ys hys =>
        safe_pure fun z hz => by
          rcases List.mem_cons.1 hz with rfl | hz
          · exact hy
          · exact hys z hz

theorem safe_mapML_each {f : α → M β} {R : α → β → Prop} : ∀ (xs : List α),
    (∀ a ∈ xs, Safe (f a) (R a)) → Safe (mapML f xs) (List.Forall₂ R xs)
  | [], _ => safe_pure .nil
  | x :: xs, h => safe_bind (h x (by simp)) fun y hy =>
      safe_bind (safe_mapML_each xs fun a ha => h a (List.mem_cons_of_mem _ ha)) fun ys hys =>
        safe_pure (.cons hy hys)

theorem safe_forML {f : α → M Unit} : ∀ (xs : List α), (∀ a ∈ xs, Safe (f a) fun _ => True) →
    Safe (forML f xs) fun _ => True
  | [], _ => safe_pure trivial
  | x :: xs, h => safe_seq (h x (by simp)) fun _ =>
      safe_forML xs fun a ha => h a (List.mem_cons_of_mem _ ha)

theorem safe_foldML {f : β → α → M β} {Q : β → Prop} : ∀ (xs : List α) (b : β), Q b →
    (∀ b, Q b → ∀ a ∈ xs, Safe (f b a) Q) → Safe (foldML f b xs) Q
  | [], _, hb, _ => safe_pure hb
  | x :: xs, b, hb, h => safe_bind (h b hb x (by simp)) fun b' hb' =>
      safe_foldML xs b' hb' fun b hb a ha => h b hb a (List.mem_cons_of_mem _ ha)

/-! ## Changes of the state -/

theorem _root_.Verif.Spec.ProperWorld.same {w w' : World} (h : ProperWorld w) (ho : w'.objs = w.objs)
    (hu : w'.user = w.user := by rfl) : ProperWorld w' := ⟨ho ▸ h.stores, hu ▸ h.user⟩

theorem _root_.Verif.Spec.ProperWorld.setObj {w : World} (h : ProperWorld w) {r : Nat} {f : Obj → Obj}
    (hf : ∀ o, ProperStore o.backend → ProperStore (f o).backend) : ProperWorld (w.setObj r f) where
  stores s o ho := by
    simp only [World.setObj, List.getElem?_modify] at ho
    cases hx : w.objs[s]? with
    | none => rw [hx] at ho; simp at ho
    | some o' =>
      rw [hx] at ho
      by_cases hrs : r = s
      · simp [hrs] at ho
        subst ho
        exact hf o' (h.stores s o' hx)
      · simp [hrs] at ho
        subst ho
        exact h.stores s o' hx
  user := h.user

theorem _root_.Verif.Spec.ProperWorld.mark {w : World} (h : ProperWorld w) {r : Nat} (hr : O r) {f : Obj → Obj}
    (hf : ∀ o, (f o).backend = o.backend) : ProperWorld (w.setObj r f) :=
  h.setObj fun o ho => by rw [hf o]; exact ho

theorem safe_modObj {r : Nat} (hr : O r) {f : Obj → Obj} (hf : ∀ o, (f o).backend = o.backend) :
    Safe (modObj r f) fun _ => True := safe_modify fun _ hw => hw.mark hr hf

theorem safe_getObj (r : Nat) : Safe (getObj r) fun o => ProperStore o.backend := by
  intro w hw
  unfold getObj
  cases ho : w.objs[r]? with
  | none => exact ⟨hw, fun b e => by cases e⟩
  | some o => exact ⟨hw, fun b e => by cases e; exact hw.stores r o ho⟩

theorem safe_alloc {o : Obj} (ho : o.backend = []) : Safe (alloc o) fun _ => True := by
  intro w hw
  refine ⟨⟨fun r o' h => ?_, hw.user⟩, fun a e => trivial⟩
  have h' : (w.objs ++ [o])[r]? = some o' := h
  rcases Nat.lt_trichotomy r w.objs.length with hl | hl | hl
  · rw [List.getElem?_append_left hl] at h'
    exact hw.stores r o' h'
  · subst hl
    simp at h'
    subst h'
    rw [ho]; exact ⟨List.nodup_nil, fun _ h => by cases h⟩
  · have := (List.getElem?_eq_some_iff.1 h').1
    simp at this; omega

end

/-! ## Values -/

section

theorem proper_none : Proper .none := .none
theorem proper_undef : Proper .undef := .undef
theorem proper_bool (b : Bool) : Proper (.bool b) := .bool b
theorem proper_int (i : Int) : Proper (.int i) := .int i
theorem proper_float (f : PyFloat) : Proper (.float f) := .float f
theorem proper_cplx (a b : PyFloat) : Proper (.cplx a b) := .cplx a b
theorem proper_str (s : PyStr) : Proper (.str s) := .str s
theorem proper_dt (t : DateTime) : Proper (.dt t) := .dt t
theorem proper_uuid (n : Nat) : Proper (.uuid n) := .uuid n
theorem proper_obj {r : Nat} : Proper (.obj r) ↔ O r := ⟨fun _ => trivial, fun _ => .obj r⟩
theorem proper_list {xs : List Val} : Proper (.list xs) ↔ ∀ x ∈ xs, Proper x :=
  ⟨fun h => by cases h with | list _ h => exact h, .list xs⟩
theorem proper_tup {xs : List Val} : Proper (.tup xs) ↔ ∀ x ∈ xs, Proper x :=
  ⟨fun h => by cases h with | tup _ h => exact h, .tup xs⟩
theorem proper_set {xs : List Val} : Proper (.set xs) → ∀ x ∈ xs, Proper x :=
  fun h => by cases h with | set _ h _ => exact h
theorem proper_parts {kvs : List (Val × Val)} (h : Proper (.dict kvs)) :
    ∀ kv ∈ kvs, Proper kv.1 ∧ Proper kv.2 := by
  cases h with
  | dict _ h1 h2 _ => exact fun kv hkv => ⟨h1 kv hkv, h2 kv hkv⟩
theorem proper_keys {kvs : List (Val × Val)} (h : Proper (.dict kvs)) : DistinctItems (kvs.map (·.1)) := by
  cases h with
  | dict _ _ _ h3 => exact h3

/-- Proper parts and distinct keys. -/
def Items (d : List (Val × Val)) : Prop := (∀ kv ∈ d, Proper kv.1 ∧ Proper kv.2) ∧ DistinctKeys d

theorem proper_ofItems {d : List (Val × Val)} (h : Items d) : Proper (.dict d) :=
  .dict d (fun kv hkv => (h.1 kv hkv).1) (fun kv hkv => (h.1 kv hkv).2)
    ⟨fun x hx => by
      obtain ⟨kv, hkv, rfl⟩ := List.mem_map.1 hx
      exact h.2.2 kv hkv, h.2.1⟩

theorem proper_items {v : Val} (h : Proper v) : ∀ x ∈ v.items, Proper x := by
  cases v <;> simp only [Val.items] <;> first
    | exact proper_list.1 h
    | exact proper_tup.1 h
    | exact proper_set h
    | (intro x hx; cases hx)

theorem proper_iter {v : Val} {xs : List Val} (h : Proper v) (hi : v.iter? = some xs) :
    ∀ x ∈ xs, Proper x := by
  cases v <;> simp only [Val.iter?] at hi <;> cases hi
  · intro x hx
    obtain ⟨c, _, rfl⟩ := List.mem_map.1 hx
    exact proper_str _
  · exact proper_list.1 h
  · exact proper_tup.1 h
  · exact proper_set h
  · intro x hx
    obtain ⟨kv, hkv, rfl⟩ := List.mem_map.1 hx
    exact (proper_parts h kv hkv).1

theorem items_dictSet {d : List (Val × Val)} {k v : Val} (hd : Items d) (hk : Proper k)
    (hh : k.hashable = true) (hv : Proper v) : Items (dictSet d k v) := by
  refine ⟨fun kv h => ?_, dictSet_distinct hd.2 hh⟩
  rcases dictSet_mem h with h | ⟨h1, h2 | ⟨x, h2⟩⟩
  · exact hd.1 kv h
  · rw [h1, h2]; exact ⟨hk, hv⟩
  · rw [h1]; exact ⟨(hd.1 _ h2).1, hv⟩

theorem items_nil : Items [] :=
  ⟨fun _ h => (List.not_mem_nil h).elim, List.Pairwise.nil, fun _ h => (List.not_mem_nil h).elim⟩

theorem items_dictOfPairs {ps : List (Val × Val)} (h : ∀ kv ∈ ps, Proper kv.1 ∧ Proper kv.2)
    (hh : ∀ kv ∈ ps, kv.1.hashable = true) : Items (dictOfPairs ps) := by
  unfold dictOfPairs
  have : ∀ (ps d : List (Val × Val)), (∀ kv ∈ ps, Proper kv.1 ∧ Proper kv.2) →
      (∀ kv ∈ ps, kv.1.hashable = true) → Items d →
      Items (ps.foldl (fun d kv => dictSet d kv.1 kv.2) d) := by
    intro ps
    induction ps with
    | nil => exact fun d _ _ hd => hd
    | cons p ps ih =>
      exact fun d hp hh hd => ih _ (fun kv h => hp kv (List.mem_cons_of_mem _ h))
        (fun kv h => hh kv (List.mem_cons_of_mem _ h))
        (items_dictSet hd (hp p (by simp)).1 (hh p (by simp)) (hp p (by simp)).2)
  exact this ps [] h hh items_nil

theorem proper_dictOfPairs {ps : List (Val × Val)} (h : ∀ kv ∈ ps, Proper kv.1 ∧ Proper kv.2) :
    ∀ kv ∈ dictOfPairs ps, Proper kv.1 ∧ Proper kv.2 := by
  unfold dictOfPairs
  have : ∀ (ps d : List (Val × Val)), (∀ kv ∈ ps, Proper kv.1 ∧ Proper kv.2) →
      (∀ kv ∈ d, Proper kv.1 ∧ Proper kv.2) →
      ∀ kv ∈ ps.foldl (fun d kv => dictSet d kv.1 kv.2) d, Proper kv.1 ∧ Proper kv.2 := by
    intro ps
    induction ps with
    | nil => exact fun d _ hd => hd
    | cons p ps ih =>
      refine fun d hp hd => ih _ (fun kv h => hp kv (List.mem_cons_of_mem _ h)) fun kv h => ?_
      rcases dictSet_mem h with h | ⟨h1, h2 | ⟨x, h2⟩⟩
      · exact hd kv h
      · rw [h1, h2]; exact hp p (by simp)
      · rw [h1]; exact ⟨(hd _ h2).1, (hp p (by simp)).2⟩
  exact this ps [] h fun kv h => by cases h

theorem proper_dictGet {d : List (Val × Val)} {k v : Val} (hd : ∀ kv ∈ d, Proper kv.1 ∧ Proper kv.2)
    (h : dictGet? d k = some v) : Proper v := by
  induction d with
  | nil => cases h
  | cons a d ih =>
    obtain ⟨k', v'⟩ := a
    unfold dictGet? at h
    split at h
    · cases h; exact (hd (k', v) (List.mem_cons_self ..)).2
    · exact ih (fun kv h => hd kv (List.mem_cons_of_mem _ h)) h

theorem proper_lookupS {l : List (PyStr × Val)} {k : PyStr} {v : Val} (hl : ∀ kv ∈ l, Proper kv.2)
    (h : lookupS k l = some v) : Proper v := by
  induction l with
  | nil => cases h
  | cons a l ih =>
    obtain ⟨k', v'⟩ := a
    unfold lookupS at h
    split at h
    · cases h; exact hl (k', v) (List.mem_cons_self ..)
    · exact ih (fun kv h => hl kv (List.mem_cons_of_mem _ h)) h

theorem proper_stored {l : List (PyStr × Val)} (hl : ∀ kv ∈ l, Proper kv.2) (k : PyStr) {d : Val}
    (hd : Proper d) : Proper ((lookupS k l).getD d) := by
  cases h : lookupS k l with
  | none => exact hd
  | some v => exact proper_lookupS hl h

theorem proper_kwOfDict {kvs : List (Val × Val)} (h : ∀ kv ∈ kvs, Proper kv.1 ∧ Proper kv.2)
    {kw : List (PyStr × Val)} (e : kwOfDict? kvs = some kw) : ∀ kv ∈ kw, Proper kv.2 := by
  induction kvs generalizing kw with
  | nil => cases e; intro kv h; cases h
  | cons a kvs ih =>
    obtain ⟨k, v⟩ := a
    cases k <;> simp only [kwOfDict?] at e <;> try cases e
    cases hr : kwOfDict? kvs with
    | none => rw [hr] at e; cases e
    | some rest =>
      rw [hr] at e
      cases e
      intro kv hkv
      rcases List.mem_cons.1 hkv with rfl | hkv
      · exact (h _ (List.mem_cons_self ..)).2
      · exact ih (fun kv h' => h kv (List.mem_cons_of_mem _ h')) hr kv hkv

theorem names_kwOfDict {kvs : List (Val × Val)} (h : (kvs.map (·.1)).Pairwise (fun a b => pyEq a b = false))
    {kw : List (PyStr × Val)} (e : kwOfDict? kvs = some kw) :
    (kw.map (·.1)).Nodup ∧ ∀ n ∈ kw.map (·.1), Val.str n ∈ kvs.map (·.1) := by
  induction kvs generalizing kw with
  | nil => cases e; exact ⟨List.nodup_nil, fun _ h => by cases h⟩
  | cons a kvs ih =>
    obtain ⟨k, v⟩ := a
    cases k <;> simp only [kwOfDict?] at e <;> try cases e
    rename_i n
    cases hr : kwOfDict? kvs with
    | none => rw [hr] at e; cases e
    | some rest =>
      rw [hr] at e
      cases e
      rw [List.map_cons, List.pairwise_cons] at h
      have ih := ih h.2 hr
      refine ⟨?_, fun m hm => ?_⟩
      · rw [List.map_cons, List.nodup_cons]
        refine ⟨fun hm => ?_, ih.1⟩
        have := h.1 _ (ih.2 _ hm)
        simp [pyEq] at this
      · rcases List.mem_cons.1 hm with rfl | hm
        · exact List.mem_cons_self ..
        · exact List.mem_cons_of_mem _ (ih.2 m hm)

theorem proper_pair {v : Val} {p : Val × Val} (h : Proper v) (e : pairOfVal? v = some p) :
    Proper p.1 ∧ Proper p.2 := by
  unfold pairOfVal? at e
  split at e
  · rename_i a b hi
    split at e
    · cases e
      exact ⟨proper_iter h hi a (by simp), proper_iter h hi b (by simp)⟩
    · cases e
  · cases e

theorem proper_pairs {xs : List Val} (h : ∀ x ∈ xs, Proper x) {ps : List (Val × Val)}
    (e : xs.mapM pairOfVal? = some ps) : ∀ kv ∈ ps, Proper kv.1 ∧ Proper kv.2 := by
  induction xs generalizing ps with
  | nil => simp at e; subst e; intro kv h; cases h
  | cons x xs ih =>
    rw [List.mapM_cons] at e
    cases hx : pairOfVal? x with
    | none => rw [hx] at e; cases e
    | some p =>
      rw [hx] at e
      cases hr : xs.mapM pairOfVal? with
      | none => rw [hr] at e; cases e
      | some rest =>
        rw [hr] at e
        cases e
        intro kv hkv
        rcases List.mem_cons.1 hkv with rfl | hkv
        · exact proper_pair (h x (by simp)) hx
        · exact ih (fun y hy => h y (List.mem_cons_of_mem _ hy)) hr kv hkv

theorem proper_dictCoerce {v : Val} (h : Proper v) {kvs : List (Val × Val)}
    (e : dictCoerce? v = some kvs) : ∀ kv ∈ kvs, Proper kv.1 ∧ Proper kv.2 := by
  unfold dictCoerce? at e
  split at e
  · cases e; exact proper_parts h
  · split at e
    · rename_i xs hi
      cases hm : xs.mapM pairOfVal? with
      | none => rw [hm] at e; cases e
      | some ps =>
        rw [hm] at e
        cases e
        exact proper_dictOfPairs (proper_pairs (proper_iter h hi) hm)
    · cases e

theorem proper_rgb {v : Val} (h : IsRGB v) : Proper v := by
  obtain ⟨a, b, c, rfl, ha, hb, hc⟩ := h
  have byte : ∀ x, IsByte x → Proper x := fun x hx => by
    rcases hx with ⟨i, rfl, _⟩ | ⟨b, rfl⟩
    · exact proper_int i
    · exact proper_bool b
  rw [proper_tup]
  simp only [List.mem_cons, List.not_mem_nil, or_false]
  rintro x (rfl | rfl | rfl)
  · exact byte _ ha
  · exact byte _ hb
  · exact byte _ hc

theorem proper_scalarValidate {E : Env} {k : Nat} {ty : PropTy} {v x : Val} (hv : Proper v)
    (h : scalarValidate E k ty v = some (.ok x)) : Proper x := by
  have := scalar_admits {} h rfl
  cases ty with
  | any => cases h; exact hv
  | seq => cases h
  | dict => cases h
  | inst => cases h
  | union => cases h
  | color => cases this with | color _ h => exact proper_rgb h
  | _ => cases this; constructor

theorem proper_colorValidate {E : Env} {k : Nat} {v x : Val} (h : colorValidate E k v = .ok x) :
    Proper x := proper_rgb (colorValidate_rgb h)

theorem proper_scalarToJson {E : Env} {ty : PropTy} {v x : Val} (hv : Proper v)
    (h : scalarToJson E ty v = some (.ok x)) : Proper x := by
  unfold scalarToJson at h
  cases ty
  case color =>
    dsimp only at h
    split at h
    · rename_i hi
      cases h
      exact proper_list.2 (proper_iter hv hi)
    · cases h
  all_goals
    dsimp only at h
    first
      | (cases h; done)
      | (cases h; exact hv)
      | (split at h <;> cases h <;> constructor)

theorem proper_scalarFromJson {E : Env} {ty : PropTy} {v x : Val} (hv : Proper v)
    (h : scalarFromJson E ty v = some (.ok x)) : Proper x := by
  unfold scalarFromJson at h
  cases ty
  case color =>
    dsimp only at h
    split at h
    · rename_i hi
      cases h
      exact proper_tup.2 (proper_iter hv hi)
    · cases h
  case boolean =>
    simp only [Option.some.injEq] at h
    unfold boolFromJson at h
    split at h
    · split at h
      · cases h; exact proper_bool _
      · split at h
        · cases h; exact proper_bool _
        · cases h
    · cases h; exact proper_int _
    · cases h; exact proper_bool _
    · cases h
  case integer =>
    simp only [Option.some.injEq] at h
    cases hx : pyInt E v with
    | error k => rw [hx] at h; cases h
    | ok i => rw [hx] at h; cases h; exact proper_int i
  case float =>
    simp only [Option.some.injEq] at h
    cases hx : pyFloat E v with
    | error k => rw [hx] at h; cases h
    | ok i => rw [hx] at h; cases h; exact proper_float i
  case complex =>
    simp only [Option.some.injEq] at h
    cases hx : pyComplex E v with
    | error k => rw [hx] at h; cases h
    | ok i => rw [hx] at h; cases h; exact proper_cplx _ _
  case datetime =>
    dsimp only at h
    split at h
    · split at h
      · cases h; exact proper_dt _
      · cases h
    · split at h
      · split at h <;> cases h
      · cases h
  case uuid =>
    dsimp only at h
    split at h
    · split at h
      · cases h; exact proper_uuid _
      · cases h
    · split at h
      · cases h; exact proper_uuid _
      · cases h
    · cases h
  all_goals
    dsimp only at h
    first
      | (cases h; done)
      | (cases h; exact hv)

theorem proper_pyIndex {a k x : Val} (ha : Proper a) (h : pyIndex a k = .ok x) : Proper x := by
  have get : ∀ xs : List Val, (∀ x ∈ xs, Proper x) → ∀ (i : Nat) y, xs[i]? = some y → Proper y :=
    fun xs hx i y hy => hx y (List.mem_of_getElem? hy)
  have str : ∀ (s : PyStr), ∀ x ∈ s.map (fun c => Val.str [c]), Proper x := by
    intro s x hx
    obtain ⟨c, _, rfl⟩ := List.mem_map.1 hx
    exact proper_str _
  unfold pyIndex at h
  cases a
  case dict kvs =>
    dsimp only at h
    split at h
    · split at h
      · rename_i hg
        cases h
        exact proper_dictGet (proper_parts ha) hg
      · cases h
    · cases h
  case list xs =>
    dsimp only at h
    repeat' split at h
    all_goals first
      | (cases h; done)
      | (rename_i hg; cases h; exact get xs (proper_list.1 ha) _ _ hg)
  case tup xs =>
    dsimp only at h
    repeat' split at h
    all_goals first
      | (cases h; done)
      | (rename_i hg; cases h; exact get xs (proper_tup.1 ha) _ _ hg)
  case str s =>
    dsimp only at h
    repeat' split at h
    all_goals first
      | (cases h; done)
      | (rename_i hg; cases h; exact get _ (str s) _ _ hg)
  all_goals cases h

end

/-! ## The methods -/

/-- Calls with proper values keep the invariant and return proper values. -/
def RecSafe (rec : Rec) : Prop :=
  ∀ c, ProperCall c → Safe (rec c) (Proper)

section
variable {E : Env} (hE : ProperEnv E) {rec : Rec} (H : RecSafe rec)

include H in
theorem safe_execProg : ∀ p : Prog, ProperProg p → Safe (execProg rec p) (Proper)
  | .ret v, h => safe_pure h
  | .raise _, _ => safe_raise
  | .call c k, h => by
      intro w hw
      have h1 := H c h.1 w hw
      unfold execProg
      cases hx : rec c w with
      | mk x w1 =>
        rw [hx] at h1
        cases x with
        | ok v => exact safe_execProg (k (.ok v)) (h.2.2 v (h1.2 v rfl)) w1 h1.1
        | error e => exact safe_execProg (k (.error e)) (h.2.1 e) w1 h1.1
  | .disabled q b k, h => by
      intro w hw
      have h1 := safe_execProg b h.1 { w with quar := w.quar.union q } (hw.same rfl)
      unfold execProg
      cases hx : execProg rec b { w with quar := w.quar.union q } with
      | mk x w1 =>
        rw [hx] at h1
        cases x with
        | ok v => exact safe_execProg (k (.ok v)) (h.2.2 v (h1.2 v rfl)) _ (h1.1.same rfl)
        | error e => exact safe_execProg (k (.error e)) (h.2.1 e) _ (h1.1.same rfl)

include hE H in
theorem safe_callFn (f : FnId) {args : List Val} (h : ∀ v ∈ args, Proper v) :
    Safe (callFn E rec f args) (Proper) := safe_execProg H _ (hE.fns f args h)

include H

theorem safe_rec {c : Call} (hc : ProperCall c) : Safe (rec c) Proper := H c hc

theorem safe_rec_validate (nm : PyStr) (p : PropSpec) {i : Option Nat} {v : Val}
    (_ : ∀ r, i = some r → O r) (hv : Proper v) : Safe (rec (.validate nm p i v)) Proper := safe_rec H hv

theorem safe_rec_propEqual (p : PropSpec) {a b : Val} (ha : Proper a) (hb : Proper b) :
    Safe (rec (.propEqual p a b)) Proper := safe_rec H ⟨ha, hb⟩

theorem safe_rec_assert (nm : PyStr) (p : PropSpec) {r : Nat} {v : Val} (_ : O r) (hv : Proper v) :
    Safe (rec (.assertValid nm p r v)) Proper := safe_rec H hv

theorem safe_rec_serializeP (nm : PyStr) (p : PropSpec) {v : Val} (kw : SerKw) (hv : Proper v) :
    Safe (rec (.serializeP nm p v kw)) Proper := safe_rec H hv

theorem safe_rec_deserializeP (nm : PyStr) (p : PropSpec) {v : Val} (kw : DeKw) (hv : Proper v) :
    Safe (rec (.deserializeP nm p v kw)) Proper := safe_rec H hv

theorem safe_rec_construct (c : ClsId) {kw : List (PyStr × Val)} (hkw : ∀ kv ∈ kw, Proper kv.2) :
    Safe (rec (.construct c kw)) Proper := safe_rec H hkw

theorem safe_rec_reset {r : Nat} (nm : Option PyStr) (_ : O r) : Safe (rec (.reset r nm)) Proper :=
  H (.reset r nm) trivial

theorem safe_rec_getattr {r : Nat} (nm : PyStr) (_ : O r) : Safe (rec (.getattr r nm)) Proper :=
  H (.getattr r nm) trivial

theorem safe_rec_setattr {r : Nat} (nm : PyStr) {v : Val} (_ : O r) (hv : Proper v) :
    Safe (rec (.setattr r nm v)) Proper := safe_rec H hv

theorem safe_rec_delattr {r : Nat} (nm : PyStr) (_ : O r) : Safe (rec (.delattr r nm)) Proper :=
  H (.delattr r nm) trivial

theorem safe_rec_hpValidate {r : Nat} (_ : O r) : Safe (rec (.hpValidate r)) Proper :=
  H (.hpValidate r) trivial

theorem safe_rec_validateProps {r : Nat} (_ : O r) : Safe (rec (.validateProps r)) Proper :=
  H (.validateProps r) trivial

theorem safe_rec_hpSerialize {r : Nat} (kw : SerKw) (_ : O r) : Safe (rec (.hpSerialize r kw)) Proper :=
  H (.hpSerialize r kw) trivial

theorem safe_rec_hpDeserialize (c : ClsId) {v : Val} (kw : DeKw) (hv : Proper v) :
    Safe (rec (.hpDeserialize c v kw)) Proper := safe_rec H hv

theorem safe_rec_equal {a b : Val} (ha : Proper a) (hb : Proper b) : Safe (rec (.equal a b)) Proper :=
  safe_rec H ⟨ha, hb⟩

include hE

theorem safe_runHook {r : Nat} (ts : List ErrTuple) (hr : O r) :
    Safe (runHook E rec r ts) fun _ => True := by
  unfold runHook
  refine safe_seq (safe_true (safe_getObj r)) fun o => ?_
  refine safe_seq (safe_modify fun w hw => hw.same rfl) fun _ => ?_
  split
  · exact safe_pure trivial
  · exact safe_seq (safe_true (safe_callFn hE H _ (by simpa using proper_obj.2 hr))) fun _ =>
      safe_pure trivial

theorem safe_raiseVal {α : Type} {Q : α → Prop} (reason prop : Option PyStr) {i : Option Nat}
    (hi : ∀ r, i = some r → O r) : Safe (raiseVal E rec reason prop i : M α) Q := by
  unfold raiseVal
  cases i with
  | none => exact safe_raise
  | some r =>
    dsimp only
    refine safe_seq (safe_true (safe_getObj r)) fun o => ?_
    split
    · exact safe_seq (safe_runHook hE H _ (hi r rfl)) fun _ => safe_raise
    · exact safe_raise

theorem safe_propError {α : Type} {Q : α → Prop} (nm : PyStr) {i : Option Nat}
    (hi : ∀ r, i = some r → O r) : Safe (propError E rec nm i : M α) Q :=
  safe_raiseVal hE H _ _ hi

theorem safe_liftScalar (nm : PyStr) {i : Option Nat} (hi : ∀ r, i = some r → O r)
    {x : Except SErr Val} (hx : ∀ v, x = .ok v → Proper v) :
    Safe (liftScalar E rec nm i x) (Proper) := by
  unfold liftScalar
  split
  · exact safe_pure (hx _ rfl)
  · exact safe_raiseK
  · exact safe_catchIf (safe_propError hE H nm hi) fun _ => safe_propError hE H nm hi
  · exact safe_propError hE H nm hi

omit hE H in
theorem safe_mkSeq (k : SeqKind) {xs : List Val} (h : ∀ x ∈ xs, Proper x) :
    Safe (mkSeq k xs) (Proper) := by
  unfold mkSeq
  cases k
  · exact safe_pure (proper_tup.2 h)
  · exact safe_pure (proper_list.2 h)
  · dsimp only
    split
    · rename_i hh
      refine safe_pure (.set _ (fun x hx => h x (setOfList_sub _ x hx)) ⟨fun x hx => ?_, setOfList_distinct xs⟩)
      exact hashableL_all_iff.1 hh x (setOfList_sub _ x hx)
    · exact safe_raiseK

theorem safe_item (nm : PyStr) (p : PropSpec) {i : Option Nat} (hi : ∀ r, i = some r → O r) {v : Val}
    (hv : Proper v) : Safe (M.catchIf ErrKind.isValueError (rec (.validate nm p i v))
      (fun _ => propError E rec nm i)) (Proper) :=
  safe_catchIf (safe_rec_validate H nm p hi hv) fun _ => safe_propError hE H nm hi

theorem safe_seqValidate (nm : PyStr) {i : Option Nat} (hi : ∀ r, i = some r → O r) (k : SeqKind)
    (item : PropSpec) (co : Bool) {v : Val} (hv : Proper v) :
    Safe (seqValidate E rec nm i k item co v) (Proper) := by
  unfold seqValidate
  dsimp only
  split
  · exact safe_bind (Q := fun _ => False) (safe_propError hE H nm hi) fun _ h => h.elim
  · refine safe_bind (safe_mapML (Q := Proper) _ fun x hx => safe_item hE H nm item hi ?_) fun out ho =>
      safe_mkSeq k ho
    split at hx
    · exact proper_items hv x hx
    · simp at hx; rw [hx]; exact hv

theorem safe_dictValidate (nm : PyStr) {i : Option Nat} (hi : ∀ r, i = some r → O r)
    (kp vp : PropSpec) (co : Bool) {v : Val} (hv : Proper v) :
    Safe (dictValidate E rec nm i kp vp co v) (Proper) := by
  unfold dictValidate
  refine safe_bind (Q := fun kvs => ∀ kv ∈ kvs, Proper kv.1 ∧ Proper kv.2) ?_ fun items hitems => ?_
  · split
    · rename_i kvs he
      refine safe_pure ?_
      split at he
      · exact proper_dictCoerce hv he
      · split at he
        · cases he; exact proper_parts hv
        · cases he
    · exact safe_propError hE H nm hi
  · refine safe_bind (Q := Items) (safe_foldML _ _ items_nil fun d hd kv hkv => ?_) fun out ho =>
        safe_pure (proper_ofItems ho)
    refine safe_bind (safe_item hE H nm kp hi (hitems kv hkv).1) fun key hkey => ?_
    refine safe_bind (safe_item hE H nm vp hi (hitems kv hkv).2) fun val hval => ?_
    split
    · rename_i hh
      exact safe_pure (items_dictSet hd hkey hh hval)
    · exact safe_raiseK

theorem safe_instValidate (nm : PyStr) {i : Option Nat} (hi : ∀ r, i = some r → O r)
    (c : ClsId) {v : Val} (hv : Proper v) : Safe (instValidate E rec nm i c v) (Proper) := by
  unfold instValidate
  split
  · refine safe_seq (safe_true (safe_getObj _)) fun o => ?_
    split
    · exact safe_pure hv
    · exact safe_propError hE H nm hi
  · split
    · rename_i he
      exact safe_catchIf (safe_rec_construct H c (proper_kwOfDict (proper_parts hv) he)) fun _ =>
        safe_propError hE H nm hi
    · exact safe_propError hE H nm hi
  · exact safe_propError hE H nm hi

theorem safe_tryProps (nm : PyStr) {i : Option Nat} (hi : ∀ r, i = some r → O r)
    {f : PropSpec → Call} (hf : ∀ p, Safe (rec (f p)) (Proper)) :
    ∀ ps, Safe (tryProps E rec nm i f ps) (Proper)
  | [] => safe_propError hE H nm hi
  | p :: ps => safe_catchIf (hf p) fun _ => safe_tryProps nm hi hf ps

theorem safe_validateBody (nm : PyStr) (p : PropSpec) {i : Option Nat} (hi : ∀ r, i = some r → O r)
    {v : Val} (hv : Proper v) : Safe (validateBody E rec nm p i v) (Proper) := by
  unfold validateBody
  cases hty : p.ty with
  | seq k item a b co => exact safe_seqValidate hE H nm hi k item co hv
  | dict kp vp co => exact safe_dictValidate hE H nm hi kp vp co hv
  | inst c => exact safe_instValidate hE H nm hi c hv
  | union ps s => exact safe_tryProps hE H nm hi (fun p => safe_rec_validate H nm p hi hv) ps
  | color =>
    dsimp only
    unfold colorBody
    split
    · refine safe_seq ?_ fun k => safe_liftScalar hE H nm hi fun x hx => proper_colorValidate hx
      split
      · exact fun w hw => ⟨hw.same rfl, fun _ _ => trivial⟩
      · exact safe_pure trivial
    · exact safe_liftScalar hE H nm hi fun x hx => proper_colorValidate hx
  | _ =>
    dsimp only [scalarValidate]
    refine safe_liftScalar hE H nm hi fun x hx => ?_
    exact proper_scalarValidate (E := E) (k := 0) (ty := p.ty) hv (by rw [hty, ← hx]; rfl)

omit hE
theorem safe_zipEqual (p : PropSpec) : ∀ xs ys : List Val, (∀ x ∈ xs, Proper x) →
    (∀ y ∈ ys, Proper y) → Safe (zipEqual rec p xs ys) fun _ => True
  | x :: xs, y :: ys, hx, hy => by
      unfold zipEqual
      refine safe_seq (safe_true (safe_rec_propEqual H p (hx x (by simp)) (hy y (by simp)))) fun e => ?_
      refine safe_seq (safe_zipEqual p xs ys (fun x h => hx x (List.mem_cons_of_mem _ h))
        fun y h => hy y (List.mem_cons_of_mem _ h)) fun _ => safe_pure trivial
  | [], _, _, _ => by unfold zipEqual; exact safe_pure trivial
  | _ :: _, [], _, _ => by unfold zipEqual; exact safe_pure trivial

theorem safe_setRemove (p : PropSpec) {a : Val} (ha : Proper a) : ∀ ys : List Val,
    (∀ y ∈ ys, Proper y) →
    Safe (setRemove rec p a ys) fun r => ∀ zs, r = some zs → ∀ z ∈ zs, Proper z
  | [], _ => safe_pure fun _ h => by cases h
  | y :: ys, hy => by
      unfold setRemove
      have hys : ∀ y ∈ ys, Proper y := fun y h => hy y (List.mem_cons_of_mem _ h)
      refine safe_seq (safe_true (safe_rec_propEqual H p ha (hy y (by simp)))) fun e => ?_
      split
      · exact safe_pure fun zs h => by cases h; exact hys
      · refine safe_bind (safe_setRemove p ha ys hys) fun r hr => safe_pure fun zs h => ?_
        cases r with
        | none => cases h
        | some ws =>
          cases h
          intro z hz
          rcases List.mem_cons.1 hz with rfl | hz
          · exact hy _ (by simp)
          · exact hr ws rfl z hz

theorem safe_setEqual (p : PropSpec) {a b : Val} (ha : Proper a) (hb : Proper b) :
    Safe (setEqual rec p a b) (Proper) := by
  unfold setEqual
  refine safe_catchIf ?_ fun _ => safe_pure (proper_bool _)
  split
  · rename_i xs ys hxs hys
    split
    · exact safe_pure (proper_bool _)
    · split
      all_goals first
        | exact safe_raiseK
        | (refine safe_bind (Q := fun copy => ∀ z ∈ copy, Proper z)
            (safe_foldML _ _ (proper_iter hb hys) fun copy hc x hx => ?_) fun rest _ =>
              safe_pure (proper_bool _)
           refine safe_bind (safe_setRemove H p (proper_iter ha hxs x hx) copy hc) fun r hr => ?_
           cases r with
           | some copy' =>
             dsimp only
             first
               | exact safe_raiseK
               | exact safe_pure (Q := fun copy => ∀ z ∈ copy, Proper z) (hr copy' rfl)
           | none => exact safe_pure hc)
  · exact safe_raiseK

theorem safe_tupEqual (p : PropSpec) {a b : Val} (ha : Proper a) (hb : Proper b) :
    Safe (tupEqual rec p a b) (Proper) := by
  unfold tupEqual
  refine safe_catchIf ?_ fun _ => safe_pure (proper_bool _)
  split
  · rename_i xs ys hxs hys
    split
    · exact safe_seq (safe_zipEqual H p xs ys (proper_iter ha hxs) (proper_iter hb hys)) fun _ =>
        safe_pure (proper_bool _)
    · exact safe_pure (proper_bool _)
  · exact safe_raiseK

theorem safe_dictEqual (p : PropSpec) {a b : Val} (ha : Proper a) (hb : Proper b) :
    Safe (dictEqual rec p a b) (Proper) := by
  unfold dictEqual
  refine safe_catchIf ?_ fun _ => safe_pure (proper_bool _)
  split
  · split
    · exact safe_pure (proper_bool _)
    · split
      all_goals first
        | exact safe_raiseK
        | (refine safe_seq (safe_foldML (Q := fun _ => True) _ _ trivial fun copy _ k _ => ?_) fun rest =>
              safe_pure (proper_bool _)
           refine safe_bind (safe_liftK fun x hx => proper_pyIndex ha hx) fun x hx => ?_
           refine safe_bind (safe_liftK fun x hx => proper_pyIndex hb hx) fun y hy => ?_
           refine safe_seq (safe_true (safe_rec_propEqual H p hx hy)) fun e => ?_
           split
           · exact safe_liftK fun _ _ => trivial
           · exact safe_pure trivial)
  · exact safe_raiseK

theorem safe_unionEqual {a b : Val} (ha : Proper a) (hb : Proper b) : ∀ ps,
    Safe (unionEqual rec a b ps) (Proper)
  | [] => safe_pure (proper_bool _)
  | p :: ps => by
      unfold unionEqual
      refine safe_seq (safe_true (safe_rec_propEqual H p ha hb)) fun e => ?_
      split
      · exact safe_pure (proper_bool _)
      · exact safe_unionEqual ha hb ps

theorem safe_propEqualBody (p : PropSpec) {a b : Val} (ha : Proper a) (hb : Proper b) :
    Safe (propEqualBody E rec p a b) (Proper) := by
  unfold propEqualBody
  split
  · exact safe_setEqual H _ ha hb
  · exact safe_tupEqual H _ ha hb
  · exact safe_dictEqual H _ ha hb
  · exact safe_rec_equal H ha hb
  · exact safe_unionEqual H ha hb _
  · split
    · exact safe_seq (safe_true (safe_liftK (Q := fun _ => True) fun _ _ => trivial)) fun _ =>
        safe_pure (proper_bool _)
    · exact safe_raiseK

/-! ## Attributes -/

omit H in
theorem safe_entryOf (r : Nat) (name : PyStr) : Safe (entryOf E r name) fun _ => True := by
  unfold entryOf
  exact safe_seq (safe_true (safe_getObj r)) fun _ => safe_pure trivial

omit H in
theorem safe_getStored {r : Nat} (hr : O r) (name : PyStr) : Safe (getStored r name) (Proper) := by
  unfold getStored
  exact safe_bind (safe_getObj r) fun o ho => safe_pure (proper_stored ho.values name proper_none)

omit H in
theorem safe_store (r : Nat) {f : List (PyStr × Val) → List (PyStr × Val)}
    (hf : ∀ l, ProperStore l → ProperStore (f l)) :
    Safe (modObj r (fun o => { o with backend := f o.backend })) fun _ => True :=
  safe_modify fun _ hw => hw.setObj fun o ho => hf o.backend ho

omit H in
theorem store_setS {l : List (PyStr × Val)} (h : ProperStore l) (name : PyStr) {v : Val} (hv : Proper v) :
    ProperStore (setS name v l) := ⟨Cls.nodup_setS h.names, fun kv hkv => by
  rcases mem_setS hkv with hkv | rfl
  · exact h.values kv hkv
  · exact hv⟩

omit H in
theorem eraseS_sublist {α : Type} (k : PyStr) : ∀ l : List (PyStr × α), (eraseS k l).Sublist l
  | [] => List.Sublist.slnil
  | (k', v') :: l => by
      unfold eraseS
      split
      · exact (eraseS_sublist k l).cons _
      · exact (eraseS_sublist k l).cons_cons _

omit H in
theorem safe_putStored {r : Nat} (_ : O r) (name : PyStr) {v : Val} (hv : Proper v) :
    Safe (putStored r name v) fun _ => True := safe_store r fun _ hl => store_setS hl name hv

omit H in
theorem safe_writeStored {r : Nat} (_ : O r) (name : PyStr) {v : Val} (hv : Proper v) :
    Safe (writeStored r name v) fun _ => True :=
  safe_store (f := fun b => if v.isUndef then eraseS name b else setS name v b) r fun l hl => by
    split
    · exact ⟨hl.names.sublist ((eraseS_sublist name l).map _), fun kv h => hl.values kv (mem_eraseS h)⟩
    · exact store_setS hl name hv

include hE

theorem safe_getattrBody {r : Nat} (hr : O r) (name : PyStr) :
    Safe (getattrBody E rec r name) (Proper) := by
  unfold getattrBody
  refine safe_seq (safe_entryOf r name) fun e => ?_
  split
  · exact safe_getStored hr name
  · exact safe_getStored hr name
  · refine safe_bind (safe_callFn hE H _ (by simpa using proper_obj.2 hr)) fun v hv => ?_
    split
    · exact safe_pure proper_none
    · exact safe_pure proper_none
    · exact safe_rec_validate H _ _ (fun s h => by cases h; exact hr) hv
  · exact safe_rec_getattr H _ hr
  · exact safe_raiseK

theorem safe_notify {r : Nat} (hr : O r) (mode : Mode) (name : PyStr) {prev v : Val}
    (hp : Proper prev) (hv : Proper v) : Safe (notify E rec r mode name prev v) (Proper) := by
  unfold notify
  refine safe_seq (safe_true (safe_getObj r)) fun o => ?_
  refine safe_seq safe_get fun w => ?_
  refine safe_foldML _ _ hv fun x hx l _ => ?_
  unfold notifyOne
  refine safe_seq (safe_modify fun w hw => hw.same rfl) fun _ => safe_callFn hE H _ ?_
  intro y hy
  simp only [List.mem_cons, List.not_mem_nil, or_false] at hy
  rcases hy with rfl | rfl | rfl | rfl | rfl
  · exact proper_obj.2 hr
  · exact proper_str _
  · exact hp
  · exact hx
  · exact proper_str _

theorem safe_setBody {r : Nat} (hr : O r) (name : PyStr) (p : PropSpec) {v : Val} (hv : Proper v) :
    Safe (setBody E rec r name p v) fun _ => True := by
  unfold setBody
  refine safe_bind (safe_getObj r) fun o ho => ?_
  have hp : Proper ((lookupS name o.backend).getD .undef) := proper_stored ho.values name proper_undef
  dsimp only
  refine safe_bind (safe_notify hE H hr _ name hp hv) fun v1 h1 => ?_
  refine safe_seq (safe_writeStored hr name h1) fun _ => ?_
  refine safe_seq ?_ fun ch => ?_
  · split
    · exact safe_pure trivial
    · split
      · exact safe_pure trivial
      · exact safe_seq (safe_true (safe_rec_propEqual H p hp h1)) fun _ => safe_pure trivial
  · refine safe_bind (Q := Proper) ?_ fun v2 h2 => ?_
    · split
      · exact safe_notify hE H hr _ name hp h1
      · exact safe_pure h1
    · exact safe_seq (safe_true (safe_notify hE H hr _ name hp h2)) fun _ => safe_pure trivial

omit hE H in
theorem safe_setBackend {r : Nat} (hr : O r) {v : Val} (hv : Proper v) :
    Safe (setBackend r v) fun _ => True := by
  unfold setBackend
  refine safe_seq (safe_modify fun w hw => hw.same rfl) fun _ => ?_
  split
  · rename_i kvs
    refine safe_modify fun w hw => hw.setObj fun o _ => ?_
    cases hk : kwOfDict? kvs with
    | none => exact ⟨List.nodup_nil, fun _ h => by cases h⟩
    | some kw =>
      exact ⟨(names_kwOfDict (proper_keys hv).2 hk).1, fun kv h => proper_kwOfDict (proper_parts hv) hk kv h⟩
  · exact safe_modify fun w hw => hw.setObj fun o _ => ⟨List.nodup_nil, fun _ h => by cases h⟩

theorem safe_setattrBody {r : Nat} (hr : O r) (name : PyStr) {v : Val} (hv : Proper v) :
    Safe (setattrBody E rec r name v) (Proper) := by
  have hi : ∀ s, some r = some s → O s := fun s h => by cases h; exact hr
  unfold setattrBody
  refine safe_seq (safe_entryOf r name) fun e => ?_
  split
  · unfold assignBody
    refine safe_bind (Q := Proper) ?_ fun x hx =>
      safe_seq (safe_setBody hE H hr name _ hx) fun _ => safe_pure proper_none
    split
    · exact safe_pure hv
    · exact safe_rec_validate H _ _ hi hv
  · exact safe_raiseK
  · split
    · exact safe_raiseK
    · refine safe_bind (safe_rec_validate H _ _ hi hv) fun x hx => ?_
      refine safe_seq (safe_true (safe_callFn hE H _ ?_)) fun _ => safe_pure proper_none
      intro y hy
      simp only [List.mem_cons, List.not_mem_nil, or_false] at hy
      rcases hy with rfl | rfl
      · exact proper_obj.2 hr
      · exact hx
  · exact safe_rec_setattr H _ hr hv
  · split
    · exact safe_seq (safe_setBackend hr hv) fun _ => safe_pure proper_none
    · exact safe_pure proper_none

theorem safe_delattrBody {r : Nat} (hr : O r) (name : PyStr) :
    Safe (delattrBody E rec r name) (Proper) := by
  unfold delattrBody
  refine safe_seq (safe_entryOf r name) fun e => ?_
  split
  · exact safe_seq (safe_setBody hE H hr name _ proper_undef) fun _ => safe_pure proper_none
  · exact safe_raiseK
  · split
    · exact safe_raiseK
    · exact safe_seq (safe_true (safe_callFn hE H _ (by simpa using proper_obj.2 hr))) fun _ =>
        safe_pure proper_none
  · exact safe_rec_delattr H _ hr
  · exact safe_raiseK

/-! ## Defaults and construction -/

theorem safe_evalDflt {d : Dflt} (hd : ∀ v, d = .val v → Proper v) :
    Safe (evalDflt E rec d) (Proper) := by
  unfold evalDflt
  split
  · exact safe_pure proper_undef
  · exact safe_pure (hd _ rfl)
  · exact safe_callFn hE H _ (by simp)
  · exact safe_rec_construct H _ (by simp)
  · exact fun w hw => ⟨hw.same rfl, fun a e => by cases e; exact proper_uuid _⟩

omit hE H in
theorem lookupS_mem_loc {α : Type} {k : PyStr} {e : α} : ∀ {l : List (PyStr × α)},
    lookupS k l = some e → (k, e) ∈ l
  | [], h => by cases h
  | (n, a) :: l, h => by
      rw [lookupS] at h
      split at h
      · rename_i hn
        cases h
        cases hn
        exact List.mem_cons_self ..
      · exact List.mem_cons_of_mem _ (lookupS_mem_loc h)

omit H in
theorem proper_classDefault {c : ClsId} {key : PyStr} {e : Entry} (he : (key, e) ∈ (E.classes c).props)
    {v : Val} (h : classDefault E c key e = .val v) : Proper v := by
  unfold classDefault at h
  cases hl : lookupS key (E.classes c).defaults with
  | some d =>
    rw [hl] at h
    simp only [Option.getD_some] at h
    subst h
    exact hE.defaults v (.dict c key v (lookupS_mem_loc hl))
  | none =>
    rw [hl] at h
    simp only [Option.getD_none] at h
    cases e with
    | mutable p => exact hE.defaults v (.mutable c key p v he h)
    | gettable p => exact hE.defaults v (.gettable c key p v he h)
    | dynamic => cases h
    | renamed => cases h

theorem safe_resetBody {r : Nat} (hr : O r) (name : Option PyStr) :
    Safe (resetBody E rec r name) (Proper) := by
  unfold resetBody
  refine safe_seq (safe_true (safe_getObj r)) fun o => ?_
  split
  · refine safe_seq (safe_forML _ fun kv _ => ?_) fun _ => safe_pure proper_none
    split
    · exact safe_seq (safe_true (safe_rec_reset H _ hr)) fun _ => safe_pure trivial
    · exact safe_pure trivial
  · split
    · rename_i hl
      exact safe_bind (safe_evalDflt hE H fun v h => proper_classDefault hE (lookupS_mem_loc hl) h) fun v hv =>
        safe_rec_setattr H _ hr hv
    · exact safe_raiseK

omit hE in
theorem safe_entryValidate (name : PyStr) (e : Entry) {i : Option Nat} (hi : ∀ r, i = some r → O r)
    {v : Val} (hv : Proper v) : Safe (entryValidate rec name e i v) (Proper) := by
  unfold entryValidate
  split
  · exact safe_rec_validate H _ _ hi hv
  · exact safe_rec_validate H _ _ hi hv
  · exact safe_rec_validate H _ _ hi hv
  · exact safe_pure hv

omit hE H in
theorem safe_withDisabled {α : Type} {Q : α → Prop} (q : Quar) {m : M α} (h : Safe m Q) :
    Safe (withDisabled q m) Q := by
  intro w hw
  have h1 := h { w with quar := w.quar.union q } (hw.same rfl)
  exact ⟨h1.1.same rfl, h1.2⟩

omit hE H in
theorem safe_addErrs {r : Nat} (hr : O r) (ts : List ErrTuple) :
    Safe (addErrs r ts) fun _ => True := by
  unfold addErrs
  refine safe_seq (safe_true (safe_getObj r)) fun o => ?_
  split
  · exact safe_modObj hr fun _ => rfl
  · exact safe_raiseK

omit hE in
theorem safe_initStep {r : Nat} (hr : O r) (c : ClassDef) (nv : Option PyErr) {kv : PyStr × Val}
    (hv : Proper kv.2) : Safe (initStep rec r c nv kv) fun _ => True := by
  have main : Safe (do
      let res ← M.attempt (rec (.setattr r kv.1 kv.2))
      match res with
      | .ok _ => pure nv
      | .error e =>
          if e.kind = .validation then do
            addErrs r e.tuples
            pure nv
          else if e.kind.isGeneric then pure (nv.or (some e))
          else M.raise e) fun _ => True := by
    refine safe_seq (safe_true (safe_attempt (safe_rec_setattr H _ hr hv))) fun res => ?_
    cases res with
    | ok _ => exact safe_pure trivial
    | error e =>
      dsimp only
      split
      · exact safe_seq (safe_addErrs hr _) fun _ => safe_pure trivial
      · split
        · exact safe_pure trivial
        · exact safe_raise
  unfold initStep
  split
  · split
    · exact main
    · exact safe_bind (Q := fun _ => False) safe_raiseK fun _ h => h.elim
  · exact safe_bind (Q := fun _ => False) safe_raiseK fun _ h => h.elim
  · exact main

theorem safe_raiseCollected {r : Nat} (hr : O r) (nv : Option PyErr) :
    Safe (raiseCollected E rec r nv) fun _ => True := by
  unfold raiseCollected
  refine safe_seq (safe_true (safe_getObj r)) fun o => ?_
  dsimp only
  split
  · exact safe_seq (safe_runHook hE H _ hr) fun _ => safe_raise
  · split
    · exact safe_raise
    · exact safe_pure trivial

omit hE H in
theorem apart_clearValidating {r : Nat} (hr : O r) {w : World} (h : ProperWorld w) :
    ProperWorld (clearValidating r w) := h.mark hr fun _ => rfl

theorem safe_initBody {r : Nat} (hr : O r) (c : ClassDef) {kw : List (PyStr × Val)}
    (hkw : ∀ kv ∈ kw, Proper kv.2) : Safe (initBody E rec r c kw) fun _ => True := by
  unfold initBody
  refine safe_seq safe_raiseWhen fun _ => ?_
  refine safe_seq (safe_modObj hr fun _ => rfl) fun _ => ?_
  refine safe_fin ?_ fun w hw => apart_clearValidating hr hw
  exact safe_seq (safe_foldML _ _ trivial fun nv _ kv h => safe_initStep H hr c nv (hkw kv h)) fun nv =>
    safe_raiseCollected hE H hr nv

theorem safe_gettableDefault (c : ClsId) {r : Nat} (hr : O r) {kv : PyStr × Entry}
    (hk : kv ∈ (E.classes c).props) : Safe (gettableDefault E rec c r kv) fun _ => True := by
  unfold gettableDefault
  split
  · exact safe_pure trivial
  · split
    · exact safe_pure trivial
    · exact safe_pure trivial
    · refine safe_bind (safe_evalDflt hE H fun v h => proper_classDefault hE hk h) fun v hv => ?_
      exact safe_bind (safe_entryValidate H _ _ (fun s h => by cases h; exact hr) hv) fun x hx =>
        safe_putStored hr _ hx

theorem safe_constructBody (c : ClsId) {kw : List (PyStr × Val)} (hkw : ∀ kv ∈ kw, Proper kv.2) :
    Safe (constructBody E rec c kw) (Proper) := by
  unfold constructBody
  refine safe_seq safe_raiseWhen fun _ => ?_
  refine safe_bind (safe_alloc rfl) fun r hr => ?_
  refine safe_seq (safe_forML _ fun kv h => safe_gettableDefault hE H c hr h) fun _ => ?_
  refine safe_seq (safe_true (safe_withDisabled _ (safe_rec_reset H _ hr))) fun _ => ?_
  exact safe_seq (safe_initBody hE H hr _ hkw) fun _ => safe_pure (proper_obj.2 hr)

/-! ## Validation -/

theorem safe_validatorStep {r : Nat} (hr : O r) (nv : Option PyErr) (val : Option FnId) :
    Safe (validatorStep E rec r nv val) fun _ => True := by
  unfold validatorStep
  refine safe_seq (safe_true (safe_attempt (Q := fun _ => True) (safe_seq ?_ fun valid => ?_))) fun res => ?_
  · split
    · exact safe_true (safe_rec_validateProps H hr)
    · exact safe_true (safe_callFn hE H _ (by simpa using proper_obj.2 hr))
  · split
    · exact safe_raiseVal hE H _ _ fun s h => by cases h; exact hr
    · exact safe_pure trivial
  · split
    · exact safe_pure trivial
    · split
      · exact safe_seq (safe_addErrs hr _) fun _ => safe_pure trivial
      · split
        · exact safe_pure trivial
        · exact safe_raise

theorem safe_hpValidateBody {r : Nat} (hr : O r) : Safe (hpValidateBody E rec r) (Proper) := by
  unfold hpValidateBody
  refine safe_seq (safe_true (safe_getObj r)) fun o => ?_
  split
  · exact safe_pure (proper_bool _)
  · refine safe_seq (safe_modObj hr fun _ => rfl) fun _ => ?_
    refine safe_fin ?_ fun w hw => apart_clearValidating hr hw
    refine safe_seq (safe_foldML _ _ trivial fun nv _ v _ => safe_validatorStep hE H hr nv v) fun nv => ?_
    exact safe_seq (safe_raiseCollected hE H hr nv) fun _ => safe_pure (proper_bool _)

omit hE in
theorem safe_entryEqual (e : Entry) {a b : Val} (ha : Proper a) (hb : Proper b) :
    Safe (entryEqual rec e a b) (Proper) := by
  unfold entryEqual
  split
  · exact safe_rec_propEqual H _ ha hb
  · exact safe_rec_propEqual H _ ha hb
  · exact safe_rec_propEqual H _ ha hb
  · exact safe_pure (proper_bool _)

theorem safe_gettableAssert (nm : PyStr) (e : Entry) {r : Nat} (hr : O r) :
    Safe (gettableAssert E rec nm e r) (Proper) := by
  have hi : ∀ s, some r = some s → O s := fun s h => by cases h; exact hr
  unfold gettableAssert
  refine safe_bind (safe_getStored hr nm) fun v hv => ?_
  split
  · exact safe_pure (proper_bool _)
  · refine safe_bind (safe_entryValidate H nm e hi hv) fun x hx => ?_
    refine safe_seq (safe_true (safe_entryEqual H e hv hx)) fun eq => ?_
    split
    · exact safe_pure (proper_bool _)
    · exact safe_raiseVal hE H _ _ hi

theorem safe_entryAssert (nm : PyStr) (e : Entry) {r : Nat} (hr : O r) :
    Safe (entryAssert E rec nm e r) (Proper) := by
  unfold entryAssert
  split
  · exact safe_rec_assert H _ _ hr proper_none
  · exact safe_gettableAssert hE H nm _ hr

theorem safe_validatePropStep {r : Nat} (hr : O r) (kv : PyStr × Entry) :
    Safe (validatePropStep E rec r kv) fun _ => True := by
  have hi : ∀ s, some r = some s → O s := fun s h => by cases h; exact hr
  have last : Safe (do
      let ok ← entryAssert E rec kv.1 kv.2 r
      if ok.truthy then pure ()
      else raiseVal E rec (some (s% "invalid")) (some kv.1) (some r)) fun _ => True := by
    refine safe_seq (safe_true (safe_entryAssert hE H _ _ hr)) fun ok => ?_
    split
    · exact safe_pure trivial
    · exact safe_raiseVal hE H _ _ hi
  unfold validatePropStep
  refine safe_catchIf (safe_bind (safe_getStored hr _) fun v hv => ?_) fun e => ?_
  · split
    · exact last
    · refine safe_bind (safe_notify hE H hr _ _ hv hv) fun x hx => ?_
      refine safe_seq (safe_true (safe_entryEqual H _ hv hx)) fun eq => ?_
      split
      · exact last
      · exact safe_bind (Q := fun _ => False) (safe_raiseVal hE H _ _ hi) fun _ h => h.elim
  · refine safe_seq (safe_true (safe_getObj r)) fun o => ?_
    split
    · exact safe_addErrs hr _
    · exact safe_raise

theorem safe_validatePropsBody {r : Nat} (hr : O r) :
    Safe (validatePropsBody E rec r) (Proper) := by
  unfold validatePropsBody
  refine safe_seq (safe_true (safe_getObj r)) fun o => ?_
  exact safe_seq (safe_forML _ fun kv _ => safe_validatePropStep hE H hr kv) fun _ =>
    safe_pure (proper_bool _)

theorem safe_baseAssert (nm : PyStr) (p : PropSpec) {r : Nat} (hr : O r) {v : Val} (hv : Proper v) :
    Safe (baseAssert E rec nm p r v) fun _ => True := by
  have hi : ∀ s, some r = some s → O s := fun s h => by cases h; exact hr
  unfold baseAssert
  refine safe_bind (Q := Proper) ?_ fun v hv => ?_
  · split
    · exact safe_getStored hr nm
    · exact safe_pure hv
  · split
    · split
      · exact safe_raiseVal hE H _ _ hi
      · exact safe_pure trivial
    · refine safe_bind (safe_rec_validate H nm p hi hv) fun x hx => ?_
      refine safe_seq (safe_true (safe_rec_propEqual H p hv hx)) fun eq => ?_
      split
      · exact safe_pure trivial
      · exact safe_raiseVal hE H _ _ hi

omit hE in
theorem safe_assertItems (nm : PyStr) (item : PropSpec) {r : Nat} (hr : O r) : ∀ xs : List Val,
    (∀ x ∈ xs, Proper x) → Safe (assertItems rec nm item r xs) (Proper)
  | [], _ => safe_pure (proper_bool _)
  | x :: xs, h => by
      unfold assertItems
      refine safe_seq (safe_true (safe_rec_assert H nm item hr (h x (by simp)))) fun ok => ?_
      split
      · exact safe_assertItems nm item hr xs fun y hy => h y (List.mem_cons_of_mem _ hy)
      · exact safe_pure (proper_bool _)

theorem safe_assertValidBody (nm : PyStr) (p : PropSpec) {r : Nat} (hr : O r) {v : Val}
    (hv : Proper v) : Safe (assertValidBody E rec nm p r v) (Proper) := by
  have hi : ∀ s, some r = some s → O s := fun s h => by cases h; exact hr
  have look : Safe (if v.isNone then getStored r nm else pure v) (Proper) := by
    split
    · exact safe_getStored hr nm
    · exact safe_pure hv
  unfold assertValidBody
  refine safe_seq (safe_baseAssert hE H nm p hr hv) fun _ => ?_
  split
  · refine safe_bind look fun v hv => ?_
    split
    · exact safe_pure (proper_bool _)
    · split
      · exact safe_raiseK
      · rename_i xs hxs
        split
        · exact safe_assertItems H nm _ hr xs (proper_iter hv hxs)
        · exact safe_bind (Q := fun _ => False) (safe_propError hE H nm hi) fun _ h => h.elim
  · refine safe_bind look fun v hv => ?_
    split
    · exact safe_pure (proper_bool _)
    · refine safe_seq (safe_forML _ fun kv hk => ?_) fun _ => safe_pure (proper_bool _)
      refine safe_seq (safe_true (safe_rec_assert H nm _ hr (proper_parts hv kv hk).1)) fun _ => ?_
      exact safe_seq (safe_true (safe_rec_assert H nm _ hr (proper_parts hv kv hk).2)) fun _ =>
        safe_pure trivial
    · exact safe_raiseK
  · refine safe_bind look fun v hv => ?_
    split
    · exact safe_seq (safe_true (safe_rec_hpValidate H (proper_obj.1 hv))) fun _ => safe_pure (proper_bool _)
    · exact safe_pure (proper_bool _)
  · refine safe_bind look fun v hv => ?_
    split
    · exact safe_pure (proper_bool _)
    · exact safe_tryProps hE H nm hi (fun p => safe_rec_assert H nm p hr hv) _
  · exact safe_pure (proper_bool _)

/-! ## Serialization -/

theorem safe_callWrapped (f : FnId) {v : Val} (hv : Proper v) {kw : List Val}
    (hkw : ∀ x ∈ kw, Proper x) : Safe (callWrapped E rec f v kw) (Proper) := by
  unfold callWrapped
  refine safe_catchIf (safe_callFn hE H _ ?_) fun _ => safe_callFn hE H _ (by simpa using hv)
  intro y hy
  rcases List.mem_cons.1 hy with rfl | hy
  · exact hv
  · exact hkw y hy

omit hE H in
theorem proper_serArgs (kw : SerKw) : ∀ x ∈ kw.args, Proper x := by
  intro x hx
  simp only [SerKw.args, List.mem_cons, List.not_mem_nil, or_false] at hx
  rcases hx with rfl | rfl <;> exact proper_bool _

omit hE H in
theorem proper_deArgs (kw : DeKw) : ∀ x ∈ kw.args, Proper x := by
  intro x hx
  simp only [DeKw.args, List.mem_cons, List.not_mem_nil, or_false] at hx
  rcases hx with rfl | rfl | rfl <;> exact proper_bool _

omit hE H in
theorem safe_mkDict {ps : List (Val × Val)} (h : ∀ kv ∈ ps, Proper kv.1 ∧ Proper kv.2) :
    Safe (mkDict ps) Proper := by
  unfold mkDict
  split
  · rename_i hh
    exact safe_pure (proper_ofItems (items_dictOfPairs h (List.all_eq_true.1 hh)))
  · exact safe_raiseK

omit hE in
theorem safe_unionSerialize (nm : PyStr) {v : Val} (hv : Proper v) (kw : SerKw) : ∀ ps,
    Safe (unionSerialize rec nm v kw ps) (Proper)
  | [] => by
      unfold unionSerialize
      split
      · exact safe_rec_hpSerialize H kw (proper_obj.1 hv)
      · exact safe_pure hv
  | p :: ps => by
      unfold unionSerialize
      refine safe_seq (safe_true (safe_attempt (safe_rec_validate H nm p (fun s h => by cases h) hv)))
        fun res => ?_
      split
      · exact safe_rec_serializeP H nm p kw hv
      · split
        · exact safe_unionSerialize nm hv kw ps
        · exact safe_raise

theorem safe_serializeBody (nm : PyStr) (p : PropSpec) {v : Val} (hv : Proper v) (kw : SerKw) :
    Safe (serializeBody E rec nm p v kw) (Proper) := by
  unfold serializeBody
  split
  · exact safe_callWrapped hE H _ hv (proper_serArgs kw)
  · split
    · exact safe_pure proper_none
    · split
      · split
        · exact safe_raiseK
        · rename_i xs hxs
          exact safe_bind (safe_mapML (Q := Proper) _ fun x hx =>
            safe_rec_serializeP H nm _ kw (proper_iter hv hxs x hx)) fun out ho =>
              safe_pure (proper_list.2 ho)
      · split
        · refine safe_bind (safe_mapML (Q := fun kv : Val × Val => Proper kv.1 ∧ Proper kv.2) _
            fun kv hk => ?_) fun out ho => safe_mkDict ho
          refine safe_bind (safe_rec_serializeP H nm _ kw (proper_parts hv kv hk).1) fun k h1 => ?_
          exact safe_bind (safe_rec_serializeP H nm _ kw (proper_parts hv kv hk).2) fun x h2 =>
            safe_pure ⟨h1, h2⟩
        · exact safe_raiseK
      · split
        · exact safe_rec_hpSerialize H kw (proper_obj.1 hv)
        · split
          · rename_i hj
            exact safe_pure (hE.json _ _ hv hj)
          · exact safe_raiseK
      · exact safe_unionSerialize H nm hv kw _
      · split
        · rename_i hx
          exact safe_liftK fun a ha => proper_scalarToJson hv (by rw [hx, ha])
        · exact safe_raiseK

theorem safe_entrySerialize (nm : PyStr) (e : Entry) {v : Val} (hv : Proper v) (kw : SerKw) :
    Safe (entrySerialize E rec nm e v kw) (Proper) := by
  unfold entrySerialize
  split
  · exact safe_rec_serializeP H _ _ _ hv
  · exact safe_rec_serializeP H _ _ _ hv
  · split
    · exact safe_callWrapped hE H _ hv (proper_serArgs kw)
    · exact safe_pure hv
  · exact safe_pure hv

omit hE H in
theorem data_names {keys : List PyStr} {data : List (Val × Val)}
    (hd : List.Forall₂ (fun key (kv : Val × Val) => kv.1 = .str key ∧ Proper kv.2) keys data) :
    ∀ kv ∈ data, ∃ key ∈ keys, kv.1 = .str key := by
  induction hd with
  | nil => intro _ h; cases h
  | cons h _ ih =>
    intro kv' hkv'
    rcases List.mem_cons.1 hkv' with rfl | hkv'
    · exact ⟨_, List.mem_cons_self .., h.1⟩
    · obtain ⟨key', h1, h2⟩ := ih kv' hkv'
      exact ⟨key', List.mem_cons_of_mem _ h1, h2⟩

omit hE H in
/-- The data of the properties, one item per name. -/
theorem items_data {keys : List PyStr} (hk : keys.Nodup) {data : List (Val × Val)}
    (hd : List.Forall₂ (fun key (kv : Val × Val) => kv.1 = .str key ∧ Proper kv.2) keys data) : Items data := by
  induction hd with
  | nil => exact items_nil
  | @cons key kv keys data h hd ih =>
    rw [List.nodup_cons] at hk
    have ih := ih hk.2
    have names := data_names hd
    refine ⟨fun kv' hkv' => ?_, ?_, fun kv' hkv' => ?_⟩
    · rcases List.mem_cons.1 hkv' with rfl | hkv'
      · exact ⟨h.1 ▸ proper_str key, h.2⟩
      · exact ih.1 kv' hkv'
    · rw [List.map_cons, List.pairwise_cons]
      refine ⟨fun a ha => ?_, ih.2.1⟩
      obtain ⟨kv', hkv', rfl⟩ := List.mem_map.1 ha
      obtain ⟨key', h1, h2⟩ := names kv' hkv'
      rw [h.1, h2]
      have : key ≠ key' := fun e => hk.1 (e ▸ h1)
      simpa [pyEq] using this
    · rcases List.mem_cons.1 hkv' with rfl | hkv'
      · rw [h.1]; rfl
      · exact ih.2.2 kv' hkv'

omit hE H in
theorem items_filter {data : List (Val × Val)} (h : Items data) (f : Val × Val → Bool) :
    Items (data.filter f) :=
  ⟨fun kv hkv => h.1 kv (List.mem_filter.1 hkv).1,
   h.2.1.sublist (List.filter_sublist.map _), fun kv hkv => h.2.2 kv (List.mem_filter.1 hkv).1⟩

theorem safe_hpSerializeBody {r : Nat} (hr : O r) (kw : SerKw) :
    Safe (hpSerializeBody E rec r kw) Proper := by
  unfold hpSerializeBody
  refine safe_bind (safe_getObj r) fun o ho => ?_
  split
  · exact safe_raiseK
  · refine safe_seq (safe_modObj hr fun _ => rfl) fun _ => ?_
    refine safe_fin ?_ fun w hw => hw.mark hr fun _ => rfl
    refine safe_bind (safe_mapML_each (R := fun key (kv : Val × Val) => kv.1 = .str key ∧ Proper kv.2) _
      fun key _ => ?_) fun data hd => safe_pure (proper_ofItems ?_)
    · split
      · exact safe_raiseK
      · refine safe_bind (safe_rec_getattr H _ hr) fun v hv => ?_
        exact safe_bind (safe_entrySerialize hE H _ _ hv kw) fun j hj => safe_pure ⟨rfl, hj⟩
    · have hi : Items (data.filter fun kv => !kv.2.isNone) := by
        refine items_filter (items_data ?_ hd) _
        split
        · exact hE.names _
        · exact ho.names
      split
      · exact items_dictSet hi (proper_str _) rfl (proper_str _)
      · exact hi

/-! ## Deserialization -/

omit hE H in
theorem safe_deserializeClass (c : ClsId) (nm : Val) (t s : Bool) :
    Safe (deserializeClass E c nm t s) fun _ => True := by
  unfold deserializeClass
  split
  · exact safe_pure trivial
  · dsimp only
    split
    · exact safe_raiseK
    · split
      · exact safe_pure trivial
      · split
        · exact safe_raiseK
        · exact safe_pure trivial

theorem safe_entryDeserialize (nm : PyStr) (e : Entry) {v : Val} (hv : Proper v) (kw : DeKw) :
    Safe (entryDeserialize E rec nm e v kw) (Proper) := by
  unfold entryDeserialize
  split
  · exact safe_rec_deserializeP H _ _ _ hv
  · exact safe_rec_deserializeP H _ _ _ hv
  · split
    · exact safe_callWrapped hE H _ hv (proper_deArgs kw)
    · exact safe_pure hv
  · exact safe_pure hv

omit hE H in
theorem proper_propState (props : List (PyStr × Entry)) : ∀ {kvs : List (Val × Val)},
    (∀ kv ∈ kvs, Proper kv.1 ∧ Proper kv.2) → ∀ kv ∈ propState props kvs, Proper kv.2 := by
  intro kvs
  induction kvs with
  | nil => intro _ kv h; cases h
  | cons a kvs ih =>
    intro h kv hm
    obtain ⟨k, v⟩ := a
    have ih := ih fun kv h' => h kv (List.mem_cons_of_mem _ h')
    cases k <;> unfold propState at hm <;> try exact ih kv hm
    split at hm
    · rcases List.mem_cons.1 hm with rfl | hm
      · exact (h _ (List.mem_cons_self ..)).2
      · exact ih kv hm
    · exact ih kv hm

theorem safe_deserEntry (c : ClsId) (kw : DeKw) {kv : PyStr × Val} (hv : Proper kv.2) :
    Safe (deserEntry E rec c kw kv) fun x => Proper x.2 := by
  unfold deserEntry
  split
  · exact safe_raiseK
  · exact safe_bind (safe_entryDeserialize hE H _ _ hv kw) fun x hx => safe_pure hx

omit hE in
theorem safe_setImmutable (c : ClsId) {r : Nat} (hr : O r) {kv : PyStr × Val} (hv : Proper kv.2) :
    Safe (setImmutable E rec c r kv) fun _ => True := by
  unfold setImmutable
  split
  · exact safe_raiseK
  · exact safe_bind (safe_entryValidate H _ _ (fun s h => by cases h; exact hr) hv) fun x hx =>
      safe_putStored hr _ hx

theorem safe_deserFinish (c : ClsId) (kw : DeKw) {im : List (PyStr × Val)}
    (him : ∀ kv ∈ im, Proper kv.2) {inst : Val} (hi : Proper inst) :
    Safe (deserFinish E rec c kw im inst) (Proper) := by
  unfold deserFinish
  split
  · have hr := proper_obj.1 hi
    refine safe_seq (safe_forML _ fun kv h => safe_setImmutable H c hr (him kv h)) fun _ => ?_
    refine safe_seq ?_ fun _ => safe_pure hi
    unfold assertBuilt
    split
    · refine safe_seq (safe_true (safe_rec_hpValidate H hr)) fun ok => ?_
      split
      · exact safe_pure trivial
      · exact safe_raiseVal hE H _ _ fun s h => by cases h
    · exact safe_pure trivial
  · exact safe_raiseK

theorem safe_hpDeserializeBody (c : ClsId) {v : Val} (hv : Proper v) (kw : DeKw) :
    Safe (hpDeserializeBody E rec c v kw) (Proper) := by
  unfold hpDeserializeBody
  split
  · refine safe_seq (safe_deserializeClass _ _ _ _) fun outc => ?_
    dsimp only
    refine safe_seq safe_raiseWhen fun _ => ?_
    refine safe_bind (safe_mapML (Q := fun x : PyStr × Val => Proper x.2) _ fun kv h =>
      safe_deserEntry hE H _ _ (proper_propState _ (proper_parts hv) kv h)) fun ns hns => ?_
    refine safe_bind (safe_withDisabled _ (safe_rec_construct H _ fun kv h =>
      hns kv (List.mem_filter.1 h).1)) fun inst hi => ?_
    exact safe_deserFinish hE H _ _ (fun kv h => hns kv (List.mem_filter.1 h).1) hi
  · exact safe_raiseK

omit hE in
theorem safe_unionDeserialize (nm : PyStr) {v : Val} (hv : Proper v) (kw : DeKw) : ∀ ps,
    Safe (unionDeserialize rec nm v kw ps) (Proper)
  | [] => safe_pure hv
  | p :: ps => safe_catchIf (safe_bind (safe_rec_deserializeP H nm p kw hv) fun out ho =>
      safe_seq (safe_true (safe_rec_validate H nm p (fun s h => by cases h) ho)) fun _ => safe_pure ho)
      fun _ => safe_unionDeserialize nm hv kw ps

theorem safe_deserializeBody (nm : PyStr) (p : PropSpec) {v : Val} (hv : Proper v) (kw : DeKw) :
    Safe (deserializeBody E rec nm p v kw) (Proper) := by
  unfold deserializeBody
  split
  · exact safe_callWrapped hE H _ hv (proper_deArgs kw)
  · split
    · exact safe_pure proper_none
    · split
      · split
        · exact safe_raiseK
        · rename_i xs hxs
          exact safe_bind (safe_mapML (Q := Proper) _ fun x hx =>
            safe_rec_deserializeP H nm _ kw (proper_iter hv hxs x hx)) fun out ho =>
              safe_mkSeq _ ho
      · split
        · refine safe_bind (safe_mapML (Q := fun kv : Val × Val => Proper kv.1 ∧ Proper kv.2) _
            fun kv hk => ?_) fun out ho => safe_mkDict ho
          refine safe_bind (safe_rec_deserializeP H nm _ kw (proper_parts hv kv hk).1) fun k h1 => ?_
          exact safe_bind (safe_rec_deserializeP H nm _ kw (proper_parts hv kv hk).2) fun x h2 =>
            safe_pure ⟨h1, h2⟩
        · exact safe_raiseK
      · exact safe_rec_hpDeserialize H _ _ hv
      · dsimp only
        split
        · exact safe_rec_deserializeP H _ _ _ hv
        · exact safe_unionDeserialize H nm hv _ _
      · split
        · rename_i hx
          exact safe_liftK fun a ha => proper_scalarFromJson hv (by rw [hx, ha])
        · exact safe_raiseK

/-! ## Comparison, copy, observers -/

omit hE in
theorem safe_equalLoop {a b : Nat} (ha : O a) (hb : O b) : ∀ props,
    Safe (equalLoop rec a b props) (Proper)
  | [] => safe_pure (proper_bool _)
  | (nm, e) :: rest => by
      unfold equalLoop
      refine safe_bind (safe_rec_getattr H nm ha) fun x hx => ?_
      refine safe_bind (safe_rec_getattr H nm hb) fun y hy => ?_
      split
      · exact safe_equalLoop ha hb rest
      · split
        · exact safe_pure (proper_bool _)
        · refine safe_seq (safe_true (safe_entryEqual H e hx hy)) fun eq => ?_
          split
          · exact safe_equalLoop ha hb rest
          · exact safe_pure (proper_bool _)

omit hE in
theorem safe_equalBody {a b : Val} (ha : Proper a) (hb : Proper b) :
    Safe (equalBody E rec a b) (Proper) := by
  unfold equalBody
  split
  · have hi := proper_obj.1 ha
    have hj := proper_obj.1 hb
    refine safe_seq (safe_true (safe_getObj _)) fun oa => ?_
    split
    · exact safe_pure (proper_bool _)
    · refine safe_seq (safe_modObj hi fun _ => rfl) fun _ => ?_
      refine safe_fin ?_ fun w hw => hw.mark hi fun _ => rfl
      split
      · exact safe_pure (proper_bool _)
      · refine safe_seq (safe_true (safe_getObj _)) fun ob => ?_
        split
        · exact safe_equalLoop H hi hj _
        · exact safe_pure (proper_bool _)
  · exact safe_pure (proper_bool _)

omit hE in
theorem safe_copyBody {v : Val} (hv : Proper v) (skw : SerKw) (dkw : DeKw) :
    Safe (copyBody rec v skw dkw) (Proper) := by
  unfold copyBody
  split
  · refine safe_seq (safe_true (safe_getObj _)) fun o => ?_
    exact safe_bind (safe_rec_hpSerialize H _ (proper_obj.1 hv)) fun j hj =>
      safe_rec_hpDeserialize H _ _ hj
  · exact safe_raiseK

omit hE H in
theorem safe_observeBody {r : Nat} (hr : O r) (ns : ObsNames) (mode : Mode) (f : FnId) :
    Safe (observeBody E r ns mode f) (Proper) := by
  unfold observeBody
  refine safe_seq (safe_true (safe_getObj r)) fun o => ?_
  exact safe_seq (safe_modObj hr fun _ => rfl) fun _ => safe_pure proper_none

theorem safe_step : RecSafe (step E rec) := by
  intro c hc
  cases c with
  | validate nm p i v => exact safe_validateBody hE H nm p (fun _ _ => trivial) hc
  | propEqual p a b => exact safe_propEqualBody H p hc.1 hc.2
  | assertValid nm p r v => exact safe_assertValidBody hE H nm p trivial hc
  | serializeP nm p v kw => exact safe_serializeBody hE H nm p hc kw
  | deserializeP nm p v kw => exact safe_deserializeBody hE H nm p hc kw
  | construct c kw => exact safe_constructBody hE H c hc
  | reset r nm => exact safe_resetBody hE H trivial nm
  | getattr r nm => exact safe_getattrBody hE H trivial nm
  | setattr r nm v => exact safe_setattrBody hE H trivial nm hc
  | delattr r nm => exact safe_delattrBody hE H trivial nm
  | hpValidate r => exact safe_hpValidateBody hE H trivial
  | validateProps r => exact safe_validatePropsBody hE H trivial
  | hpSerialize r kw => exact safe_hpSerializeBody hE H trivial kw
  | hpDeserialize c v kw => exact safe_hpDeserializeBody hE H c hc kw
  | equal a b => exact safe_equalBody H hc.1 hc.2
  | copy v s d => exact safe_copyBody H hc s d
  | observe r ns m f => exact safe_observeBody trivial ns m f
  | userGet => exact fun w hw => ⟨hw, fun _ e => by cases e; exact hw.user⟩
  | userPut v => exact fun w hw => ⟨⟨hw.stores, hc⟩, fun a e => by cases e; exact proper_none⟩

end

/-- Calls with proper values keep the invariant and return proper values. -/
theorem safe_run {E : Env} (hE : ProperEnv E) : ∀ n, RecSafe (run E n)
  | 0 => fun _ _ => safe_raiseK
  | n + 1 => safe_step hE (safe_run hE n)

end Verif.Prp
