import Verif.Lemmas.Monad
import Verif.Lemmas.Typed
import Verif.Spec.Locality

/-!
# Calls stay within the instances they get at
-/

namespace Verif
open Spec

/-- The instances outside `O` are as they were in `w0`, those in `O` store only
values over `O`. -/
structure Apart (O : Nat → Prop) (w0 w : World) : Prop where
  len : w0.objs.length ≤ w.objs.length
  rest : ∀ r, ¬ O r → w.objs[r]? = w0.objs[r]?
  own : ∀ r o, O r → w.objs[r]? = some o → ∀ kv ∈ o.backend, Only O kv.2

/-- The invariant is kept, and a normal result satisfies `Q`. -/
def Safe {α : Type} (O : Nat → Prop) (w0 : World) (m : M α) (Q : α → Prop) : Prop :=
  ∀ w, Apart O w0 w → Apart O w0 (m w).2 ∧ ∀ a, (m w).1 = .ok a → Q a

section
variable {O : Nat → Prop} {w0 : World} {α β : Type}

theorem safe_pure {Q : α → Prop} {a : α} (h : Q a) : Safe O w0 (pure a) Q :=
  fun _ hw => ⟨hw, fun b e => by cases e; exact h⟩

theorem safe_raise {Q : α → Prop} {e : PyErr} : Safe O w0 (M.raise e : M α) Q :=
  fun _ hw => ⟨hw, fun b e => by cases e⟩

theorem safe_raiseK {Q : α → Prop} {k : ErrKind} : Safe O w0 (raiseK k : M α) Q := safe_raise

theorem safe_liftK {Q : α → Prop} {x : Except ErrKind α} (h : ∀ a, x = .ok a → Q a) :
    Safe O w0 (liftK x) Q := by
  cases x with
  | ok a => exact safe_pure (h a rfl)
  | error k => exact safe_raiseK

theorem safe_bind {m : M α} {f : α → M β} {Q : α → Prop} {T : β → Prop} (hm : Safe O w0 m Q)
    (hf : ∀ a, Q a → Safe O w0 (f a) T) : Safe O w0 (m >>= f) T := by
  intro w hw
  have h1 := hm w hw
  cases hx : m w with
  | mk x w1 =>
    rw [hx] at h1
    cases x with
    | ok a => rw [bind_ok hx]; exact hf a (h1.2 a rfl) w1 h1.1
    | error e => rw [bind_err hx]; exact ⟨h1.1, fun b e => by cases e⟩

/-- A step whose result does not matter. -/
theorem safe_seq {m : M α} {f : α → M β} {T : β → Prop} (hm : Safe O w0 m fun _ => True)
    (hf : ∀ a, Safe O w0 (f a) T) : Safe O w0 (m >>= f) T := safe_bind hm fun a _ => hf a

theorem safe_weaken {m : M α} {Q T : α → Prop} (h : Safe O w0 m Q) (hq : ∀ a, Q a → T a) :
    Safe O w0 m T := fun w hw => ⟨(h w hw).1, fun a e => hq a ((h w hw).2 a e)⟩

theorem safe_true {m : M α} {Q : α → Prop} (h : Safe O w0 m Q) : Safe O w0 m fun _ => True :=
  safe_weaken h fun _ _ => trivial

theorem safe_catchIf {p : ErrKind → Bool} {m : M α} {k : PyErr → M α} {Q : α → Prop}
    (hm : Safe O w0 m Q) (hk : ∀ e, Safe O w0 (k e) Q) : Safe O w0 (M.catchIf p m k) Q := by
  intro w hw
  have h1 := hm w hw
  unfold M.catchIf
  cases hx : m w with
  | mk x w1 =>
    rw [hx] at h1
    cases x with
    | ok a => exact h1
    | error e =>
      dsimp only
      split
      · exact hk e w1 h1.1
      · exact ⟨h1.1, fun b e => by cases e⟩

theorem safe_attempt {m : M α} {Q : α → Prop} (hm : Safe O w0 m Q) :
    Safe O w0 (M.attempt m) fun x => ∀ a, x = .ok a → Q a := by
  intro w hw
  have h1 := hm w hw
  exact ⟨h1.1, fun x e a ha => by cases e; exact h1.2 a ha⟩

theorem safe_fin {m : M α} {f : World → World} {Q : α → Prop} (hm : Safe O w0 m Q)
    (hf : ∀ w, Apart O w0 w → Apart O w0 (f w)) : Safe O w0 (M.fin m f) Q := by
  intro w hw
  have h1 := hm w hw
  exact ⟨hf _ h1.1, h1.2⟩

theorem safe_modify {f : World → World} (hf : ∀ w, Apart O w0 w → Apart O w0 (f w)) :
    Safe O w0 (M.modify f) fun _ => True :=
  fun w hw => ⟨hf w hw, fun _ _ => trivial⟩

theorem safe_get : Safe O w0 M.get fun _ => True := fun _ hw => ⟨hw, fun _ _ => trivial⟩

theorem safe_raiseWhen {b : Bool} {k : ErrKind} : Safe O w0 (raiseWhen b k) fun _ => True := by
  unfold raiseWhen
  split
  · exact safe_raiseK
  · exact safe_pure trivial

theorem safe_mapML {f : α → M β} {Q : β → Prop} : ∀ (xs : List α), (∀ a ∈ xs, Safe O w0 (f a) Q) →
    Safe O w0 (mapML f xs) fun ys => ∀ y ∈ ys, Q y
  | [], _ => safe_pure fun _ h => by cases h
  | x :: xs, h => safe_bind (h x (by simp)) fun y hy =>
      safe_bind (safe_mapML xs fun a ha => h a (List.mem_cons_of_mem _ ha)) fun ys hys =>
        safe_pure fun z hz => by
          rcases List.mem_cons.1 hz with rfl | hz
          · exact hy
          · exact hys z hz

theorem safe_forML {f : α → M Unit} : ∀ (xs : List α), (∀ a ∈ xs, Safe O w0 (f a) fun _ => True) →
    Safe O w0 (forML f xs) fun _ => True
  | [], _ => safe_pure trivial
  | x :: xs, h => safe_seq (h x (by simp)) fun _ =>
      safe_forML xs fun a ha => h a (List.mem_cons_of_mem _ ha)

theorem safe_foldML {f : β → α → M β} {Q : β → Prop} : ∀ (xs : List α) (b : β), Q b →
    (∀ b, Q b → ∀ a ∈ xs, Safe O w0 (f b a) Q) → Safe O w0 (foldML f b xs) Q
  | [], _, hb, _ => safe_pure hb
  | x :: xs, b, hb, h => safe_bind (h b hb x (by simp)) fun b' hb' =>
      safe_foldML xs b' hb' fun b hb a ha => h b hb a (List.mem_cons_of_mem _ ha)

/-! ## Changes of the state -/

theorem Apart.same {w w' : World} (h : Apart O w0 w) (ho : w'.objs = w.objs) : Apart O w0 w' :=
  ⟨ho ▸ h.len, ho ▸ h.rest, ho ▸ h.own⟩

theorem Apart.setObj {w : World} (h : Apart O w0 w) {r : Nat} (hr : O r) {f : Obj → Obj}
    (hf : ∀ o, (∀ kv ∈ o.backend, Only O kv.2) → ∀ kv ∈ (f o).backend, Only O kv.2) :
    Apart O w0 (w.setObj r f) where
  len := by simpa [World.setObj] using h.len
  rest s hs := by
    have : r ≠ s := fun e => hs (e ▸ hr)
    simpa [World.setObj, List.getElem?_modify, this] using h.rest s hs
  own s o hs ho := by
    simp only [World.setObj, List.getElem?_modify] at ho
    cases hx : w.objs[s]? with
    | none => rw [hx] at ho; simp at ho
    | some o' =>
      rw [hx] at ho
      by_cases hrs : r = s
      · simp [hrs] at ho
        subst ho
        exact hf o' (h.own s o' hs hx)
      · simp [hrs] at ho
        subst ho
        exact h.own s o' hs hx

theorem Apart.mark {w : World} (h : Apart O w0 w) {r : Nat} (hr : O r) {f : Obj → Obj}
    (hf : ∀ o, (f o).backend = o.backend) : Apart O w0 (w.setObj r f) :=
  h.setObj hr fun o ho => by rw [hf o]; exact ho

theorem safe_modObj {r : Nat} (hr : O r) {f : Obj → Obj} (hf : ∀ o, (f o).backend = o.backend) :
    Safe O w0 (modObj r f) fun _ => True := safe_modify fun _ hw => hw.mark hr hf

theorem safe_getObj (r : Nat) :
    Safe O w0 (getObj r) fun o => O r → ∀ kv ∈ o.backend, Only O kv.2 := by
  intro w hw
  unfold getObj
  cases ho : w.objs[r]? with
  | none => exact ⟨hw, fun b e => by cases e⟩
  | some o => exact ⟨hw, fun b e hr => by cases e; exact hw.own r o hr ho⟩

theorem safe_alloc (hO : ∀ r, w0.objs.length ≤ r → O r) {o : Obj} (ho : o.backend = []) :
    Safe O w0 (alloc o) O := by
  intro w hw
  refine ⟨⟨?_, fun r hr => ?_, fun r o' hr h => ?_⟩, fun a e => ?_⟩
  · have := hw.len
    show _ ≤ (w.objs ++ [o]).length
    simp; omega
  · show (w.objs ++ [o])[r]? = _
    have hl : r < w0.objs.length := Nat.lt_of_not_le fun h => hr (hO r h)
    rw [List.getElem?_append_left (Nat.lt_of_lt_of_le hl hw.len)]
    exact hw.rest r hr
  · have h' : (w.objs ++ [o])[r]? = some o' := h
    rcases Nat.lt_trichotomy r w.objs.length with hl | hl | hl
    · rw [List.getElem?_append_left hl] at h'
      exact hw.own r o' hr h'
    · subst hl
      simp at h'
      subst h'
      rw [ho]; intro kv hkv; cases hkv
    · have := (List.getElem?_eq_some_iff.1 h').1
      simp at this; omega
  · cases e
    exact hO _ hw.len

end

/-! ## Instances in values -/

section
variable {O : Nat → Prop}

theorem only_plain {v : Val} (h : ∀ r, ¬ RefIn r v) : Only O v := fun r hr => (h r hr).elim

theorem only_none : Only O .none := fun _ h => by cases h
theorem only_undef : Only O .undef := fun _ h => by cases h
theorem only_bool (b : Bool) : Only O (.bool b) := fun _ h => by cases h
theorem only_int (i : Int) : Only O (.int i) := fun _ h => by cases h
theorem only_float (f : PyFloat) : Only O (.float f) := fun _ h => by cases h
theorem only_cplx (a b : PyFloat) : Only O (.cplx a b) := fun _ h => by cases h
theorem only_str (s : PyStr) : Only O (.str s) := fun _ h => by cases h
theorem only_dt (t : DateTime) : Only O (.dt t) := fun _ h => by cases h
theorem only_uuid (n : Nat) : Only O (.uuid n) := fun _ h => by cases h
theorem only_obj {r : Nat} : Only O (.obj r) ↔ O r :=
  ⟨fun h => h r .obj, fun h s hs => by cases hs; exact h⟩
theorem only_list {xs : List Val} : Only O (.list xs) ↔ ∀ x ∈ xs, Only O x :=
  ⟨fun h x hx r hr => h r (.list xs x hx hr), fun h r hr => by
    cases hr with | list _ x hx h' => exact h x hx r h'⟩
theorem only_tup {xs : List Val} : Only O (.tup xs) ↔ ∀ x ∈ xs, Only O x :=
  ⟨fun h x hx r hr => h r (.tup xs x hx hr), fun h r hr => by
    cases hr with | tup _ x hx h' => exact h x hx r h'⟩
theorem only_set {xs : List Val} : Only O (.set xs) ↔ ∀ x ∈ xs, Only O x :=
  ⟨fun h x hx r hr => h r (.set xs x hx hr), fun h r hr => by
    cases hr with | set _ x hx h' => exact h x hx r h'⟩
theorem only_dict {kvs : List (Val × Val)} :
    Only O (.dict kvs) ↔ ∀ kv ∈ kvs, Only O kv.1 ∧ Only O kv.2 :=
  ⟨fun h kv hx => ⟨fun r hr => h r (.key kvs kv hx hr), fun r hr => h r (.value kvs kv hx hr)⟩,
   fun h r hr => by
    cases hr with
    | key _ kv hx h' => exact (h kv hx).1 r h'
    | value _ kv hx h' => exact (h kv hx).2 r h'⟩

theorem only_items {v : Val} (h : Only O v) : ∀ x ∈ v.items, Only O x := by
  cases v <;> simp only [Val.items] <;> first
    | exact only_list.1 h
    | exact only_tup.1 h
    | exact only_set.1 h
    | (intro x hx; cases hx)

theorem only_iter {v : Val} {xs : List Val} (h : Only O v) (hi : v.iter? = some xs) :
    ∀ x ∈ xs, Only O x := by
  cases v <;> simp only [Val.iter?] at hi <;> cases hi
  · intro x hx
    obtain ⟨c, _, rfl⟩ := List.mem_map.1 hx
    exact only_str _
  · exact only_list.1 h
  · exact only_tup.1 h
  · exact only_set.1 h
  · intro x hx
    obtain ⟨kv, hkv, rfl⟩ := List.mem_map.1 hx
    exact (only_dict.1 h kv hkv).1

theorem only_dictSet {d : List (Val × Val)} {k v : Val} (hd : ∀ kv ∈ d, Only O kv.1 ∧ Only O kv.2)
    (hk : Only O k) (hv : Only O v) : ∀ kv ∈ dictSet d k v, Only O kv.1 ∧ Only O kv.2 := by
  intro kv h
  rcases dictSet_mem h with h | ⟨h1, h2 | ⟨x, h2⟩⟩
  · exact hd kv h
  · rw [h1, h2]; exact ⟨hk, hv⟩
  · rw [h1]; exact ⟨(hd _ h2).1, hv⟩

theorem only_dictOfPairs {ps : List (Val × Val)} (h : ∀ kv ∈ ps, Only O kv.1 ∧ Only O kv.2) :
    ∀ kv ∈ dictOfPairs ps, Only O kv.1 ∧ Only O kv.2 := by
  unfold dictOfPairs
  have : ∀ (ps d : List (Val × Val)), (∀ kv ∈ ps, Only O kv.1 ∧ Only O kv.2) →
      (∀ kv ∈ d, Only O kv.1 ∧ Only O kv.2) →
      ∀ kv ∈ ps.foldl (fun d kv => dictSet d kv.1 kv.2) d, Only O kv.1 ∧ Only O kv.2 := by
    intro ps
    induction ps with
    | nil => exact fun d _ hd => hd
    | cons p ps ih =>
      exact fun d hp hd => ih _ (fun kv h => hp kv (List.mem_cons_of_mem _ h))
        (only_dictSet hd (hp p (by simp)).1 (hp p (by simp)).2)
  exact this ps [] h fun kv h => by cases h

theorem only_dictGet {d : List (Val × Val)} {k v : Val} (hd : ∀ kv ∈ d, Only O kv.1 ∧ Only O kv.2)
    (h : dictGet? d k = some v) : Only O v := by
  induction d with
  | nil => cases h
  | cons a d ih =>
    obtain ⟨k', v'⟩ := a
    unfold dictGet? at h
    split at h
    · cases h; exact (hd (k', v) (List.mem_cons_self ..)).2
    · exact ih (fun kv h => hd kv (List.mem_cons_of_mem _ h)) h

theorem only_lookupS {l : List (PyStr × Val)} {k : PyStr} {v : Val} (hl : ∀ kv ∈ l, Only O kv.2)
    (h : lookupS k l = some v) : Only O v := by
  induction l with
  | nil => cases h
  | cons a l ih =>
    obtain ⟨k', v'⟩ := a
    unfold lookupS at h
    split at h
    · cases h; exact hl (k', v) (List.mem_cons_self ..)
    · exact ih (fun kv h => hl kv (List.mem_cons_of_mem _ h)) h

theorem only_stored {l : List (PyStr × Val)} (hl : ∀ kv ∈ l, Only O kv.2) (k : PyStr) {d : Val}
    (hd : Only O d) : Only O ((lookupS k l).getD d) := by
  cases h : lookupS k l with
  | none => exact hd
  | some v => exact only_lookupS hl h

theorem only_kwOfDict {kvs : List (Val × Val)} (h : ∀ kv ∈ kvs, Only O kv.1 ∧ Only O kv.2)
    {kw : List (PyStr × Val)} (e : kwOfDict? kvs = some kw) : ∀ kv ∈ kw, Only O kv.2 := by
  induction kvs generalizing kw with
  | nil => cases e; intro kv h; cases h
  | cons a kvs ih =>
    obtain ⟨k, v⟩ := a
    cases k <;> simp only [kwOfDict?] at e <;> try cases e
    cases hr : kwOfDict? kvs with
    | none => rw [hr] at e; cases e
    | some rest =>
      rw [hr] at e
      cases e
      intro kv hkv
      rcases List.mem_cons.1 hkv with rfl | hkv
      · exact (h _ (List.mem_cons_self ..)).2
      · exact ih (fun kv h' => h kv (List.mem_cons_of_mem _ h')) hr kv hkv

theorem only_pair {v : Val} {p : Val × Val} (h : Only O v) (e : pairOfVal? v = some p) :
    Only O p.1 ∧ Only O p.2 := by
  unfold pairOfVal? at e
  split at e
  · rename_i a b hi
    split at e
    · cases e
      exact ⟨only_iter h hi a (by simp), only_iter h hi b (by simp)⟩
    · cases e
  · cases e

theorem only_pairs {xs : List Val} (h : ∀ x ∈ xs, Only O x) {ps : List (Val × Val)}
    (e : xs.mapM pairOfVal? = some ps) : ∀ kv ∈ ps, Only O kv.1 ∧ Only O kv.2 := by
  induction xs generalizing ps with
  | nil => simp at e; subst e; intro kv h; cases h
  | cons x xs ih =>
    rw [List.mapM_cons] at e
    cases hx : pairOfVal? x with
    | none => rw [hx] at e; cases e
    | some p =>
      rw [hx] at e
      cases hr : xs.mapM pairOfVal? with
      | none => rw [hr] at e; cases e
      | some rest =>
        rw [hr] at e
        cases e
        intro kv hkv
        rcases List.mem_cons.1 hkv with rfl | hkv
        · exact only_pair (h x (by simp)) hx
        · exact ih (fun y hy => h y (List.mem_cons_of_mem _ hy)) hr kv hkv

theorem only_dictCoerce {v : Val} (h : Only O v) {kvs : List (Val × Val)}
    (e : dictCoerce? v = some kvs) : ∀ kv ∈ kvs, Only O kv.1 ∧ Only O kv.2 := by
  unfold dictCoerce? at e
  split at e
  · cases e; exact only_dict.1 h
  · split at e
    · rename_i xs hi
      cases hm : xs.mapM pairOfVal? with
      | none => rw [hm] at e; cases e
      | some ps =>
        rw [hm] at e
        cases e
        exact only_dictOfPairs (only_pairs (only_iter h hi) hm)
    · cases e

theorem only_rgb {v : Val} (h : IsRGB v) : Only O v := by
  obtain ⟨a, b, c, rfl, ha, hb, hc⟩ := h
  have byte : ∀ x, IsByte x → Only O x := fun x hx => by
    rcases hx with ⟨i, rfl, _⟩ | ⟨b, rfl⟩
    · exact only_int i
    · exact only_bool b
  rw [only_tup]
  simp only [List.mem_cons, List.not_mem_nil, or_false]
  rintro x (rfl | rfl | rfl)
  · exact byte _ ha
  · exact byte _ hb
  · exact byte _ hc

theorem only_scalarValidate {E : Env} {k : Nat} {ty : PropTy} {v x : Val} (hv : Only O v)
    (h : scalarValidate E k ty v = some (.ok x)) : Only O x := by
  have := scalar_admits {} h rfl
  cases ty with
  | any => cases h; exact hv
  | seq => cases h
  | dict => cases h
  | inst => cases h
  | union => cases h
  | color => cases this with | color _ h => exact only_rgb h
  | _ => cases this; intro r hr; cases hr

theorem only_colorValidate {E : Env} {k : Nat} {v x : Val} (h : colorValidate E k v = .ok x) :
    Only O x := only_rgb (colorValidate_rgb h)

theorem only_scalarToJson {E : Env} {ty : PropTy} {v x : Val} (hv : Only O v)
    (h : scalarToJson E ty v = some (.ok x)) : Only O x := by
  unfold scalarToJson at h
  cases ty
  case color =>
    dsimp only at h
    split at h
    · rename_i hi
      cases h
      exact only_list.2 (only_iter hv hi)
    · cases h
  all_goals
    dsimp only at h
    first
      | (cases h; done)
      | (cases h; exact hv)
      | (split at h <;> cases h <;> intro r hr <;> cases hr)

theorem only_scalarFromJson {E : Env} {ty : PropTy} {v x : Val} (hv : Only O v)
    (h : scalarFromJson E ty v = some (.ok x)) : Only O x := by
  unfold scalarFromJson at h
  cases ty
  case color =>
    dsimp only at h
    split at h
    · rename_i hi
      cases h
      exact only_tup.2 (only_iter hv hi)
    · cases h
  case boolean =>
    simp only [Option.some.injEq] at h
    unfold boolFromJson at h
    split at h
    · split at h
      · cases h; exact only_bool _
      · split at h
        · cases h; exact only_bool _
        · cases h
    · cases h; exact only_int _
    · cases h; exact only_bool _
    · cases h
  case integer =>
    simp only [Option.some.injEq] at h
    cases hx : pyInt E v with
    | error k => rw [hx] at h; cases h
    | ok i => rw [hx] at h; cases h; exact only_int i
  case float =>
    simp only [Option.some.injEq] at h
    cases hx : pyFloat E v with
    | error k => rw [hx] at h; cases h
    | ok i => rw [hx] at h; cases h; exact only_float i
  case complex =>
    simp only [Option.some.injEq] at h
    cases hx : pyComplex E v with
    | error k => rw [hx] at h; cases h
    | ok i => rw [hx] at h; cases h; exact only_cplx _ _
  case datetime =>
    dsimp only at h
    split at h
    · split at h
      · cases h; exact only_dt _
      · cases h
    · split at h
      · split at h <;> cases h
      · cases h
  case uuid =>
    dsimp only at h
    split at h
    · split at h
      · cases h; exact only_uuid _
      · cases h
    · split at h
      · cases h; exact only_uuid _
      · cases h
    · cases h
  all_goals
    dsimp only at h
    first
      | (cases h; done)
      | (cases h; exact hv)

theorem only_pyIndex {a k x : Val} (ha : Only O a) (h : pyIndex a k = .ok x) : Only O x := by
  have get : ∀ xs : List Val, (∀ x ∈ xs, Only O x) → ∀ (i : Nat) y, xs[i]? = some y → Only O y :=
    fun xs hx i y hy => hx y (List.mem_of_getElem? hy)
  have str : ∀ (s : PyStr), ∀ x ∈ s.map (fun c => Val.str [c]), Only O x := by
    intro s x hx
    obtain ⟨c, _, rfl⟩ := List.mem_map.1 hx
    exact only_str _
  unfold pyIndex at h
  cases a
  case dict kvs =>
    dsimp only at h
    split at h
    · split at h
      · rename_i hg
        cases h
        exact only_dictGet (only_dict.1 ha) hg
      · cases h
    · cases h
  case list xs =>
    dsimp only at h
    repeat' split at h
    all_goals first
      | (cases h; done)
      | (rename_i hg; cases h; exact get xs (only_list.1 ha) _ _ hg)
  case tup xs =>
    dsimp only at h
    repeat' split at h
    all_goals first
      | (cases h; done)
      | (rename_i hg; cases h; exact get xs (only_tup.1 ha) _ _ hg)
  case str s =>
    dsimp only at h
    repeat' split at h
    all_goals first
      | (cases h; done)
      | (rename_i hg; cases h; exact get _ (str s) _ _ hg)
  all_goals cases h

end

/-! ## The methods -/

/-- What is known about the value a call returns. -/
def ResultOn (O : Nat → Prop) (c : Call) (v : Val) : Prop := Only O v ∨ c = .userGet

/-- Calls on instances in `O` are safe. -/
def RecSafe (O : Nat → Prop) (w0 : World) (rec : Rec) : Prop :=
  ∀ c, CallOn O c → Safe O w0 (rec c) (ResultOn O c)

section
variable {E : Env} {O : Nat → Prop} {w0 : World} (hE : ClosedUnder E O)
  (hO : ∀ r, w0.objs.length ≤ r → O r) {rec : Rec} (H : RecSafe O w0 rec)

include H in
theorem safe_execProg : ∀ p : Prog, Confined O p → Safe O w0 (execProg rec p) (Only O)
  | .ret v, h => safe_pure h
  | .raise _, _ => safe_raise
  | .call c k, h => by
      intro w hw
      have h1 := H c h.1 w hw
      unfold execProg
      cases hx : rec c w with
      | mk x w1 =>
        rw [hx] at h1
        cases x with
        | ok v => exact safe_execProg (k (.ok v)) (h.2.2 v (h1.2 v rfl)) w1 h1.1
        | error e => exact safe_execProg (k (.error e)) (h.2.1 e) w1 h1.1
  | .disabled q b k, h => by
      intro w hw
      have h1 := safe_execProg b h.1 { w with quar := w.quar.union q } (hw.same rfl)
      unfold execProg
      cases hx : execProg rec b { w with quar := w.quar.union q } with
      | mk x w1 =>
        rw [hx] at h1
        cases x with
        | ok v => exact safe_execProg (k (.ok v)) (h.2.2 v (h1.2 v rfl)) _ (h1.1.same rfl)
        | error e => exact safe_execProg (k (.error e)) (h.2.1 e) _ (h1.1.same rfl)

include hE H in
theorem safe_callFn (f : FnId) {args : List Val} (h : ∀ v ∈ args, Only O v) :
    Safe O w0 (callFn E rec f args) (Only O) := safe_execProg H _ (hE.fns f args h)

include H

theorem safe_rec {c : Call} (hc : CallOn O c) (hu : c ≠ .userGet) : Safe O w0 (rec c) (Only O) :=
  safe_weaken (H c hc) fun _ h => h.resolve_right hu

theorem safe_rec_validate (nm : PyStr) (p : PropSpec) {i : Option Nat} {v : Val}
    (hi : ∀ r, i = some r → O r) (hv : Only O v) :
    Safe O w0 (rec (.validate nm p i v)) (Only O) :=
  safe_rec H (fun r h => by
    cases h with
    | validateInst => exact hi r rfl
    | validate _ _ _ _ h => exact hv r h) (by simp)

theorem safe_rec_propEqual (p : PropSpec) {a b : Val} (ha : Only O a) (hb : Only O b) :
    Safe O w0 (rec (.propEqual p a b)) (Only O) :=
  safe_rec H (fun r h => by
    cases h with
    | propEqual1 _ _ _ h => exact ha r h
    | propEqual2 _ _ _ h => exact hb r h) (by simp)

theorem safe_rec_assert (nm : PyStr) (p : PropSpec) {r : Nat} {v : Val} (hr : O r) (hv : Only O v) :
    Safe O w0 (rec (.assertValid nm p r v)) (Only O) :=
  safe_rec H (fun s h => by
    cases h with
    | assertInst => exact hr
    | assert _ _ _ _ h => exact hv s h) (by simp)

theorem safe_rec_serializeP (nm : PyStr) (p : PropSpec) {v : Val} (kw : SerKw) (hv : Only O v) :
    Safe O w0 (rec (.serializeP nm p v kw)) (Only O) :=
  safe_rec H (fun s h => by cases h with | serializeP _ _ _ _ h => exact hv s h) (by simp)

theorem safe_rec_deserializeP (nm : PyStr) (p : PropSpec) {v : Val} (kw : DeKw) (hv : Only O v) :
    Safe O w0 (rec (.deserializeP nm p v kw)) (Only O) :=
  safe_rec H (fun s h => by cases h with | deserializeP _ _ _ _ h => exact hv s h) (by simp)

theorem safe_rec_construct (c : ClsId) {kw : List (PyStr × Val)} (hkw : ∀ kv ∈ kw, Only O kv.2) :
    Safe O w0 (rec (.construct c kw)) (Only O) :=
  safe_rec H (fun s h => by cases h with | construct _ _ nm v hm h => exact hkw _ hm s h) (by simp)

theorem safe_rec_reset {r : Nat} (nm : Option PyStr) (hr : O r) :
    Safe O w0 (rec (.reset r nm)) (Only O) :=
  safe_rec H (fun s h => by cases h; exact hr) (by simp)

theorem safe_rec_getattr {r : Nat} (nm : PyStr) (hr : O r) :
    Safe O w0 (rec (.getattr r nm)) (Only O) :=
  safe_rec H (fun s h => by cases h; exact hr) (by simp)

theorem safe_rec_setattr {r : Nat} (nm : PyStr) {v : Val} (hr : O r) (hv : Only O v) :
    Safe O w0 (rec (.setattr r nm v)) (Only O) :=
  safe_rec H (fun s h => by
    cases h with
    | setattrInst => exact hr
    | setattr _ _ _ h => exact hv s h) (by simp)

theorem safe_rec_delattr {r : Nat} (nm : PyStr) (hr : O r) :
    Safe O w0 (rec (.delattr r nm)) (Only O) :=
  safe_rec H (fun s h => by cases h; exact hr) (by simp)

theorem safe_rec_hpValidate {r : Nat} (hr : O r) : Safe O w0 (rec (.hpValidate r)) (Only O) :=
  safe_rec H (fun s h => by cases h; exact hr) (by simp)

theorem safe_rec_validateProps {r : Nat} (hr : O r) : Safe O w0 (rec (.validateProps r)) (Only O) :=
  safe_rec H (fun s h => by cases h; exact hr) (by simp)

theorem safe_rec_hpSerialize {r : Nat} (kw : SerKw) (hr : O r) :
    Safe O w0 (rec (.hpSerialize r kw)) (Only O) :=
  safe_rec H (fun s h => by cases h; exact hr) (by simp)

theorem safe_rec_hpDeserialize (c : ClsId) {v : Val} (kw : DeKw) (hv : Only O v) :
    Safe O w0 (rec (.hpDeserialize c v kw)) (Only O) :=
  safe_rec H (fun s h => by cases h with | hpDeserialize _ _ _ h => exact hv s h) (by simp)

theorem safe_rec_equal {a b : Val} (ha : Only O a) (hb : Only O b) :
    Safe O w0 (rec (.equal a b)) (Only O) :=
  safe_rec H (fun s h => by
    cases h with
    | equal1 _ _ h => exact ha s h
    | equal2 _ _ h => exact hb s h) (by simp)

include hE

theorem safe_runHook {r : Nat} (ts : List ErrTuple) (hr : O r) :
    Safe O w0 (runHook E rec r ts) fun _ => True := by
  unfold runHook
  refine safe_seq (safe_true (safe_getObj r)) fun o => ?_
  refine safe_seq (safe_modify fun w hw => hw.same rfl) fun _ => ?_
  split
  · exact safe_pure trivial
  · exact safe_seq (safe_true (safe_callFn hE H _ (by simpa using only_obj.2 hr))) fun _ =>
      safe_pure trivial

theorem safe_raiseVal {α : Type} {Q : α → Prop} (reason prop : Option PyStr) {i : Option Nat}
    (hi : ∀ r, i = some r → O r) : Safe O w0 (raiseVal E rec reason prop i : M α) Q := by
  unfold raiseVal
  cases i with
  | none => exact safe_raise
  | some r =>
    dsimp only
    refine safe_seq (safe_true (safe_getObj r)) fun o => ?_
    split
    · exact safe_seq (safe_runHook hE H _ (hi r rfl)) fun _ => safe_raise
    · exact safe_raise

theorem safe_propError {α : Type} {Q : α → Prop} (nm : PyStr) {i : Option Nat}
    (hi : ∀ r, i = some r → O r) : Safe O w0 (propError E rec nm i : M α) Q :=
  safe_raiseVal hE H _ _ hi

theorem safe_liftScalar (nm : PyStr) {i : Option Nat} (hi : ∀ r, i = some r → O r)
    {x : Except SErr Val} (hx : ∀ v, x = .ok v → Only O v) :
    Safe O w0 (liftScalar E rec nm i x) (Only O) := by
  unfold liftScalar
  split
  · exact safe_pure (hx _ rfl)
  · exact safe_raiseK
  · exact safe_catchIf (safe_propError hE H nm hi) fun _ => safe_propError hE H nm hi
  · exact safe_propError hE H nm hi

omit hE H in
theorem safe_mkSeq (k : SeqKind) {xs : List Val} (h : ∀ x ∈ xs, Only O x) :
    Safe O w0 (mkSeq k xs) (Only O) := by
  unfold mkSeq
  cases k
  · exact safe_pure (only_tup.2 h)
  · exact safe_pure (only_list.2 h)
  · dsimp only
    split
    · exact safe_pure (only_set.2 fun x hx => h x (setOfList_sub _ x hx))
    · exact safe_raiseK

theorem safe_item (nm : PyStr) (p : PropSpec) {i : Option Nat} (hi : ∀ r, i = some r → O r) {v : Val}
    (hv : Only O v) : Safe O w0 (M.catchIf ErrKind.isValueError (rec (.validate nm p i v))
      (fun _ => propError E rec nm i)) (Only O) :=
  safe_catchIf (safe_rec_validate H nm p hi hv) fun _ => safe_propError hE H nm hi

theorem safe_seqValidate (nm : PyStr) {i : Option Nat} (hi : ∀ r, i = some r → O r) (k : SeqKind)
    (item : PropSpec) (co : Bool) {v : Val} (hv : Only O v) :
    Safe O w0 (seqValidate E rec nm i k item co v) (Only O) := by
  unfold seqValidate
  dsimp only
  split
  · exact safe_bind (Q := fun _ => False) (safe_propError hE H nm hi) fun _ h => h.elim
  · refine safe_bind (safe_mapML (Q := Only O) _ fun x hx => safe_item hE H nm item hi ?_) fun out ho =>
      safe_mkSeq k ho
    split at hx
    · exact only_items hv x hx
    · simp at hx; rw [hx]; exact hv

theorem safe_dictValidate (nm : PyStr) {i : Option Nat} (hi : ∀ r, i = some r → O r)
    (kp vp : PropSpec) (co : Bool) {v : Val} (hv : Only O v) :
    Safe O w0 (dictValidate E rec nm i kp vp co v) (Only O) := by
  unfold dictValidate
  refine safe_bind (Q := fun kvs => ∀ kv ∈ kvs, Only O kv.1 ∧ Only O kv.2) ?_ fun items hitems => ?_
  · split
    · rename_i kvs he
      refine safe_pure ?_
      split at he
      · exact only_dictCoerce hv he
      · split at he
        · cases he; exact only_dict.1 hv
        · cases he
    · exact safe_propError hE H nm hi
  · refine safe_bind (Q := fun kvs => ∀ kv ∈ kvs, Only O kv.1 ∧ Only O kv.2)
      (safe_foldML _ _ (fun _ h => by cases h) fun d hd kv hkv => ?_) fun out ho =>
        safe_pure (only_dict.2 ho)
    refine safe_bind (safe_item hE H nm kp hi (hitems kv hkv).1) fun key hkey => ?_
    refine safe_bind (safe_item hE H nm vp hi (hitems kv hkv).2) fun val hval => ?_
    split
    · exact safe_pure (only_dictSet hd hkey hval)
    · exact safe_raiseK

theorem safe_instValidate (nm : PyStr) {i : Option Nat} (hi : ∀ r, i = some r → O r)
    (c : ClsId) {v : Val} (hv : Only O v) : Safe O w0 (instValidate E rec nm i c v) (Only O) := by
  unfold instValidate
  split
  · refine safe_seq (safe_true (safe_getObj _)) fun o => ?_
    split
    · exact safe_pure hv
    · exact safe_propError hE H nm hi
  · split
    · rename_i he
      exact safe_catchIf (safe_rec_construct H c (only_kwOfDict (only_dict.1 hv) he)) fun _ =>
        safe_propError hE H nm hi
    · exact safe_propError hE H nm hi
  · exact safe_propError hE H nm hi

theorem safe_tryProps (nm : PyStr) {i : Option Nat} (hi : ∀ r, i = some r → O r)
    {f : PropSpec → Call} (hf : ∀ p, Safe O w0 (rec (f p)) (Only O)) :
    ∀ ps, Safe O w0 (tryProps E rec nm i f ps) (Only O)
  | [] => safe_propError hE H nm hi
  | p :: ps => safe_catchIf (hf p) fun _ => safe_tryProps nm hi hf ps

theorem safe_validateBody (nm : PyStr) (p : PropSpec) {i : Option Nat} (hi : ∀ r, i = some r → O r)
    {v : Val} (hv : Only O v) : Safe O w0 (validateBody E rec nm p i v) (Only O) := by
  unfold validateBody
  cases hty : p.ty with
  | seq k item a b co => exact safe_seqValidate hE H nm hi k item co hv
  | dict kp vp co => exact safe_dictValidate hE H nm hi kp vp co hv
  | inst c => exact safe_instValidate hE H nm hi c hv
  | union ps s => exact safe_tryProps hE H nm hi (fun p => safe_rec_validate H nm p hi hv) ps
  | color =>
    dsimp only
    unfold colorBody
    split
    · refine safe_seq ?_ fun k => safe_liftScalar hE H nm hi fun x hx => only_colorValidate hx
      split
      · exact fun w hw => ⟨hw.same rfl, fun _ _ => trivial⟩
      · exact safe_pure trivial
    · exact safe_liftScalar hE H nm hi fun x hx => only_colorValidate hx
  | _ =>
    dsimp only [scalarValidate]
    refine safe_liftScalar hE H nm hi fun x hx => ?_
    exact only_scalarValidate (E := E) (k := 0) (ty := p.ty) hv (by rw [hty, ← hx]; rfl)

omit hE
theorem safe_zipEqual (p : PropSpec) : ∀ xs ys : List Val, (∀ x ∈ xs, Only O x) →
    (∀ y ∈ ys, Only O y) → Safe O w0 (zipEqual rec p xs ys) fun _ => True
  | x :: xs, y :: ys, hx, hy => by
      unfold zipEqual
      refine safe_seq (safe_true (safe_rec_propEqual H p (hx x (by simp)) (hy y (by simp)))) fun e => ?_
      refine safe_seq (safe_zipEqual p xs ys (fun x h => hx x (List.mem_cons_of_mem _ h))
        fun y h => hy y (List.mem_cons_of_mem _ h)) fun _ => safe_pure trivial
  | [], _, _, _ => by unfold zipEqual; exact safe_pure trivial
  | _ :: _, [], _, _ => by unfold zipEqual; exact safe_pure trivial

theorem safe_setRemove (p : PropSpec) {a : Val} (ha : Only O a) : ∀ ys : List Val,
    (∀ y ∈ ys, Only O y) →
    Safe O w0 (setRemove rec p a ys) fun r => ∀ zs, r = some zs → ∀ z ∈ zs, Only O z
  | [], _ => safe_pure fun _ h => by cases h
  | y :: ys, hy => by
      unfold setRemove
      have hys : ∀ y ∈ ys, Only O y := fun y h => hy y (List.mem_cons_of_mem _ h)
      refine safe_seq (safe_true (safe_rec_propEqual H p ha (hy y (by simp)))) fun e => ?_
      split
      · exact safe_pure fun zs h => by cases h; exact hys
      · refine safe_bind (safe_setRemove p ha ys hys) fun r hr => safe_pure fun zs h => ?_
        cases r with
        | none => cases h
        | some ws =>
          cases h
          intro z hz
          rcases List.mem_cons.1 hz with rfl | hz
          · exact hy _ (by simp)
          · exact hr ws rfl z hz

theorem safe_setEqual (p : PropSpec) {a b : Val} (ha : Only O a) (hb : Only O b) :
    Safe O w0 (setEqual rec p a b) (Only O) := by
  unfold setEqual
  refine safe_catchIf ?_ fun _ => safe_pure (only_bool _)
  split
  · rename_i xs ys hxs hys
    split
    · exact safe_pure (only_bool _)
    · split
      all_goals first
        | exact safe_raiseK
        | (refine safe_bind (Q := fun copy => ∀ z ∈ copy, Only O z)
            (safe_foldML _ _ (only_iter hb hys) fun copy hc x hx => ?_) fun rest _ =>
              safe_pure (only_bool _)
           refine safe_bind (safe_setRemove H p (only_iter ha hxs x hx) copy hc) fun r hr => ?_
           cases r with
           | some copy' =>
             dsimp only
             first
               | exact safe_raiseK
               | exact safe_pure (Q := fun copy => ∀ z ∈ copy, Only O z) (hr copy' rfl)
           | none => exact safe_pure hc)
  · exact safe_raiseK

theorem safe_tupEqual (p : PropSpec) {a b : Val} (ha : Only O a) (hb : Only O b) :
    Safe O w0 (tupEqual rec p a b) (Only O) := by
  unfold tupEqual
  refine safe_catchIf ?_ fun _ => safe_pure (only_bool _)
  split
  · rename_i xs ys hxs hys
    split
    · exact safe_seq (safe_zipEqual H p xs ys (only_iter ha hxs) (only_iter hb hys)) fun _ =>
        safe_pure (only_bool _)
    · exact safe_pure (only_bool _)
  · exact safe_raiseK

theorem safe_dictEqual (p : PropSpec) {a b : Val} (ha : Only O a) (hb : Only O b) :
    Safe O w0 (dictEqual rec p a b) (Only O) := by
  unfold dictEqual
  refine safe_catchIf ?_ fun _ => safe_pure (only_bool _)
  split
  · split
    · exact safe_pure (only_bool _)
    · split
      all_goals first
        | exact safe_raiseK
        | (refine safe_seq (safe_foldML (Q := fun _ => True) _ _ trivial fun copy _ k _ => ?_) fun rest =>
              safe_pure (only_bool _)
           refine safe_bind (safe_liftK fun x hx => only_pyIndex ha hx) fun x hx => ?_
           refine safe_bind (safe_liftK fun x hx => only_pyIndex hb hx) fun y hy => ?_
           refine safe_seq (safe_true (safe_rec_propEqual H p hx hy)) fun e => ?_
           split
           · exact safe_liftK fun _ _ => trivial
           · exact safe_pure trivial)
  · exact safe_raiseK

theorem safe_unionEqual {a b : Val} (ha : Only O a) (hb : Only O b) : ∀ ps,
    Safe O w0 (unionEqual rec a b ps) (Only O)
  | [] => safe_pure (only_bool _)
  | p :: ps => by
      unfold unionEqual
      refine safe_seq (safe_true (safe_rec_propEqual H p ha hb)) fun e => ?_
      split
      · exact safe_pure (only_bool _)
      · exact safe_unionEqual ha hb ps

theorem safe_propEqualBody (p : PropSpec) {a b : Val} (ha : Only O a) (hb : Only O b) :
    Safe O w0 (propEqualBody E rec p a b) (Only O) := by
  unfold propEqualBody
  split
  · exact safe_setEqual H _ ha hb
  · exact safe_tupEqual H _ ha hb
  · exact safe_dictEqual H _ ha hb
  · exact safe_rec_equal H ha hb
  · exact safe_unionEqual H ha hb _
  · split
    · exact safe_seq (safe_true (safe_liftK (Q := fun _ => True) fun _ _ => trivial)) fun _ =>
        safe_pure (only_bool _)
    · exact safe_raiseK

/-! ## Attributes -/

omit H in
theorem safe_entryOf (r : Nat) (name : PyStr) : Safe O w0 (entryOf E r name) fun _ => True := by
  unfold entryOf
  exact safe_seq (safe_true (safe_getObj r)) fun _ => safe_pure trivial

omit H in
theorem safe_getStored {r : Nat} (hr : O r) (name : PyStr) : Safe O w0 (getStored r name) (Only O) := by
  unfold getStored
  exact safe_bind (safe_getObj r) fun o ho => safe_pure (only_stored (ho hr) name only_none)

omit H in
theorem safe_store {r : Nat} (hr : O r) {f : List (PyStr × Val) → List (PyStr × Val)}
    (hf : ∀ l, (∀ kv ∈ l, Only O kv.2) → ∀ kv ∈ f l, Only O kv.2) :
    Safe O w0 (modObj r (fun o => { o with backend := f o.backend })) fun _ => True :=
  safe_modify fun _ hw => hw.setObj hr fun o ho => hf o.backend ho

omit H in
theorem safe_putStored {r : Nat} (hr : O r) (name : PyStr) {v : Val} (hv : Only O v) :
    Safe O w0 (putStored r name v) fun _ => True :=
  safe_store hr fun l hl kv h => by
    rcases mem_setS h with h | rfl
    · exact hl kv h
    · exact hv

omit H in
theorem safe_writeStored {r : Nat} (hr : O r) (name : PyStr) {v : Val} (hv : Only O v) :
    Safe O w0 (writeStored r name v) fun _ => True :=
  safe_store (f := fun b => if v.isUndef then eraseS name b else setS name v b) hr fun l hl kv h => by
    split at h
    · exact hl kv (mem_eraseS h)
    · rcases mem_setS h with h | rfl
      · exact hl kv h
      · exact hv

include hE

theorem safe_getattrBody {r : Nat} (hr : O r) (name : PyStr) :
    Safe O w0 (getattrBody E rec r name) (Only O) := by
  unfold getattrBody
  refine safe_seq (safe_entryOf r name) fun e => ?_
  split
  · exact safe_getStored hr name
  · exact safe_getStored hr name
  · refine safe_bind (safe_callFn hE H _ (by simpa using only_obj.2 hr)) fun v hv => ?_
    split
    · exact safe_pure only_none
    · exact safe_pure only_none
    · exact safe_rec_validate H _ _ (fun s h => by cases h; exact hr) hv
  · exact safe_rec_getattr H _ hr
  · exact safe_raiseK

theorem safe_notify {r : Nat} (hr : O r) (mode : Mode) (name : PyStr) {prev v : Val}
    (hp : Only O prev) (hv : Only O v) : Safe O w0 (notify E rec r mode name prev v) (Only O) := by
  unfold notify
  refine safe_seq (safe_true (safe_getObj r)) fun o => ?_
  refine safe_seq safe_get fun w => ?_
  refine safe_foldML _ _ hv fun x hx l _ => ?_
  unfold notifyOne
  refine safe_seq (safe_modify fun w hw => hw.same rfl) fun _ => safe_callFn hE H _ ?_
  intro y hy
  simp only [List.mem_cons, List.not_mem_nil, or_false] at hy
  rcases hy with rfl | rfl | rfl | rfl | rfl
  · exact only_obj.2 hr
  · exact only_str _
  · exact hp
  · exact hx
  · exact only_str _

theorem safe_setBody {r : Nat} (hr : O r) (name : PyStr) (p : PropSpec) {v : Val} (hv : Only O v) :
    Safe O w0 (setBody E rec r name p v) fun _ => True := by
  unfold setBody
  refine safe_bind (safe_getObj r) fun o ho => ?_
  have hp : Only O ((lookupS name o.backend).getD .undef) := only_stored (ho hr) name only_undef
  dsimp only
  refine safe_bind (safe_notify hE H hr _ name hp hv) fun v1 h1 => ?_
  refine safe_seq (safe_writeStored hr name h1) fun _ => ?_
  refine safe_seq ?_ fun ch => ?_
  · split
    · exact safe_pure trivial
    · split
      · exact safe_pure trivial
      · exact safe_seq (safe_true (safe_rec_propEqual H p hp h1)) fun _ => safe_pure trivial
  · refine safe_bind (Q := Only O) ?_ fun v2 h2 => ?_
    · split
      · exact safe_notify hE H hr _ name hp h1
      · exact safe_pure h1
    · exact safe_seq (safe_true (safe_notify hE H hr _ name hp h2)) fun _ => safe_pure trivial

omit hE H in
theorem safe_setBackend {r : Nat} (hr : O r) {v : Val} (hv : Only O v) :
    Safe O w0 (setBackend r v) fun _ => True := by
  unfold setBackend
  refine safe_seq (safe_modify fun w hw => hw.same rfl) fun _ => ?_
  split
  · rename_i kvs
    refine safe_modify fun w hw => hw.setObj hr fun o _ kv h => ?_
    cases hk : kwOfDict? kvs with
    | none => rw [hk] at h; cases h
    | some kw => rw [hk] at h; exact only_kwOfDict (only_dict.1 hv) hk kv h
  · exact safe_modify fun w hw => hw.setObj hr fun o _ kv h => by cases h

theorem safe_setattrBody {r : Nat} (hr : O r) (name : PyStr) {v : Val} (hv : Only O v) :
    Safe O w0 (setattrBody E rec r name v) (Only O) := by
  have hi : ∀ s, some r = some s → O s := fun s h => by cases h; exact hr
  unfold setattrBody
  refine safe_seq (safe_entryOf r name) fun e => ?_
  split
  · unfold assignBody
    refine safe_bind (Q := Only O) ?_ fun x hx =>
      safe_seq (safe_setBody hE H hr name _ hx) fun _ => safe_pure only_none
    split
    · exact safe_pure hv
    · exact safe_rec_validate H _ _ hi hv
  · exact safe_raiseK
  · split
    · exact safe_raiseK
    · refine safe_bind (safe_rec_validate H _ _ hi hv) fun x hx => ?_
      refine safe_seq (safe_true (safe_callFn hE H _ ?_)) fun _ => safe_pure only_none
      intro y hy
      simp only [List.mem_cons, List.not_mem_nil, or_false] at hy
      rcases hy with rfl | rfl
      · exact only_obj.2 hr
      · exact hx
  · exact safe_rec_setattr H _ hr hv
  · split
    · exact safe_seq (safe_setBackend hr hv) fun _ => safe_pure only_none
    · exact safe_pure only_none

theorem safe_delattrBody {r : Nat} (hr : O r) (name : PyStr) :
    Safe O w0 (delattrBody E rec r name) (Only O) := by
  unfold delattrBody
  refine safe_seq (safe_entryOf r name) fun e => ?_
  split
  · exact safe_seq (safe_setBody hE H hr name _ only_undef) fun _ => safe_pure only_none
  · exact safe_raiseK
  · split
    · exact safe_raiseK
    · exact safe_seq (safe_true (safe_callFn hE H _ (by simpa using only_obj.2 hr))) fun _ =>
        safe_pure only_none
  · exact safe_rec_delattr H _ hr
  · exact safe_raiseK

/-! ## Defaults and construction -/

theorem safe_evalDflt {d : Dflt} (hd : ∀ v, d = .val v → Only O v) :
    Safe O w0 (evalDflt E rec d) (Only O) := by
  unfold evalDflt
  split
  · exact safe_pure only_undef
  · exact safe_pure (hd _ rfl)
  · exact safe_callFn hE H _ (by simp)
  · exact safe_rec_construct H _ (by simp)
  · exact fun w hw => ⟨hw.same rfl, fun a e => by cases e; exact only_uuid _⟩

omit hE H in
theorem lookupS_mem_loc {α : Type} {k : PyStr} {e : α} : ∀ {l : List (PyStr × α)},
    lookupS k l = some e → (k, e) ∈ l
  | [], h => by cases h
  | (n, a) :: l, h => by
      rw [lookupS] at h
      split at h
      · rename_i hn
        cases h
        cases hn
        exact List.mem_cons_self ..
      · exact List.mem_cons_of_mem _ (lookupS_mem_loc h)

omit H in
theorem only_classDefault {c : ClsId} {key : PyStr} {e : Entry} (he : (key, e) ∈ (E.classes c).props)
    {v : Val} (h : classDefault E c key e = .val v) : Only O v := by
  unfold classDefault at h
  cases hl : lookupS key (E.classes c).defaults with
  | some d =>
    rw [hl] at h
    simp only [Option.getD_some] at h
    subst h
    exact hE.defaults v (.dict c key v (lookupS_mem_loc hl))
  | none =>
    rw [hl] at h
    simp only [Option.getD_none] at h
    cases e with
    | mutable p => exact hE.defaults v (.mutable c key p v he h)
    | gettable p => exact hE.defaults v (.gettable c key p v he h)
    | dynamic => cases h
    | renamed => cases h

theorem safe_resetBody {r : Nat} (hr : O r) (name : Option PyStr) :
    Safe O w0 (resetBody E rec r name) (Only O) := by
  unfold resetBody
  refine safe_seq (safe_true (safe_getObj r)) fun o => ?_
  split
  · refine safe_seq (safe_forML _ fun kv _ => ?_) fun _ => safe_pure only_none
    split
    · exact safe_seq (safe_true (safe_rec_reset H _ hr)) fun _ => safe_pure trivial
    · exact safe_pure trivial
  · split
    · rename_i hl
      exact safe_bind (safe_evalDflt hE H fun v h => only_classDefault hE (lookupS_mem_loc hl) h) fun v hv =>
        safe_rec_setattr H _ hr hv
    · exact safe_raiseK

omit hE in
theorem safe_entryValidate (name : PyStr) (e : Entry) {i : Option Nat} (hi : ∀ r, i = some r → O r)
    {v : Val} (hv : Only O v) : Safe O w0 (entryValidate rec name e i v) (Only O) := by
  unfold entryValidate
  split
  · exact safe_rec_validate H _ _ hi hv
  · exact safe_rec_validate H _ _ hi hv
  · exact safe_rec_validate H _ _ hi hv
  · exact safe_pure hv

omit hE H in
theorem safe_withDisabled {α : Type} {Q : α → Prop} (q : Quar) {m : M α} (h : Safe O w0 m Q) :
    Safe O w0 (withDisabled q m) Q := by
  intro w hw
  have h1 := h { w with quar := w.quar.union q } (hw.same rfl)
  exact ⟨h1.1.same rfl, h1.2⟩

omit hE H in
theorem safe_addErrs {r : Nat} (hr : O r) (ts : List ErrTuple) :
    Safe O w0 (addErrs r ts) fun _ => True := by
  unfold addErrs
  refine safe_seq (safe_true (safe_getObj r)) fun o => ?_
  split
  · exact safe_modObj hr fun _ => rfl
  · exact safe_raiseK

omit hE in
theorem safe_initStep {r : Nat} (hr : O r) (c : ClassDef) (nv : Option PyErr) {kv : PyStr × Val}
    (hv : Only O kv.2) : Safe O w0 (initStep rec r c nv kv) fun _ => True := by
  have main : Safe O w0 (do
      let res ← M.attempt (rec (.setattr r kv.1 kv.2))
      match res with
      | .ok _ => pure nv
      | .error e =>
          if e.kind = .validation then do
            addErrs r e.tuples
            pure nv
          else if e.kind.isGeneric then pure (nv.or (some e))
          else M.raise e) fun _ => True := by
    refine safe_seq (safe_true (safe_attempt (safe_rec_setattr H _ hr hv))) fun res => ?_
    cases res with
    | ok _ => exact safe_pure trivial
    | error e =>
      dsimp only
      split
      · exact safe_seq (safe_addErrs hr _) fun _ => safe_pure trivial
      · split
        · exact safe_pure trivial
        · exact safe_raise
  unfold initStep
  split
  · split
    · exact main
    · exact safe_bind (Q := fun _ => False) safe_raiseK fun _ h => h.elim
  · exact safe_bind (Q := fun _ => False) safe_raiseK fun _ h => h.elim
  · exact main

theorem safe_raiseCollected {r : Nat} (hr : O r) (nv : Option PyErr) :
    Safe O w0 (raiseCollected E rec r nv) fun _ => True := by
  unfold raiseCollected
  refine safe_seq (safe_true (safe_getObj r)) fun o => ?_
  dsimp only
  split
  · exact safe_seq (safe_runHook hE H _ hr) fun _ => safe_raise
  · split
    · exact safe_raise
    · exact safe_pure trivial

omit hE H in
theorem apart_clearValidating {r : Nat} (hr : O r) {w : World} (h : Apart O w0 w) :
    Apart O w0 (clearValidating r w) := h.mark hr fun _ => rfl

theorem safe_initBody {r : Nat} (hr : O r) (c : ClassDef) {kw : List (PyStr × Val)}
    (hkw : ∀ kv ∈ kw, Only O kv.2) : Safe O w0 (initBody E rec r c kw) fun _ => True := by
  unfold initBody
  refine safe_seq safe_raiseWhen fun _ => ?_
  refine safe_seq (safe_modObj hr fun _ => rfl) fun _ => ?_
  refine safe_fin ?_ fun w hw => apart_clearValidating hr hw
  exact safe_seq (safe_foldML _ _ trivial fun nv _ kv h => safe_initStep H hr c nv (hkw kv h)) fun nv =>
    safe_raiseCollected hE H hr nv

theorem safe_gettableDefault (c : ClsId) {r : Nat} (hr : O r) {kv : PyStr × Entry}
    (hk : kv ∈ (E.classes c).props) : Safe O w0 (gettableDefault E rec c r kv) fun _ => True := by
  unfold gettableDefault
  split
  · exact safe_pure trivial
  · split
    · exact safe_pure trivial
    · exact safe_pure trivial
    · refine safe_bind (safe_evalDflt hE H fun v h => only_classDefault hE hk h) fun v hv => ?_
      exact safe_bind (safe_entryValidate H _ _ (fun s h => by cases h; exact hr) hv) fun x hx =>
        safe_putStored hr _ hx

include hO in
theorem safe_constructBody (c : ClsId) {kw : List (PyStr × Val)} (hkw : ∀ kv ∈ kw, Only O kv.2) :
    Safe O w0 (constructBody E rec c kw) (Only O) := by
  unfold constructBody
  refine safe_seq safe_raiseWhen fun _ => ?_
  refine safe_bind (safe_alloc hO rfl) fun r hr => ?_
  refine safe_seq (safe_forML _ fun kv h => safe_gettableDefault hE H c hr h) fun _ => ?_
  refine safe_seq (safe_true (safe_withDisabled _ (safe_rec_reset H _ hr))) fun _ => ?_
  exact safe_seq (safe_initBody hE H hr _ hkw) fun _ => safe_pure (only_obj.2 hr)

/-! ## Validation -/

theorem safe_validatorStep {r : Nat} (hr : O r) (nv : Option PyErr) (val : Option FnId) :
    Safe O w0 (validatorStep E rec r nv val) fun _ => True := by
  unfold validatorStep
  refine safe_seq (safe_true (safe_attempt (Q := fun _ => True) (safe_seq ?_ fun valid => ?_))) fun res => ?_
  · split
    · exact safe_true (safe_rec_validateProps H hr)
    · exact safe_true (safe_callFn hE H _ (by simpa using only_obj.2 hr))
  · split
    · exact safe_raiseVal hE H _ _ fun s h => by cases h; exact hr
    · exact safe_pure trivial
  · split
    · exact safe_pure trivial
    · split
      · exact safe_seq (safe_addErrs hr _) fun _ => safe_pure trivial
      · split
        · exact safe_pure trivial
        · exact safe_raise

theorem safe_hpValidateBody {r : Nat} (hr : O r) : Safe O w0 (hpValidateBody E rec r) (Only O) := by
  unfold hpValidateBody
  refine safe_seq (safe_true (safe_getObj r)) fun o => ?_
  split
  · exact safe_pure (only_bool _)
  · refine safe_seq (safe_modObj hr fun _ => rfl) fun _ => ?_
    refine safe_fin ?_ fun w hw => apart_clearValidating hr hw
    refine safe_seq (safe_foldML _ _ trivial fun nv _ v _ => safe_validatorStep hE H hr nv v) fun nv => ?_
    exact safe_seq (safe_raiseCollected hE H hr nv) fun _ => safe_pure (only_bool _)

omit hE in
theorem safe_entryEqual (e : Entry) {a b : Val} (ha : Only O a) (hb : Only O b) :
    Safe O w0 (entryEqual rec e a b) (Only O) := by
  unfold entryEqual
  split
  · exact safe_rec_propEqual H _ ha hb
  · exact safe_rec_propEqual H _ ha hb
  · exact safe_rec_propEqual H _ ha hb
  · exact safe_pure (only_bool _)

theorem safe_gettableAssert (nm : PyStr) (e : Entry) {r : Nat} (hr : O r) :
    Safe O w0 (gettableAssert E rec nm e r) (Only O) := by
  have hi : ∀ s, some r = some s → O s := fun s h => by cases h; exact hr
  unfold gettableAssert
  refine safe_bind (safe_getStored hr nm) fun v hv => ?_
  split
  · exact safe_pure (only_bool _)
  · refine safe_bind (safe_entryValidate H nm e hi hv) fun x hx => ?_
    refine safe_seq (safe_true (safe_entryEqual H e hv hx)) fun eq => ?_
    split
    · exact safe_pure (only_bool _)
    · exact safe_raiseVal hE H _ _ hi

theorem safe_entryAssert (nm : PyStr) (e : Entry) {r : Nat} (hr : O r) :
    Safe O w0 (entryAssert E rec nm e r) (Only O) := by
  unfold entryAssert
  split
  · exact safe_rec_assert H _ _ hr only_none
  · exact safe_gettableAssert hE H nm _ hr

theorem safe_validatePropStep {r : Nat} (hr : O r) (kv : PyStr × Entry) :
    Safe O w0 (validatePropStep E rec r kv) fun _ => True := by
  have hi : ∀ s, some r = some s → O s := fun s h => by cases h; exact hr
  have last : Safe O w0 (do
      let ok ← entryAssert E rec kv.1 kv.2 r
      if ok.truthy then pure ()
      else raiseVal E rec (some (s% "invalid")) (some kv.1) (some r)) fun _ => True := by
    refine safe_seq (safe_true (safe_entryAssert hE H _ _ hr)) fun ok => ?_
    split
    · exact safe_pure trivial
    · exact safe_raiseVal hE H _ _ hi
  unfold validatePropStep
  refine safe_catchIf (safe_bind (safe_getStored hr _) fun v hv => ?_) fun e => ?_
  · split
    · exact last
    · refine safe_bind (safe_notify hE H hr _ _ hv hv) fun x hx => ?_
      refine safe_seq (safe_true (safe_entryEqual H _ hv hx)) fun eq => ?_
      split
      · exact last
      · exact safe_bind (Q := fun _ => False) (safe_raiseVal hE H _ _ hi) fun _ h => h.elim
  · refine safe_seq (safe_true (safe_getObj r)) fun o => ?_
    split
    · exact safe_addErrs hr _
    · exact safe_raise

theorem safe_validatePropsBody {r : Nat} (hr : O r) :
    Safe O w0 (validatePropsBody E rec r) (Only O) := by
  unfold validatePropsBody
  refine safe_seq (safe_true (safe_getObj r)) fun o => ?_
  exact safe_seq (safe_forML _ fun kv _ => safe_validatePropStep hE H hr kv) fun _ =>
    safe_pure (only_bool _)

theorem safe_baseAssert (nm : PyStr) (p : PropSpec) {r : Nat} (hr : O r) {v : Val} (hv : Only O v) :
    Safe O w0 (baseAssert E rec nm p r v) fun _ => True := by
  have hi : ∀ s, some r = some s → O s := fun s h => by cases h; exact hr
  unfold baseAssert
  refine safe_bind (Q := Only O) ?_ fun v hv => ?_
  · split
    · exact safe_getStored hr nm
    · exact safe_pure hv
  · split
    · split
      · exact safe_raiseVal hE H _ _ hi
      · exact safe_pure trivial
    · refine safe_bind (safe_rec_validate H nm p hi hv) fun x hx => ?_
      refine safe_seq (safe_true (safe_rec_propEqual H p hv hx)) fun eq => ?_
      split
      · exact safe_pure trivial
      · exact safe_raiseVal hE H _ _ hi

omit hE in
theorem safe_assertItems (nm : PyStr) (item : PropSpec) {r : Nat} (hr : O r) : ∀ xs : List Val,
    (∀ x ∈ xs, Only O x) → Safe O w0 (assertItems rec nm item r xs) (Only O)
  | [], _ => safe_pure (only_bool _)
  | x :: xs, h => by
      unfold assertItems
      refine safe_seq (safe_true (safe_rec_assert H nm item hr (h x (by simp)))) fun ok => ?_
      split
      · exact safe_assertItems nm item hr xs fun y hy => h y (List.mem_cons_of_mem _ hy)
      · exact safe_pure (only_bool _)

theorem safe_assertValidBody (nm : PyStr) (p : PropSpec) {r : Nat} (hr : O r) {v : Val}
    (hv : Only O v) : Safe O w0 (assertValidBody E rec nm p r v) (Only O) := by
  have hi : ∀ s, some r = some s → O s := fun s h => by cases h; exact hr
  have look : Safe O w0 (if v.isNone then getStored r nm else pure v) (Only O) := by
    split
    · exact safe_getStored hr nm
    · exact safe_pure hv
  unfold assertValidBody
  refine safe_seq (safe_baseAssert hE H nm p hr hv) fun _ => ?_
  split
  · refine safe_bind look fun v hv => ?_
    split
    · exact safe_pure (only_bool _)
    · split
      · exact safe_raiseK
      · rename_i xs hxs
        split
        · exact safe_assertItems H nm _ hr xs (only_iter hv hxs)
        · exact safe_bind (Q := fun _ => False) (safe_propError hE H nm hi) fun _ h => h.elim
  · refine safe_bind look fun v hv => ?_
    split
    · exact safe_pure (only_bool _)
    · refine safe_seq (safe_forML _ fun kv hk => ?_) fun _ => safe_pure (only_bool _)
      refine safe_seq (safe_true (safe_rec_assert H nm _ hr (only_dict.1 hv kv hk).1)) fun _ => ?_
      exact safe_seq (safe_true (safe_rec_assert H nm _ hr (only_dict.1 hv kv hk).2)) fun _ =>
        safe_pure trivial
    · exact safe_raiseK
  · refine safe_bind look fun v hv => ?_
    split
    · exact safe_seq (safe_true (safe_rec_hpValidate H (only_obj.1 hv))) fun _ => safe_pure (only_bool _)
    · exact safe_pure (only_bool _)
  · refine safe_bind look fun v hv => ?_
    split
    · exact safe_pure (only_bool _)
    · exact safe_tryProps hE H nm hi (fun p => safe_rec_assert H nm p hr hv) _
  · exact safe_pure (only_bool _)

/-! ## Serialization -/

theorem safe_callWrapped (f : FnId) {v : Val} (hv : Only O v) {kw : List Val}
    (hkw : ∀ x ∈ kw, Only O x) : Safe O w0 (callWrapped E rec f v kw) (Only O) := by
  unfold callWrapped
  refine safe_catchIf (safe_callFn hE H _ ?_) fun _ => safe_callFn hE H _ (by simpa using hv)
  intro y hy
  rcases List.mem_cons.1 hy with rfl | hy
  · exact hv
  · exact hkw y hy

omit hE H in
theorem only_serArgs (kw : SerKw) : ∀ x ∈ kw.args, Only O x := by
  intro x hx
  simp only [SerKw.args, List.mem_cons, List.not_mem_nil, or_false] at hx
  rcases hx with rfl | rfl <;> exact only_bool _

omit hE H in
theorem only_deArgs (kw : DeKw) : ∀ x ∈ kw.args, Only O x := by
  intro x hx
  simp only [DeKw.args, List.mem_cons, List.not_mem_nil, or_false] at hx
  rcases hx with rfl | rfl | rfl <;> exact only_bool _

omit hE H in
theorem safe_mkDict {ps : List (Val × Val)} (h : ∀ kv ∈ ps, Only O kv.1 ∧ Only O kv.2) :
    Safe O w0 (mkDict ps) (Only O) := by
  unfold mkDict
  split
  · exact safe_pure (only_dict.2 (only_dictOfPairs h))
  · exact safe_raiseK

omit hE in
theorem safe_unionSerialize (nm : PyStr) {v : Val} (hv : Only O v) (kw : SerKw) : ∀ ps,
    Safe O w0 (unionSerialize rec nm v kw ps) (Only O)
  | [] => by
      unfold unionSerialize
      split
      · exact safe_rec_hpSerialize H kw (only_obj.1 hv)
      · exact safe_pure hv
  | p :: ps => by
      unfold unionSerialize
      refine safe_seq (safe_true (safe_attempt (safe_rec_validate H nm p (fun s h => by cases h) hv)))
        fun res => ?_
      split
      · exact safe_rec_serializeP H nm p kw hv
      · split
        · exact safe_unionSerialize nm hv kw ps
        · exact safe_raise

theorem safe_serializeBody (nm : PyStr) (p : PropSpec) {v : Val} (hv : Only O v) (kw : SerKw) :
    Safe O w0 (serializeBody E rec nm p v kw) (Only O) := by
  unfold serializeBody
  split
  · exact safe_callWrapped hE H _ hv (only_serArgs kw)
  · split
    · exact safe_pure only_none
    · split
      · split
        · exact safe_raiseK
        · rename_i xs hxs
          exact safe_bind (safe_mapML (Q := Only O) _ fun x hx =>
            safe_rec_serializeP H nm _ kw (only_iter hv hxs x hx)) fun out ho =>
              safe_pure (only_list.2 ho)
      · split
        · refine safe_bind (safe_mapML (Q := fun kv : Val × Val => Only O kv.1 ∧ Only O kv.2) _
            fun kv hk => ?_) fun out ho => safe_mkDict ho
          refine safe_bind (safe_rec_serializeP H nm _ kw (only_dict.1 hv kv hk).1) fun k h1 => ?_
          exact safe_bind (safe_rec_serializeP H nm _ kw (only_dict.1 hv kv hk).2) fun x h2 =>
            safe_pure ⟨h1, h2⟩
        · exact safe_raiseK
      · split
        · exact safe_rec_hpSerialize H kw (only_obj.1 hv)
        · split
          · rename_i hj
            exact safe_pure (hE.json _ _ hj)
          · exact safe_raiseK
      · exact safe_unionSerialize H nm hv kw _
      · split
        · rename_i hx
          exact safe_liftK fun a ha => only_scalarToJson hv (by rw [hx, ha])
        · exact safe_raiseK

theorem safe_entrySerialize (nm : PyStr) (e : Entry) {v : Val} (hv : Only O v) (kw : SerKw) :
    Safe O w0 (entrySerialize E rec nm e v kw) (Only O) := by
  unfold entrySerialize
  split
  · exact safe_rec_serializeP H _ _ _ hv
  · exact safe_rec_serializeP H _ _ _ hv
  · split
    · exact safe_callWrapped hE H _ hv (only_serArgs kw)
    · exact safe_pure hv
  · exact safe_pure hv

theorem safe_hpSerializeBody {r : Nat} (hr : O r) (kw : SerKw) :
    Safe O w0 (hpSerializeBody E rec r kw) (Only O) := by
  unfold hpSerializeBody
  refine safe_seq (safe_true (safe_getObj r)) fun o => ?_
  split
  · exact safe_raiseK
  · refine safe_seq (safe_modObj hr fun _ => rfl) fun _ => ?_
    refine safe_fin ?_ fun w hw => hw.mark hr fun _ => rfl
    refine safe_bind (safe_mapML (Q := fun kv : Val × Val => Only O kv.1 ∧ Only O kv.2) _
      fun key _ => ?_) fun data hd => safe_pure (only_dict.2 ?_)
    · split
      · exact safe_raiseK
      · refine safe_bind (safe_rec_getattr H _ hr) fun v hv => ?_
        exact safe_bind (safe_entrySerialize hE H _ _ hv kw) fun j hj => safe_pure ⟨only_str _, hj⟩
    · have hf : ∀ kv ∈ data.filter (fun kv => !kv.2.isNone), Only O kv.1 ∧ Only O kv.2 :=
        fun kv h => hd kv (List.mem_filter.1 h).1
      split
      · exact only_dictSet hf (only_str _) (only_str _)
      · exact hf

/-! ## Deserialization -/

omit hE H in
theorem safe_deserializeClass (c : ClsId) (nm : Val) (t s : Bool) :
    Safe O w0 (deserializeClass E c nm t s) fun _ => True := by
  unfold deserializeClass
  split
  · exact safe_pure trivial
  · dsimp only
    split
    · exact safe_raiseK
    · split
      · exact safe_pure trivial
      · split
        · exact safe_raiseK
        · exact safe_pure trivial

theorem safe_entryDeserialize (nm : PyStr) (e : Entry) {v : Val} (hv : Only O v) (kw : DeKw) :
    Safe O w0 (entryDeserialize E rec nm e v kw) (Only O) := by
  unfold entryDeserialize
  split
  · exact safe_rec_deserializeP H _ _ _ hv
  · exact safe_rec_deserializeP H _ _ _ hv
  · split
    · exact safe_callWrapped hE H _ hv (only_deArgs kw)
    · exact safe_pure hv
  · exact safe_pure hv

omit hE H in
theorem only_propState (props : List (PyStr × Entry)) : ∀ {kvs : List (Val × Val)},
    (∀ kv ∈ kvs, Only O kv.1 ∧ Only O kv.2) → ∀ kv ∈ propState props kvs, Only O kv.2 := by
  intro kvs
  induction kvs with
  | nil => intro _ kv h; cases h
  | cons a kvs ih =>
    intro h kv hm
    obtain ⟨k, v⟩ := a
    have ih := ih fun kv h' => h kv (List.mem_cons_of_mem _ h')
    cases k <;> unfold propState at hm <;> try exact ih kv hm
    split at hm
    · rcases List.mem_cons.1 hm with rfl | hm
      · exact (h _ (List.mem_cons_self ..)).2
      · exact ih kv hm
    · exact ih kv hm

theorem safe_deserEntry (c : ClsId) (kw : DeKw) {kv : PyStr × Val} (hv : Only O kv.2) :
    Safe O w0 (deserEntry E rec c kw kv) fun x => Only O x.2 := by
  unfold deserEntry
  split
  · exact safe_raiseK
  · exact safe_bind (safe_entryDeserialize hE H _ _ hv kw) fun x hx => safe_pure hx

omit hE in
theorem safe_setImmutable (c : ClsId) {r : Nat} (hr : O r) {kv : PyStr × Val} (hv : Only O kv.2) :
    Safe O w0 (setImmutable E rec c r kv) fun _ => True := by
  unfold setImmutable
  split
  · exact safe_raiseK
  · exact safe_bind (safe_entryValidate H _ _ (fun s h => by cases h; exact hr) hv) fun x hx =>
      safe_putStored hr _ hx

theorem safe_deserFinish (c : ClsId) (kw : DeKw) {im : List (PyStr × Val)}
    (him : ∀ kv ∈ im, Only O kv.2) {inst : Val} (hi : Only O inst) :
    Safe O w0 (deserFinish E rec c kw im inst) (Only O) := by
  unfold deserFinish
  split
  · have hr := only_obj.1 hi
    refine safe_seq (safe_forML _ fun kv h => safe_setImmutable H c hr (him kv h)) fun _ => ?_
    refine safe_seq ?_ fun _ => safe_pure hi
    unfold assertBuilt
    split
    · refine safe_seq (safe_true (safe_rec_hpValidate H hr)) fun ok => ?_
      split
      · exact safe_pure trivial
      · exact safe_raiseVal hE H _ _ fun s h => by cases h
    · exact safe_pure trivial
  · exact safe_raiseK

theorem safe_hpDeserializeBody (c : ClsId) {v : Val} (hv : Only O v) (kw : DeKw) :
    Safe O w0 (hpDeserializeBody E rec c v kw) (Only O) := by
  unfold hpDeserializeBody
  split
  · refine safe_seq (safe_deserializeClass _ _ _ _) fun outc => ?_
    dsimp only
    refine safe_seq safe_raiseWhen fun _ => ?_
    refine safe_bind (safe_mapML (Q := fun x : PyStr × Val => Only O x.2) _ fun kv h =>
      safe_deserEntry hE H _ _ (only_propState _ (only_dict.1 hv) kv h)) fun ns hns => ?_
    refine safe_bind (safe_withDisabled _ (safe_rec_construct H _ fun kv h =>
      hns kv (List.mem_filter.1 h).1)) fun inst hi => ?_
    exact safe_deserFinish hE H _ _ (fun kv h => hns kv (List.mem_filter.1 h).1) hi
  · exact safe_raiseK

omit hE in
theorem safe_unionDeserialize (nm : PyStr) {v : Val} (hv : Only O v) (kw : DeKw) : ∀ ps,
    Safe O w0 (unionDeserialize rec nm v kw ps) (Only O)
  | [] => safe_pure hv
  | p :: ps => safe_catchIf (safe_bind (safe_rec_deserializeP H nm p kw hv) fun out ho =>
      safe_seq (safe_true (safe_rec_validate H nm p (fun s h => by cases h) ho)) fun _ => safe_pure ho)
      fun _ => safe_unionDeserialize nm hv kw ps

theorem safe_deserializeBody (nm : PyStr) (p : PropSpec) {v : Val} (hv : Only O v) (kw : DeKw) :
    Safe O w0 (deserializeBody E rec nm p v kw) (Only O) := by
  unfold deserializeBody
  split
  · exact safe_callWrapped hE H _ hv (only_deArgs kw)
  · split
    · exact safe_pure only_none
    · split
      · split
        · exact safe_raiseK
        · rename_i xs hxs
          exact safe_bind (safe_mapML (Q := Only O) _ fun x hx =>
            safe_rec_deserializeP H nm _ kw (only_iter hv hxs x hx)) fun out ho =>
              safe_mkSeq _ ho
      · split
        · refine safe_bind (safe_mapML (Q := fun kv : Val × Val => Only O kv.1 ∧ Only O kv.2) _
            fun kv hk => ?_) fun out ho => safe_mkDict ho
          refine safe_bind (safe_rec_deserializeP H nm _ kw (only_dict.1 hv kv hk).1) fun k h1 => ?_
          exact safe_bind (safe_rec_deserializeP H nm _ kw (only_dict.1 hv kv hk).2) fun x h2 =>
            safe_pure ⟨h1, h2⟩
        · exact safe_raiseK
      · exact safe_rec_hpDeserialize H _ _ hv
      · dsimp only
        split
        · exact safe_rec_deserializeP H _ _ _ hv
        · exact safe_unionDeserialize H nm hv _ _
      · split
        · rename_i hx
          exact safe_liftK fun a ha => only_scalarFromJson hv (by rw [hx, ha])
        · exact safe_raiseK

/-! ## Comparison, copy, observers -/

omit hE in
theorem safe_equalLoop {a b : Nat} (ha : O a) (hb : O b) : ∀ props,
    Safe O w0 (equalLoop rec a b props) (Only O)
  | [] => safe_pure (only_bool _)
  | (nm, e) :: rest => by
      unfold equalLoop
      refine safe_bind (safe_rec_getattr H nm ha) fun x hx => ?_
      refine safe_bind (safe_rec_getattr H nm hb) fun y hy => ?_
      split
      · exact safe_equalLoop ha hb rest
      · split
        · exact safe_pure (only_bool _)
        · refine safe_seq (safe_true (safe_entryEqual H e hx hy)) fun eq => ?_
          split
          · exact safe_equalLoop ha hb rest
          · exact safe_pure (only_bool _)

omit hE in
theorem safe_equalBody {a b : Val} (ha : Only O a) (hb : Only O b) :
    Safe O w0 (equalBody E rec a b) (Only O) := by
  unfold equalBody
  split
  · have hi := only_obj.1 ha
    have hj := only_obj.1 hb
    refine safe_seq (safe_true (safe_getObj _)) fun oa => ?_
    split
    · exact safe_pure (only_bool _)
    · refine safe_seq (safe_modObj hi fun _ => rfl) fun _ => ?_
      refine safe_fin ?_ fun w hw => hw.mark hi fun _ => rfl
      split
      · exact safe_pure (only_bool _)
      · refine safe_seq (safe_true (safe_getObj _)) fun ob => ?_
        split
        · exact safe_equalLoop H hi hj _
        · exact safe_pure (only_bool _)
  · exact safe_pure (only_bool _)

omit hE in
theorem safe_copyBody {v : Val} (hv : Only O v) (skw : SerKw) (dkw : DeKw) :
    Safe O w0 (copyBody rec v skw dkw) (Only O) := by
  unfold copyBody
  split
  · refine safe_seq (safe_true (safe_getObj _)) fun o => ?_
    exact safe_bind (safe_rec_hpSerialize H _ (only_obj.1 hv)) fun j hj =>
      safe_rec_hpDeserialize H _ _ hj
  · exact safe_raiseK

omit hE H in
theorem safe_observeBody {r : Nat} (hr : O r) (ns : ObsNames) (mode : Mode) (f : FnId) :
    Safe O w0 (observeBody E r ns mode f) (Only O) := by
  unfold observeBody
  refine safe_seq (safe_true (safe_getObj r)) fun o => ?_
  exact safe_seq (safe_modObj hr fun _ => rfl) fun _ => safe_pure only_none

include hO in
theorem safe_step : RecSafe O w0 (step E rec) := by
  intro c hc
  have left : ∀ {m : M Val}, Safe O w0 m (Only O) → Safe O w0 m (ResultOn O c) :=
    fun h => safe_weaken h fun _ h => .inl h
  cases c with
  | validate nm p i v => exact left (safe_validateBody hE H nm p
      (fun r h => hc r (by rw [h]; exact .validateInst nm p v)) fun r h => hc r (.validate nm p i v h))
  | propEqual p a b => exact left (safe_propEqualBody H p (fun r h => hc r (.propEqual1 p a b h))
      fun r h => hc r (.propEqual2 p a b h))
  | assertValid nm p r v => exact left (safe_assertValidBody hE H nm p (hc r (.assertInst nm p v))
      fun s h => hc s (.assert nm p r v h))
  | serializeP nm p v kw => exact left (safe_serializeBody hE H nm p
      (fun s h => hc s (.serializeP nm p v kw h)) kw)
  | deserializeP nm p v kw => exact left (safe_deserializeBody hE H nm p
      (fun s h => hc s (.deserializeP nm p v kw h)) kw)
  | construct c kw => exact left (safe_constructBody hE hO H c fun kv hk s h =>
      hc s (.construct c kw kv.1 kv.2 hk h))
  | reset r nm => exact left (safe_resetBody hE H (hc r (.reset nm)) nm)
  | getattr r nm => exact left (safe_getattrBody hE H (hc r (.getattr nm)) nm)
  | setattr r nm v => exact left (safe_setattrBody hE H (hc r (.setattrInst nm v)) nm
      fun s h => hc s (.setattr r nm v h))
  | delattr r nm => exact left (safe_delattrBody hE H (hc r (.delattr nm)) nm)
  | hpValidate r => exact left (safe_hpValidateBody hE H (hc r .hpValidate))
  | validateProps r => exact left (safe_validatePropsBody hE H (hc r .validateProps))
  | hpSerialize r kw => exact left (safe_hpSerializeBody hE H (hc r (.hpSerialize kw)) kw)
  | hpDeserialize c v kw => exact left (safe_hpDeserializeBody hE H c
      (fun s h => hc s (.hpDeserialize c v kw h)) kw)
  | equal a b => exact left (safe_equalBody H (fun s h => hc s (.equal1 a b h))
      fun s h => hc s (.equal2 a b h))
  | copy v s d => exact left (safe_copyBody H (fun r h => hc r (.copy v s d h)) s d)
  | observe r ns m f => exact left (safe_observeBody (hc r (.observe ns m f)) ns m f)
  | userGet => exact fun w hw => ⟨hw, fun _ _ => .inr rfl⟩
  | userPut v => exact fun w hw => ⟨hw.same rfl, fun a e => by cases e; exact .inl only_none⟩

end

/-- Calls on instances in `O` stay within `O`. -/
theorem safe_run {E : Env} {O : Nat → Prop} {w0 : World} (hE : ClosedUnder E O)
    (hO : ∀ r, w0.objs.length ≤ r → O r) : ∀ n, RecSafe O w0 (run E n)
  | 0 => fun _ _ => safe_raiseK
  | n + 1 => safe_step hE hO (safe_run hE hO n)

end Verif
