import Verif.Spec.ContainerClass
import Mathlib.Data.List.Nodup
import Mathlib.Data.List.Perm.Subperm

/-!
# C88 A container keeps its class
-/

namespace Verif.ContCls
open Verif.Spec.ContCls

theorem up_sub {ps : List (Option Nat)} : ∀ {n c b : Nat}, up ps n c b = true → Sub ps c b
  | 0, c, b, h => by
      simp only [up, beq_iff_eq] at h
      exact h ▸ .refl c
  | n + 1, c, b, h => by
      simp only [up, Bool.or_eq_true, beq_iff_eq] at h
      rcases h with h | h
      · exact h ▸ .refl c
      · split at h
        · next p hp => exact .base hp (up_sub h)
        · cases h

theorem sub_up {ps : List (Option Nat)} (below : ∀ c p : Nat, ps[c]? = some (some p) → p < c) :
    ∀ {n c b : Nat}, c ≤ n → Sub ps c b → up ps n c b = true := by
  intro n
  induction n with
  | zero =>
    intro c b hc h
    cases h with
    | refl => simp [up]
    | base hp _ => exact absurd (below _ _ hp) (by omega)
  | succ n ih =>
    intro c b hc h
    cases h with
    | refl => simp [up]
    | base hp h =>
      simp only [up, hp, Bool.or_eq_true]
      exact .inr (ih (by have := below _ _ hp; omega) h)

theorem inst_iff {w : World} (h : Tidy w) {c b : Nat} : isInst w c b = true ↔ Sub w.parents c b := by
  constructor
  · exact up_sub
  · intro hs
    by_cases hc : c ≤ w.parents.length
    · exact sub_up h.below hc hs
    · cases hs with
      | refl => unfold isInst; cases w.parents.length <;> simp [up]
      | base hp _ =>
        have := (List.getElem?_eq_some_iff.1 hp).1
        omega

theorem tidy_start : Tidy start where
  size := by decide
  roots := by decide
  below := by
    intro c p h
    match c with
    | 0 => cases h
    | 1 => cases h
    | 2 => cases h
    | 3 => cases h
    | 4 => cases h
    | 5 => cases h
    | n + 6 => cases h
  known := fun _ _ h => by cases h
  oneCopy := fun _ _ _ h => by cases h
  oneSource := fun _ _ _ h => by cases h
  noTower := fun _ _ _ h => by cases h
  stored := fun _ _ h => by cases h

theorem sub_grow {ps : List (Option Nat)} {x : Option Nat} {c b : Nat} (h : Sub ps c b) : Sub (ps ++ [x]) c b := by
  induction h with
  | refl c => exact .refl c
  | base hp _ ih =>
    refine .base ?_ ih
    rw [List.getElem?_append_left (List.getElem?_eq_some_iff.1 hp).1]; exact hp

theorem sub_lt {w : World} (h : Tidy w) {c b : Nat} (hs : Sub w.parents c b) : b ≤ c := by
  induction hs with
  | refl => exact Nat.le_refl _
  | base hp _ ih => have := h.below _ _ hp; omega

theorem grow_get {ps : List (Option Nat)} {x : Option Nat} {c : Nat} {v : Option Nat}
    (h : (ps ++ [x])[c]? = some v) : (ps[c]? = some v) ∨ (c = ps.length ∧ v = x) := by
  by_cases hc : c < ps.length
  · rw [List.getElem?_append_left hc] at h; exact .inl h
  · by_cases he : c = ps.length
    · subst he; simp at h; exact .inr ⟨rfl, h.symm⟩
    · rw [List.getElem?_eq_none (by simp; omega)] at h; cases h

theorem keep_get {ps : List (Option Nat)} {x : Option Nat} {c : Nat} {v : Option Nat} (h : ps[c]? = some v) :
    (ps ++ [x])[c]? = some v := by
  rw [List.getElem?_append_left (List.getElem?_eq_some_iff.1 h).1]; exact h

theorem tidy_derive {w : World} (h : Tidy w) {b : Nat} (hb : b < w.parents.length) :
    Tidy { w with parents := w.parents ++ [some b] } where
  size := by have := h.size; simp; omega
  roots := fun c hc => keep_get (h.roots c hc)
  below := by
    intro c p hp
    rcases grow_get hp with hp | ⟨hc, hp⟩
    · exact h.below _ _ hp
    · injection hp with hp; subst hp; exact hc ▸ hb
  known := fun d o hm => keep_get (h.known d o hm)
  oneCopy := h.oneCopy
  oneSource := h.oneSource
  noTower := h.noTower
  stored := fun n c hs => by have := h.stored n c hs; simp; omega

theorem tidy_slot {w : World} (h : Tidy w) {n : Nat} {v : Option Nat} (hv : ∀ c, v = some c → c < w.parents.length) :
    Tidy (setSlot n v w) where
  size := h.size
  roots := h.roots
  below := h.below
  known := h.known
  oneCopy := h.oneCopy
  oneSource := h.oneSource
  noTower := h.noTower
  stored := by
    intro m c hs
    simp only [setSlot] at hs
    split at hs
    · exact hv c hs
    · exact h.stored m c hs

theorem lookup_mem : ∀ {l : List (Nat × Nat)} {c o : Nat}, l.lookup c = some o → (c, o) ∈ l
  | [], _, _, h => by cases h
  | (a, b) :: l, c, o, h => by
      simp only [List.lookup] at h
      split at h
      · next he =>
        cases h
        rw [beq_iff_eq] at he; subst he; exact .head _
      · exact .tail _ (lookup_mem h)

theorem lookup_none : ∀ {l : List (Nat × Nat)} {c : Nat}, l.lookup c = none → ∀ o, (c, o) ∉ l
  | [], _, _, _, h => by cases h
  | (a, b) :: l, c, h, o, hm => by
      simp only [List.lookup] at h
      split at h
      · cases h
      · next he =>
        cases hm with
        | head => simp at he
        | tail _ hm => exact lookup_none h o hm

/-- `observable_copy`: the class itself if it was made by `observable_copy`, otherwise the one
observable class of it; classes that exist stay as they are. -/
theorem observable_spec {w : World} (h : Tidy w) {c : Nat} (hc : c < w.parents.length) :
    Tidy (observable c w).2 ∧ (observable c w).2.slots = w.slots ∧
    ((observable c w).1 < (observable c w).2.parents.length) ∧
    (∀ d o, (d, o) ∈ w.registry → (d, o) ∈ (observable c w).2.registry) ∧
    (∀ (x : Nat) v, w.parents[x]? = some v → (observable c w).2.parents[x]? = some v) ∧
    ((Made w c ∧ observable c w = (c, w)) ∨
      (¬Made w c ∧ (c, (observable c w).1) ∈ (observable c w).2.registry)) := by
  unfold observable
  split
  · next o ho =>
    have hm := lookup_mem ho
    refine ⟨h, rfl, (List.getElem?_eq_some_iff.1 (h.known _ _ hm)).1, fun _ _ h => h, fun _ _ h => h, .inr ⟨?_, hm⟩⟩
    rintro ⟨d, hd⟩
    exact h.noTower _ _ _ hd hm
  · next hn =>
    split
    · next ha =>
      simp only [List.any_eq_true, beq_iff_eq] at ha
      obtain ⟨⟨d, o⟩, hm, ho⟩ := ha
      simp only at ho; subst ho
      exact ⟨h, rfl, hc, fun _ _ h => h, fun _ _ h => h, .inl ⟨⟨d, hm⟩, rfl⟩⟩
    · next ha =>
      have hmade : ¬Made w c := by
        rintro ⟨d, hd⟩
        exact ha (List.any_eq_true.2 ⟨_, hd, by simp⟩)
      have hkey := lookup_none hn
      have hlt : ∀ d o, (d, o) ∈ w.registry → o < w.parents.length := fun d o hm =>
        (List.getElem?_eq_some_iff.1 (h.known _ _ hm)).1
      have hkl : ∀ d o, (d, o) ∈ w.registry → d < w.parents.length := fun d o hm => by
        have := h.below _ _ (h.known _ _ hm); have := hlt _ _ hm; omega
      refine ⟨?_, rfl, by simp, fun d o hm => List.mem_append_left _ hm, fun x v hv => keep_get hv, .inr ⟨hmade, by simp⟩⟩
      have t := tidy_derive h hc
      refine ⟨t.size, t.roots, t.below, ?_, ?_, ?_, ?_, t.stored⟩
      · intro d o hm
        simp only [List.mem_append, List.mem_singleton] at hm
        rcases hm with hm | hm
        · exact keep_get (h.known d o hm)
        · cases hm; simp
      · intro d o o' hm hm'
        simp only [List.mem_append, List.mem_singleton, Prod.mk.injEq] at hm hm'
        rcases hm with hm | ⟨rfl, rfl⟩ <;> rcases hm' with hm' | ⟨hd, rfl⟩
        · exact h.oneCopy _ _ _ hm hm'
        · subst hd; exact absurd hm (hkey _)
        · exact absurd hm' (hkey _)
        · rfl
      · intro d d' o hm hm'
        simp only [List.mem_append, List.mem_singleton, Prod.mk.injEq] at hm hm'
        rcases hm with hm | ⟨rfl, rfl⟩ <;> rcases hm' with hm' | ⟨rfl, hd⟩
        · exact h.oneSource _ _ _ hm hm'
        · subst hd; exact absurd (hlt _ _ hm) (by omega)
        · exact absurd (hlt _ _ hm') (by omega)
        · rfl
      · intro d o o' hm hm'
        simp only [List.mem_append, List.mem_singleton, Prod.mk.injEq] at hm hm'
        rcases hm with hm | ⟨rfl, rfl⟩ <;> rcases hm' with hm' | ⟨hd, rfl⟩
        · exact h.noTower _ _ _ hm hm'
        · subst hd; exact hmade ⟨_, hm⟩
        · exact absurd (hkl _ _ hm') (by omega)
        · omega

theorem root_sub {w : World} (h : Tidy w) {c b : Nat} (hc : c < 6) (hs : Sub w.parents c b) : c = b := by
  cases hs with
  | refl => rfl
  | base hp _ => rw [h.roots _ hc] at hp; cases hp

theorem builtin_lt {w : World} (h : Tidy w) (k : Kind) : builtin k < w.parents.length := by
  have := h.size
  cases k <;> simp only [builtin] <;> omega

/-- The class before the value is made observable. -/
theorem class_spec {w : World} (h : Tidy w) {p : PDecl} {c : Nat} {pairs : Bool} :
    (¬Takes w p c pairs ∧ (if p.kind = .dict then dictClass w p pairs c else seqClass w p c) = none) ∨
    (Takes w p c pairs ∧ ∃ d, (if p.kind = .dict then dictClass w p pairs c else seqClass w p c) = some d ∧ Base w p c d) := by
  by_cases hk : p.kind = .dict
  · rw [if_pos hk]
    cases hco : p.coerce with
    | true =>
      cases hp : pairs with
      | true => exact .inr ⟨by simp [Takes, hco], builtin p.kind, by simp [dictClass, hco], .inr ⟨rfl, .inr ⟨hk, hco⟩⟩⟩
      | false => exact .inl ⟨by simp [Takes, hco, hk], by simp [dictClass, hco]⟩
    | false =>
      by_cases hs : Sub w.parents c (builtin p.kind)
      · exact .inr ⟨by simpa [Takes, hco] using hs, c, by simp [dictClass, hco, (inst_iff h).2 hs], .inl ⟨rfl, hs, by simp [hco]⟩⟩
      · have : isInst w c (builtin p.kind) = false := by
          rw [← Bool.not_eq_true, (inst_iff h)]; exact hs
        exact .inl ⟨by simpa [Takes, hco] using hs, by simp [dictClass, hco, this]⟩
  · rw [if_neg hk]
    by_cases hs : Sub w.parents c (builtin p.kind)
    · have hi := (inst_iff h).2 hs
      have hcont : isContainer w c = true := by
        unfold isContainer
        cases hkind : p.kind <;> rw [hkind] at hi <;> simp [hi]
        exact absurd hkind hk
      exact .inr ⟨by unfold Takes; split
                     · exact fun e => absurd e hk
                     · exact hs,
        c, by simp [seqClass, hi, hcont], .inl ⟨rfl, hs, fun e => hk e.1⟩⟩
    · have hi : isInst w c (builtin p.kind) = false := by
        rw [← Bool.not_eq_true, (inst_iff h)]; exact hs
      cases hco : p.coerce with
      | false => exact .inl ⟨by simpa [Takes, hco] using hs, by simp [seqClass, hco, hi]⟩
      | true =>
        refine .inr ⟨by simp [Takes, hco, hk], builtin p.kind, ?_, .inr ⟨rfl, .inl hs⟩⟩
        cases hcont : isContainer w c with
        | true => simp [seqClass, hco, hi, hcont]
        | false =>
          simp only [seqClass, hco, hcont, Bool.not_true, Bool.false_and, Bool.not_false, Bool.and_self, if_true,
            Bool.false_eq_true, if_false]
          cases hl : isInst w (builtin .list) (builtin p.kind) with
          | false => simp
          | true =>
            have := root_sub h (by decide) ((inst_iff h).1 hl)
            simp [this]

theorem base_lt {w : World} (h : Tidy w) {p : PDecl} {c d : Nat} (hc : c < w.parents.length) (hb : Base w p c d) :
    d < w.parents.length := by
  rcases hb with ⟨rfl, _⟩ | ⟨rfl, _⟩
  · exact hc
  · exact builtin_lt h _

theorem base_sub {w : World} {p : PDecl} {c d : Nat} (hb : Base w p c d) : Sub w.parents d (builtin p.kind) := by
  rcases hb with ⟨rfl, hs, _⟩ | ⟨rfl, _⟩
  · exact hs
  · exact .refl _

theorem sub_mono {ps qs : List (Option Nat)} (hp : ∀ (x : Nat) v, ps[x]? = some v → qs[x]? = some v) {c b : Nat}
    (h : Sub ps c b) : Sub qs c b := by
  induction h with
  | refl c => exact .refl c
  | base h _ ih => exact .base (hp _ _ h) ih

/-- What an assignment stores. -/
structure Stores (w w' : World) (p : PDecl) (n c : Nat) (s d : Nat) : Prop where
  base : Base w p c d
  value : w'.slots n = some s
  others : ∀ m, m ≠ n → w'.slots m = w.slots m
  plain : ¬Watched p → s = d
  own : Watched p → Made w d → s = d
  copied : Watched p → ¬Made w d → (d, s) ∈ w'.registry

theorem assign_spec {w : World} (h : Tidy w) {p : PDecl} {n c : Nat} {pairs good : Bool} (hc : c < w.parents.length) :
    Tidy (assign p n c pairs good w) ∧
    (∀ (x : Nat) v, w.parents[x]? = some v → (assign p n c pairs good w).parents[x]? = some v) ∧
    (∀ d o, (d, o) ∈ w.registry → (d, o) ∈ (assign p n c pairs good w).registry) ∧
    ((¬Takes w p c pairs ∨ good = false) → assign p n c pairs good w = w) ∧
    (Takes w p c pairs → good = true → ∃ s d, Stores w (assign p n c pairs good w) p n c s d) := by
  unfold assign validate
  rcases class_spec h (p := p) (c := c) (pairs := pairs) with ⟨hn, he⟩ | ⟨ht, d, he, hb⟩
  · rw [he]
    exact ⟨h, fun _ _ h => h, fun _ _ h => h, fun _ => rfl, fun ht => absurd ht hn⟩
  · rw [he]
    cases good with
    | false => exact ⟨h, fun _ _ h => h, fun _ _ h => h, fun _ => rfl, fun _ e => by cases e⟩
    | true =>
      have hno : (¬Takes w p c pairs ∨ true = false) → False := fun e => e.elim (fun e => e ht) (fun e => by cases e)
      cases hw : (p.observe && p.kind != .tuple) with
      | false =>
        have hnw : ¬Watched p := by
          rintro ⟨h1, h2⟩
          rw [h1, Bool.true_and, bne_eq_false_iff_eq] at hw; exact h2 hw
        simp only [if_true, Bool.false_eq_true, if_false]
        refine ⟨tidy_slot h fun x hx => ?_, fun _ _ h => h, fun _ _ h => h, fun e => (hno e).elim, fun _ _ => ⟨d, d, ?_⟩⟩
        · cases hx; exact base_lt h hc hb
        · exact ⟨hb, by simp [setSlot], fun m hm => by simp [setSlot, hm], fun _ => rfl, fun x => absurd x hnw,
            fun x => absurd x hnw⟩
      | true =>
        have hiw : Watched p := by
          rw [Bool.and_eq_true, bne_iff_ne] at hw; exact hw
        obtain ⟨t, hsl, hlt, hreg, hpar, hcase⟩ := observable_spec h (base_lt h hc hb)
        simp only [if_true]
        refine ⟨tidy_slot t fun x hx => ?_, hpar, hreg, fun e => (hno e).elim, fun _ _ => ⟨(observable d w).1, d, ?_⟩⟩
        · cases hx; exact hlt
        · refine ⟨hb, by simp [setSlot], fun m hm => by simp [setSlot, hm, hsl], fun x => absurd hiw x, fun _ hm => ?_,
            fun _ hm => ?_⟩
          · rcases hcase with ⟨_, e⟩ | ⟨e, _⟩
            · rw [e]
            · exact absurd hm e
          · rcases hcase with ⟨e, _⟩ | ⟨_, e⟩
            · exact absurd e hm
            · exact e

/-! ## Histories -/

/-- What is known of the value of a property. -/
structure Held (w : World) (p : PDecl) (s : Nat) : Prop where
  sub : Sub w.parents s (builtin p.kind)
  made : Watched p → Made w s
  plainDict : p.kind = .dict → p.coerce = true → ¬Watched p → s = builtin p.kind
  copiedDict : p.kind = .dict → p.coerce = true → Watched p → (builtin p.kind, s) ∈ w.registry

theorem Held.mono {w w' : World} {p : PDecl} {s : Nat} (h : Held w p s)
    (hp : ∀ (x : Nat) v, w.parents[x]? = some v → w'.parents[x]? = some v)
    (hr : ∀ d o, (d, o) ∈ w.registry → (d, o) ∈ w'.registry) : Held w' p s :=
  ⟨sub_mono hp h.sub, fun x => let ⟨d, hd⟩ := h.made x; ⟨d, hr _ _ hd⟩, h.plainDict,
    fun a b c => hr _ _ (h.copiedDict a b c)⟩

theorem builtin_not_made {w : World} (h : Tidy w) (k : Kind) : ¬Made w (builtin k) := by
  rintro ⟨d, hd⟩
  have := h.known _ _ hd
  rw [h.roots _ (by cases k <;> decide)] at this; cases this

theorem stores_held {w w' : World} (h : Tidy w) (h' : Tidy w') {p : PDecl} {n c s d : Nat}
    (hp : ∀ (x : Nat) v, w.parents[x]? = some v → w'.parents[x]? = some v)
    (hr : ∀ d o, (d, o) ∈ w.registry → (d, o) ∈ w'.registry)
    (st : Stores w w' p n c s d) : Held w' p s ∧ Sub w'.parents s d := by
  have hsub : Sub w'.parents s d := by
    by_cases hw : Watched p
    · by_cases hm : Made w d
      · rw [st.own hw hm]; exact .refl _
      · exact .base (h'.known _ _ (st.copied hw hm)) (.refl _)
    · rw [st.plain hw]; exact .refl _
  have htrans : ∀ {a b c : Nat}, Sub w'.parents a b → Sub w'.parents b c → Sub w'.parents a c := by
    intro a b c h1 h2
    induction h1 with
    | refl => exact h2
    | base hp _ ih => exact .base hp (ih h2)
  have hbd : p.kind = .dict → p.coerce = true → d = builtin p.kind := fun h1 h2 => by
    rcases st.base with ⟨_, _, h3⟩ | ⟨h3, _⟩
    · exact absurd ⟨h1, h2⟩ h3
    · exact h3
  refine ⟨⟨htrans hsub (sub_mono hp (base_sub st.base)), fun hw => ?_, fun h1 h2 h3 => ?_, fun h1 h2 h3 => ?_⟩, hsub⟩
  · by_cases hm : Made w d
    · rw [st.own hw hm]; exact ⟨_, hr _ _ hm.choose_spec⟩
    · exact ⟨d, st.copied hw hm⟩
  · rw [st.plain h3]; exact hbd h1 h2
  · have := hbd h1 h2
    subst this
    exact st.copied h3 (builtin_not_made h _)

/-- The state after a history. -/
structure Good (P : Nat → PDecl) (w : World) : Prop where
  tidy : Tidy w
  held : ∀ n s, w.slots n = some s → Held w (P n) s

/-- One step keeps classes and registry entries. -/
structure Grows (w w' : World) : Prop where
  parents : ∀ (x : Nat) v, w.parents[x]? = some v → w'.parents[x]? = some v
  registry : ∀ d o, (d, o) ∈ w.registry → (d, o) ∈ w'.registry

theorem assign_good {P : Nat → PDecl} {w : World} (h : Good P w) {n c : Nat} {pairs good : Bool}
    (hc : c < w.parents.length) : Good P (assign (P n) n c pairs good w) ∧ Grows w (assign (P n) n c pairs good w) := by
  obtain ⟨t, hp, hr, hno, hyes⟩ := assign_spec h.tidy (p := P n) (n := n) (pairs := pairs) (good := good) hc
  refine ⟨⟨t, ?_⟩, hp, hr⟩
  by_cases hx : ¬Takes w (P n) c pairs ∨ good = false
  · rw [hno hx]; exact h.held
  · have h1 : Takes w (P n) c pairs := Classical.byContradiction fun e => hx (.inl e)
    have h2 : good = true := by
      cases hg : good with
      | true => rfl
      | false => exact absurd (.inr hg) hx
    obtain ⟨s, d, st⟩ := hyes h1 h2
    intro m s' hs'
    by_cases hm : m = n
    · subst hm
      rw [st.value] at hs'; cases hs'
      exact (stores_held h.tidy t hp hr st).1
    · rw [st.others m hm] at hs'
      exact (h.held m s' hs').mono hp hr

/-- The value of a property assigned to it again, or mutated. -/
theorem again {P : Nat → PDecl} {w : World} (h : Good P w) {n s : Nat} {good : Bool} (hs : w.slots n = some s) :
    assign (P n) n s true good w = w := by
  have hh := h.held n s hs
  have hlt := h.tidy.stored n s hs
  have hset : setSlot n (some s) w = w := by
    unfold setSlot
    cases w with
    | mk ps r sl =>
      simp only at hs ⊢
      congr 1
      funext m
      split
      · next e => rw [e, hs]
      · rfl
  unfold assign validate
  rcases class_spec h.tidy (p := P n) (c := s) (pairs := true) with ⟨hn, _⟩ | ⟨_, d, he, hb⟩
  · refine absurd ?_ hn
    unfold Takes
    split
    · exact fun _ => rfl
    · exact hh.sub
  · rw [he]
    cases good with
    | false => rfl
    | true =>
      cases hw : ((P n).observe && (P n).kind != .tuple) with
      | false =>
        have hnw : ¬Watched (P n) := by
          rintro ⟨h1, h2⟩
          rw [h1, Bool.true_and, bne_eq_false_iff_eq] at hw; exact h2 hw
        simp only [if_true, Bool.false_eq_true, if_false]
        have : d = s := by
          rcases hb with ⟨e, _⟩ | ⟨e, hx | ⟨h1, h2⟩⟩
          · exact e
          · exact absurd hh.sub hx
          · rw [e, hh.plainDict h1 h2 hnw]
        rw [this]; exact hset
      | true =>
        have hiw : Watched (P n) := by
          rw [Bool.and_eq_true, bne_iff_ne] at hw; exact hw
        simp only [if_true]
        have key : observable d w = (s, w) := by
          rcases hb with ⟨e, _⟩ | ⟨e, hx | ⟨h1, h2⟩⟩
          · subst e
            rcases (observable_spec h.tidy hlt).2.2.2.2.2 with ⟨_, e⟩ | ⟨e, _⟩
            · exact e
            · exact absurd (hh.made hiw) e
          · exact absurd hh.sub hx
          · subst e
            have hm := hh.copiedDict h1 h2 hiw
            unfold observable
            split
            · next o ho => rw [h.tidy.oneCopy _ _ _ (lookup_mem ho) hm]
            · next hn => exact absurd hm (lookup_none hn _)
        rw [key]; exact hset

theorem mutate_same {P : Nat → PDecl} {w : World} (h : Good P w) (n : Nat) (good : Bool) :
    mutate (P n) n good w = w := by
  unfold mutate
  split
  · rfl
  · next c hc =>
    split
    · exact again h hc
    · rfl

theorem exec_good {P : Nat → PDecl} {w : World} (h : Good P w) (o : Op) : Good P (exec P w o) ∧ Grows w (exec P w o) := by
  cases o with
  | derive b =>
    simp only [exec]
    split
    · next hb =>
      have g : Grows w { w with parents := w.parents ++ [some b] } := ⟨fun _ _ hv => keep_get hv, fun _ _ h => h⟩
      exact ⟨⟨tidy_derive h.tidy hb, fun n s hs => (h.held n s hs).mono g.parents g.registry⟩, g⟩
    · exact ⟨h, fun _ _ h => h, fun _ _ h => h⟩
  | assign n c pairs good =>
    simp only [exec]
    split
    · next hc => exact assign_good h hc
    · exact ⟨h, fun _ _ h => h, fun _ _ h => h⟩
  | delete n =>
    refine ⟨⟨tidy_slot h.tidy (fun c hc => by cases hc), fun m s hs => ?_⟩, fun _ _ h => h, fun _ _ h => h⟩
    simp only [exec, setSlot] at hs
    split at hs
    · cases hs
    · have := h.held m s hs
      exact ⟨this.sub, this.made, this.plainDict, this.copiedDict⟩
  | mutate n good =>
    simp only [exec]
    rw [mutate_same h]
    exact ⟨h, fun _ _ h => h, fun _ _ h => h⟩

theorem good_start (P : Nat → PDecl) : Good P start := ⟨tidy_start, fun _ _ h => by cases h⟩

theorem good_fold {P : Nat → PDecl} : ∀ (ops : List Op) {w : World}, Good P w →
    Good P (ops.foldl (exec P) w) ∧ Grows w (ops.foldl (exec P) w)
  | [], _, h => ⟨h, fun _ _ h => h, fun _ _ h => h⟩
  | o :: ops, w, h => by
      have h1 := exec_good h o
      have h2 := good_fold ops h1.1
      exact ⟨h2.1, fun x v hv => h2.2.parents x v (h1.2.parents x v hv), fun d o hd => h2.2.registry d o (h1.2.registry d o hd)⟩

theorem good_run (P : Nat → PDecl) (ops : List Op) : Good P (run P ops) := (good_fold ops (good_start P)).1

/-! ## Theorems -/

/-- Whatever happened before, a class has at most one observable class, which is derived from
it and belongs to no other, and no class made by `observable_copy` is made observable again. -/
theorem C88_registry (P : Nat → PDecl) (ops : List Op) :
    let w := run P ops
    (∀ d o, (d, o) ∈ w.registry → w.parents[o]? = some (some d)) ∧
    (∀ d o o', (d, o) ∈ w.registry → (d, o') ∈ w.registry → o = o') ∧
    (∀ d d' o, (d, o) ∈ w.registry → (d', o) ∈ w.registry → d = d') ∧
    (∀ c o, Made w c → (c, o) ∉ w.registry) := by
  have t := (good_run P ops).tidy
  exact ⟨t.known, t.oneCopy, t.oneSource, fun c o ⟨d, hd⟩ => t.noTower d c o hd⟩

/-- At every time the value of a container property is an instance of the builtin container,
and if mutations are observed it has a class made by `observable_copy`. -/
theorem C88_always (P : Nat → PDecl) (ops : List Op) (n s : Nat) (hs : (run P ops).slots n = some s) :
    Sub (run P ops).parents s (builtin (P n).kind) ∧ (Watched (P n) → Made (run P ops) s) :=
  let h := (good_run P ops).held n s hs
  ⟨h.sub, h.made⟩

/-- A value that is an instance of the property's container keeps its class: the stored value
is an instance of it, and of exactly it if mutations are not observed.  A Dictionary that
coerces is the exception. -/
theorem C88_retained (P : Nat → PDecl) (ops : List Op) (n c : Nat) (pairs : Bool) (hc : c < (run P ops).parents.length)
    (hd : ¬((P n).kind = .dict ∧ (P n).coerce = true)) (hs : Sub (run P ops).parents c (builtin (P n).kind)) :
    let w' := run P (ops ++ [.assign n c pairs true])
    ∃ s, w'.slots n = some s ∧ Sub w'.parents s c ∧ (¬Watched (P n) → s = c) := by
  have h := good_run P ops
  simp only [run, List.foldl_append, List.foldl_cons, List.foldl_nil]
  simp only [show List.foldl (exec P) start ops = run P ops from rfl, exec, if_pos hc]
  obtain ⟨t, hp, hr, _, hyes⟩ := assign_spec h.tidy (p := P n) (n := n) (pairs := pairs) (good := true) hc
  obtain ⟨s, d, st⟩ := hyes (by
    unfold Takes
    split
    · next e => exact fun e' => absurd ⟨e', e⟩ hd
    · exact hs) rfl
  have hdc : d = c := by
    rcases st.base with ⟨e, _⟩ | ⟨_, hx | hx⟩
    · exact e
    · exact absurd hs hx
    · exact absurd hx hd
  subst hdc
  exact ⟨s, st.value, (stores_held h.tidy t hp hr st).2, st.plain⟩

/-- A value that is coerced is stored in the builtin container, or in its observable class. -/
theorem C88_coerced (P : Nat → PDecl) (ops : List Op) (n c : Nat) (pairs : Bool) (hc : c < (run P ops).parents.length)
    (hco : (P n).coerce = true) (hpairs : (P n).kind = .dict → pairs = true)
    (hd : (P n).kind = .dict ∨ ¬Sub (run P ops).parents c (builtin (P n).kind)) :
    let w' := run P (ops ++ [.assign n c pairs true])
    ∃ s, w'.slots n = some s ∧ (¬Watched (P n) → s = builtin (P n).kind) ∧
      (Watched (P n) → (builtin (P n).kind, s) ∈ w'.registry) := by
  have h := good_run P ops
  simp only [run, List.foldl_append, List.foldl_cons, List.foldl_nil]
  simp only [show List.foldl (exec P) start ops = run P ops from rfl, exec, if_pos hc]
  obtain ⟨t, hp, hr, _, hyes⟩ := assign_spec h.tidy (p := P n) (n := n) (pairs := pairs) (good := true) hc
  obtain ⟨s, d, st⟩ := hyes (by unfold Takes; rw [if_pos hco]; exact hpairs) rfl
  have hdc : d = builtin (P n).kind := by
    rcases st.base with ⟨_, hs, hx⟩ | ⟨e, _⟩
    · rcases hd with hd | hd
      · exact absurd ⟨hd, hco⟩ hx
      · exact absurd hs hd
    · exact e
  subst hdc
  exact ⟨s, st.value, st.plain, fun hw => st.copied hw (builtin_not_made h.tidy _)⟩

/-- What the property does not take changes nothing: no value, no class. -/
theorem C88_refused (P : Nat → PDecl) (ops : List Op) (n c : Nat) (pairs good : Bool)
    (hc : c < (run P ops).parents.length) (hx : ¬Takes (run P ops) (P n) c pairs ∨ good = false) :
    run P (ops ++ [.assign n c pairs good]) = run P ops := by
  simp only [run, List.foldl_append, List.foldl_cons, List.foldl_nil]
  simp only [show List.foldl (exec P) start ops = run P ops from rfl, exec, if_pos hc]
  exact (assign_spec (good_run P ops).tidy hc).2.2.2.1 hx

/-- Assigning the value of a property to it again, and any mutation, leave its class as it is
and make no class. -/
theorem C88_again (P : Nat → PDecl) (ops : List Op) (n : Nat) (good : Bool) :
    run P (ops ++ [.mutate n good]) = run P ops ∧
    ∀ s, (run P ops).slots n = some s → run P (ops ++ [.assign n s true good]) = run P ops := by
  have h := good_run P ops
  simp only [run, List.foldl_append, List.foldl_cons, List.foldl_nil]
  simp only [show List.foldl (exec P) start ops = run P ops from rfl, exec]
  refine ⟨mutate_same h n good, fun s hs => ?_⟩
  rw [if_pos (h.tidy.stored n s hs)]
  exact again h hs

/-- Observed values of one class have one class, on whatever property and at whatever time. -/
theorem C88_shared (P : Nat → PDecl) (ops more : List Op) (n m c : Nat) (pn pm : Bool)
    (hc : c < (run P ops).parents.length) (hn : Watched (P n)) (hm : Watched (P m))
    (hk : (P n).kind = (P m).kind) (hs : Sub (run P ops).parents c (builtin (P n).kind))
    (hdn : ¬((P n).kind = .dict ∧ (P n).coerce = true)) (hdm : ¬((P m).kind = .dict ∧ (P m).coerce = true)) :
    let w := run P (ops ++ [.assign n c pn true])
    let w' := run P (ops ++ [.assign n c pn true] ++ more ++ [.assign m c pm true])
    w'.slots m = w.slots n := by
  intro w w'
  have h := good_run P ops
  have hw : w = assign (P n) n c pn true (run P ops) := by
    simp only [w, run, List.foldl_append, List.foldl_cons, List.foldl_nil]
    simp only [show List.foldl (exec P) start ops = run P ops from rfl, exec, if_pos hc]
  obtain ⟨t, hp, hr, _, hyes⟩ := assign_spec h.tidy (p := P n) (n := n) (pairs := pn) (good := true) hc
  rw [← hw] at t hp hr hyes
  obtain ⟨s, d, st⟩ := hyes (by
    unfold Takes
    split
    · next e => exact fun e' => absurd ⟨e', e⟩ hdn
    · exact hs) rfl
  have hd : d = c := by
    rcases st.base with ⟨e, _⟩ | ⟨_, hx | hx⟩
    · exact e
    · exact absurd hs hx
    · exact absurd hx hdn
  subst hd
  have g : Good P w := good_run P _
  have g2 := good_fold more g
  have hw2 : run P (ops ++ [.assign n d pn true] ++ more) = List.foldl (exec P) w more := by
    simp only [w, run, List.foldl_append, List.foldl_cons, List.foldl_nil]
  have hc2 : d < (List.foldl (exec P) w more).parents.length := by
    have hx : (run P ops).parents[d]? = some ((run P ops).parents[d]) := List.getElem?_eq_getElem hc
    exact (List.getElem?_eq_some_iff.1 (g2.2.parents _ _ (hp _ _ hx))).1
  have hw' : w' = assign (P m) m d pm true (List.foldl (exec P) w more) := by
    simp only [w']
    rw [run, List.foldl_append, ← run, hw2]
    simp only [List.foldl_cons, List.foldl_nil, exec, if_pos hc2]
  have hs2 : Sub (List.foldl (exec P) w more).parents d (builtin (P m).kind) :=
    hk ▸ sub_mono g2.2.parents (sub_mono hp hs)
  obtain ⟨t', hp', hr', _, hyes'⟩ := assign_spec g2.1.tidy (p := P m) (n := m) (pairs := pm) (good := true) hc2
  rw [← hw'] at t' hp' hr' hyes'
  obtain ⟨s', d', st'⟩ := hyes' (by
    unfold Takes
    split
    · next e => exact fun e' => absurd ⟨e', e⟩ hdm
    · exact hs2) rfl
  have hd' : d' = d := by
    rcases st'.base with ⟨e, _⟩ | ⟨_, hx | hx⟩
    · exact e
    · exact absurd hs2 hx
    · exact absurd hx hdm
  subst hd'
  rw [st'.value, st.value]
  congr 1
  by_cases hmade : Made (run P ops) d'
  · have : Made (List.foldl (exec P) w more) d' := by
      obtain ⟨x, hx⟩ := hmade; exact ⟨x, g2.2.registry _ _ (hr _ _ hx)⟩
    rw [st.own hn hmade, st'.own hm this]
  · have hreg := g2.2.registry _ _ (st.copied hn hmade)
    have : ¬Made (List.foldl (exec P) w more) d' := by
      rintro ⟨x, hx⟩
      exact g2.1.tidy.noTower _ _ _ hx hreg
    exact t'.oneCopy _ _ _ (st'.copied hm this) (hr' _ _ hreg)

/-- Classes and lists of the registry, without repetition. -/
def names (r : List (Nat × Nat)) : List Nat := r.map (·.1) ++ r.map (·.2)

structure Count (w : World) (k : Nat) : Prop where
  size : w.parents.length = 6 + k + w.registry.length
  nodup : (names w.registry).Nodup
  lt : ∀ x ∈ names w.registry, x < w.parents.length

theorem count_observable {w : World} {k c : Nat} (h : Count w k) (hc : c < w.parents.length) :
    Count (observable c w).2 k := by
  unfold observable
  split
  · exact h
  · next hn =>
    split
    · exact h
    · next ha =>
      have hkey : c ∉ w.registry.map (·.1) := by
        intro hm
        obtain ⟨⟨a, b⟩, hm', rfl⟩ := List.mem_map.1 hm
        exact lookup_none hn b hm'
      have hval : c ∉ w.registry.map (·.2) := by
        intro hm
        obtain ⟨x, hm', rfl⟩ := List.mem_map.1 hm
        exact ha (List.any_eq_true.2 ⟨x, hm', by simp⟩)
      have hfresh : ∀ x ∈ names w.registry, x ≠ w.parents.length := fun x hx e => by
        have := h.lt x hx; omega
      refine ⟨by simp [h.size]; omega, ?_, ?_⟩
      · have hnd := h.nodup
        simp only [names, List.map_append, List.map_cons, List.map_nil] at hnd ⊢
        rw [List.nodup_append] at hnd ⊢
        obtain ⟨h1, h2, h3⟩ := hnd
        refine ⟨?_, ?_, ?_⟩
        · rw [List.nodup_append]
          exact ⟨h1, by simp, fun a hain b hb => by
            simp only [List.mem_singleton] at hb; subst hb; rintro rfl; exact hkey hain⟩
        · rw [List.nodup_append]
          exact ⟨h2, by simp, fun a ha b hb => by
            simp only [List.mem_singleton] at hb; subst hb
            exact hfresh a (List.mem_append_right _ ha)⟩
        · intro a ha b hb
          simp only [List.mem_append, List.mem_singleton] at ha hb
          rcases ha with ha | rfl <;> rcases hb with hb | rfl
          · exact h3 a ha b hb
          · exact hfresh a (List.mem_append_left _ ha)
          · rintro rfl; exact hval hb
          · omega
      · intro x hx
        simp only [names, List.map_append, List.map_cons, List.map_nil, List.mem_append, List.mem_singleton] at hx
        have hl : ∀ x ∈ names w.registry, x < w.parents.length := h.lt
        simp only [names, List.mem_append] at hl
        simp only [List.length_append, List.length_singleton]
        rcases hx with (hx | rfl) | (hx | rfl)
        · have := hl x (.inl hx); omega
        · omega
        · have := hl x (.inr hx); omega
        · omega

theorem count_slot {w : World} {k n : Nat} {v : Option Nat} (h : Count w k) : Count (setSlot n v w) k := ⟨h.size, h.nodup, h.lt⟩

theorem count_assign {w : World} (t : Tidy w) {k n c : Nat} {p : PDecl} {pairs good : Bool} (h : Count w k)
    (hc : c < w.parents.length) : Count (assign p n c pairs good w) k := by
  unfold assign validate
  rcases class_spec t (p := p) (c := c) (pairs := pairs) with ⟨_, he⟩ | ⟨_, d, he, hb⟩
  · rw [he]; exact h
  · rw [he]
    cases good with
    | false => exact h
    | true =>
      cases (p.observe && p.kind != .tuple) with
      | false => exact count_slot h
      | true => exact count_slot (count_observable h (base_lt t hc hb))

theorem count_fold {P : Nat → PDecl} : ∀ (ops : List Op) {w : World} {k : Nat}, Good P w → Count w k →
    ∃ j, j ≤ k + derives ops ∧ Count (ops.foldl (exec P) w) j
  | [], _, k, _, h => ⟨k, by simp [derives], h⟩
  | o :: ops, w, k, g, h => by
      have g' := (exec_good g o).1
      have key : ∀ {k'}, Count (exec P w o) k' → k' + derives ops ≤ k + derives (o :: ops) →
          ∃ j, j ≤ k + derives (o :: ops) ∧ Count ((o :: ops).foldl (exec P) w) j := by
        intro k' hk' hle
        obtain ⟨j, hj, hcj⟩ := count_fold ops g' hk'
        exact ⟨j, by omega, hcj⟩
      cases o with
      | derive b =>
        simp only [exec] at key
        split at key
        · exact key (k' := k + 1) ⟨by simp [h.size]; omega, h.nodup, fun x hx => by have := h.lt x hx; simp; omega⟩
            (by simp [derives]; omega)
        · exact key h (by simp [derives])
      | assign n c pairs good =>
        simp only [exec] at key
        split at key
        · next hc => exact key (count_assign g.tidy h hc) (by simp [derives])
        · exact key h (by simp [derives])
      | delete n => exact key (count_slot h) (by simp [derives])
      | mutate n good =>
        simp only [exec, mutate_same g] at key
        exact key h (by simp [derives])

/-- However many assignments and mutations there are, no more classes are made than the six
classes of the start and those the program derived itself. -/
theorem C88_bounded (P : Nat → PDecl) (ops : List Op) :
    (run P ops).registry.length ≤ 6 + derives ops ∧ (run P ops).parents.length ≤ 2 * (6 + derives ops) := by
  obtain ⟨j, hj, h⟩ := count_fold ops (good_start P) (k := 0) ⟨rfl, by decide, fun x hx => by cases hx⟩
  have hsub : names (run P ops).registry ⊆ List.range (run P ops).parents.length := fun x hx =>
    List.mem_range.2 (h.lt x hx)
  have hle : (names (run P ops).registry).length ≤ _ := (h.nodup.subperm hsub).length_le
  have hsz := h.size
  rw [show List.foldl (exec P) start ops = run P ops from rfl] at hsz
  simp only [names, List.length_append, List.length_map, List.length_range] at hle
  omega

/-! ## Examples -/

/-- Property 0 is a List, 1 and 2 are observed Lists, 3 is a Dictionary that coerces, 4 an
observed List that coerces. -/
def decls : Nat → PDecl
  | 0 => { kind := .list }
  | 1 => { kind := .list, observe := true }
  | 2 => { kind := .list, observe := true }
  | 3 => { kind := .dict, coerce := true }
  | _ => { kind := .list, coerce := true, observe := true }

/-- A class 6 derived from list; a value of it is assigned to property 1, mutated, and passed
on to properties 0 and 2; a class 8 derived from the observable class 7. -/
def story : List Op :=
  [.derive 1, .assign 1 6 true true, .mutate 1 true, .assign 0 7 true true, .assign 2 7 true true,
   .derive 7, .assign 2 8 true true, .derive 3, .assign 3 10 true true, .assign 4 0 true true]

theorem C88_example :
    let w := run decls story
    w.slots 0 = some 7 ∧ w.slots 1 = some 7 ∧ w.slots 2 = some 9 ∧ w.slots 3 = some 3 ∧ w.slots 4 = some 11 ∧
    w.registry = [(6, 7), (8, 9), (1, 11)] ∧ w.parents.length = 12 := by decide +kernel

/-- The hypotheses of the theorems are met in the example: class 6 in `C88_retained` and
`C88_shared`, class 10 in `C88_coerced`, class 5 in `C88_refused`. -/
theorem C88_example_hypotheses :
    Sub (run decls story).parents 6 (builtin (decls 1).kind) ∧ Watched (decls 1) ∧ Watched (decls 2) ∧
    ¬Takes (run decls story) (decls 0) 5 true ∧ (decls 3).coerce = true := by
  have t := (good_run decls story).tidy
  refine ⟨(inst_iff t).1 (by decide +kernel), ⟨rfl, by decide⟩, ⟨rfl, by decide⟩, fun h => ?_, rfl⟩
  have := (inst_iff t).2 (show Sub _ 5 1 from h)
  revert this
  decide +kernel

/-- A value of a class derived from dict loses its class in a Dictionary that coerces. -/
theorem C88_coerced_example : ∃ s, (run decls story).slots 3 = some s ∧ ¬Sub (run decls story).parents s 10 := by
  refine ⟨3, by decide +kernel, fun h => ?_⟩
  have := (inst_iff (good_run decls story).tidy).2 h
  revert this
  decide +kernel

end Verif.ContCls
