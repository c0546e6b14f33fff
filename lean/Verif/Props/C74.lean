import Verif.Spec.Names
import Verif.Lemmas.Notify

/-!
# C74: an attribute denotes the value under its own name, unless a property object is
declared under two names
-/

namespace Verif.Names
open Verif.Names.Spec

/-- From `h` to `h'` only names changed, only of `S`, and only to `s`. -/
structure Named (S : PId → Prop) (s : PyStr) (h h' : List PObj) : Prop where
  len : h'.length = h.length
  at_ : ∀ i o, h[i]? = some o → ∃ o', h'[i]? = some o' ∧ o'.kids = o.kids ∧
    (o'.name = o.name ∨ (S i ∧ o'.name = s))

theorem Named.refl (S : PId → Prop) (s : PyStr) (h : List PObj) : Named S s h h :=
  ⟨rfl, fun _ o ho => ⟨o, ho, rfl, .inl rfl⟩⟩

theorem Named.trans {S : PId → Prop} {s : PyStr} {h h1 h2 : List PObj} (a : Named S s h h1)
    (b : Named S s h1 h2) : Named S s h h2 := by
  refine ⟨b.len.trans a.len, fun i o ho => ?_⟩
  obtain ⟨o1, h1, k1, n1⟩ := a.at_ i o ho
  obtain ⟨o2, h2, k2, n2⟩ := b.at_ i o1 h1
  refine ⟨o2, h2, k2.trans k1, ?_⟩
  rcases n2 with n2 | n2
  · rcases n1 with n1 | n1
    · exact .inl (n2.trans n1)
    · exact .inr ⟨n1.1, n2.trans n1.2⟩
  · exact .inr n2

theorem Named.mono {S T : PId → Prop} {s : PyStr} {h h' : List PObj} (a : Named S s h h')
    (hst : ∀ i, S i → T i) : Named T s h h' :=
  ⟨a.len, fun i o ho => by
    obtain ⟨o1, h1, k1, n1⟩ := a.at_ i o ho
    exact ⟨o1, h1, k1, n1.imp id fun x => ⟨hst i x.1, x.2⟩⟩⟩

theorem Named.back {S : PId → Prop} {s : PyStr} {h h' : List PObj} (a : Named S s h h') {i : Nat} {o' : PObj}
    (ho : h'[i]? = some o') : ∃ o, h[i]? = some o ∧ o'.kids = o.kids ∧
      (o'.name = o.name ∨ (S i ∧ o'.name = s)) := by
  have hi : i < h.length := by
    rw [← a.len]
    exact (List.getElem?_eq_some_iff.1 ho).1
  obtain ⟨o1, h1, k1, n1⟩ := a.at_ i h[i] (List.getElem?_eq_getElem hi)
  rw [ho] at h1
  cases h1
  exact ⟨_, List.getElem?_eq_getElem hi, k1, n1⟩

theorem Named.within {S : PId → Prop} {s : PyStr} {h h' : List PObj} (a : Named S s h h') {p q : PId} :
    Within h' p q ↔ Within h p q := by
  constructor
  · intro w
    induction w with
    | self => exact .self
    | nested _ ho hr ih =>
      obtain ⟨o, h1, k, _⟩ := a.back ho
      exact .nested ih h1 (k ▸ hr)
  · intro w
    induction w with
    | self => exact .self
    | nested _ ho hr ih =>
      obtain ⟨o, h1, k, _⟩ := a.at_ _ _ ho
      exact .nested ih h1 (k ▸ hr)

theorem within_trans {h : List PObj} {p q r : PId} (a : Within h p q) (b : Within h q r) : Within h p r := by
  induction b with
  | self => exact a
  | nested _ ho hr ih => exact .nested ih ho hr

theorem within_kid {h : List PObj} {p q : PId} {o : PObj} (ho : h[p]? = some o) (w : Within h p q) :
    q = p ∨ ∃ k ∈ o.kids, Within h k q := by
  induction w with
  | self => exact .inl rfl
  | @nested q r o' _ ho' hr ih =>
    right
    rcases ih with rfl | ⟨k, hk, w⟩
    · rw [ho] at ho'
      cases ho'
      exact ⟨r, hr, .self⟩
    · exact ⟨k, hk, .nested w ho' hr⟩

theorem setAll_named {f : PId → List PObj → Bool × List PObj} {S : PId → Prop} {s : PyStr} {h0 : List PObj} :
    ∀ (ks : List PId) (h : List PObj), Named S s h0 h →
    (∀ k ∈ ks, ∀ h, Named S s h0 h → Named S s h (f k h).2) → Named S s h (setAll f ks h).2
  | [], h, _, _ => .refl _ _ _
  | k :: ks, h, h0h, hf => by
      have h1 := hf k (by simp) h h0h
      unfold setAll
      rcases hr : f k h with ⟨b, h'⟩
      rw [hr] at h1
      cases b with
      | false => exact h1
      | true =>
        exact h1.trans (setAll_named ks h' (h0h.trans h1) fun k hk => hf k (List.mem_cons_of_mem _ hk))

/-- Setting a name touches what is nested in the property, and sets just that name. -/
theorem setName_named (s : PyStr) : ∀ (n : Nat) (p : PId) (h : List PObj),
    Named (Within h p) s h (setName n s p h).2
  | 0, _, h => .refl _ _ h
  | n + 1, p, h => by
      unfold setName
      cases ho : h[p]? with
      | none => exact .refl _ _ h
      | some o =>
        have hs := setAll_named (f := setName n s) (S := Within h p) (s := s) (h0 := h) o.kids h (.refl _ _ h)
          (fun k hk h' hh => (setName_named s n k h').mono fun i w =>
            within_trans (.nested .self ho hk) (hh.within.1 w))
        dsimp only
        rcases hr : setAll (setName n s) o.kids h with ⟨b, h'⟩
        rw [hr] at hs
        cases b with
        | false => exact hs
        | true =>
          refine hs.trans ⟨by simp, fun i o1 ho1 => ?_⟩
          by_cases hi : i = p
          · subst hi
            exact ⟨{ o1 with name := s }, by simp [ho1], rfl, .inr ⟨.self, rfl⟩⟩
          · exact ⟨o1, by simp [ho1, Ne.symm hi], rfl, .inl rfl⟩

/-- A name, once set to `s`, stays `s`. -/
theorem Named.keeps {S : PId → Prop} {s : PyStr} {h h' : List PObj} (a : Named S s h h') {q : PId}
    (hq : ∀ o, h[q]? = some o → o.name = s) : ∀ o, h'[q]? = some o → o.name = s := by
  intro o ho
  obtain ⟨o1, h1, _, n⟩ := a.back ho
  rcases n with n | n
  · exact n.trans (hq o1 h1)
  · exact n.2

theorem setAll_all {f : PId → List PObj → Bool × List PObj} {s : PyStr} {h0 : List PObj}
    (hf : ∀ k h, (f k h).1 = true → ∀ q, Within h k q → ∀ o, (f k h).2[q]? = some o → o.name = s)
    (hn : ∀ k h, Named (Within h k) s h (f k h).2) :
    ∀ (ks : List PId) (h : List PObj), Named (fun _ => True) s h0 h → (setAll f ks h).1 = true →
      ∀ k ∈ ks, ∀ q, Within h0 k q → ∀ o, (setAll f ks h).2[q]? = some o → o.name = s
  | [], _, _, _, _, hk, _, _ => by cases hk
  | k0 :: ks, h, h0h, hok, k, hk, q, hq => by
      have h2 := (hn k0 h).mono (T := fun _ => True) fun _ _ => trivial
      unfold setAll at hok ⊢
      rcases hr : f k0 h with ⟨b, h'⟩
      rw [hr] at hok h2
      cases b with
      | false => cases hok
      | true =>
        dsimp only at hok ⊢
        rcases List.mem_cons.1 hk with rfl | hk
        · have h1 := hf k h (by rw [hr]) q (h0h.within.2 hq)
          rw [hr] at h1
          have h3 := setAll_named (f := f) (S := fun _ => True) (s := s) (h0 := h') ks h' (.refl _ _ _)
            (fun k _ h _ => (hn k h).mono fun _ _ => trivial)
          exact h3.keeps h1
        · exact setAll_all hf hn ks h' (h0h.trans h2) hok k hk q hq

/-- Setting a name that succeeds names everything nested. -/
theorem setName_all (s : PyStr) : ∀ (n : Nat) (p : PId) (h : List PObj), (setName n s p h).1 = true →
    ∀ q, Within h p q → ∀ o, (setName n s p h).2[q]? = some o → o.name = s
  | 0, _, _, hok, _, _ => by cases hok
  | n + 1, p, h, hok, q, hq => by
      unfold setName at hok ⊢
      cases ho : h[p]? with
      | none =>
        intro o hqo
        cases hq with
        | self => rw [ho] at hqo; cases hqo
        | nested w ho' hr =>
          exfalso
          have : ∀ {x}, Within h p x → x = p := by
            intro x w
            induction w with
            | self => rfl
            | nested _ ho1 _ ih => subst ih; rw [ho] at ho1; cases ho1
          have := this w
          subst this
          rw [ho] at ho'
          cases ho'
      | some o =>
        simp only [ho] at hok ⊢
        have ih := setAll_all (f := setName n s) (s := s) (h0 := h) (fun k h => setName_all s n k h)
          (fun k h => setName_named s n k h) o.kids h (.refl _ _ _)
        rcases hr : setAll (setName n s) o.kids h with ⟨b, h'⟩
        rw [hr] at hok ih
        cases b with
        | false => cases hok
        | true =>
          intro o2 ho2
          dsimp only at ho2
          by_cases hqp : q = p
          · subst hqp
            rw [List.getElem?_modify] at ho2
            cases h3 : h'[q]? with
            | none => rw [h3] at ho2; simp at ho2
            | some o3 =>
              rw [h3] at ho2
              simp at ho2
              rw [← ho2]
          · rw [List.getElem?_modify_ne _ _ (Ne.symm hqp)] at ho2
            rcases within_kid ho hq with e | ⟨k, hk, w⟩
            · exact absurd e hqp
            · exact ih rfl k hk q w o2 ho2

theorem nameOwn_named (n : Nat) : ∀ (l : List (PyStr × PId)) (h : List PObj),
    (nameOwn n l h).2.length = h.length ∧ ∀ i o, h[i]? = some o → ∃ o', (nameOwn n l h).2[i]? = some o' ∧
      o'.kids = o.kids ∧ (o'.name = o.name ∨ ∃ k p, (k, p) ∈ l ∧ Within h p i ∧ o'.name = k)
  | [], h => ⟨rfl, fun _ o ho => ⟨o, ho, rfl, .inl rfl⟩⟩
  | (k, p) :: l, h => by
      have hn := setName_named k n p h
      unfold nameOwn
      rcases hr : setName n k p h with ⟨b, h'⟩
      rw [hr] at hn
      dsimp only at hn
      cases b with
      | false =>
        refine ⟨hn.len, fun i o ho => ?_⟩
        obtain ⟨o', h1, h2, h3⟩ := hn.at_ i o ho
        exact ⟨o', h1, h2, h3.imp id fun x => ⟨k, p, by simp, x.1, x.2⟩⟩
      | true =>
        dsimp only
        have ih := nameOwn_named n l h'
        refine ⟨ih.1.trans hn.len, fun i o ho => ?_⟩
        obtain ⟨o', h1, h2, h3⟩ := hn.at_ i o ho
        obtain ⟨o2, g1, g2, g3⟩ := ih.2 i o' h1
        refine ⟨o2, g1, g2.trans h2, ?_⟩
        rcases g3 with g3 | ⟨k2, p2, hm, hw, hk⟩
        · rcases h3 with h3 | h3
          · exact .inl (g3.trans h3)
          · exact .inr ⟨k, p, by simp, h3.1, g3.trans h3.2⟩
        · exact .inr ⟨k2, p2, by simp [hm], hn.within.1 hw, hk⟩

/-- The last declaration that reaches a property object names it. -/
theorem nameOwn_last (n : Nat) (b : PyStr) (q : PId) (post : List (PyStr × PId)) :
    ∀ (pre : List (PyStr × PId)) (h : List PObj), (nameOwn n (pre ++ (b, q) :: post) h).1 = true →
    ∀ p o, h[p]? = some o → Within h q p → (∀ k r, (k, r) ∈ post → ¬ Within h r p) →
    ∃ o', (nameOwn n (pre ++ (b, q) :: post) h).2[p]? = some o' ∧ o'.name = b
  | [], h, hok, p, o, ho, hw, hpost => by
      have hn := setName_named b n q h
      have ha := setName_all b n q h
      simp only [List.nil_append] at hok ⊢
      unfold nameOwn at hok ⊢
      rcases hr : setName n b q h with ⟨t, h'⟩
      rw [hr] at hn ha hok
      dsimp only at hn ha hok
      cases t with
      | false => cases hok
      | true =>
        dsimp only
        obtain ⟨o', h1, _⟩ := hn.at_ p o ho
        obtain ⟨o2, g1, _, g3⟩ := (nameOwn_named n post h').2 p o' h1
        refine ⟨o2, g1, ?_⟩
        rcases g3 with g3 | ⟨k2, p2, hm, hw2, _⟩
        · exact g3.trans (ha rfl p hw o' h1)
        · exact absurd (hn.within.1 hw2) (hpost k2 p2 hm)
  | (k, r) :: pre, h, hok, p, o, ho, hw, hpost => by
      have hn := setName_named k n r h
      simp only [List.cons_append] at hok ⊢
      unfold nameOwn at hok ⊢
      rcases hr : setName n k r h with ⟨t, h'⟩
      rw [hr] at hn hok
      dsimp only at hn hok
      cases t with
      | false => cases hok
      | true =>
        dsimp only at hok ⊢
        obtain ⟨o', h1, _⟩ := hn.at_ p o ho
        exact nameOwn_last n b q post pre h' hok p o' h1 (hn.within.2 hw)
          fun k r hm w => hpost k r hm (hn.within.1 w)

/-- A declared property object has the name of a declaration that reaches it. -/
theorem nameOwn_mine (n : Nat) : ∀ (l : List (PyStr × PId)) (h : List PObj), (nameOwn n l h).1 = true →
    ∀ k p, (k, p) ∈ l → ∀ o, h[p]? = some o → ∃ o', (nameOwn n l h).2[p]? = some o' ∧
      ∃ k2 p2, (k2, p2) ∈ l ∧ Within h p2 p ∧ o'.name = k2
  | [], _, _, _, _, hm, _, _ => by cases hm
  | (k0, p0) :: l, h, hok, k, p, hm, o, ho => by
      have hn := setName_named k0 n p0 h
      have ha := setName_all k0 n p0 h
      unfold nameOwn at hok ⊢
      rcases hr : setName n k0 p0 h with ⟨t, h'⟩
      rw [hr] at hn hok ha
      dsimp only at hn hok ha
      cases t with
      | false => cases hok
      | true =>
        dsimp only at hok ⊢
        obtain ⟨o', h1, _⟩ := hn.at_ p o ho
        rcases List.mem_cons.1 hm with e | hm
        · cases e
          obtain ⟨o2, g1, _, g3⟩ := (nameOwn_named n l h').2 p0 o' h1
          refine ⟨o2, g1, ?_⟩
          rcases g3 with g3 | ⟨k2, p2, hm, hw2, e⟩
          · exact ⟨k0, p0, by simp, .self, g3.trans (ha rfl p0 .self o' h1)⟩
          · exact ⟨k2, p2, by simp [hm], hn.within.1 hw2, e⟩
        · obtain ⟨o2, g1, k2, p2, g2, g3, g4⟩ := nameOwn_mine n l h' hok k p hm o' h1
          exact ⟨o2, g1, k2, p2, by simp [g2], hn.within.1 g3, g4⟩

/-! ### Histories that keep the names apart -/

/-- Every attribute's property object has the attribute's name. -/
structure Inv (label : PId → PyStr) (st : St) : Prop where
  kids : ∀ (p : PId) (o : PObj), st.props[p]? = some o → ∀ q ∈ o.kids, label q = label p
  attrs : ∀ cl ∈ st.classes, ∀ (k : PyStr) (p : PId), (k, p) ∈ cl.attrs →
    k = label p ∧ ∃ o : PObj, st.props[p]? = some o ∧ o.name = k

theorem Inv.within {label : PId → PyStr} {st : St} (hi : Inv label st) {p q : PId}
    (w : Within st.props p q) : label q = label p := by
  induction w with
  | self => rfl
  | nested _ ho hr ih => exact (hi.kids _ _ ho _ hr).trans ih

theorem mem_inherited {cs : List Cls} {bases : List Nat} {x : PyStr × PId} (h : x ∈ inherited cs bases) :
    ∃ cl ∈ cs, x ∈ cl.attrs := by
  unfold inherited at h
  obtain ⟨b, _, hx⟩ := List.mem_flatMap.1 h
  cases hc : cs[b]? with
  | none => rw [hc] at hx; cases hx
  | some cl => rw [hc] at hx; exact ⟨cl, List.mem_of_getElem? hc, hx⟩

/-- Names that agree with the labels keep the invariant. -/
theorem Inv.renamed {label : PId → PyStr} {st : St} (hi : Inv label st) {h : List PObj}
    (hlen : h.length = st.props.length)
    (hh : ∀ i o, st.props[i]? = some o → ∃ o', h[i]? = some o' ∧ o'.kids = o.kids ∧
      (o'.name = o.name ∨ o'.name = label i)) : Inv label { st with props := h } := by
  refine ⟨fun p o ho q hq => ?_, fun cl hcl k p hm => ?_⟩
  · have hp : p < st.props.length := by
      rw [← hlen]
      exact (List.getElem?_eq_some_iff.1 ho).1
    obtain ⟨o', h1, h2, _⟩ := hh p _ (List.getElem?_eq_getElem hp)
    dsimp only at ho
    rw [ho] at h1
    cases h1
    exact hi.kids p _ (List.getElem?_eq_getElem hp) q (h2 ▸ hq)
  · obtain ⟨hk, o, ho, hname⟩ := hi.attrs cl hcl k p hm
    obtain ⟨o', h1, _, h3⟩ := hh p o ho
    refine ⟨hk, o', h1, ?_⟩
    rcases h3 with h3 | h3
    · exact h3.trans hname
    · exact h3.trans hk.symm

theorem inv_insts {label : PId → PyStr} {st : St} (hi : Inv label st) (l : List Inst) :
    Inv label { st with insts := l } := ⟨hi.kids, hi.attrs⟩

theorem inv_exec {E : Env} {n : Nat} {label : PId → PyStr} {st : St} (hi : Inv label st) (op : Op)
    (hf : Fits label st op) : Inv label (exec E n st op) := by
  cases op with
  | prop kids =>
    refine ⟨fun p o ho q hq => ?_, fun cl hcl k p hm => ?_⟩
    · simp only [exec] at ho
      by_cases hp : p < st.props.length
      · rw [List.getElem?_append_left hp] at ho
        exact hi.kids p o ho q hq
      · rw [List.getElem?_append_right (Nat.le_of_not_lt hp)] at ho
        cases hd : p - st.props.length with
        | zero =>
          rw [hd] at ho
          simp at ho
          subst ho
          have : p = st.props.length := Nat.le_antisymm (Nat.sub_eq_zero_iff_le.1 hd) (Nat.le_of_not_lt hp)
          subst this
          exact hf q hq
        | succ m => rw [hd] at ho; simp at ho
    · obtain ⟨hk, o, ho, hname⟩ := hi.attrs cl hcl k p hm
      exact ⟨hk, o, by
        simp only [exec]
        rw [List.getElem?_append_left (List.getElem?_eq_some_iff.1 ho).1]
        exact ho, hname⟩
  | setKids p kids =>
    refine ⟨fun r o ho q hq => ?_, fun cl hcl k r hm => ?_⟩
    · simp only [exec] at ho
      by_cases hp : p = r
      · subst hp
        cases h3 : st.props[p]? with
        | none => rw [List.getElem?_modify_eq, h3] at ho; simp at ho
        | some o3 =>
          rw [List.getElem?_modify_eq, h3] at ho
          simp at ho
          subst ho
          exact hf q hq
      · rw [List.getElem?_modify_ne _ _ hp] at ho
        exact hi.kids r o ho q hq
    · obtain ⟨hk, o, ho, hname⟩ := hi.attrs cl hcl k r hm
      refine ⟨hk, ?_⟩
      simp only [exec]
      by_cases hp : p = r
      · subst hp
        exact ⟨{ o with kids := kids }, by rw [List.getElem?_modify_eq, ho]; rfl, hname⟩
      · exact ⟨o, by rw [List.getElem?_modify_ne _ _ hp]; exact ho, hname⟩
  | rename p s =>
    have hn := setName_named s n p st.props
    refine hi.renamed hn.len fun i o ho => ?_
    obtain ⟨o', h1, h2, h3⟩ := hn.at_ i o ho
    exact ⟨o', h1, h2, h3.imp id fun x => x.2.trans (Eq.trans hf (hi.within x.1).symm)⟩
  | cls bases own =>
    have hn := nameOwn_named n own st.props
    have hi' := hi.renamed hn.1 fun i o ho => by
      obtain ⟨o', h1, h2, h3⟩ := hn.2 i o ho
      refine ⟨o', h1, h2, h3.imp id ?_⟩
      rintro ⟨k, p, hm, hw, e⟩
      exact e.trans ((hf k p hm).1.trans (hi.within hw).symm)
    have hd := nameOwn_mine n own st.props
    simp only [exec]
    rcases hr : nameOwn n own st.props with ⟨b, h⟩
    rw [hr] at hi' hn hd
    cases b with
    | false => exact hi'
    | true =>
      refine ⟨hi'.kids, fun cl hcl k p hm => ?_⟩
      dsimp only at hcl hm
      rcases List.mem_append.1 hcl with hcl | hcl
      · exact hi'.attrs cl hcl k p hm
      · rw [List.mem_singleton] at hcl
        subst hcl
        rcases List.mem_append.1 hm with hm | hm
        · obtain ⟨hk, hp⟩ := hf k p hm
          refine ⟨hk, ?_⟩
          obtain ⟨o', h1, k2, p2, hm2, hw2, e2⟩ := hd rfl k p hm _ (List.getElem?_eq_getElem hp)
          exact ⟨o', h1, e2.trans ((hf k2 p2 hm2).1.trans ((hi.within hw2).symm.trans hk.symm))⟩
        · obtain ⟨cl, hcl, hm⟩ := mem_inherited hm
          exact hi'.attrs cl hcl k p hm
  | new c => exact inv_insts hi _
  | set i k v =>
    have : ∃ l, exec E n st (.set i k v) = { st with insts := l } := by
      simp only [exec, setAttr]
      split
      · exact ⟨_, rfl⟩
      · split
        · exact ⟨_, rfl⟩
        · split <;> exact ⟨_, rfl⟩
    obtain ⟨l, e⟩ := this
    rw [e]
    exact inv_insts hi l
  | del i k =>
    have : ∃ l, exec E n st (.del i k) = { st with insts := l } := by
      simp only [exec, delAttr]
      split
      · exact ⟨_, rfl⟩
      · split <;> exact ⟨_, rfl⟩
    obtain ⟨l, e⟩ := this
    rw [e]
    exact inv_insts hi l

theorem inv_execAll {E : Env} {n : Nat} {label : PId → PyStr} :
    ∀ (ops : List Op) (st : St), Inv label st → Apart E n label st ops → Inv label (execAll E n st ops)
  | [], _, hi, _ => hi
  | op :: ops, _, hi, ha => inv_execAll ops _ (inv_exec hi op ha.1) ha.2

theorem inv_empty (label : PId → PyStr) : Inv label {} :=
  ⟨fun _ _ h => by simp at h, fun _ h => by simp at h⟩

/-! ### What an attribute denotes -/

theorem scopeOf_eq {st : St} {c : Nat} {k : PyStr} {p : PId} {o : PObj} (hd : Denotes st c k p)
    (ho : st.props[p]? = some o) : scopeOf st c k = some (p, o.name) := by
  obtain ⟨cl, h1, h2⟩ := hd
  simp [scopeOf, h1, h2, ho]

theorem scopeOf_some {st : St} {c : Nat} {k : PyStr} {p : PId} {s : PyStr} (h : scopeOf st c k = some (p, s)) :
    Denotes st c k p ∧ ∃ o, st.props[p]? = some o ∧ o.name = s := by
  unfold scopeOf at h
  cases h1 : st.classes[c]? with
  | none => rw [h1] at h; cases h
  | some cl =>
    rw [h1] at h
    dsimp only at h
    cases h2 : lookupS k cl.attrs with
    | none => rw [h2] at h; cases h
    | some q =>
      rw [h2] at h
      dsimp only at h
      cases h3 : st.props[q]? with
      | none => rw [h3] at h; cases h
      | some o =>
        rw [h3] at h
        dsimp only at h
        cases h
        exact ⟨⟨cl, h1, h2⟩, o, h3, rfl⟩

theorem getAttr_eq {st : St} {i : Nat} {x : Inst} {k s : PyStr} {p : PId} (hx : st.insts[i]? = some x)
    (hs : scopeOf st x.cls k = some (p, s)) : getAttr st i k = some ((lookupS s x.backend).getD .none) := by
  simp [getAttr, hx, hs]

theorem getAttr_none {st : St} {i : Nat} {x : Inst} {k : PyStr} (hx : st.insts[i]? = some x)
    (hs : scopeOf st x.cls k = none) : getAttr st i k = none := by
  simp [getAttr, hx, hs]

theorem scopeOf_store (st : St) (i : Nat) (f : List (PyStr × Val) → List (PyStr × Val)) (c : Nat) (k : PyStr) :
    scopeOf (store st i f) c k = scopeOf st c k := rfl

theorem insts_store {st : St} {i : Nat} {x : Inst} (f : List (PyStr × Val) → List (PyStr × Val))
    (hx : st.insts[i]? = some x) : (store st i f).insts[i]? = some { x with backend := f x.backend } := by
  simp [store, hx]

theorem getAttr_store_ne {st : St} {i j : Nat} (f : List (PyStr × Val) → List (PyStr × Val)) (hj : j ≠ i)
    (k : PyStr) : getAttr (store st i f) j k = getAttr st j k := by
  have : (store st i f).insts[j]? = st.insts[j]? := by
    simp only [store]
    rw [List.getElem?_modify_ne _ _ (Ne.symm hj)]
  unfold getAttr
  rw [this]
  rfl

theorem setAttr_eq {E : Env} {st : St} {i : Nat} {x : Inst} {k s : PyStr} {p : PId} {v v' : Val}
    (hx : st.insts[i]? = some x) (hs : scopeOf st x.cls k = some (p, s)) (hv : E.validate p v = some v') :
    setAttr E st i k v = (if comparable st x.cls s (lookupS s x.backend) then .done else .key,
      store st i (setS s v')) := by
  simp [setAttr, hx, hs, hv]

theorem delAttr_eq {st : St} {i : Nat} {x : Inst} {k s : PyStr} {p : PId}
    (hx : st.insts[i]? = some x) (hs : scopeOf st x.cls k = some (p, s)) :
    delAttr st i k = (.done, store st i (eraseS s)) := by
  simp [delAttr, hx, hs]

theorem mem_of_lookupS {α : Type} {k : PyStr} {a : α} : ∀ {l : List (PyStr × α)}, lookupS k l = some a →
    (k, a) ∈ l
  | [], h => by cases h
  | (k', a') :: l, h => by
      unfold lookupS at h
      split at h
      · rename_i hk
        cases h
        subst hk
        exact List.mem_cons_self
      · exact List.mem_cons_of_mem _ (mem_of_lookupS h)

theorem Inv.scope {label : PId → PyStr} {st : St} (hi : Inv label st) {c : Nat} {k : PyStr} {p : PId}
    (hd : Denotes st c k p) : scopeOf st c k = some (p, k) := by
  obtain ⟨cl, h1, h2⟩ := hd
  obtain ⟨_, o, ho, hn⟩ := hi.attrs cl (List.mem_of_getElem? h1) k p (mem_of_lookupS h2)
  rw [scopeOf_eq ⟨cl, h1, h2⟩ ho, hn]

theorem Inv.others {label : PId → PyStr} {st : St} (hi : Inv label st) {i : Nat} {x : Inst}
    (hx : st.insts[i]? = some x) {f : List (PyStr × Val) → List (PyStr × Val)} {k2 : PyStr}
    (hf : lookupS k2 (f x.backend) = lookupS k2 x.backend) :
    getAttr (store st i f) i k2 = getAttr st i k2 := by
  cases hs : scopeOf st x.cls k2 with
  | none =>
    rw [getAttr_none hx hs, getAttr_none (insts_store f hx) hs]
  | some q =>
    obtain ⟨q, s⟩ := q
    have := hi.scope (scopeOf_some hs).1
    rw [hs] at this
    cases this
    rw [getAttr_eq hx hs, getAttr_eq (insts_store f hx) hs]
    dsimp only
    rw [hf]

/-- **C74** (histories).  After any history of declarations, renamings, class statements,
assignments and deletions that never puts one property object under two names, the attributes
are separate variables: an assignment that passes validation succeeds, the attribute reads as the
validated value and no other attribute, of this instance or another, changes; a deletion empties that
attribute only. -/
theorem C74_apart (E : Env) (n : Nat) (label : PId → PyStr) (ops : List Op)
    (ha : Apart E n label {} ops) {i : Nat} {x : Inst} {k : PyStr} {p : PId}
    (hx : (execAll E n {} ops).insts[i]? = some x) (hd : Denotes (execAll E n {} ops) x.cls k p) :
    (∀ v v', E.validate p v = some v' →
      (setAttr E (execAll E n {} ops) i k v).1 = .done ∧
      getAttr (setAttr E (execAll E n {} ops) i k v).2 i k = some v' ∧
      ∀ j k2, (j, k2) ≠ (i, k) →
        getAttr (setAttr E (execAll E n {} ops) i k v).2 j k2 = getAttr (execAll E n {} ops) j k2) ∧
    (delAttr (execAll E n {} ops) i k).1 = .done ∧
    getAttr (delAttr (execAll E n {} ops) i k).2 i k = some .none ∧
    ∀ j k2, (j, k2) ≠ (i, k) →
      getAttr (delAttr (execAll E n {} ops) i k).2 j k2 = getAttr (execAll E n {} ops) j k2 := by
  have hi := inv_execAll (E := E) (n := n) ops {} (inv_empty label) ha
  generalize execAll E n {} ops = st at *
  have hs := hi.scope hd
  refine ⟨fun v v' hv => ?_, ?_⟩
  · rw [setAttr_eq hx hs hv]
    refine ⟨?_, ?_, fun j k2 hne => ?_⟩
    · obtain ⟨cl, h1, h2⟩ := hd
      cases hb : lookupS k x.backend <;> simp [comparable, h1, h2]
    · dsimp only
      rw [getAttr_eq (insts_store _ hx) (by exact hs)]
      simp [lookupS_setS]
    · dsimp only
      by_cases hj : j = i
      · subst hj
        have hk : k2 ≠ k := fun e => hne (by rw [e])
        exact hi.others hx (lookupS_setS_ne hk v' _)
      · exact getAttr_store_ne _ hj k2
  · rw [delAttr_eq hx hs]
    refine ⟨rfl, ?_, fun j k2 hne => ?_⟩
    · dsimp only
      rw [getAttr_eq (insts_store _ hx) (by exact hs)]
      simp [lookupS_eraseS]
    · dsimp only
      by_cases hj : j = i
      · subst hj
        have hk : k2 ≠ k := fun e => hne (by rw [e])
        exact hi.others hx (lookupS_eraseS_ne hk _)
      · exact getAttr_store_ne _ hj k2

/-! ### Property objects under two names -/

theorem lookupS_append_left {α : Type} {k : PyStr} {a : α} {l : List (PyStr × α)} (l2 : List (PyStr × α)) :
    lookupS k l = some a → lookupS k (l ++ l2) = some a := by
  induction l with
  | nil => intro h; cases h
  | cons x l ih =>
    intro h
    simp only [List.cons_append]
    unfold lookupS at h ⊢
    by_cases hk : x.1 = k
    · rw [if_pos hk] at h ⊢
      exact h
    · rw [if_neg hk] at h ⊢
      exact ih h

theorem lookupS_nodup {k : PyStr} {a : PId} : ∀ {l : List (PyStr × PId)}, (l.map Prod.fst).Nodup →
    (k, a) ∈ l → lookupS k l = some a
  | [], _, h => by cases h
  | (k', a') :: l, hn, h => by
      rw [List.map_cons, List.nodup_cons] at hn
      unfold lookupS
      rcases List.mem_cons.1 h with e | h
      · cases e; simp
      · have : k' ≠ k := fun e => hn.1 (e ▸ List.mem_map.2 ⟨(k, a), h, rfl⟩)
        simp [this]
        exact lookupS_nodup hn.2 h

/-- **C74** (one class).  If the body of a class declares a property object `p` as `a`, and later, as `b`,
a property object `q` that is `p` or has `p` nested in it, then both attributes of the new class are the same
variable: whatever is assigned to `a` is read from `b` too, and whatever is assigned to `b` from `a`; deleting
one empties both. -/
theorem C74_alias (E : Env) (n : Nat) (st : St) (bases : List Nat) (pre post : List (PyStr × PId))
    (a b : PyStr) (p q : PId) (vals : List (PyStr × Val))
    (hok : (nameOwn n (pre ++ (b, q) :: post) st.props).1 = true)
    (hnd : ((pre ++ (b, q) :: post).map Prod.fst).Nodup)
    (hp : p < st.props.length) (hq : q < st.props.length)
    (ha : (a, p) ∈ pre ++ (b, q) :: post) (hw : Within st.props q p)
    (hpost : ∀ k r, (k, r) ∈ post → ¬ Within st.props r p)
    (st' : St) (hst : st' = exec E n st (.cls bases (pre ++ (b, q) :: post)))
    (i : Nat) (hi : st'.insts[i]? = some ⟨st.classes.length, vals⟩) :
    (∀ v v', E.validate p v = some v' →
      (setAttr E st' i a v).1 = .done ∧ getAttr (setAttr E st' i a v).2 i a = some v' ∧
      getAttr (setAttr E st' i a v).2 i b = some v') ∧
    (∀ v v', E.validate q v = some v' →
      (setAttr E st' i b v).1 = .done ∧ getAttr (setAttr E st' i b v).2 i b = some v' ∧
      getAttr (setAttr E st' i b v).2 i a = some v') ∧
    getAttr (delAttr st' i a).2 i b = some .none := by
  have hl := nameOwn_last n b q post pre st.props hok
  obtain ⟨op, hop, hnp⟩ := hl p _ (List.getElem?_eq_getElem hp) hw hpost
  obtain ⟨oq, hoq, hnq⟩ := hl q _ (List.getElem?_eq_getElem hq) .self
    fun k r hm w => hpost k r hm (within_trans w hw)
  have hb : (b, q) ∈ pre ++ (b, q) :: post := by simp
  have hla := lookupS_append_left (inherited st.classes bases) (lookupS_nodup hnd ha)
  have hlb := lookupS_append_left (inherited st.classes bases) (lookupS_nodup hnd hb)
  simp only [exec] at hst
  rcases hr : nameOwn n (pre ++ (b, q) :: post) st.props with ⟨t, h⟩
  rw [hr] at hok hop hoq hst
  dsimp only at hok hop hoq hst
  subst hok
  dsimp only at hst
  have hcl : st'.classes[st.classes.length]? =
      some ⟨(pre ++ (b, q) :: post) ++ inherited st.classes bases⟩ := by
    rw [hst]
    simp
  have hda : scopeOf st' st.classes.length a = some (p, b) := by
    rw [scopeOf_eq ⟨_, hcl, hla⟩ (o := op) (by rw [hst]; exact hop), hnp]
  have hdb : scopeOf st' st.classes.length b = some (q, b) := by
    rw [scopeOf_eq ⟨_, hcl, hlb⟩ (o := oq) (by rw [hst]; exact hoq), hnq]
  have hcmp : ∀ y, comparable st' st.classes.length b y = true := by
    intro y
    cases y
    · rfl
    · simp only [comparable, hcl]
      rw [hlb]
      rfl
  refine ⟨fun v v' hv => ?_, fun v v' hv => ?_, ?_⟩
  · rw [setAttr_eq hi hda hv]
    refine ⟨by simp [hcmp], ?_, ?_⟩
    · dsimp only
      rw [getAttr_eq (insts_store _ hi) (by exact hda)]
      simp [lookupS_setS]
    · dsimp only
      rw [getAttr_eq (insts_store _ hi) (by exact hdb)]
      simp [lookupS_setS]
  · rw [setAttr_eq hi hdb hv]
    refine ⟨by simp [hcmp], ?_, ?_⟩
    · dsimp only
      rw [getAttr_eq (insts_store _ hi) (by exact hdb)]
      simp [lookupS_setS]
    · dsimp only
      rw [getAttr_eq (insts_store _ hi) (by exact hda)]
      simp [lookupS_setS]
  · rw [delAttr_eq hi hda]
    dsimp only
    rw [getAttr_eq (insts_store _ hi) (by exact hdb)]
    simp [lookupS_eraseS]

/-- **C74** (two classes).  If a later class statement declares as `b` a property object that is, or has nested
in it, the property object of attribute `a` of an earlier class that has no property `b`, then instances of the
earlier class, also those that exist, lose the value of `a`; the first assignment to it succeeds, every further one
raises KeyError although the value is stored. -/
theorem C74_other_class (E : Env) (n : Nat) (st : St) (bases : List Nat) (pre post : List (PyStr × PId))
    (a b : PyStr) (p q : PId) (i : Nat) (x : Inst) (cl : Cls)
    (hok : (nameOwn n (pre ++ (b, q) :: post) st.props).1 = true)
    (hp : p < st.props.length) (hx : st.insts[i]? = some x) (hc : st.classes[x.cls]? = some cl)
    (ha : lookupS a cl.attrs = some p) (hb : lookupS b cl.attrs = none) (hxb : lookupS b x.backend = none)
    (hw : Within st.props q p) (hpost : ∀ k r, (k, r) ∈ post → ¬ Within st.props r p)
    (st' : St) (hst : st' = exec E n st (.cls bases (pre ++ (b, q) :: post))) :
    getAttr st' i a = some .none ∧
    ∀ v1 w1, E.validate p v1 = some w1 →
      (setAttr E st' i a v1).1 = .done ∧ getAttr (setAttr E st' i a v1).2 i a = some w1 ∧
      ∀ v2 w2, E.validate p v2 = some w2 →
        (setAttr E (setAttr E st' i a v1).2 i a v2).1 = .key ∧
        getAttr (setAttr E (setAttr E st' i a v1).2 i a v2).2 i a = some w2 := by
  obtain ⟨op, hop, hnp⟩ := nameOwn_last n b q post pre st.props hok p _ (List.getElem?_eq_getElem hp) hw hpost
  simp only [exec] at hst
  rcases hr : nameOwn n (pre ++ (b, q) :: post) st.props with ⟨t, h⟩
  rw [hr] at hok hop hst
  dsimp only at hok hop hst
  subst hok
  dsimp only at hst
  have hcl : st'.classes[x.cls]? = some cl := by
    rw [hst]
    dsimp only
    rw [List.getElem?_append_left (List.getElem?_eq_some_iff.1 hc).1]
    exact hc
  have hx' : st'.insts[i]? = some x := by rw [hst]; exact hx
  have hda : scopeOf st' x.cls a = some (p, b) := by
    rw [scopeOf_eq ⟨_, hcl, ha⟩ (o := op) (by rw [hst]; exact hop), hnp]
  refine ⟨by rw [getAttr_eq hx' hda, hxb]; rfl, fun v1 w1 h1 => ?_⟩
  have hx2 := insts_store (setS b w1) hx'
  rw [setAttr_eq hx' hda h1]
  refine ⟨by simp [hxb, comparable], ?_, fun v2 w2 h2 => ?_⟩
  · dsimp only
    rw [getAttr_eq hx2 (by exact hda)]
    simp [lookupS_setS]
  · dsimp only
    have hx3 := insts_store (setS b w2) hx2
    rw [setAttr_eq hx2 (by exact hda) h2]
    constructor
    · have : (store st' i (setS b w1)).classes[x.cls]? = some cl := hcl
      simp only [lookupS_setS, comparable, this, hb]
      rfl
    · dsimp only
      rw [getAttr_eq hx3 (by exact hda)]
      simp [lookupS_setS]

/-! ### The hypotheses are met -/

/-! ### Whole histories -/

/-- Attribute `k` of instance `i` of class `c` is there and has value `y`. -/
structure At (st : St) (i c : Nat) (k : PyStr) (p : PId) (y : Val) : Prop where
  denotes : Denotes st c k p
  held : ∃ x, st.insts[i]? = some x ∧ x.cls = c ∧ (lookupS k x.backend).getD .none = y

theorem At.reads {label : PId → PyStr} {st : St} (hi : Inv label st) {i c : Nat} {k : PyStr} {p : PId} {y : Val}
    (h : At st i c k p y) : getAttr st i k = some y := by
  obtain ⟨x, hx, rfl, hy⟩ := h.held
  rw [getAttr_eq hx (hi.scope h.denotes), hy]

theorem At.store_ne {st : St} {i j c : Nat} {k : PyStr} {p : PId} {y : Val} (h : At st i c k p y)
    (f : List (PyStr × Val) → List (PyStr × Val)) (hf : j = i → ∀ b, lookupS k (f b) = lookupS k b) :
    At (store st j f) i c k p y := by
  obtain ⟨x, hx, hc, hy⟩ := h.held
  refine ⟨h.denotes, ?_⟩
  by_cases hj : j = i
  · subst hj
    exact ⟨_, insts_store f hx, hc, by dsimp only; rw [hf rfl]; exact hy⟩
  · refine ⟨x, ?_, hc, hy⟩
    simp only [store]
    rw [List.getElem?_modify_ne _ _ hj]
    exact hx

theorem at_exec {E : Env} {n : Nat} {label : PId → PyStr} {st : St} (hi : Inv label st) {i c : Nat} {k : PyStr}
    {p : PId} {y : Val} (h : At st i c k p y) (op : Op) :
    At (exec E n st op) i c k p (lastValue E p i k [op] y) := by
  obtain ⟨x, hx, hc, hy⟩ := h.held
  have clsApp : ∀ (h' : List PObj) (l : List Cls), At { st with props := h', classes := st.classes ++ l } i c k p y := by
    intro h' l
    obtain ⟨cl, h1, h2⟩ := h.denotes
    exact ⟨⟨cl, by
      show (st.classes ++ l)[c]? = some cl
      rw [List.getElem?_append_left (List.getElem?_eq_some_iff.1 h1).1]
      exact h1, h2⟩, x, hx, hc, hy⟩
  cases op with
  | prop kids => exact ⟨h.denotes, x, hx, hc, hy⟩
  | setKids q kids => exact ⟨h.denotes, x, hx, hc, hy⟩
  | rename q s => exact ⟨h.denotes, x, hx, hc, hy⟩
  | cls bases own =>
    simp only [exec, lastValue]
    rcases nameOwn n own st.props with ⟨b, h'⟩
    cases b with
    | true => exact clsApp _ _
    | false => exact ⟨h.denotes, x, hx, hc, hy⟩
  | new d =>
    refine ⟨h.denotes, x, ?_, hc, hy⟩
    show (st.insts ++ _)[i]? = some x
    rw [List.getElem?_append_left (List.getElem?_eq_some_iff.1 hx).1]
    exact hx
  | set j k2 v =>
    simp only [exec, lastValue]
    by_cases hj : j = i ∧ k2 = k
    · obtain ⟨rfl, rfl⟩ := hj
      rw [if_pos ⟨rfl, rfl⟩]
      have hs : scopeOf st x.cls k2 = some (p, k2) := by rw [hc]; exact hi.scope h.denotes
      cases hv : E.validate p v with
      | none =>
        have : setAttr E st j k2 v = (.invalid, st) := by simp [setAttr, hx, hs, hv]
        rw [this]
        exact h
      | some v' =>
        rw [setAttr_eq hx hs hv]
        exact ⟨h.denotes, _, insts_store _ hx, hc, by simp [lookupS_setS]⟩
    · rw [if_neg hj]
      cases hxj : st.insts[j]? with
      | none =>
        have : setAttr E st j k2 v = (.attribute, st) := by simp [setAttr, hxj]
        rw [this]; exact h
      | some z =>
        cases hs : scopeOf st z.cls k2 with
        | none =>
          have : setAttr E st j k2 v = (.attribute, st) := by simp [setAttr, hxj, hs]
          rw [this]; exact h
        | some q =>
          obtain ⟨q, s⟩ := q
          have hsc := hi.scope (scopeOf_some hs).1
          rw [hs] at hsc
          cases hsc
          cases hv : E.validate q v with
          | none =>
            have : setAttr E st j k2 v = (.invalid, st) := by simp [setAttr, hxj, hs, hv]
            rw [this]; exact h
          | some v' =>
            rw [setAttr_eq hxj hs hv]
            exact h.store_ne _ fun e b => lookupS_setS_ne (fun e2 => hj ⟨e, e2.symm⟩) _ _
  | del j k2 =>
    simp only [exec, lastValue]
    by_cases hj : j = i ∧ k2 = k
    · obtain ⟨rfl, rfl⟩ := hj
      rw [if_pos ⟨rfl, rfl⟩]
      have hs : scopeOf st x.cls k2 = some (p, k2) := by rw [hc]; exact hi.scope h.denotes
      rw [delAttr_eq hx hs]
      exact ⟨h.denotes, _, insts_store _ hx, hc, by simp [lookupS_eraseS]⟩
    · rw [if_neg hj]
      cases hxj : st.insts[j]? with
      | none =>
        have : delAttr st j k2 = (.attribute, st) := by simp [delAttr, hxj]
        rw [this]; exact h
      | some z =>
        cases hs : scopeOf st z.cls k2 with
        | none =>
          have : delAttr st j k2 = (.attribute, st) := by simp [delAttr, hxj, hs]
          rw [this]; exact h
        | some q =>
          obtain ⟨q, s⟩ := q
          have hsc := hi.scope (scopeOf_some hs).1
          rw [hs] at hsc
          cases hsc
          rw [delAttr_eq hxj hs]
          exact h.store_ne _ fun e b => lookupS_eraseS_ne (fun e2 => hj ⟨e, e2.symm⟩) _

theorem lastValue_cons (E : Env) (p : PId) (i : Nat) (k : PyStr) (op : Op) (ops : List Op) (y : Val) :
    lastValue E p i k (op :: ops) y = lastValue E p i k ops (lastValue E p i k [op] y) := by
  cases op <;> rfl

theorem at_execAll {E : Env} {n : Nat} {label : PId → PyStr} {i c : Nat} {k : PyStr} {p : PId} :
    ∀ (ops : List Op) (st : St) (y : Val), Inv label st → Apart E n label st ops → At st i c k p y →
      At (execAll E n st ops) i c k p (lastValue E p i k ops y)
  | [], _, _, _, _, h => h
  | op :: ops, st, y, hi, ha, h => by
    rw [lastValue_cons]
    exact at_execAll ops _ _ (inv_exec hi op ha.1) ha.2 (at_exec hi h op)

theorem execAll_append (E : Env) (n : Nat) : ∀ (a b : List Op) (st : St),
    execAll E n st (a ++ b) = execAll E n (execAll E n st a) b
  | [], _, _ => rfl
  | op :: a, b, st => execAll_append E n a b (exec E n st op)

theorem apart_append {E : Env} {n : Nat} {label : PId → PyStr} : ∀ {a b : List Op} {st : St},
    Apart E n label st (a ++ b) → Apart E n label st a ∧ Apart E n label (execAll E n st a) b
  | [], _, _, h => ⟨trivial, h⟩
  | _ :: a, _, _, h => ⟨⟨h.1, (apart_append (a := a) h.2).1⟩, (apart_append (a := a) h.2).2⟩

/-- **C74** (histories, from creation on).  In such a history an attribute of an instance reads as
the last value assigned to it that passed validation, or None if it was deleted since or there
was none, whatever else is declared, renamed, created, assigned or deleted. -/
theorem C74_history (E : Env) (n : Nat) (label : PId → PyStr) (before after : List Op) (c : Nat)
    (ha : Apart E n label {} (before ++ .new c :: after)) {k : PyStr} {p : PId}
    (hd : Denotes (execAll E n {} before) c k p) :
    getAttr (execAll E n {} (before ++ .new c :: after)) (execAll E n {} before).insts.length k =
      some (lastValue E p (execAll E n {} before).insts.length k after .none) := by
  obtain ⟨h1, h2, h3⟩ := apart_append ha
  have hi := inv_execAll before {} (inv_empty label) h1
  rw [execAll_append]
  generalize execAll E n {} before = st at *
  have hi2 := inv_exec (E := E) (n := n) hi (.new c) h2
  have h0 : At (exec E n st (.new c)) st.insts.length c k p .none :=
    ⟨hd, ⟨c, []⟩, by simp [exec], rfl, rfl⟩
  exact (at_execAll after _ _ hi2 h3 h0).reads (inv_execAll after _ hi2 h3)

/-- Any value is valid. -/
def anyEnv : Env := ⟨fun _ v => some v, fun _ _ _ => true⟩

/-- `a = List('', item)`: two property objects for `a`, one of them nested; one for `c`; a class with both,
a subclass, an instance of it, an assignment, and the property given a new nested one afterwards. -/
def apartOps : List Op :=
  [.prop [], .prop [0], .prop [], .cls [] [("a".toList, 1), ("c".toList, 2)], .cls [0] [], .new 1,
   .set 0 "a".toList (.int 5), .prop [], .setKids 1 [3]]

def apartLabel (p : PId) : PyStr := if p = 2 then "c".toList else "a".toList

theorem C74_apart_example : Apart anyEnv 10 apartLabel {} apartOps ∧
    (execAll anyEnv 10 {} apartOps).insts[0]? = some ⟨1, [("a".toList, .int 5)]⟩ ∧
    Denotes (execAll anyEnv 10 {} apartOps) 1 "c".toList 2 := by
  refine ⟨?_, rfl, ⟨_, rfl, rfl⟩⟩
  refine ⟨?_, ?_, ?_, ?_, ?_, trivial, trivial, ?_, ?_, trivial⟩
  all_goals simp [Fits, apartLabel, exec]
  rintro k p (⟨rfl, rfl⟩ | ⟨rfl, rfl⟩)
  all_goals decide

/-- The history of `C74_history` at the instance and the attribute `a` of the example: `5` was assigned. -/
example : getAttr (execAll anyEnv 10 {} apartOps) 0 "a".toList =
    some (lastValue anyEnv 1 0 "a".toList (apartOps.drop 6) .none) ∧
    lastValue anyEnv 1 0 "a".toList (apartOps.drop 6) .none = .int 5 :=
  ⟨C74_history anyEnv 10 apartLabel (apartOps.take 5) (apartOps.drop 6) 1 C74_apart_example.1 ⟨_, rfl, rfl⟩, rfl⟩

/-- `a = p; b = List('', p)`: both attributes are the entry `b`. -/
def aliasSt : St := { props := [⟨[], []⟩, ⟨[0], []⟩], insts := [⟨0, []⟩] }

theorem C74_alias_example :
    (nameOwn 10 ([("a".toList, 0)] ++ ("b".toList, 1) :: []) aliasSt.props).1 = true ∧
    (([("a".toList, 0)] ++ ("b".toList, (1 : PId)) :: []).map Prod.fst).Nodup ∧
    ("a".toList, 0) ∈ ([("a".toList, 0)] ++ ("b".toList, 1) :: [] : List (PyStr × PId)) ∧
    Within aliasSt.props 1 0 ∧
    (exec anyEnv 10 aliasSt (.cls [] ([("a".toList, 0)] ++ ("b".toList, 1) :: []))).insts[0]? =
      some ⟨aliasSt.classes.length, []⟩ ∧
    getAttr (setAttr anyEnv (exec anyEnv 10 aliasSt (.cls [] [("a".toList, 0), ("b".toList, 1)])) 0
      "a".toList (.int 7)).2 0 "b".toList = some (.int 7) := by
  refine ⟨rfl, by decide, by simp, ?_, rfl, rfl⟩
  exact .nested (q := 1) (o := ⟨[0], []⟩) .self rfl (by simp)

/-- Class 0 has `a = p`, an instance has `a` set to 5; then a second class declares `b = p`. -/
def otherSt : St := execAll anyEnv 10 {} [.prop [], .cls [] [("a".toList, 0)], .new 0, .set 0 "a".toList (.int 5)]

theorem C74_other_class_example :
    (nameOwn 10 ([] ++ ("b".toList, 0) :: []) otherSt.props).1 = true ∧
    otherSt.insts[0]? = some ⟨0, [("a".toList, .int 5)]⟩ ∧
    otherSt.classes[0]? = some ⟨[("a".toList, 0)]⟩ ∧
    getAttr otherSt 0 "a".toList = some (.int 5) ∧
    getAttr (exec anyEnv 10 otherSt (.cls [] [("b".toList, 0)])) 0 "a".toList = some .none := by
  exact ⟨rfl, rfl, rfl, rfl, rfl⟩

end Verif.Names
