import Verif.Spec.Uid

/-!
# C43: identifiers are unique
-/

namespace Verif.Uid

open Spec

variable {D : Type} {P : Prop}

theorem get_put_self {α : Type} (l : List (Uid × α)) (u : Uid) (x : α) : get (put l u x) u = some x := by
  induction l with
  | nil => simp [put, get]
  | cons a l ih =>
    obtain ⟨k, v⟩ := a
    simp only [put]
    split
    · rename_i h
      simp [get, h]
    · rename_i h
      simp only [get, if_neg h, ih]

theorem get_put_ne {α : Type} (l : List (Uid × α)) {u v : Uid} (x : α) (h : v ≠ u) : get (put l u x) v = get l v := by
  induction l with
  | nil => simp [put, get, Ne.symm h]
  | cons a l ih =>
    obtain ⟨k, y⟩ := a
    simp only [put]
    split
    · rename_i hk
      subst hk
      simp [get, Ne.symm h]
    · simp only [get, ih]

theorem get_put_isSome {α : Type} (l : List (Uid × α)) (u v : Uid) (x : α) (h : (get l v).isSome = true) :
    (get (put l u x) v).isSome = true := by
  by_cases hv : v = u
  · subst hv; rw [get_put_self]; rfl
  · rw [get_put_ne l x hv]; exact h

/-- No instance in use has the identifier. -/
def NoLive (w : World D) (u : Uid) : Prop := ∀ r, ¬ Carries w r u

/-- What holds between statements; `P` says whether only instances in use are assigned
identifiers. -/
structure Inv (P : Prop) (E : Env D) (w : World D) : Prop where
  known : ∀ r u, Carries w r u → (get w.inst u).isSome = true
  distinct : ∀ r r' u, Carries w r u → Carries w r' u → r = r'
  fresh : ∀ m, w.drawn ≤ m → get w.inst (E.supply m) = none
  found : P → ∀ r u, Carries w r u → get w.inst u = some r

theorem Inv.noLive {E : Env D} {w : World D} (h : Inv P E w) {u : Uid} (hu : get w.inst u = none) : NoLive w u := fun r hr => by
  have := h.known r u hr
  rw [hu] at this
  cases this

theorem modify_objs (r : Ref) (g : Obj D → Obj D) (w : World D) (q : Ref) :
    (modify r g w).objs[q]? = if q = r then (w.objs[r]?).map g else w.objs[q]? := by
  unfold modify
  split
  · rename_i h
    split
    · rename_i hq; subst hq; rw [h]; rfl
    · rfl
  · rename_i o h
    by_cases hq : q = r
    · subst hq
      rw [if_pos rfl, h]
      exact List.getElem?_set_self (List.getElem?_eq_some_iff.1 h).1
    · rw [if_neg hq]
      exact List.getElem?_set_ne (Ne.symm hq)

theorem modify_inst (r : Ref) (g : Obj D → Obj D) (w : World D) :
    (modify r g w).inst = w.inst ∧ (modify r g w).drawn = w.drawn := by
  unfold modify
  split <;> exact ⟨rfl, rfl⟩

/-- Everything that adds a name to `_INSTANCES`. -/
theorem Inv.register {E : Env D} {w : World D} (h : Inv P E w) {u : Uid} (r : Ref) (hu : Unguessed E w u)
    (hr : P → ∀ q, Carries w q u → q = r) : Inv P E (register u r w) where
  known := fun q v hq => get_put_isSome _ _ _ _ (h.known q v hq)
  distinct := h.distinct
  fresh := fun m hm => by
    show get (put w.inst u r) (E.supply m) = none
    rw [get_put_ne _ _ (hu m hm)]
    exact h.fresh m hm
  found := fun p q v hq => by
    show get (put w.inst u r) v = some q
    by_cases hv : v = u
    · subst hv; rw [get_put_self, hr p q hq]
    · rw [get_put_ne _ _ hv]; exact h.found p q v hq

/-- Changes to an instance that is not in use. -/
theorem Inv.modify_dead {E : Env D} {w : World D} (h : Inv P E w) {r : Ref} {g : Obj D → Obj D}
    (hd : ∀ o, w.objs[r]? = some o → (g o).live = false) (hold : ∀ o, w.objs[r]? = some o → o.live = false) :
    Inv P E (modify r g w) ∧ ∀ q v, Carries (modify r g w) q v ↔ Carries w q v := by
  have hc : ∀ q v, Carries (modify r g w) q v ↔ Carries w q v := fun q v => by
    unfold Carries
    rw [modify_objs]
    by_cases hq : q = r
    · subst hq
      rw [if_pos rfl]
      constructor
      · rintro ⟨o, a, b, _⟩
        cases ho : w.objs[q]? with
        | none => rw [ho] at a; cases a
        | some o' =>
          rw [ho] at a; cases a
          rw [hd o' ho] at b
          cases b
      · rintro ⟨o, a, b, _⟩
        rw [hold o a] at b
        cases b
    · rw [if_neg hq]
  obtain ⟨p1, p2⟩ := modify_inst r g w
  exact ⟨{
    known := fun q v hq => by rw [p1]; exact h.known q v ((hc q v).1 hq)
    distinct := fun q q' v h1 h2 => h.distinct q q' v ((hc q v).1 h1) ((hc q' v).1 h2)
    fresh := fun m hm => by rw [p1]; exact h.fresh m (by rw [← p2]; exact hm)
    found := fun p q v hq => by rw [p1]; exact h.found p q v ((hc q v).1 hq) }, hc⟩

/-- An instance comes into use, or changes its identifier. -/
theorem Inv.modify_live {E : Env D} {w : World D} (h : Inv P E w) {r : Ref} {g : Obj D → Obj D} {u : Uid}
    (hu : (get w.inst u).isSome = true) (hf : P → get w.inst u = some r) (hg : ∀ o, w.objs[r]? = some o → (g o).live = true → (g o).uid = some u)
    (hno : ∀ q, q ≠ r → ¬ Carries w q u) : Inv P E (modify r g w) := by
  obtain ⟨p1, p2⟩ := modify_inst r g w
  have hc : ∀ q v, Carries (modify r g w) q v → (q = r ∧ v = u) ∨ (q ≠ r ∧ Carries w q v) := fun q v => by
    rintro ⟨o, a, b, c⟩
    rw [modify_objs] at a
    by_cases hq : q = r
    · subst hq
      rw [if_pos rfl] at a
      cases ho : w.objs[q]? with
      | none => rw [ho] at a; cases a
      | some o' =>
        rw [ho] at a; cases a
        rw [hg o' ho b] at c
        exact .inl ⟨rfl, (Option.some.inj c).symm⟩
    · rw [if_neg hq] at a
      exact .inr ⟨hq, o, a, b, c⟩
  exact {
    known := fun q v hq => by
      rw [p1]
      rcases hc q v hq with ⟨_, rfl⟩ | ⟨_, h'⟩
      · exact hu
      · exact h.known q v h'
    distinct := fun q q' v h1 h2 => by
      rcases hc q v h1 with ⟨rfl, rfl⟩ | ⟨n1, h1'⟩ <;> rcases hc q' _ h2 with ⟨rfl, h3⟩ | ⟨n2, h2'⟩
      · rfl
      · exact absurd h2' (hno q' n2)
      · subst h3; exact absurd h1' (hno q n1)
      · exact h.distinct q q' v h1' h2'
    fresh := fun m hm => by rw [p1]; exact h.fresh m (by rw [← p2]; exact hm)
    found := fun p q v hq => by
      rw [p1]
      rcases hc q v hq with ⟨rfl, rfl⟩ | ⟨_, h'⟩
      · exact hf p
      · exact h.found p q v h' }

/-- A new instance is not in use. -/
theorem alloc_spec {E : Env D} (hinj : ∀ m n, E.supply m = E.supply n → m = n) (c : Cls) {w : World D} (h : Inv P E w) :
    Inv P E (alloc E c w).2 ∧ (∀ q v, Carries (alloc E c w).2 q v ↔ Carries w q v) ∧
    (alloc E c w).2.objs[(alloc E c w).1]? = some { cls := c, uid := some (E.supply w.drawn) } ∧
    (∀ q o, w.objs[q]? = some o → q ≠ (alloc E c w).1 ∧ (alloc E c w).2.objs[q]? = some o) := by
  have hc : ∀ q v, Carries (alloc E c w).2 q v ↔ Carries w q v := fun q v => by
    constructor
    · rintro ⟨o, a, b, d⟩
      have a' : (w.objs ++ [{ cls := c, uid := some (E.supply w.drawn) }])[q]? = some o := a
      by_cases hq : q < w.objs.length
      · rw [List.getElem?_append_left hq] at a'
        exact ⟨o, a', b, d⟩
      · rw [List.getElem?_append_right (Nat.le_of_not_lt hq)] at a'
        have := List.mem_of_getElem? a'
        simp only [List.mem_singleton] at this
        subst this
        cases b
    · rintro ⟨o, a, b, d⟩
      exact ⟨o, by
        show (w.objs ++ [_])[q]? = some o
        rw [List.getElem?_append_left (List.getElem?_eq_some_iff.1 a).1]; exact a, b, d⟩
  refine ⟨?_, hc, by simp [alloc], fun q o hq => ?_⟩
  · exact {
      known := fun q v hq => h.known q v ((hc q v).1 hq)
      distinct := fun q q' v h1 h2 => h.distinct q q' v ((hc q v).1 h1) ((hc q' v).1 h2)
      fresh := fun m hm => h.fresh m (Nat.le_of_succ_le hm)
      found := fun p q v hq => h.found p q v ((hc q v).1 hq) }
  · have hlt := (List.getElem?_eq_some_iff.1 hq).1
    refine ⟨Nat.ne_of_lt hlt, ?_⟩
    show (w.objs ++ [_])[q]? = some o
    rw [List.getElem?_append_left hlt]
    exact hq

theorem Spec.Unguessed.mono {E : Env D} {w w' : World D} {u : Uid} (h : Unguessed E w u) (hd : w.drawn ≤ w'.drawn) :
    Unguessed E w' u := fun m hm => h m (Nat.le_trans hd hm)

theorem setUid_inv {E : Env D} {w : World D} (h : Inv P E w) (r : Ref) {u : Uid} (hu : Unguessed E w u)
    (hl : P → ∀ o, w.objs[r]? = some o → o.uid = some u → o.live = true) : Inv P E (setUid r u w).2 := by
  unfold setUid
  split
  · exact h
  · rename_i o ho
    split
    · rename_i hou
      exact h.register r hu fun p q hq => h.distinct q r u hq ⟨o, ho, hl p o ho hou, hou⟩
    · split
      · exact h
      · rename_i hn
        have hn' : get w.inst u = none := by simpa using hn
        have hno := h.noLive hn'
        have h1 := h.register r hu fun _ q hq => absurd hq (hno q)
        have := h1.modify_live (r := r) (g := fun o => { o with uid := some u }) (u := u)
          (by show (get (put w.inst u r) u).isSome = true; rw [get_put_self]; rfl)
          (fun _ => by show get (put w.inst u r) u = some r; rw [get_put_self]) (fun _ _ _ => rfl) (fun q _ hq => hno q hq)
        have he : modify r (fun o => { o with uid := some u }) (register u r w) =
            register u r (modify r (fun o => { o with uid := some u }) w) := by
          unfold modify register
          simp only
          split <;> rfl
        rw [he] at this
        exact this

theorem delUid_inv {E : Env D} {w : World D} (h : Inv P E w) (r : Ref) : Inv P E (delUid r w).2 := by
  unfold delUid
  split
  · exact h
  · split
    · exact h
    · have hc : ∀ q v, Carries (modify r (fun o => { o with uid := none }) w) q v → Carries w q v := fun q v => by
        rintro ⟨o, a, b, c⟩
        rw [modify_objs] at a
        by_cases hq : q = r
        · subst hq
          rw [if_pos rfl] at a
          cases ho : w.objs[q]? with
          | none => rw [ho] at a; cases a
          | some o' => rw [ho] at a; cases a; cases c
        · rw [if_neg hq] at a
          exact ⟨o, a, b, c⟩
      obtain ⟨p1, p2⟩ := modify_inst r (fun o : Obj D => { o with uid := none }) w
      exact {
        known := fun q v hq => by show (get (modify r _ w).inst v).isSome = true; rw [p1]; exact h.known q v (hc q v hq)
        distinct := fun q q' v h1 h2 => h.distinct q q' v (hc q v h1) (hc q' v h2)
        fresh := fun m hm => by
          show get (modify r _ w).inst _ = none
          rw [p1]
          exact h.fresh m (by rw [← p2]; exact hm)
        found := fun p q v hq => by show get (modify r _ w).inst v = some q; rw [p1]; exact h.found p q v (hc q v hq) }

theorem construct_inv {E : Env D} (hinj : ∀ m n, E.supply m = E.supply n → m = n) {w : World D} (h : Inv P E w) (c : Cls)
    (u : Option Uid) (i : Bool) (hu : ∀ v, u = some v → Unguessed E w v) : Inv P E (construct E c u i w).2 := by
  obtain ⟨h1, hc, hx, hold⟩ := alloc_spec hinj c h
  unfold construct
  simp only
  generalize hw : alloc E c w = a at h1 hc hx hold
  obtain ⟨x, w1⟩ := a
  simp only at h1 hc hx hold ⊢
  have hd : w1.drawn = w.drawn + 1 := by
    have : w1 = (alloc E c w).2 := by rw [hw]
    rw [this]; rfl
  have drawn1 : w.drawn ≤ w1.drawn := by rw [hd]; exact Nat.le_succ _
  have default_noLive : NoLive w1 (E.supply w.drawn) := fun q hq =>
    h.noLive (h.fresh w.drawn (Nat.le_refl _)) q ((hc q _).1 hq)
  have default_unguessed : Unguessed E w1 (E.supply w.drawn) := fun m hm hs => by
    have := hinj _ _ hs
    rw [hd] at hm
    omega
  -- the end of the construction
  have fin : ∀ w2 : World D, ∀ o v, Inv P E w2 → w2.objs[x]? = some o → o.live = false → o.uid = some v → NoLive w2 v →
      Unguessed E w2 v → Inv P E (modify x (fun o => { o with live := true }) (finishInit x w2)) := by
    intro w2 o v h2 ho hl hv hno hun
    have hf : finishInit x w2 = register v x w2 := by
      unfold finishInit
      rw [ho]
      simp only [hv]
    rw [hf]
    refine (h2.register x hun fun _ q hq => absurd hq (hno q)).modify_live (u := v)
      (by show (get (put w2.inst v x) v).isSome = true; rw [get_put_self]; rfl)
      (fun _ => by show get (put w2.inst v x) v = some x; rw [get_put_self])
      (fun o' ho' _ => ?_) (fun q _ hq => hno q hq)
    have : w2.objs[x]? = some o' := ho'
    rw [ho] at this; cases this
    exact hv
  cases u with
  | none =>
    simp only
    split
    · exact h1
    · exact fin w1 _ _ h1 hx rfl rfl default_noLive default_unguessed
  | some v =>
    have hv := hu v rfl
    have hne : E.supply w.drawn ≠ v := hv w.drawn (Nat.le_refl _)
    have h2 := setUid_inv h1 x (Spec.Unguessed.mono hv drawn1) fun _ o ho hou => by
      rw [hx] at ho
      cases ho
      exact absurd (Option.some.inj hou) hne
    simp only
    unfold setUid at h2 ⊢
    rw [hx] at h2 ⊢
    simp only [Option.some.injEq, hne, if_false] at h2 ⊢
    by_cases hs : (get w1.inst v).isSome = true
    · rw [if_pos hs] at h2 ⊢
      exact h2
    · rw [if_neg hs] at h2 ⊢
      have hn : get w1.inst v = none := by simpa using hs
      have hno := h1.noLive hn
      simp only
      split
      · exact h2
      · refine fin _ { cls := c, uid := some v } v h2 ?_ rfl rfl ?_ ?_
        · show (modify x _ w1).objs[x]? = _
          rw [modify_objs, if_pos rfl, hx]
          rfl
        · intro q hq
          refine hno q (((h1.modify_dead (g := fun o => { o with uid := some v }) (fun o ho => ?_) (fun o ho => ?_)).2 q v).1 hq)
          · rw [hx] at ho; cases ho; rfl
          · rw [hx] at ho; cases ho; rfl
        · intro m hm
          refine hv m (Nat.le_trans drawn1 ?_)
          have : (register v x (modify x (fun o => { o with uid := some v }) w1)).drawn = w1.drawn := (modify_inst _ _ _).2
          rw [← this]
          exact hm

/-! ## Deserialization -/

/-- A flat dictionary, possibly in part deserialized. -/
structure Fit (E : Env D) (w : World D) (reg : Reg D) : Prop where
  unguessed : ∀ u v, get reg u = some v → Unguessed E w u
  keys : ∀ u e, get reg u = some (.raw e) → e.uid = none ∨ e.uid = some u

def NotRaw (reg : Reg D) (u : Uid) : Prop := ∀ e, get reg u ≠ some (.raw e)

/-- What deserializing preserves, also if it fails. -/
structure Des (P : Prop) (E : Env D) (reg : Reg D) (w w' : World D) : Prop where
  inv : Inv P E w'
  drawn : w.drawn ≤ w'.drawn
  objs : ∀ (r : Ref) o, w.objs[r]? = some o → w'.objs[r]? = some o
  inst : ∀ u x, get w.inst u = some x → get w'.inst u = some x
  noLive : ∀ u, NoLive w u → NotRaw reg u → Unguessed E w u → NoLive w' u

/-- The dictionary after that. -/
structure Shrinks (E : Env D) (reg reg' : Reg D) (w' : World D) : Prop where
  fit : Fit E w' reg'
  notRaw : ∀ u, NotRaw reg u → NotRaw reg' u

theorem Fit.mono {E : Env D} {w w' : World D} {reg : Reg D} (h : Fit E w reg) (hd : w.drawn ≤ w'.drawn) : Fit E w' reg :=
  ⟨fun u v hu => Spec.Unguessed.mono (h.unguessed u v hu) hd, h.keys⟩

theorem Des.refl {E : Env D} {w : World D} (reg : Reg D) (h : Inv P E w) : Des P E reg w w :=
  ⟨h, Nat.le_refl _, fun _ _ h => h, fun _ _ h => h, fun _ h _ _ => h⟩

theorem Des.trans {E : Env D} {reg reg' : Reg D} {w w' w'' : World D} (h : Des P E reg w w') (hs : ∀ u, NotRaw reg u → NotRaw reg' u)
    (g : Des P E reg' w' w'') : Des P E reg w w'' :=
  ⟨g.inv, Nat.le_trans h.drawn g.drawn, fun r o ho => g.objs r o (h.objs r o ho), fun u x hu => g.inst u x (h.inst u x hu),
    fun u h1 h2 h3 => g.noLive u (h.noLive u h1 h2 h3) (hs u h2) (Spec.Unguessed.mono h3 h.drawn)⟩

/-- The deserializer of references keeps the invariant. -/
def Good (P : Prop) (E : Env D) (f : Cls → Uid → Reg D → World D → Except Err (Ref × Reg D) × World D) : Prop :=
  ∀ c u reg w, Inv P E w → Fit E w reg → Des P E reg w (f c u reg w).2 ∧
    ∀ x reg', (f c u reg w).1 = .ok (x, reg') → Shrinks E reg reg' (f c u reg w).2

theorem desSlots_good {E : Env D} {f : Cls → Uid → Reg D → World D → Except Err (Ref × Reg D) × World D} (hf : Good P E f) :
    ∀ (l : List (JSlot D)) reg w, Inv P E w → Fit E w reg → Des P E reg w (desSlots f l reg w).2 ∧
      ∀ ss reg', (desSlots f l reg w).1 = .ok (ss, reg') → Shrinks E reg reg' (desSlots f l reg w).2
  | [], reg, w, h, hr => ⟨.refl reg h, fun ss reg' he => by cases he; exact ⟨hr, fun _ h => h⟩⟩
  | .data d :: l, reg, w, h, hr => by
    obtain ⟨h1, h2⟩ := desSlots_good hf l reg w h hr
    simp only [desSlots]
    split
    · rename_i e w' he
      rw [he] at h1
      exact ⟨h1, fun ss reg' he => by cases he⟩
    · rename_i ss reg1 w' he
      rw [he] at h1 h2
      refine ⟨h1, fun ss reg' he => ?_⟩
      cases he
      exact h2 _ _ rfl
  | .uid true c u :: l, reg, w, h, hr => by
    obtain ⟨h1, h2⟩ := desSlots_good hf l reg w h hr
    simp only [desSlots]
    split
    · rename_i e w' he
      rw [he] at h1
      exact ⟨h1, fun ss reg' he => by cases he⟩
    · rename_i ss reg1 w' he
      rw [he] at h1 h2
      refine ⟨h1, fun ss reg' he => ?_⟩
      cases he
      exact h2 _ _ rfl
  | .uid false c u :: l, reg, w, h, hr => by
    obtain ⟨h1, h2⟩ := hf c u reg w h hr
    simp only [desSlots]
    split
    · rename_i e w' he
      rw [he] at h1
      exact ⟨h1, fun ss reg' he => by cases he⟩
    · rename_i x reg1 w1 he
      rw [he] at h1 h2
      have h3 := h2 _ _ rfl
      obtain ⟨h4, h5⟩ := desSlots_good hf l reg1 w1 h1.inv h3.fit
      split
      · rename_i e w2 he2
        rw [he2] at h4
        exact ⟨h1.trans h3.notRaw h4, fun ss reg' he => by cases he⟩
      · rename_i ss reg2 w2 he2
        rw [he2] at h4 h5
        have h6 := h5 _ _ rfl
        refine ⟨h1.trans h3.notRaw h4, fun ss reg' he => ?_⟩
        cases he
        exact ⟨h6.fit, fun v hv => h6.notRaw v (h3.notRaw v hv)⟩

/-- Changes to the new instance, which is not in use yet. -/
theorem Des.modify_dead {E : Env D} {reg : Reg D} {w0 w : World D} (h : Des P E reg w0 w) {x : Ref} {g : Obj D → Obj D}
    (hx : w0.objs[x]? = none) (hold : ∀ o, w.objs[x]? = some o → o.live = false) (hg : ∀ o, (g o).live = o.live) :
    Des P E reg w0 (modify x g w) := by
  obtain ⟨h1, h2⟩ := h.inv.modify_dead (g := g) (fun o ho => by rw [hg, hold o ho]) hold
  obtain ⟨p1, p2⟩ := modify_inst x g w
  refine ⟨h1, by rw [p2]; exact h.drawn, fun r o ho => ?_, fun u y hu => by rw [p1]; exact h.inst u y hu,
    fun u a b c r hr => h.noLive u a b c r ((h2 r u).1 hr)⟩
  rw [modify_objs]
  by_cases hr : r = x
  · subst hr; rw [hx] at ho; cases ho
  · rw [if_neg hr]; exact h.objs r o ho

theorem build_good {E : Env D} (hinj : ∀ m n, E.supply m = E.supply n → m = n) {t s : Bool}
    {f : Cls → Uid → Reg D → World D → Except Err (Ref × Reg D) × World D} (hf : Good P E f)
    (c : Cls) (u : Uid) (e : Option (Entry D)) (reg : Reg D) (w : World D) (h : Inv P E w) (hr : Fit E w reg)
    (hi : get w.inst u = none) (hg : ∃ v, get reg u = some v) (he : ∀ e', e = some e' → get reg u = some (.raw e')) :
    Des P E reg w (build E t s f c u e reg w).2 ∧
    ∀ x reg', (build E t s f c u e reg w).1 = .ok (x, reg') → Shrinks E reg reg' (build E t s f c u e reg w).2 := by
  unfold build
  split
  · exact ⟨.refl reg h, fun x reg' he => by cases he⟩
  · rename_i c' hc'
    obtain ⟨h1, hc, hx, hold⟩ := alloc_spec hinj c' h
    simp only
    generalize hw : alloc E c' w = a at h1 hc hx hold
    obtain ⟨x, w1⟩ := a
    simp only at h1 hc hx hold ⊢
    have hw1 : w1 = (alloc E c' w).2 := by rw [hw]
    have hd : w1.drawn = w.drawn + 1 := by rw [hw1]; rfl
    have hinst : w1.inst = w.inst := by rw [hw1]; rfl
    have hxe : x = w.objs.length := by
      have : x = (alloc E c' w).1 := by rw [hw]
      rw [this]; rfl
    have hxn : w.objs[x]? = none := by rw [hxe]; simp
    have drawn1 : w.drawn ≤ w1.drawn := by rw [hd]; exact Nat.le_succ _
    have hfin : finishInit x w1 = register (E.supply w.drawn) x w1 := by
      unfold finishInit
      rw [hx]
    rw [hfin]
    have hun : Unguessed E w1 (E.supply w.drawn) := fun m hm hs => by
      have := hinj _ _ hs
      rw [hd] at hm
      omega
    have hnod : NoLive w1 (E.supply w.drawn) := fun q hq => h.noLive (h.fresh w.drawn (Nat.le_refl _)) q ((hc q _).1 hq)
    have h2 := h1.register x hun fun _ q hq => absurd hq (hnod q)
    have hnolive0 : ∀ v, NoLive w v → NoLive (register (E.supply w.drawn) x w1) v := fun v hv q hq => hv q ((hc q v).1 hq)
    have d2 : Des P E reg w (register (E.supply w.drawn) x w1) :=
      ⟨h2, drawn1, fun r o ho => (hold r o ho).2, fun v y hv => by
          show get (put w1.inst _ x) v = some y
          rw [get_put_ne _ _ (fun hvd => by rw [hvd, h.fresh _ (Nat.le_refl _)] at hv; cases hv), hinst]
          exact hv,
        fun v hv _ _ => hnolive0 v hv⟩
    generalize hw2 : register (E.supply w.drawn) x w1 = w2 at h2 d2 hnolive0
    have hx2 : w2.objs[x]? = some { cls := c', uid := some (E.supply w.drawn) } := by rw [← hw2]; exact hx
    have hdef2 : get w2.inst (E.supply w.drawn) = some x := by
      rw [← hw2]
      show get (put w1.inst (E.supply w.drawn) x) (E.supply w.drawn) = some x
      rw [get_put_self]
    have hd2 : w2.drawn = w.drawn + 1 := by rw [← hw2]; exact hd
    cases e with
    | none => exact ⟨d2, fun x reg' he => by cases he⟩
    | some e =>
      have hraw := he e rfl
      have hku := hr.unguessed u _ hraw
      have hkey := hr.keys u e hraw
      have fit1 : Fit E w2 (put reg u (.inst x)) := by
        constructor
        · intro v y hv
          by_cases hvu : v = u
          · subst hvu; exact Spec.Unguessed.mono hku d2.drawn
          · rw [get_put_ne _ _ hvu] at hv
            exact Spec.Unguessed.mono (hr.unguessed v y hv) d2.drawn
        · intro v e' hv
          by_cases hvu : v = u
          · subst hvu; rw [get_put_self] at hv; cases hv
          · rw [get_put_ne _ _ hvu] at hv
            exact hr.keys v e' hv
      have notRaw1 : ∀ v, NotRaw reg v → NotRaw (put reg u (.inst x)) v := fun v hv e' h' => by
        by_cases hvu : v = u
        · subst hvu; exact hv e hraw
        · rw [get_put_ne _ _ hvu] at h'
          exact hv e' h'
      obtain ⟨h3, h4⟩ := desSlots_good hf e.slots _ w2 h2 fit1
      have d3 := d2.trans notRaw1 h3
      simp only
      split
      · rename_i err w3 he3
        rw [he3] at d3
        exact ⟨d3, fun x reg' he => by cases he⟩
      · rename_i ss reg3 w3 he3
        rw [he3] at h3 h4 d3
        have h5 := h4 _ _ rfl
        have hx3 : w3.objs[x]? = some { cls := c', uid := some (E.supply w.drawn) } := h3.objs x _ hx2
        have dead3 : ∀ o, w3.objs[x]? = some o → o.live = false := fun o ho => by rw [hx3] at ho; cases ho; rfl
        -- nobody else has the identifier
        have hno_u : NoLive w3 u := h3.noLive u (hnolive0 u (h.noLive hi))
          (fun e' h' => by rw [get_put_self] at h'; cases h') (Spec.Unguessed.mono hku d2.drawn)
        have hno_d : NoLive w3 (E.supply w.drawn) := h3.noLive _ (hnolive0 _ (h.noLive (h.fresh _ (Nat.le_refl _))))
          (fun e' h' => by
            by_cases hvu : E.supply w.drawn = u
            · exact hku w.drawn (Nat.le_refl _) hvu
            · rw [get_put_ne _ _ hvu] at h'
              exact hr.unguessed _ _ h' w.drawn (Nat.le_refl _) rfl)
          (fun m hm hs => by have := hinj _ _ hs; omega)
        -- the values are set
        have hset : ∃ w4 v o, (∃ r, setFields E x e.uid ss w3 = (r, w4)) ∧ Des P E reg w w4 ∧ w4.objs[x]? = some o ∧ o.live = false ∧
            o.uid = some v ∧ NoLive w4 v ∧ NoLive w4 u ∧ ((v = u ∧ e.uid = some u) ∨ (v = E.supply w.drawn ∧ get w4.inst v = some x)) ∧ w4.drawn = w3.drawn := by
          have key : ∃ w4 v o, setOwn x e.uid w3 = w4 ∧
              Des P E reg w w4 ∧ w4.objs[x]? = some o ∧ o.live = false ∧
              o.uid = some v ∧ NoLive w4 v ∧ NoLive w4 u ∧ ((v = u ∧ e.uid = some u) ∨ (v = E.supply w.drawn ∧ get w4.inst v = some x)) ∧ w4.drawn = w3.drawn := by
            rcases hkey with hk | hk
            · rw [hk]
              exact ⟨w3, E.supply w.drawn, _, rfl, d3, hx3, rfl, rfl, hno_d, hno_u, .inr ⟨rfl, h3.inst _ _ hdef2⟩, rfl⟩
            · rw [hk]
              obtain ⟨i1, i2⟩ := d3.inv.modify_dead (r := x) (g := fun o => { o with uid := some u })
                (fun o ho => by rw [dead3 o ho]) dead3
              refine ⟨_, u, { cls := c', uid := some u }, rfl, d3.modify_dead hxn dead3 (fun _ => rfl), ?_, rfl, rfl,
                fun q hq => hno_u q ((i2 q u).1 hq), fun q hq => hno_u q ((i2 q u).1 hq), .inl ⟨rfl, rfl⟩, (modify_inst _ _ _).2⟩
              simp only [setOwn]
              rw [modify_objs, if_pos rfl, hx3]
              rfl
          obtain ⟨w4, v, o, e1, e2, e3, e4, e5, e6, e9, e7, e8⟩ := key
          unfold setFields
          simp only
          rw [e1]
          split
          · obtain ⟨i1, i2⟩ := e2.inv.modify_dead (r := x) (g := fun o => { o with slots := ss })
              (fun o' ho => by rw [e3] at ho; cases ho; exact e4) (fun o' ho => by rw [e3] at ho; cases ho; exact e4)
            refine ⟨_, v, { o with slots := ss }, ⟨_, rfl⟩, e2.modify_dead hxn (fun o' ho => by rw [e3] at ho; cases ho; exact e4)
              (fun _ => rfl), ?_, e4, e5, fun q hq => e6 q ((i2 q v).1 hq), fun q hq => e9 q ((i2 q u).1 hq), ?_, (modify_inst _ _ _).2.trans e8⟩
            · rw [modify_objs, if_pos rfl, e3]; rfl
            · rw [(modify_inst _ _ _).1]; exact e7
          · exact ⟨w4, v, o, ⟨_, rfl⟩, e2, e3, e4, e5, e6, e9, e7, e8⟩
        obtain ⟨w4, v, o, ⟨r4, e1⟩, e2, e3, e4, e5, e6, e9, e7, e8⟩ := hset
        simp only [e1]
        cases r4 with
        | error err => exact ⟨e2, fun x reg' he => by cases he⟩
        | ok _ =>
          simp only
          have hku4 : Unguessed E w4 u := Spec.Unguessed.mono hku e2.drawn
          have i5 := e2.inv.register x hku4 fun _ q hq => absurd hq (e9 q)
          have hcomm : register u x (modify x (fun o => { o with live := true }) w4) =
              modify x (fun o => { o with live := true }) (register u x w4) := by
            unfold modify register
            simp only
            split <;> rfl
          rw [hcomm]
          have hvin : get (register u x w4).inst v = some x := by
            show get (put w4.inst u x) v = some x
            by_cases hvu : v = u
            · subst hvu; rw [get_put_self]
            · rcases e7 with ⟨hv, _⟩ | ⟨_, e7⟩
              · exact absurd hv hvu
              · rw [get_put_ne _ _ hvu]; exact e7
          have i6 := i5.modify_live (r := x) (g := fun o => { o with live := true }) (u := v) (by rw [hvin]; rfl) (fun _ => hvin)
            (fun o' ho' _ => by
              have : w4.objs[x]? = some o' := ho'
              rw [e3] at this; cases this
              exact e5) (fun q _ hq => e6 q hq)
          obtain ⟨p1, p2⟩ := modify_inst x (fun o : Obj D => { o with live := true }) (register u x w4)
          have hdr : (modify x (fun o : Obj D => { o with live := true }) (register u x w4)).drawn = w3.drawn := by
            rw [p2]; exact e8
          refine ⟨⟨i6, by rw [p2]; exact e2.drawn, fun r o' ho' => ?_, fun y z hy => ?_, fun y a b c' r hcar => ?_⟩, fun x' reg' hh => ?_⟩
          · rw [modify_objs]
            by_cases hrx : r = x
            · subst hrx; rw [hxn] at ho'; cases ho'
            · rw [if_neg hrx]; exact e2.objs r o' ho'
          · rw [p1]
            show get (put w4.inst u x) y = some z
            rw [get_put_ne _ _ (fun hyu => by rw [hyu, hi] at hy; cases hy)]
            exact e2.inst y z hy
          · obtain ⟨o', a1, a2, a3⟩ := hcar
            rw [modify_objs] at a1
            by_cases hrx : r = x
            · subst hrx
              rw [if_pos rfl] at a1
              have e3' : (register u r w4).objs[r]? = some o := e3
              rw [e3'] at a1
              cases a1
              have hvy : v = y := by
                rw [show (({ o with live := true } : Obj D)).uid = o.uid from rfl, e5] at a3
                exact Option.some.inj a3
              subst hvy
              -- the identifier is the key, which is raw, or was just drawn
              rcases e7 with ⟨rfl, _⟩ | ⟨rfl, _⟩
              · exact b e hraw
              · exact c' w.drawn (Nat.le_refl _) rfl
            · rw [if_neg hrx] at a1
              exact e2.noLive y a b c' r ⟨o', a1, a2, a3⟩
          · cases hh
            exact ⟨h5.fit.mono (by rw [hdr]; exact Nat.le_refl _), fun y hy => h5.notRaw y (notRaw1 y hy)⟩

theorem des_good {E : Env D} (hinj : ∀ m n, E.supply m = E.supply n → m = n) (t s : Bool) : ∀ k, Good P E (des E t s k)
  | 0, _, _, reg, _, h, _ => ⟨.refl reg h, fun _ _ he => by cases he⟩
  | k + 1, c, u, reg, w, h, hr => by
    have ih := des_good hinj t s k
    cases hi : get w.inst u with
    | some x =>
      cases hg : get reg u with
      | none =>
        simp only [des, hi, hg]
        exact ⟨.refl reg h, fun x reg' he => by cases he; exact ⟨hr, fun _ h => h⟩⟩
      | some v =>
        simp only [des, hi, hg]
        exact ⟨.refl reg h, fun x reg' he => by cases he⟩
    | none =>
      cases hg : get reg u with
      | none =>
        simp only [des, hi, hg]
        exact ⟨.refl reg h, fun x reg' he => by cases he⟩
      | some v =>
        cases v with
        | inst x =>
          simp only [des, hi, hg]
          refine ⟨⟨h.register x (hr.unguessed u _ hg) (fun _ q hq => absurd hq (h.noLive hi q)), Nat.le_refl _, fun _ _ h => h,
            fun v y hv => (get_put_ne _ _ (fun hvu => by rw [hvu, hi] at hv; cases hv)).trans hv,
            fun v hv _ _ => hv⟩, fun x' reg' he => ?_⟩
          cases he
          exact ⟨⟨hr.unguessed, hr.keys⟩, fun _ h => h⟩
        | raw e =>
          simp only [des, hi, hg]
          exact build_good hinj ih c u (some e) reg w h hr hi ⟨_, hg⟩ (fun e' he => by cases he; exact hg)
        | text v =>
          simp only [des, hi, hg]
          exact build_good hinj ih c u none reg w h hr hi ⟨_, hg⟩ (fun e' he => by cases he)
        | null =>
          simp only [des, hi, hg]
          exact build_good hinj ih c u none reg w h hr hi ⟨_, hg⟩ (fun e' he => by cases he)

theorem exec_inv {E : Env D} (hinj : ∀ m n, E.supply m = E.supply n → m = n) (k : Nat) {w : World D} (h : Inv P E w) {c : Cmd D}
    (hc : Fair E w c) (hp : P → ∀ r u, c = .setUid r u → ∀ o, w.objs[r]? = some o → o.live = true) : Inv P E (exec E k c w) := by
  cases hc with
  | new c u i hu => exact construct_inv hinj h c u i hu
  | setUid r u hu => exact setUid_inv h r hu fun p o ho _ => hp p r u rfl o ho
  | delUid r => exact delUid_inv h r
  | load c root reg t s h1 h2 =>
    have hg := fun u => (des_good hinj t s k c u reg w h ⟨h1, h2⟩).1.inv
    show Inv P E (deserialize E t s k c root reg w).2
    unfold deserialize
    split
    · rename_i u
      have := hg u
      split <;> rename_i he <;> rw [he] at this <;> exact this
    · rename_i u _
      have := hg u
      split <;> rename_i he <;> rw [he] at this <;> exact this
    · exact h

theorem Inv.empty (E : Env D) : Inv P E {} :=
  ⟨fun r u ⟨o, a, _⟩ => by simp at a, fun r r' u ⟨o, a, _⟩ => by simp at a, fun _ _ => rfl, fun _ r u ⟨o, a, _⟩ => by simp at a⟩

/-- C43: after any history, no two instances in use have the same identifier, and
each is the identifier of an instance that `load` finds. -/
theorem C43_unique (E : Env D) (hinj : ∀ m n, E.supply m = E.supply n → m = n) (k : Nat) (w : World D) (h : Hist E k {} w) :
    (∀ r r' u, Carries w r u → Carries w r' u → r = r') ∧ ∀ r u, Carries w r u → (get w.inst u).isSome = true := by
  have : Inv False E w := by
    induction h with
    | nil => exact Inv.empty E
    | cons _ hf ih => exact exec_inv hinj k ih hf False.elim
  exact ⟨this.distinct, this.known⟩

/-- C43: an identifier that is in use is refused for another instance, and nothing
changes. -/
theorem C43_refused (w : World D) (r : Ref) (u : Uid) (o : Obj D) (ho : w.objs[r]? = some o) (hu : o.uid ≠ some u)
    (h : (get w.inst u).isSome = true) : setUid r u w = (.error .validation, w) := by
  unfold setUid
  rw [ho]
  simp only [if_neg hu, if_pos h]

/-! ## Concrete cases -/

def uuid (n : Nat) : Uid := List.replicate (n + 10) 'u'

/-- One class; all values are accepted. -/
def demoEnv : Env Nat := ⟨fun _ => s% "A", fun _ => none, fun _ _ => true, uuid⟩

theorem uuid_inj (m n : Nat) (h : uuid m = uuid n) : m = n := by
  have := congrArg List.length h
  simp [uuid] at this
  exact this

theorem uuid_ne (m : Nat) (u : Uid) (h : u.length < 10) : uuid m ≠ u := fun he => by
  have := congrArg List.length he
  simp [uuid] at this
  omega

/-- Two instances, one of which gets the identifier `a`; then the other is refused
it, and a flat dictionary with two instances is read. -/
def demoCmds : List (Cmd Nat) :=
  [.new 0 none false, .new 0 none false, .setUid 0 (s% "a"), .setUid 1 (s% "a"), .new 0 (some (s% "a")) false,
   .load 0 none [(rootKey, .text (s% "b")), (s% "b", .raw ⟨none, some (s% "b"), [.uid false 0 (s% "c"), .data 7]⟩),
     (s% "c", .raw ⟨none, some (s% "c"), [.uid false 0 (s% "b")]⟩)] false false]

def runCmds {D : Type} (E : Env D) (k : Nat) : List (Cmd D) → World D → World D
  | [], w => w
  | c :: cs, w => runCmds E k cs (exec E k c w)

theorem C43_example : ∃ w, Hist demoEnv 5 {} w ∧
    (w.objs.map fun o => (o.uid, o.live)) =
      [(some (s% "a"), true), (some (uuid 1), true), (some (uuid 2), false), (some (s% "b"), true), (some (s% "c"), true)] := by
  refine ⟨runCmds demoEnv 5 demoCmds {}, ?_, by decide +kernel⟩
  have small : ∀ (w : World Nat) (u : Uid), u.length < 10 → Unguessed demoEnv w u := fun w u h m _ => uuid_ne m u h
  refine .cons (.cons (.cons (.cons (.cons (.cons (.nil _) (.new _ _ _ ?_)) (.new _ _ _ ?_)) (.setUid _ _ ?_)) (.setUid _ _ ?_))
    (.new _ _ _ ?_)) (.load _ _ _ _ _ ?_ ?_)
  · intro v h; cases h
  · intro v h; cases h
  · exact small _ _ (by decide)
  · exact small _ _ (by decide)
  · intro v h; cases h; exact small _ _ (by decide)
  · intro u v h
    refine small _ _ ?_
    simp only [get] at h
    split at h
    · rename_i h1; rw [← h1]; decide
    · split at h
      · rename_i h1; rw [← h1]; decide
      · split at h
        · rename_i h1; rw [← h1]; decide
        · cases h
  · intro u e h
    right
    simp only [get] at h
    split at h
    · cases h
    · split at h
      · rename_i h1; cases h; rw [← h1]
      · split at h
        · rename_i h1; cases h; rw [← h1]
        · cases h

/-- An entry whose `uid` is not its key gives two instances with one identifier. -/
theorem C43_wrong_key :
    ((runCmds demoEnv 5 [.new 0 (some (s% "a")) false,
      .load 0 none [(rootKey, .text (s% "b")), (s% "b", .raw ⟨none, some (s% "a"), []⟩)] false false] {}).objs.map
        fun o => (o.uid, o.live)) = [(some (s% "a"), true), (some (s% "a"), true)] := by
  decide +kernel

/-- So does an assignment with listeners disabled. -/
theorem C43_listeners_disabled :
    ((runCmds demoEnv 5 [.new 0 (some (s% "a")) false, .new 0 none false, .quiet 1 (s% "a")] {}).objs.map
        fun o => (o.uid, o.live)) = [(some (s% "a"), true), (some (s% "a"), true)] := by
  decide +kernel

/-- An identifier stays taken after the only instance that had it got another one,
and after a construction that failed. -/
theorem C43_stays_taken :
    (construct demoEnv 0 (some (s% "a")) false
      (runCmds demoEnv 5 [.new 0 (some (s% "a")) false, .setUid 0 (s% "b")] {})).1 = .error .validation ∧
    (construct demoEnv 0 (some (s% "a")) false (runCmds demoEnv 5 [.new 0 (some (s% "a")) true] {})).1 = .error .validation :=
  ⟨rfl, rfl⟩

end Verif.Uid
