import Verif.Spec.Handlers

/-!
# C13, C14: `listeners_disabled`, `validators_disabled`, `observers_disabled`
-/

set_option linter.unusedSimpArgs false

namespace Verif.Handlers
open Verif.Spec.Handlers

/-- What running a block does to the sets. -/
structure Frame (s s' : St) (keep : Nat → Prop) : Prop where
  len : s.sets.length ≤ s'.sets.length
  sets : ∀ r, r < s.sets.length → r ≠ s.cur → s'.sets.getD r {} = s.sets.getD r {}
  quar : s'.quar = s.quar
  cur : s'.cur = s.cur ∨ s.sets.length ≤ s'.cur
  curlt : s'.cur < s'.sets.length
  prev : ∀ i, keep i → s'.prev i = s.prev i

theorem Frame.refl (s : St) (keep) (h : s.cur < s.sets.length) : Frame s s keep :=
  ⟨Nat.le_refl _, fun _ _ _ => rfl, rfl, Or.inl rfl, h, fun _ _ => rfl⟩

theorem Frame.trans {a b c : St} {keep} (h : Frame a b keep) (k : Frame b c keep) :
    Frame a c keep := by
  refine ⟨Nat.le_trans h.len k.len, fun r hr hne => ?_, k.quar.trans h.quar, ?_, k.curlt,
    fun i hi => (k.prev i hi).trans (h.prev i hi)⟩
  · rw [k.sets r (Nat.lt_of_lt_of_le hr h.len) ?_, h.sets r hr hne]
    rcases h.cur with h1 | h1 <;> omega
  · rcases k.cur with h1 | h1
    · rw [h1]; exact h.cur
    · exact Or.inr (Nat.le_trans h.len h1)

theorem enter_quar (c : Ctx) (s : St) (h : s.cur < s.sets.length) :
    (enter c s).quar = s.quar.union (requested c) := by
  unfold enter requested St.quar
  cases c.ty with
  | none => simp [List.getD, Quar.union, Quar.all]
  | some q =>
    simp [List.getD, List.getElem?_modify, List.getElem?_append_left h, List.getElem?_eq_getElem h]

theorem enter_curlt (c : Ctx) (s : St) (h : s.cur < s.sets.length) :
    (enter c s).cur < (enter c s).sets.length := by
  unfold enter
  cases c.ty <;> simp; omega

theorem enter_len (c : Ctx) (s : St) : s.sets.length < (enter c s).sets.length := by
  unfold enter
  cases c.ty <;> simp

theorem enter_prev (c : Ctx) (s : St) : (enter c s).prev c.id = some s.sets.length := by
  unfold enter
  cases c.ty <;> simp

theorem enter_prev_ne (c : Ctx) (s : St) (i : Nat) (h : i ≠ c.id) :
    (enter c s).prev i = s.prev i := by
  unfold enter
  cases c.ty <;> simp [h]

theorem enter_cur (c : Ctx) (s : St) : (enter c s).cur = s.cur ∨ (enter c s).cur = s.sets.length + 1 := by
  unfold enter
  cases c.ty <;> simp

theorem enter_sets (c : Ctx) (s : St) (r : Nat) (hr : r < s.sets.length) (hne : r ≠ s.cur) :
    (enter c s).sets.getD r {} = s.sets.getD r {} := by
  unfold enter
  cases c.ty with
  | none => simp [List.getD, List.getElem?_append_left hr]
  | some q => simp [List.getD, List.getElem?_modify, List.getElem?_append_left hr, Ne.symm hne]

theorem enter_saved (c : Ctx) (s : St) (h : s.cur < s.sets.length) :
    (enter c s).sets.getD s.sets.length {} = s.quar := by
  unfold enter
  cases c.ty with
  | none => simp [List.getD]
  | some q =>
    have : s.cur ≠ s.sets.length := by omega
    simp [List.getD, List.getElem?_modify, this]

/-- Enter, run something that keeps what it found, exit. -/
theorem frame_bracket (c : Ctx) (s s2 : St) (keep keep' : Nat → Prop) (h : s.cur < s.sets.length)
    (hc : keep' c.id) (hk : ∀ i, keep i → keep' i ∧ i ≠ c.id)
    (hf : Frame (enter c s) s2 keep') : Frame s (exit c s2) keep := by
  have hp : s2.prev c.id = some s.sets.length := by rw [hf.prev _ hc, enter_prev]
  have he : exit c s2 = { s2 with cur := s.sets.length } := by unfold exit; rw [hp]
  have hl := enter_len c s
  have hcur := enter_cur c s
  have hl2 := hf.len
  rw [he]
  refine ⟨by show s.sets.length ≤ s2.sets.length; omega, fun r hr hne => ?_, ?_, Or.inr (Nat.le_refl _), ?_,
    fun i hi => ?_⟩
  · show s2.sets.getD r {} = _
    rw [hf.sets r (by omega) (by rcases hcur with h1 | h1 <;> omega), enter_sets c s r hr hne]
  · show s2.sets.getD s.sets.length {} = s.quar
    rw [hf.sets _ hl (by rcases hcur with h1 | h1 <;> omega), enter_saved c s h]
  · show s.sets.length < s2.sets.length; omega
  · show s2.prev i = _
    rw [hf.prev i (hk i hi).1, enter_prev_ne c s i (hk i hi).2]

theorem exec_lexical (b : Blk) : ∀ (o : List Nat) (s : St), Distinct b o →
    s.cur < s.sets.length →
    Frame s (exec b s).1 (· ∈ o) ∧ (exec b s).2 = lexical b s.quar := by
  induction b with
  | skip => intro o s _ h; exact ⟨Frame.refl s _ h, rfl⟩
  | raise n => intro o s _ h; exact ⟨Frame.refl s _ h, rfl⟩
  | probe => intro o s _ h; exact ⟨Frame.refl s _ h, rfl⟩
  | seq a b iha ihb =>
    intro o s hd h
    obtain ⟨ha, hb⟩ := hd
    obtain ⟨f1, e1⟩ := iha o s ha h
    unfold exec lexical
    rw [← e1]
    rcases hx : exec a s with ⟨s1, e, l⟩
    rw [hx] at f1
    cases e with
    | some e => exact ⟨f1, rfl⟩
    | none =>
      obtain ⟨f2, e2⟩ := ihb o s1 hb f1.curlt
      rw [show s1.quar = s.quar from f1.quar] at e2
      simp only
      rw [← e2]
      exact ⟨f1.trans f2, rfl⟩
  | with_ c body ih =>
    intro o s hd h
    obtain ⟨hc, hb⟩ := hd
    obtain ⟨f, e⟩ := ih (c.id :: o) (enter c s) hb (enter_curlt c s h)
    rw [enter_quar c s h] at e
    unfold exec lexical
    rw [← e]
    exact ⟨frame_bracket c s _ _ _ h (List.mem_cons_self ..)
      (fun i hi => ⟨List.mem_cons_of_mem _ hi, fun h => hc (h ▸ hi)⟩) f, rfl⟩
  | try_ a b iha ihb =>
    intro o s hd h
    obtain ⟨ha, hb⟩ := hd
    obtain ⟨f1, e1⟩ := iha o s ha h
    unfold exec lexical
    rw [← e1]
    rcases hx : exec a s with ⟨s1, e, l⟩
    rw [hx] at f1
    cases e with
    | none => exact ⟨f1, rfl⟩
    | some e =>
      obtain ⟨f2, e2⟩ := ihb o s1 hb f1.curlt
      rw [show s1.quar = s.quar from f1.quar] at e2
      simp only
      rw [← e2]
      exact ⟨f1.trans f2, rfl⟩

/-- C13: whatever exceptions are raised, a program with well nested blocks of
distinct context objects leaves the disabled modes as they were, and at every
point inside, what is disabled is what was disabled before together with what
the enclosing blocks asked for (`lexical`). -/
theorem C13_restores (b : Blk) (s : St) (hd : Distinct b []) (hs : s.cur < s.sets.length) :
    (exec b s).1.quar = s.quar ∧ (exec b s).2 = lexical b s.quar :=
  ⟨(exec_lexical b [] s hd hs).1.quar, (exec_lexical b [] s hd hs).2⟩

/-- Inside a block every requested mode is disabled (what a probe there sees). -/
theorem C13_inside_disabled (c : Ctx) (m : Mode) (s : St) (hs : s.cur < s.sets.length)
    (h : (requested c).has m = true) : (enter c s).quar.has m = true := by
  rw [enter_quar c s hs]
  cases m <;> simp [Quar.union, Quar.has] at * <;> simp [h]

/-- Non-vacuity: observers disabled, inside it everything disabled, an
exception escaping from the inner block and caught outside it. -/
def demoBlk : Blk :=
  .with_ ⟨0, some ⟨false, true, true⟩⟩
    (.seq (.try_ (.with_ ⟨1, none⟩ (.seq .probe (.raise 3))) .skip) .probe)

example : Distinct demoBlk [] ∧ St.init.cur < St.init.sets.length := by
  simp [demoBlk, Distinct, St.init]

example : (exec demoBlk St.init).2 = (none, [⟨true, true, true⟩, ⟨false, true, true⟩]) := by decide

/-- The hypothesis of distinct context objects is needed: a context object
entered inside itself loses the state it saved. -/
theorem C13_same_object_nested_breaks :
    ∃ c, (exec (.with_ c (.with_ c .skip)) St.init).1.quar ≠ St.init.quar :=
  ⟨⟨0, none⟩, by decide⟩

theorem lifo_frame {ops : List Op} (h : Lifo ops) : ∀ s : St, s.cur < s.sets.length →
    Frame s (runOps ops s) (fun i => ∀ c, Op.enter c ∈ ops → c.id ≠ i) := by
  induction h with
  | nil => intro s hs; exact Frame.refl s _ hs
  | block c xs ys hx hne _ hy ihx ihy =>
    intro s hs
    have happ : ∀ (l1 l2 : List Op) s, runOps (l1 ++ l2) s = runOps l2 (runOps l1 s) := by
      intro l1
      induction l1 with
      | nil => intros; rfl
      | cons o os ih => intro l2 s; exact ih l2 _
    have e : runOps (.enter c :: xs ++ .exit c :: ys) s
        = runOps ys (exit c (runOps xs (enter c s))) := by
      rw [happ]; rfl
    rw [e]
    have f1 := ihx (enter c s) (enter_curlt c s hs)
    have f2 := frame_bracket c s _ (fun i => ∀ d, Op.enter d ∈ Op.enter c :: xs ++ .exit c :: ys → d.id ≠ i)
      _ hs (fun d hd => hne _ hd d rfl) (fun i hi =>
        ⟨fun d hd => hi d (by simp [hd]), fun h => hi c (by simp) h.symm⟩) f1
    have f3 := ihy _ f2.curlt
    refine f2.trans ⟨f3.len, f3.sets, f3.quar, f3.cur, f3.curlt, fun i hi => f3.prev i fun d hd => hi d ?_⟩
    simp [hd]

/-- C14 (full claim, false): contexts entered and left in any order, each once,
restore the initial state.  Two overlapping contexts that are not nested leave
every listener disabled, with no context open. -/
theorem C14_interleaving_breaks : ∃ ops : List Op, ops.length = 4 ∧ Closed ops ∧
    (runOps ops St.init).quar = Quar.all ∧ St.init.quar = {} := by
  let a : Ctx := ⟨0, none⟩
  let b : Ctx := ⟨1, none⟩
  refine ⟨[.enter a, .enter b, .exit a, .exit b], rfl, ?_, rfl, rfl⟩
  intro i
  by_cases h0 : i = 0
  · subst h0
    exact Or.inl ⟨rfl, rfl, [.enter a, .enter b], [.exit a, .exit b], a, a, rfl, rfl, rfl,
      by simp, by simp⟩
  · by_cases h1 : i = 1
    · subst h1
      exact Or.inl ⟨rfl, rfl, [.enter a, .enter b], [.exit a, .exit b], b, b, rfl, rfl, rfl,
        by simp, by simp⟩
    · refine Or.inr fun o ho c hc => ?_
      simp only [List.mem_cons, List.not_mem_nil, or_false] at ho
      rcases ho with rfl | rfl | rfl | rfl <;> rcases hc with hc | hc <;> cases hc <;>
        simp [a, b] <;> omega

/-- Operations on other contexts keep the state a context has saved. -/
theorem saved_kept {k r : Nat} : ∀ (ops : List Op) (s : St),
    (∀ o ∈ ops, ∀ d, o = .enter d ∨ o = .exit d → d.id ≠ k) → s.prev k = some r → r < s.sets.length → r ≠ s.cur →
    (∀ i, i ≠ k → s.prev i ≠ some r) →
    (runOps ops s).prev k = some r ∧ (runOps ops s).sets.getD r {} = s.sets.getD r {} ∧ r < (runOps ops s).sets.length := by
  intro ops
  induction ops with
  | nil => intro s _ h1 h2 _ _; exact ⟨h1, rfl, h2⟩
  | cons o os ih =>
    intro s hne h1 h2 h3 h4
    have hos : ∀ o ∈ os, ∀ d, o = .enter d ∨ o = .exit d → d.id ≠ k := fun o ho => hne o (List.mem_cons_of_mem _ ho)
    cases o with
    | enter d =>
      have hd : d.id ≠ k := hne _ (List.mem_cons_self ..) d (.inl rfl)
      have hcur := enter_cur d s
      have hlen := enter_len d s
      obtain ⟨a, b, c⟩ := ih (enter d s) hos (by rw [enter_prev_ne d s k (Ne.symm hd)]; exact h1) (by omega)
        (by rcases hcur with h | h <;> omega) (by
          intro i hi
          by_cases hid : i = d.id
          · rw [hid, enter_prev]
            intro h; cases h; omega
          · rw [enter_prev_ne d s i hid]; exact h4 i hi)
      exact ⟨a, b.trans (enter_sets d s r h2 h3), c⟩
    | exit d =>
      have hd : d.id ≠ k := hne _ (List.mem_cons_self ..) d (.inr rfl)
      show (runOps os (exit d s)).prev k = some r ∧ (runOps os (exit d s)).sets.getD r {} = _ ∧
        r < (runOps os (exit d s)).sets.length
      unfold exit
      cases hp : s.prev d.id with
      | none => exact ih s hos h1 h2 h3 h4
      | some r' =>
        have hr : r ≠ r' := fun h => h4 d.id hd (by rw [hp, h])
        exact ih { s with cur := r' } hos h1 h2 hr h4

/-- The references of a state are to its sets. -/
def Sound (s : St) : Prop := s.cur < s.sets.length ∧ ∀ i r, s.prev i = some r → r < s.sets.length

theorem sound_run : ∀ (ops : List Op) (s : St), Sound s → Sound (runOps ops s) := by
  intro ops
  induction ops with
  | nil => intro s h; exact h
  | cons o os ih =>
    intro s h
    refine ih _ ?_
    cases o with
    | enter d =>
      refine ⟨enter_curlt d s h.1, fun i r hi => ?_⟩
      have hlen := enter_len d s
      have hi : (enter d s).prev i = some r := hi
      show r < (enter d s).sets.length
      by_cases hid : i = d.id
      · rw [hid, enter_prev] at hi; cases hi; exact hlen
      · rw [enter_prev_ne d s i hid] at hi
        exact Nat.lt_trans (h.2 i r hi) hlen
    | exit d =>
      show Sound (exit d s)
      unfold exit
      cases hp : s.prev d.id with
      | none => exact h
      | some r' => exact ⟨h.2 _ _ hp, h.2⟩

theorem runOps_append : ∀ (l1 l2 : List Op) (s : St), runOps (l1 ++ l2) s = runOps l2 (runOps l1 s) := by
  intro l1
  induction l1 with
  | nil => intros; rfl
  | cons o os ih => intro l2 s; exact ih l2 _

/-- C14: whatever other contexts do in between, leaving a context makes the disabled
modes those that were disabled when it was entered. -/
theorem C14_exit (pre mid : List Op) (c d : Ctx) (s : St) (hs : Sound s) (hcd : d.id = c.id)
    (hmid : ∀ o ∈ mid, ∀ e, o = .enter e ∨ o = .exit e → e.id ≠ c.id) :
    (runOps (pre ++ .enter c :: mid ++ [.exit d]) s).quar = (runOps pre s).quar := by
  have e : runOps (pre ++ .enter c :: mid ++ [.exit d]) s = exit d (runOps mid (enter c (runOps pre s))) := by
    rw [runOps_append, runOps_append]; rfl
  rw [e]
  have h := sound_run pre s hs
  generalize runOps pre s = s1 at h
  have hcur := enter_cur c s1
  have hlen := enter_len c s1
  obtain ⟨a, b, _⟩ := saved_kept mid (enter c s1) hmid (enter_prev c s1) hlen (by rcases hcur with h' | h' <;> have := h.1 <;> omega)
    (fun i hi hp => by
      rw [enter_prev_ne c s1 i hi] at hp
      exact Nat.lt_irrefl _ (h.2 i _ hp))
  unfold exit
  rw [hcd, a]
  exact b.trans (enter_saved c s1 h.1)

/-- C14: when all contexts are closed, the disabled modes are those the context closed
last found when it was entered; so the initial state is restored exactly if these
were the initial ones. -/
theorem C14_interleaving (ops : List Op) (h : Closed ops) (hne : ops ≠ []) (s : St) (hs : Sound s) :
    ∃ pre mid c d, ops = pre ++ .enter c :: mid ++ [.exit d] ∧ d.id = c.id ∧
      (runOps ops s).quar = (runOps pre s).quar ∧
      ((runOps ops s).quar = s.quar ↔ (runOps pre s).quar = s.quar) := by
  have hlast : ops = ops.dropLast ++ [ops.getLast hne] := (List.dropLast_concat_getLast hne).symm
  generalize ops.dropLast = init at hlast
  generalize ops.getLast hne = o at hlast
  subst hlast
  have one : ∀ {i : Nat} {f : Op → Bool} {o' : Op} {l : List Op}, o' ∈ l → f o' = true → 1 ≤ (l.filter f).length := by
    intro i f o' l hm hf
    exact List.length_pos_of_mem (List.mem_filter.2 ⟨hm, hf⟩)
  cases o with
  | enter c =>
    rcases h c.id with ⟨h1, _, pre, post, c', d, hsplit, hc', hd, hin, hout⟩ | h0
    · exfalso
      have hpost : post ≠ [] := by intro h; rw [h] at hout; cases hout
      have hl : Op.enter c ∈ post := by
        have := List.getLast_append_of_ne_nil (l := pre) (l' := post) (by simp [hpost]) hpost
        have h2 : (init ++ [Op.enter c]).getLast (by simp) = (pre ++ post).getLast (by simp [hpost]) := by simp only [hsplit]
        rw [List.getLast_append_of_ne_nil _ (by simp), this] at h2
        have h3 : Op.enter c = post.getLast hpost := h2
        rw [h3]; exact List.getLast_mem hpost
      rw [hsplit, List.filter_append, List.length_append] at h1
      have a := one (i := c.id) (f := enters c.id) hin (by simp [enters, hc'])
      have b := one (i := c.id) (f := enters c.id) hl (by simp [enters])
      omega
    · exact absurd rfl (h0 _ (by simp) c (.inl rfl))
  | exit d =>
    rcases h d.id with ⟨h1, h2, pre, post, c, d', hsplit, hc, hd, hin, hout⟩ | h0
    · have hmem : Op.enter c ∈ init := by
        have : Op.enter c ∈ init ++ [Op.exit d] := by rw [hsplit]; exact List.mem_append_left _ hin
        simpa using this
      obtain ⟨a, b, rfl⟩ := List.append_of_mem hmem
      have hmid : ∀ o ∈ b, ∀ e, o = .enter e ∨ o = .exit e → e.id ≠ c.id := by
        intro o ho e he hid
        rcases he with rfl | rfl
        · have x := one (i := d.id) (f := enters d.id) ho (by simp [enters, leaves, hid, hc])
          have : ((a ++ Op.enter c :: b ++ [Op.exit d]).filter
              (enters d.id)).length ≥ 2 := by
            simp only [List.filter_append, List.length_append, List.filter_cons, enters, hc, beq_self_eq_true, if_true, List.length_cons]
            omega
          omega
        · have x := one (i := d.id) (f := leaves d.id) ho (by simp [enters, leaves, hid, hc])
          have : ((a ++ Op.enter c :: b ++ [Op.exit d]).filter
              (leaves d.id)).length ≥ 2 := by
            simp only [List.filter_append, List.length_append, List.filter_cons, leaves, beq_self_eq_true, if_true, List.length_cons]
            simp
            omega
          omega
      have e := C14_exit a b c d s hs hc.symm hmid
      exact ⟨a, b, c, d, rfl, hc.symm, e, by rw [e]⟩
    · exact absurd rfl (h0 _ (by simp) d (.inr rfl))

/-- C14: exits in reverse order of the entries restore
the initial state, for any number of contexts. -/
theorem C14_lifo (ops : List Op) (h : Lifo ops) (s : St) (hs : s.cur < s.sets.length) :
    (runOps ops s).quar = s.quar := (lifo_frame h s hs).quar

/-- Non-vacuity: two threads whose blocks are one inside the other, then a
third block. -/
example : Lifo ([.enter ⟨0, none⟩, .enter ⟨1, some ⟨true, false, false⟩⟩,
    .exit ⟨1, some ⟨true, false, false⟩⟩, .exit ⟨0, none⟩,
    .enter ⟨2, none⟩, .exit ⟨2, none⟩] : List Op) := by
  refine .block ⟨0, none⟩ [.enter ⟨1, some ⟨true, false, false⟩⟩, .exit ⟨1, some ⟨true, false, false⟩⟩]
    [.enter ⟨2, none⟩, .exit ⟨2, none⟩] ?_ ?_ ?_ ?_
  · exact .block ⟨1, some ⟨true, false, false⟩⟩ [] [] .nil (by simp) (by simp) .nil
  · intro o ho d hd; simp at ho; rcases ho with rfl | rfl <;> cases hd; simp
  · intro o ho d hd; simp at ho; rcases ho with rfl | rfl <;> cases hd; simp
  · exact .block ⟨2, none⟩ [] [] .nil (by simp) (by simp) .nil

end Verif.Handlers
