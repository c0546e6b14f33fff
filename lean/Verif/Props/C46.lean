import Verif.Spec.Singleton

/-!
# C46: a singleton name denotes one instance
-/

namespace Verif.Single

open Spec

/-- What any code preserves. -/
structure Ext (E : Env) (w w' : World) : Prop where
  regs : ∀ k r, w.regs k = some r → w'.regs k = some r
  objs : ∀ (r : Ref) o, w.objs[r]? = some o → ∃ o', w'.objs[r]? = some o' ∧ o'.cls = o.cls ∧ o'.sid = o.sid
  building : w'.building = w.building
  flag : w'.reentered = false → w.reentered = false
  fresh : w'.reentered = false → ∀ k ∈ w.building, w.regs k = none → w'.regs k = none
  sound : Sound E w → Sound E w'
  log : (w.reentered = false → ∀ e ∈ w.log, w.regs e.1 = some e.2) → w'.reentered = false →
    ∀ e ∈ w'.log, w'.regs e.1 = some e.2

theorem Ext.refl (E : Env) (w : World) : Ext E w w where
  regs := fun _ _ h => h
  objs := fun _ o h => ⟨o, h, rfl, rfl⟩
  building := rfl
  flag := id
  fresh := fun _ _ _ h => h
  sound := id
  log := id

theorem Ext.trans {E : Env} {a b c : World} (h : Ext E a b) (g : Ext E b c) : Ext E a c where
  regs := fun k r hk => g.regs k r (h.regs k r hk)
  objs := fun r o ho => by
    obtain ⟨o1, h1, h2, h3⟩ := h.objs r o ho
    obtain ⟨o2, g1, g2, g3⟩ := g.objs r o1 h1
    exact ⟨o2, g1, g2.trans h2, g3.trans h3⟩
  building := g.building.trans h.building
  flag := fun hc => h.flag (g.flag hc)
  fresh := fun hc k hk hn => g.fresh hc k (by rw [h.building]; exact hk) (h.fresh (g.flag hc) k hk hn)
  sound := fun hs => g.sound (h.sound hs)
  log := fun hl => g.log (h.log hl)

/-- Changes outside the registries and the class and identifier of the objects. -/
theorem Ext.of_same {E : Env} {w w' : World} (h1 : w'.regs = w.regs) (h2 : w'.building = w.building)
    (h3 : w'.reentered = w.reentered) (h4 : w'.log = w.log)
    (h5 : ∀ (r : Ref) o, w.objs[r]? = some o → ∃ o', w'.objs[r]? = some o' ∧ o'.cls = o.cls ∧ o'.sid = o.sid) : Ext E w w' where
  regs := fun k r h => by rw [h1]; exact h
  objs := h5
  building := h2
  flag := fun h => by rw [← h3]; exact h
  fresh := fun _ _ _ h => by rw [h1]; exact h
  sound := fun hs k r h => by
    rw [h1] at h
    obtain ⟨o, a, b, c⟩ := hs k r h
    obtain ⟨o', a', b', c'⟩ := h5 r o a
    exact ⟨o', a', by rw [b', b], c'.trans c⟩
  log := fun hl hc e he => by
    rw [h1]
    rw [h4] at he
    exact hl (by rw [← h3]; exact hc) e he

theorem setName_ext (E : Env) (r : Ref) (n : Name) (w : World) : Ext E w (setName E r n w).2 := by
  unfold setName
  split
  · exact .refl E w
  · rename_i o ho
    split
    · exact .refl E w
    · refine .of_same rfl rfl rfl rfl fun r' o' h' => ?_
      by_cases hr : r = r'
      · subst hr
        rw [ho] at h'; cases h'
        exact ⟨_, List.getElem?_set_self (List.getElem?_eq_some_iff.1 ho).1, rfl, rfl⟩
      · exact ⟨o', by simp [List.getElem?_set, hr, h'], rfl, rfl⟩

def Keeps (E : Env) (f : Cmd → World → Res (Option Ref)) : Prop := ∀ c w, Ext E w (f c w).2

theorem runAll_ext {E : Env} {f : Cmd → World → Res (Option Ref)} (hf : Keeps E f) : ∀ cs w, Ext E w (runAll f cs w).2
  | [], w => .refl E w
  | c :: cs, w => by
    have h := hf c w
    simp only [runAll]
    split
    · rename_i e w' he
      rw [he] at h
      exact h
    · rename_i e w' he
      rw [he] at h
      exact h.trans (runAll_ext hf cs w')

theorem setId_other {r : Ref} {n : Name} {w : World} {r' : Ref} {o : Obj} (h : r' ≠ r) (ho : w.objs[r']? = some o) :
    (setId r n w).objs[r']? = some o := by
  unfold setId
  split
  · exact ho
  · simp [List.getElem?_set, Ne.symm h, ho]

/-- Setting the identifier of an object that is not registered. -/
theorem setId_parts (r : Ref) (n : Name) (w : World) :
    (setId r n w).regs = w.regs ∧ (setId r n w).building = w.building ∧
    (setId r n w).reentered = w.reentered ∧ (setId r n w).log = w.log := by
  unfold setId
  split <;> exact ⟨rfl, rfl, rfl, rfl⟩

theorem setId_here {r : Ref} {n : Name} {w : World} {o : Obj} (h : w.objs[r]? = some o) :
    (setId r n w).objs[r]? = some { o with sid := some n } := by
  unfold setId
  rw [h]
  simp [List.getElem?_set, (List.getElem?_eq_some_iff.1 h).1]

/-- The weaker relation between the start and the end of a construction: the new
object `r` is not bound to keep its identifier. -/
structure Built (E : Env) (r : Ref) (c : Cls) (w w' : World) : Prop where
  regs : ∀ k r, w.regs k = some r → w'.regs k = some r
  objs : ∀ (r' : Ref) o, r' ≠ r → w.objs[r']? = some o → ∃ o', w'.objs[r']? = some o' ∧ o'.cls = o.cls ∧ o'.sid = o.sid
  self : ∃ o, w'.objs[r]? = some o ∧ o.cls = c
  building : w'.building = w.building
  flag : w'.reentered = false → w.reentered = false
  fresh : w'.reentered = false → ∀ k ∈ w.building, w.regs k = none → w'.regs k = none
  sound : (Sound E w ∧ ∀ k, w.regs k ≠ some r) → Sound E w'
  log : (w.reentered = false → ∀ e ∈ w.log, w.regs e.1 = some e.2) → w'.reentered = false →
    ∀ e ∈ w'.log, w'.regs e.1 = some e.2

theorem Spec.Sound.unnamed {E : Env} {w : World} (h : Sound E w) {r : Ref} {o : Obj} (ho : w.objs[r]? = some o) (hs : o.sid = none)
    (k : Key) : w.regs k ≠ some r := fun hk => by
  obtain ⟨o', a, _, c⟩ := h k r hk
  rw [ho] at a; cases a
  rw [hs] at c
  cases c

theorem initialise_built {E : Env} {f : Cmd → World → Res (Option Ref)} (hf : Keeps E f) (c : Cls) (n : Name) (r : Ref)
    (w : World) (hr : w.objs[r]? = some { cls := c }) :
    Built E r c w (initialise E f c n r w).2 ∧
    ((initialise E f c n r w).1 = .ok () → ∃ o, (initialise E f c n r w).2.objs[r]? = some o ∧ o.cls = c ∧ o.sid = some n) := by
  have ofExt : ∀ {w'}, Ext E w w' → Built E r c w w' := fun {w'} h =>
    { regs := h.regs, objs := fun r' o _ => h.objs r' o
      self := by obtain ⟨o, a, b, _⟩ := h.objs r _ hr; exact ⟨o, a, b⟩
      building := h.building, flag := h.flag, fresh := h.fresh, sound := fun hs => h.sound hs.1, log := h.log }
  have h1 := runAll_ext hf (E.before c n w) w
  unfold initialise
  split
  · rename_i e w1 he
    rw [he] at h1
    exact ⟨ofExt h1, fun h => by cases h⟩
  · rename_i e w1 he
    rw [he] at h1
    have h2 := h1.trans (setName_ext E r n w1)
    split
    · rename_i e' w2 he2
      rw [he2] at h2
      exact ⟨ofExt h2, fun h => by cases h⟩
    · rename_i e' w2 he2
      rw [he2] at h2
      obtain ⟨o, ho, hc, hsid⟩ := h2.objs r _ hr
      obtain ⟨p1, p2, p3, p4⟩ := setId_parts r n w2
      have h3 := runAll_ext hf (E.after c n (setId r n w2)) (setId r n w2)
      obtain ⟨o', ho', hc', hs'⟩ := h3.objs r _ (setId_here (n := n) ho)
      refine ⟨?_, fun _ => ⟨o', ho', hc'.trans hc, hs'⟩⟩
      exact {
        regs := fun k r hk => h3.regs k r (by rw [p1]; exact h2.regs k r hk)
        objs := fun r' o1 hne h1' => by
          obtain ⟨o2, a, b, c⟩ := h2.objs r' o1 h1'
          obtain ⟨o3, a', b', c'⟩ := h3.objs r' o2 (setId_other hne a)
          exact ⟨o3, a', b'.trans b, c'.trans c⟩
        self := ⟨o', ho', hc'.trans hc⟩
        building := h3.building.trans (p2.trans h2.building)
        flag := fun hc => h2.flag (by rw [← p3]; exact h3.flag hc)
        fresh := fun hc k hk hn => h3.fresh hc k (by rw [p2, h2.building]; exact hk)
          (by rw [p1]; exact h2.fresh (by rw [← p3]; exact h3.flag hc) k hk hn)
        sound := fun hs => h3.sound (by
          have hs2 := h2.sound hs.1
          intro k r' hk
          rw [p1] at hk
          have hne : r' ≠ r := by
            rintro rfl
            exact Spec.Sound.unnamed hs2 ho hsid k hk
          obtain ⟨o2, a, b, c⟩ := hs2 k r' hk
          exact ⟨o2, setId_other hne a, b, c⟩)
        log := fun hl => h3.log (fun hc e he => by
          rw [p1]
          rw [p4] at he
          exact h2.log hl (by rw [← p3]; exact hc) e he) }

theorem construct_ext {E : Env} {f : Cmd → World → Res (Option Ref)} (hf : Keeps E f) (c : Cls) (n : Name) (w : World)
    (hn : w.regs (E.regOf c, n) = none) :
    Ext E w (construct E f c n w).2 ∧
    ∀ r, (construct E f c n w).1 = .ok r → (construct E f c n w).2.regs (E.regOf c, n) = some r := by
  obtain ⟨hb, hok⟩ := initialise_built hf c n w.objs.length
    { w with objs := w.objs ++ [{ cls := c }], building := (E.regOf c, n) :: w.building
             reentered := w.reentered || decide ((E.regOf c, n) ∈ w.building) } (by simp)
  have hold : ∀ (r : Ref) o, w.objs[r]? = some o → r ≠ w.objs.length ∧ (w.objs ++ [{ cls := c }])[r]? = some o := by
    intro r o h
    have hlt := (List.getElem?_eq_some_iff.1 h).1
    exact ⟨Nat.ne_of_lt hlt, by rw [List.getElem?_append_left hlt]; exact h⟩
  unfold construct
  simp only
  generalize hw0 : ({ w with objs := w.objs ++ [{ cls := c }], building := (E.regOf c, n) :: w.building
                             reentered := w.reentered || decide ((E.regOf c, n) ∈ w.building) } : World) = w0 at hb hok ⊢
  have hregs : w0.regs = w.regs := by rw [← hw0]
  have hobjs : w0.objs = w.objs ++ [{ cls := c }] := by rw [← hw0]
  have hbld : w0.building = (E.regOf c, n) :: w.building := by rw [← hw0]
  have hre : w0.reentered = (w.reentered || decide ((E.regOf c, n) ∈ w.building)) := by rw [← hw0]
  have hlog : w0.log = w.log := by rw [← hw0]
  have flag : ∀ {w'}, Built E w.objs.length c w0 w' → w'.reentered = false →
      w.reentered = false ∧ (E.regOf c, n) ∉ w.building := fun {w'} hb h => by
    have := hb.flag h
    rw [hre] at this
    simpa using this
  have unreg : Sound E w → ∀ k, w.regs k ≠ some w.objs.length := fun hs k hk => by
    obtain ⟨o, a, _⟩ := hs k _ hk
    exact absurd (List.getElem?_eq_some_iff.1 a).1 (Nat.lt_irrefl _)
  have sound0 : Sound E w → Sound E w0 ∧ ∀ k, w0.regs k ≠ some w.objs.length := fun hs => by
    refine ⟨fun k r hk => ?_, fun k => by rw [hregs]; exact unreg hs k⟩
    rw [hregs] at hk
    obtain ⟨o, a, b, c⟩ := hs k r hk
    exact ⟨o, by rw [hobjs]; exact (hold r o a).2, b, c⟩
  have objs0 : ∀ {w'}, Built E w.objs.length c w0 w' → ∀ (r : Ref) o, w.objs[r]? = some o →
      ∃ o', w'.objs[r]? = some o' ∧ o'.cls = o.cls ∧ o'.sid = o.sid := fun {w'} hb r o ho =>
    hb.objs r o (hold r o ho).1 (by rw [hobjs]; exact (hold r o ho).2)
  split
  · rename_i e w' he
    rw [he] at hb
    refine ⟨?_, fun r h => by cases h⟩
    exact {
      regs := fun k r hk => hb.regs k r (by rw [hregs]; exact hk)
      objs := fun r o ho => objs0 hb r o ho
      building := rfl
      flag := fun h => (flag hb h).1
      fresh := fun h k hk hnone => hb.fresh h k (by rw [hbld]; exact List.mem_cons_of_mem _ hk) (by rw [hregs]; exact hnone)
      sound := fun hs => hb.sound (sound0 hs)
      log := fun hl h => hb.log (fun h0 e he => by
        rw [hregs]
        rw [hlog] at he
        exact hl (flag hb h).1 e he) h }
  · rename_i e w' he
    rw [he] at hb hok
    obtain ⟨o, ho, hcls, hsid⟩ := hok rfl
    have keep : ∀ k r, w'.regs k = some r → k ≠ (E.regOf c, n) →
        (if k = (E.regOf c, n) then some w.objs.length else w'.regs k) = some r := fun k r h hne => by
      rw [if_neg hne]; exact h
    refine ⟨?_, fun r h => by cases h; exact if_pos rfl⟩
    exact {
      regs := fun k r hk => by
        have hne : k ≠ (E.regOf c, n) := by rintro rfl; rw [hn] at hk; cases hk
        exact keep k r (hb.regs k r (by rw [hregs]; exact hk)) hne
      objs := fun r o ho => objs0 hb r o ho
      building := rfl
      flag := fun h => (flag hb h).1
      fresh := fun h k hk hnone => by
        have hne : k ≠ (E.regOf c, n) := by rintro rfl; exact (flag hb h).2 hk
        show (if k = (E.regOf c, n) then some w.objs.length else w'.regs k) = none
        rw [if_neg hne]
        exact hb.fresh h k (by rw [hbld]; exact List.mem_cons_of_mem _ hk) (by rw [hregs]; exact hnone)
      sound := fun hs k r hk => by
        have hs' := hb.sound (sound0 hs)
        by_cases hkk : k = (E.regOf c, n)
        · subst hkk
          have hr : some w.objs.length = some r := (if_pos rfl).symm.trans hk
          cases hr
          exact ⟨o, ho, by rw [hcls], hsid⟩
        · exact hs' k r ((if_neg hkk).symm.trans hk)
      log := fun hl h e he => by
        have hnone : w'.regs (E.regOf c, n) = none :=
          hb.fresh h _ (by rw [hbld]; simp) (by rw [hregs]; exact hn)
        rcases List.mem_append.1 he with he | he
        · have := hb.log (fun h0 e he => by
            rw [hregs]
            rw [hlog] at he
            exact hl (flag hb h).1 e he) h e he
          exact keep _ _ this (by rintro hh; rw [hh, hnone] at this; cases this)
        · simp only [List.mem_singleton] at he
          subst he
          exact if_pos rfl }

theorem make_ext {E : Env} {f : Cmd → World → Res (Option Ref)} (hf : Keeps E f) (c : Cls) (n : Name) (w : World) :
    Ext E w (make E f c n w).2 ∧ ∀ r, (make E f c n w).1 = .ok r → (make E f c n w).2.regs (E.regOf c, n) = some r := by
  unfold make
  cases hr : w.regs (E.regOf c, n) with
  | none => exact construct_ext hf c n w hr
  | some r =>
    refine ⟨?_, fun r' h => by cases h; exact hr⟩
    exact {
      regs := fun _ _ h => h
      objs := fun _ o h => ⟨o, h, rfl, rfl⟩
      building := rfl
      flag := id
      fresh := fun _ _ _ h => h
      sound := id
      log := fun hl h e he => by
        rcases List.mem_append.1 he with he | he
        · exact hl h e he
        · simp only [List.mem_singleton] at he
          subst he
          exact hr }

theorem outClass_plain {E : Env} {c c' : Cls} {d : Dict} {t s : Bool} (hp : Plain E c t) (h : outClass E c d t s = .ok c') :
    E.regOf c' = E.regOf c := by
  unfold outClass at h
  split at h
  · cases h; rfl
  · split at h
    · cases h; rfl
    · split at h
      · rename_i c'' hc
        cases h
        cases ht : t with
        | false => rw [ht] at hc; cases hc
        | true =>
          rw [ht, if_pos rfl] at hc
          exact hp.shared ht _ _ hc
      · split at h
        · cases h
        · cases h; rfl

theorem deserialize_ext {E : Env} {f : Cmd → World → Res (Option Ref)} (hf : Keeps E f) (c : Cls) (d : Dict) (n : Name)
    (t s : Bool) (w : World) :
    Ext E w (deserialize E f c d n t s w).2 ∧ (Plain E c t → ∀ r, (deserialize E f c d n t s w).1 = .ok r →
      (deserialize E f c d n t s w).2.regs (E.regOf c, n) = some r) := by
  unfold deserialize
  split
  · exact ⟨.refl E w, fun _ r h => by cases h⟩
  · rename_i c' hc
    split
    · exact ⟨.refl E w, fun _ r h => by cases h⟩
    · have h1 := runAll_ext hf d.fields w
      split
      · rename_i e w1 he
        rw [he] at h1
        exact ⟨h1, fun _ r h => by cases h⟩
      · rename_i e w1 he
        rw [he] at h1
        split
        · split
          · exact ⟨h1, fun _ r h => by cases h⟩
          · rename_i n' hn'
            obtain ⟨h2, h3⟩ := make_ext hf c' n' w1
            split
            · rename_i e' w2 he2
              rw [he2] at h2
              exact ⟨h1.trans h2, fun _ r h => by cases h⟩
            · rename_i r' w2 he2
              rw [he2] at h2 h3
              split
              · exact ⟨h1.trans h2, fun _ r h => by cases h⟩
              · refine ⟨h1.trans h2, fun hp r h => ?_⟩
                cases h
                rw [← outClass_plain hp hc, ← hp.names c' n n' hn']
                exact h3 r' rfl
        · exact ⟨h1, fun _ r h => by cases h⟩

theorem setName_regs (E : Env) (r : Ref) (n : Name) (w : World) : (setName E r n w).2.regs = w.regs := by
  unfold setName
  split
  · rfl
  · split <;> rfl

theorem identifier_denotes {d : Dict} {n : Name} (h : Denotes d n) : identifier d = some n := by
  unfold identifier
  cases h with
  | id h => rw [h]
  | name h h' => rw [h, h']; rfl

theorem load_ext {E : Env} {f : Cmd → World → Res (Option Ref)} (hf : Keeps E f) (c : Cls) (i : Nat) (t s : Bool) (w : World) :
    Ext E w (load E f c i t s w).2 ∧ (Plain E c t → ∀ d n, w.dicts[i]? = some d → Denotes d n →
      ∀ r, (load E f c i t s w).1 = .ok r → (load E f c i t s w).2.regs (E.regOf c, n) = some r) := by
  unfold load
  split
  · exact ⟨.refl E w, fun _ _ _ _ _ r h => by cases h⟩
  · rename_i d hd
    have h0 : Ext E w { w with dicts := w.dicts.set i { d with sid := none } } :=
      .of_same rfl rfl rfl rfl fun _ o h => ⟨o, h, rfl, rfl⟩
    simp only
    split
    · exact ⟨h0, fun _ _ _ _ _ r h => by cases h⟩
    · rename_i n hn
      have hname : ∀ d' n', w.dicts[i]? = some d' → Denotes d' n' → n' = n := fun d' n' h1 h2 => by
        rw [hd] at h1; cases h1
        have := identifier_denotes h2
        rw [hn] at this
        cases this; rfl
      split
      · rename_i r hr
        refine ⟨h0, fun _ d' n' h1 h2 r' h => ?_⟩
        cases h
        rw [hname d' n' h1 h2]
        exact hr
      · obtain ⟨h1, h2⟩ := deserialize_ext hf c { d with sid := none } n t s
          { w with dicts := w.dicts.set i { d with sid := none } }
        split
        · rename_i e w1 he
          rw [he] at h1
          exact ⟨h0.trans h1, fun _ _ _ _ _ r h => by cases h⟩
        · rename_i r w1 he
          rw [he] at h1 h2
          split
          · rename_i m hm
            split
            · refine ⟨h0.trans h1, fun hp d' n' h3 h4 r' h => ?_⟩
              cases h
              rw [hname d' n' h3 h4]
              exact h2 hp r rfl
            · have h5 := setName_ext E r m w1
              have h6 := setName_regs E r m w1
              split
              · rename_i e w2 he2
                rw [he2] at h5
                exact ⟨(h0.trans h1).trans h5, fun _ _ _ _ _ r h => by cases h⟩
              · rename_i e w2 he2
                rw [he2] at h5 h6
                refine ⟨(h0.trans h1).trans h5, fun hp d' n' h3 h4 r' h => ?_⟩
                cases h
                rw [hname d' n' h3 h4]
                show w2.regs _ = _
                rw [h6]
                exact h2 hp r rfl
          · refine ⟨h0.trans h1, fun hp d' n' h3 h4 r' h => ?_⟩
            cases h
            rw [hname d' n' h3 h4]
            exact h2 hp r rfl

theorem step_ext {E : Env} {f : Cmd → World → Res (Option Ref)} (hf : Keeps E f) (c : Cmd) (w : World) :
    Ext E w (step E f c w).2 ∧
    ∀ k r, Asks E w c k → (step E f c w).1 = .ok (some r) → (step E f c w).2.regs k = some r := by
  cases c with
  | make c n =>
    obtain ⟨h1, h2⟩ := make_ext hf c n w
    simp only [step]
    split
    · rename_i r w' he
      rw [he] at h1 h2
      refine ⟨h1, fun k r' ha h => ?_⟩
      cases h; cases ha
      exact h2 r rfl
    · rename_i e w' he
      rw [he] at h1
      exact ⟨h1, fun k r _ h => by cases h⟩
  | load c i t s =>
    obtain ⟨h1, h2⟩ := load_ext hf c i t s w
    simp only [step]
    split
    · rename_i r w' he
      rw [he] at h1 h2
      refine ⟨h1, fun k r' ha h => ?_⟩
      cases h
      cases ha with
      | load a b c => exact h2 c _ _ a b r rfl
    · rename_i e w' he
      rw [he] at h1
      exact ⟨h1, fun k r _ h => by cases h⟩
  | rename r n =>
    have h1 := setName_ext E r n w
    simp only [step]
    split <;> rename_i he <;> rw [he] at h1 <;> exact ⟨h1, fun k r ha _ => by cases ha⟩
  | dump r =>
    simp only [step]
    split
    · exact ⟨.of_same rfl rfl rfl rfl fun _ o h => ⟨o, h, rfl, rfl⟩, fun k r ha _ => by cases ha⟩
    · exact ⟨.refl E w, fun k r ha _ => by cases ha⟩
  | fail => exact ⟨.refl E w, fun k r ha _ => by cases ha⟩
  | attempt cs => exact ⟨runAll_ext hf cs w, fun k r ha _ => by cases ha⟩

theorem exec_keeps (E : Env) : ∀ k, Keeps E (exec E k)
  | 0, _, w => .refl E w
  | k + 1, c, w => (step_ext (exec_keeps E k) c w).1

theorem exec_asks (E : Env) {k : Nat} {c : Cmd} {w : World} {key : Key} {r : Ref} (ha : Asks E w c key)
    (h : (exec E k c w).1 = .ok (some r)) : (exec E k c w).2.regs key = some r := by
  cases k with
  | zero => cases h
  | succ k => exact (step_ext (exec_keeps E k) c w).2 key r ha h

theorem hist_ext {E : Env} {k : Nat} {w w' : World} {tr : List (World × Cmd × Except Err (Option Ref))} (h : Hist E k w tr w') :
    Ext E w w' ∧ ∀ e ∈ tr, ∀ key r, Asks E e.1 e.2.1 key → e.2.2 = .ok (some r) → w'.regs key = some r := by
  induction h with
  | nil w => exact ⟨.refl E w, fun e he => by cases he⟩
  | @cons w w1 w2 c res tr hx _ ih =>
    have h1 := exec_keeps E k c w
    have h2 := @exec_asks E k c w
    rw [hx] at h1 h2
    refine ⟨h1.trans ih.1, fun e he key r ha hr => ?_⟩
    rcases List.mem_cons.1 he with rfl | he
    · exact ih.1.regs key r (h2 ha hr)
    · exact ih.2 e he key r ha hr

/-- C46: in every history, two statements that construct or deserialize give the
same instance iff they ask for the same name of the same registry. -/
theorem C46_one_instance (E : Env) (k : Nat) (w w' : World) (hs : Sound E w)
    (tr : List (World × Cmd × Except Err (Option Ref))) (h : Hist E k w tr w')
    (a b : World × Cmd × Except Err (Option Ref)) (ha : a ∈ tr) (hb : b ∈ tr)
    (ka kb : Key) (ra rb : Ref) (hka : Asks E a.1 a.2.1 ka) (hkb : Asks E b.1 b.2.1 kb)
    (hra : a.2.2 = .ok (some ra)) (hrb : b.2.2 = .ok (some rb)) : ra = rb ↔ ka = kb := by
  obtain ⟨h1, h2⟩ := hist_ext h
  have ea := h2 a ha ka ra hka hra
  have eb := h2 b hb kb rb hkb hrb
  constructor
  · rintro rfl
    obtain ⟨o, p1, p2, p3⟩ := h1.sound hs ka ra ea
    obtain ⟨o', q1, q2, q3⟩ := h1.sound hs kb ra eb
    rw [p1] at q1; cases q1
    rw [p3] at q3
    exact Prod.ext (p2.symm.trans q2) (Option.some.inj q3)
  · rintro rfl
    rw [ea] at eb
    exact Option.some.inj eb

/-- The state a program starts in. -/
theorem C46_start (E : Env) : Sound E {} := fun _ _ h => by cases h

/-- C46, inside constructions: unless a name is constructed during its own
construction, all constructions of a name that return, also nested ones and also
during constructions that fail, return the same instance. -/
theorem C46_nested (E : Env) (k : Nat) (w' : World) (tr : List (World × Cmd × Except Err (Option Ref)))
    (h : Hist E k {} tr w') (hre : w'.reentered = false) (e f : Key × Ref) (he : e ∈ w'.log) (hf : f ∈ w'.log) :
    e.1 = f.1 ↔ e.2 = f.2 := by
  obtain ⟨h1, _⟩ := hist_ext h
  have hl := h1.log (fun _ e he => by cases he) hre
  have he' := hl e he
  have hf' := hl f hf
  constructor
  · intro hk
    rw [hk, hf'] at he'
    exact (Option.some.inj he').symm
  · intro hr
    rw [hr] at he'
    obtain ⟨o, p1, p2, p3⟩ := h1.sound (C46_start E) _ _ he'
    obtain ⟨o', q1, q2, q3⟩ := h1.sound (C46_start E) _ _ hf'
    rw [p1] at q1; cases q1
    rw [p3] at q3
    exact Prod.ext (p2.symm.trans q2) (Option.some.inj q3)

/-- C46: deserializing a registered name returns the registered instance and has no
effect but to remove the identifier from the caller's dictionary: other values are
ignored. -/
theorem C46_registered (E : Env) (k : Nat) (c : Cls) (i : Nat) (t s : Bool) (w : World) (d : Dict) (n : Name) (r : Ref)
    (hd : w.dicts[i]? = some d) (hn : Denotes d n) (hr : w.regs (E.regOf c, n) = some r) :
    exec E (k + 1) (.load c i t s) w = (.ok (some r), { w with dicts := w.dicts.set i { d with sid := none } }) := by
  simp only [exec, step, load, hd, identifier_denotes hn, hr]

/-- C46: serializing a registered instance and deserializing the result returns the
instance itself. -/
theorem C46_round_trip (E : Env) (k : Nat) (c : Cls) (t s : Bool) (w : World) (hs : Sound E w) (r : Ref) (key : Key)
    (hr : w.regs key = some r) (hc : E.regOf c = key.1) :
    ∃ w1 w2, exec E (k + 1) (.dump r) w = (.ok none, w1) ∧
      exec E (k + 1) (.load c w.dicts.length t s) w1 = (.ok (some r), w2) ∧ w2.objs = w.objs ∧ w2.regs = w.regs := by
  obtain ⟨o, h1, h2, h3⟩ := hs key r hr
  have h4 := C46_registered E k c w.dicts.length t s { w with dicts := w.dicts ++ [dumped E o] } (dumped E o) key.2 r
    (by simp) (.id (by simp [dumped, h3])) (by rw [hc]; exact hr)
  exact ⟨_, _, by simp only [exec, step, h1], h4, rfl, rfl⟩

/-- C46: the name of an instance changes by assignment, to what the property makes
of the new name; a refused name changes nothing; neither changes the registries. -/
theorem C46_rename (E : Env) (k : Nat) (r : Ref) (o : Obj) (n : Name) (w : World) (ho : w.objs[r]? = some o) :
    (∀ m, E.accept o.cls n = some m → ∃ w', exec E (k + 1) (.rename r n) w = (.ok none, w') ∧ w'.regs = w.regs ∧
      w'.objs[r]? = some { o with name := some m } ∧ ∀ s, s ≠ r → w'.objs[s]? = w.objs[s]?) ∧
    (E.accept o.cls n = none → exec E (k + 1) (.rename r n) w = (.error .validation, w)) := by
  have hr : r < w.objs.length := (List.getElem?_eq_some_iff.1 ho).1
  constructor
  · intro m hm
    refine ⟨{ w with objs := w.objs.set r { o with name := some m } }, by simp only [exec, step, setName, ho, hm], rfl, ?_,
      fun s hs => ?_⟩
    · simp [hr]
    · simp [Ne.symm hs]
  · intro hm
    simp only [exec, step, setName, ho, hm]

/-- A dictionary without a name is refused. -/
theorem C46_unnamed (E : Env) (k : Nat) (c : Cls) (i : Nat) (t s : Bool) (w : World) (d : Dict)
    (hd : w.dicts[i]? = some d) (hn : ∀ n, ¬ Denotes d n) : (exec E (k + 1) (.load c i t s) w).1 = .error .value := by
  have : identifier d = none := by
    cases h : identifier d with
    | none => rfl
    | some n =>
      unfold identifier at h
      split at h
      · rename_i x hx
        exact absurd (.id (by rw [hx, h])) (hn n)
      · rename_i hx
        cases hm : d.name with
        | none => rw [hm] at h; cases h
        | some m =>
          rw [hm] at h
          exact absurd (.name hx (by rw [hm]; exact congrArg some h)) (hn n)
  simp only [exec, step, load, hd, this]

/-! ## Concrete cases -/

/-- Two classes, 0 and 1, that share a registry and one, 2, with its own. -/
def demoEnv : Env where
  regOf := fun c => if c = 2 then 1 else 0
  clsName := fun _ => s% "A"
  byName := fun _ _ => none
  hasName := fun _ => true
  accept := fun _ n => some n
  nameFrom := fun _ n => some n
  before := fun _ _ _ => []
  after := fun c n _ => if c = 1 then (if n = s% "p" then [.make 0 (s% "q"), .make 1 (s% "q")]
    else if n = s% "loop" then [.attempt [.make 0 (s% "loop")]] else []) else []

/-- The instances that statements give, one after the other. -/
def results (E : Env) (k : Nat) : List Cmd → World → List (Option Ref)
  | [], _ => []
  | c :: cs, w => (match (exec E k c w).1 with | .ok r => r | .error _ => none) :: results E k cs (exec E k c w).2

/-- Shared and separate registries, and a nested construction. -/
theorem C46_example :
    results demoEnv 5 [.make 0 (s% "a"), .make 1 (s% "a"), .make 2 (s% "a"), .make 0 (s% "b"), .make 1 (s% "p"), .make 0 (s% "q"),
      .rename 0 (s% "z"), .make 0 (s% "a"), .dump 0, .load 0 0 false true] {}
    = [some 0, some 0, some 1, some 2, some 3, some 4, none, some 0, none, some 0] := by
  decide +kernel

/-- A name constructed during its own construction denotes two instances: code in
`__init__` has a different one, 1, from the one that is registered, 0. -/
theorem C46_reentered :
    (exec demoEnv 5 (.make 1 (s% "loop")) {}).2.log = [((0, s% "loop"), 1), ((0, s% "loop"), 0)] ∧
    (exec demoEnv 5 (.make 1 (s% "loop")) {}).2.reentered = true := by
  decide +kernel

/-- Deserializing one dictionary twice may give two instances, as the identifier is
taken out of the dictionary: a renamed singleton is found the first time, and the
second time its current name is used for a new singleton. -/
theorem C46_dictionary_consumed :
    results demoEnv 5 [.make 0 (s% "a"), .rename 0 (s% "b"), .dump 0, .load 0 0 false false, .load 0 0 false false] {}
    = [some 0, none, none, some 0, some 1] := by
  decide +kernel

end Verif.Single
