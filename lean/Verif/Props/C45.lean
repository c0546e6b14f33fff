import Verif.Props.C44

/-!
# C45: graphs survive serialization
-/

namespace Verif.Uid

open Spec

variable {D : Type}

/-! ## What a deserialization that returns has built -/

/-- The instance made for one of the graph, according to the dictionary. -/
def MadeFor (objs : List (Obj D)) (reg : Reg D) (q y : Ref) : Prop := ∃ u, Has objs q u ∧ get reg u = some (.inst y)

/-- An instance of the graph has been rebuilt. -/
def Done (objs : List (Obj D)) (reg : Reg D) (w : World D) (q y : Ref) : Prop :=
  ∃ o o', objs[q]? = some o ∧ w.objs[y]? = some o' ∧ o'.cls = o.cls ∧ o'.uid = o.uid ∧ Copies objs (MadeFor objs reg) o.slots o'.slots ∧
    (refs o.slots).Nodup

/-- The flat form of a graph, the classes of the references, and the number of
instances before. -/
structure Setting (E : Env D) (t s : Bool) (objs : List (Obj D)) (r : Ref) (S : Reg D) : Prop where
  graph : Graph objs r
  flat : ∀ q u, Reach objs r q → Has objs q u → ∃ v, get S u = some v ∧ IsEntry E objs q u v
  classes : Classes E t s objs r

/-- A dictionary in part replaced by new instances. -/
structure Part (objs : List (Obj D)) (r : Ref) (S : Reg D) (n0 : Nat) (reg : Reg D) (w : World D) : Prop where
  here : ∀ q u, Reach objs r q → Has objs q u → get reg u = get S u ∨
    ∃ y o o', get reg u = some (.inst y) ∧ objs[q]? = some o ∧ w.objs[y]? = some o' ∧ o'.cls = o.cls ∧ n0 ≤ y
  inj : ∀ q q' u u' y, Reach objs r q → Reach objs r q' → Has objs q u → Has objs q' u' → get reg u = some (.inst y) →
    get reg u' = some (.inst y) → u = u'
  size : n0 ≤ w.objs.length

/-- From one state to a later one. -/
structure Later (objs : List (Obj D)) (r : Ref) (S : Reg D) (n0 : Nat) (reg : Reg D) (w : World D) (reg' : Reg D) (w' : World D) :
    Prop where
  part : Part objs r S n0 reg' w'
  keep : ∀ v y, get reg v = some (.inst y) → get reg' v = some (.inst y)
  kept : ∀ (x : Ref) o, w.objs[x]? = some o → w'.objs[x]? = some o
  done : ∀ q v y, Reach objs r q → Has objs q v → (∀ z, get reg v ≠ some (.inst z)) → get reg' v = some (.inst y) →
    Done objs reg' w' q y
  taken : ∀ v, (get w.inst v).isSome = true → (get w'.inst v).isSome = true

theorem copies_mono {objs : List (Obj D)} {f g : Ref → Ref → Prop} (h : ∀ a b, f a b → g a b) {l l' : List (Slot D)}
    (hc : Copies objs f l l') : Copies objs g l l' := by
  induction hc with
  | nil => exact .nil
  | cons hs _ ih =>
    refine .cons ?_ ih
    cases hs with
    | data d => exact .data d
    | ptr c u => exact .ptr c u
    | pointer hu => exact .pointer hu
    | ref hf => exact .ref (h _ _ hf)

theorem Done.mono {objs : List (Obj D)} {reg reg' : Reg D} {w w' : World D} {q y : Ref} (h : Done objs reg w q y)
    (hr : ∀ v y, get reg v = some (.inst y) → get reg' v = some (.inst y))
    (hw : ∀ (x : Ref) o, w.objs[x]? = some o → w'.objs[x]? = some o) : Done objs reg' w' q y := by
  obtain ⟨o, o', a, b, c, d, e, f⟩ := h
  exact ⟨o, o', a, hw _ _ b, c, d, copies_mono (fun _ _ ⟨u, h1, h2⟩ => ⟨u, h1, hr _ _ h2⟩) e, f⟩

theorem Later.refl {objs : List (Obj D)} {r : Ref} {S : Reg D} {n0 : Nat} {reg : Reg D} {w : World D} (h : Part objs r S n0 reg w) :
    Later objs r S n0 reg w reg w :=
  ⟨h, fun _ _ h => h, fun _ _ h => h, fun _ _ y _ _ h1 h2 => absurd h2 (h1 y), fun _ h => h⟩

theorem Later.trans {objs : List (Obj D)} {r : Ref} {S : Reg D} {n0 : Nat} {a b c : Reg D} {wa wb wc : World D}
    (h : Later objs r S n0 a wa b wb) (g : Later objs r S n0 b wb c wc) : Later objs r S n0 a wa c wc where
  part := g.part
  keep := fun v y hv => g.keep v y (h.keep v y hv)
  kept := fun x o ho => g.kept x o (h.kept x o ho)
  done := fun q v y hq hv h1 h2 => by
    by_cases hb : ∃ z, get b v = some (.inst z)
    · obtain ⟨z, hz⟩ := hb
      have := g.keep v z hz
      rw [h2] at this; cases this
      exact (h.done q v y hq hv h1 hz).mono g.keep g.kept
    · exact g.done q v y hq hv (fun z hz => hb ⟨z, hz⟩) h2
  taken := fun v hv => g.taken v (h.taken v hv)

/-- The dictionary does not change and no instance does. -/
theorem Later.same {objs : List (Obj D)} {r : Ref} {S : Reg D} {n0 : Nat} {reg : Reg D} {w w' : World D}
    (h : Part objs r S n0 reg w) (hw : w'.objs = w.objs)
    (ht : ∀ v, (get w.inst v).isSome = true → (get w'.inst v).isSome = true) : Later objs r S n0 reg w reg w' :=
  ⟨⟨fun q u a b => by rw [hw]; exact h.here q u a b, h.inj, by rw [hw]; exact h.size⟩, fun _ _ h => h,
    fun x o ho => by rw [hw]; exact ho, fun _ _ y _ _ h1 h2 => absurd h2 (h1 y), ht⟩

/-- What is shown of the deserializer of references. -/
def Sound (E : Env D) (t s : Bool) (objs : List (Obj D)) (r : Ref) (S : Reg D) (n0 : Nat)
    (f : Cls → Uid → Reg D → World D → Except Err (Ref × Reg D) × World D) : Prop :=
  ∀ c q u o reg w x reg' w', Reach objs r q → objs[q]? = some o → o.uid = some u →
    outClass E c (some (E.name o.cls)) t s = .ok o.cls → Part objs r S n0 reg w →
    f c u reg w = (.ok (x, reg'), w') → Later objs r S n0 reg w reg' w' ∧ get reg' u = some (.inst x) ∧
      get w.inst u = none ∧ (get w'.inst u).isSome = true

theorem desSlots_sound {E : Env D} {t s : Bool} {objs : List (Obj D)} {r : Ref} {S : Reg D} {n0 : Nat}
    {f : Cls → Uid → Reg D → World D → Except Err (Ref × Reg D) × World D} (hf : Sound E t s objs r S n0 f)
    {l : List (Slot D)} {js : List (JSlot D)} (hl : Flats objs l js) :
    (∀ c q, .ref false c q ∈ l → Reach objs r q ∧ ∀ o, objs[q]? = some o → outClass E c (some (E.name o.cls)) t s = .ok o.cls) →
    ∀ reg w ss reg' w', Part objs r S n0 reg w → desSlots f js reg w = (.ok (ss, reg'), w') →
    Later objs r S n0 reg w reg' w' ∧ Copies objs (MadeFor objs reg') l ss ∧ (refs l).Nodup ∧
      ∀ q ∈ refs l, ∀ u, Has objs q u → get w.inst u = none := by
  induction hl with
  | nil =>
    intro _ reg w ss reg' w' hp he
    cases he
    exact ⟨.refl hp, .nil, by simp [refs], by simp [refs]⟩
  | @cons sl j l js hs _ ih =>
    intro hc reg w ss reg' w' hp he
    have ih' := ih (fun c q h => hc c q (List.mem_cons_of_mem _ h))
    have plain : refs (sl :: l) = refs l → ∀ {s' : Slot D}, Copy objs (MadeFor objs reg') sl s' →
        (match desSlots f js reg w with
          | (.error e, w) => ((.error e, w) : Except Err (List (Slot D) × Reg D) × World D)
          | (.ok (ss, reg), w) => (.ok (s' :: ss, reg), w)) = (.ok (ss, reg'), w') →
        Later objs r S n0 reg w reg' w' ∧ Copies objs (MadeFor objs reg') (sl :: l) ss ∧ (refs (sl :: l)).Nodup ∧
          ∀ q ∈ refs (sl :: l), ∀ u, Has objs q u → get w.inst u = none := by
      intro hrefs s' hcopy he
      split at he
      · cases he
      · rename_i ss1 reg1 w1 h1
        cases he
        obtain ⟨a, b, c, d⟩ := ih' _ _ _ _ _ hp h1
        rw [hrefs]
        exact ⟨a, .cons hcopy b, c, d⟩
    cases hs with
    | data d => exact plain rfl (.data d) he
    | ptr c u => exact plain rfl (.ptr c u) he
    | @ref p c q u hu =>
      cases p with
      | true => exact plain rfl (.pointer hu) he
      | false =>
        simp only [desSlots] at he
        obtain ⟨hr, hcls⟩ := hc c q (by simp)
        obtain ⟨o, ho, hou⟩ := hu
        split at he
        · cases he
        · rename_i x reg1 w1 h1
          obtain ⟨a, b, n1, n2⟩ := hf c q u o reg w x reg1 w1 hr ho hou (hcls o ho) hp h1
          split at he
          · cases he
          · rename_i ss1 reg2 w2 h2
            cases he
            obtain ⟨a', b', c', d'⟩ := ih' _ _ _ _ _ a.part h2
            refine ⟨a.trans a', .cons (.ref ⟨u, ⟨o, ho, hou⟩, a'.keep _ _ b⟩) b', ?_, ?_⟩
            · simp only [refs, List.nodup_cons]
              refine ⟨fun hm => ?_, c'⟩
              rw [d' q hm u ⟨o, ho, hou⟩] at n2
              cases n2
            · intro q' hm u' hu'
              simp only [refs, List.mem_cons] at hm
              rcases hm with rfl | hm
              · obtain ⟨o', ho', hou'⟩ := hu'
                rw [ho] at ho'; cases ho'
                rw [hou] at hou'; cases hou'
                exact n1
              · cases hi : get w.inst u' with
                | none => rfl
                | some _ =>
                  have := a.taken u' (by rw [hi]; rfl)
                  rw [d' q' hm u' hu'] at this
                  cases this

theorem has_inj {objs : List (Obj D)} {q : Ref} {u v : Uid} (h : Has objs q u) (g : Has objs q v) : u = v := by
  obtain ⟨o, a, b⟩ := h
  obtain ⟨o', a', b'⟩ := g
  rw [a] at a'; cases a'
  rw [b] at b'; exact Option.some.inj b'

/-- The new instance and the dictionary with it. -/
theorem part_alloc {E : Env D} {t s : Bool} {objs : List (Obj D)} {r : Ref} {S : Reg D} (hs : Setting E t s objs r S) {n0 : Nat}
    {reg : Reg D} {w : World D} (hp : Part objs r S n0 reg w) {q : Ref} {u : Uid} {o : Obj D} (hq : Reach objs r q)
    (ho : objs[q]? = some o) (hu : o.uid = some u) {w2 : World D} {o2 : Obj D} (h2 : w2.objs = w.objs ++ [o2]) (hc : o2.cls = o.cls) :
    Part objs r S n0 (put reg u (.inst w.objs.length)) w2 := by
  have hnew : w2.objs[w.objs.length]? = some o2 := by rw [h2]; simp
  have hold : ∀ (x : Ref) o, w.objs[x]? = some o → x < w.objs.length ∧ w2.objs[x]? = some o := fun x o hx => by
    have hlt := (List.getElem?_eq_some_iff.1 hx).1
    exact ⟨hlt, by rw [h2, List.getElem?_append_left hlt]; exact hx⟩
  have small : ∀ q' v y, Reach objs r q' → Has objs q' v → get reg v = some (.inst y) → y < w.objs.length := fun q' v y a b c => by
    rcases hp.here q' v a b with h | ⟨y', o1, o1', h1, _, h3, _⟩
    · obtain ⟨v', h3, _, _, _, _, h4, _⟩ := hs.flat q' v a b
      rw [h, h3, h4] at c
      cases c
    · rw [h1] at c; cases c
      exact (hold _ _ h3).1
  refine ⟨fun q' v a b => ?_, fun q1 q2 u1 u2 y a1 a2 b1 b2 c1 c2 => ?_, by rw [h2]; simp; exact Nat.le_succ_of_le hp.size⟩
  · by_cases hv : v = u
    · subst hv
      have := hs.graph.distinct q q' v hq a ⟨o, ho, hu⟩ b
      subst this
      exact .inr ⟨_, o, o2, get_put_self _ _ _, ho, hnew, hc, hp.size⟩
    · rw [get_put_ne _ _ hv]
      rcases hp.here q' v a b with h | ⟨y', o1, o1', h1, h3, h4, h5, h6⟩
      · exact .inl h
      · exact .inr ⟨y', o1, o1', h1, h3, (hold _ _ h4).2, h5, h6⟩
  · by_cases h1 : u1 = u
    · by_cases h2 : u2 = u
      · rw [h1, h2]
      · rw [h1, get_put_self] at c1; cases c1
        rw [get_put_ne _ _ h2] at c2
        exact absurd (small q2 u2 _ a2 b2 c2) (Nat.lt_irrefl _)
    · rw [get_put_ne _ _ h1] at c1
      by_cases h2 : u2 = u
      · rw [h2, get_put_self] at c2; cases c2
        exact absurd (small q1 u1 _ a1 b1 c1) (Nat.lt_irrefl _)
      · rw [get_put_ne _ _ h2] at c2
        exact hp.inj q1 q2 u1 u2 y a1 a2 b1 b2 c1 c2

theorem setFields_ok {E : Env D} {x : Ref} {u : Option Uid} {ss : List (Slot D)} {w w' : World D} {v : Unit}
    (h : setFields E x u ss w = (.ok v, w')) (q : Ref) : w'.objs[q]? =
      if q = x then (w.objs[x]?).map (fun o => { o with uid := u <|> o.uid, slots := ss }) else w.objs[q]? := by
  unfold setFields at h
  simp only at h
  split at h
  · cases h
    rw [modify_objs]
    cases u with
    | none =>
      simp only [setOwn]
      split
      · cases w.objs[x]? <;> rfl
      · rfl
    | some u =>
      simp only [setOwn]
      rw [modify_objs, modify_objs]
      split
      · rw [if_pos rfl]
        cases w.objs[x]? <;> rfl
      · rfl
  · cases h

theorem setFields_inst {E : Env D} {x : Ref} {u : Option Uid} {ss : List (Slot D)} {w w' : World D} {v : Unit}
    (h : setFields E x u ss w = (.ok v, w')) : w'.inst = w.inst := by
  unfold setFields at h
  simp only at h
  split at h
  · cases h
    rw [(modify_inst _ _ _).1]
    cases u with
    | none => rfl
    | some u => exact (modify_inst _ _ _).1
  · cases h

theorem finishInit_inst {E : Env D} {c : Cls} {w : World D} :
    (finishInit w.objs.length ({ w with objs := w.objs ++ [{ cls := c, uid := some (E.supply w.drawn) }], drawn := w.drawn + 1 } : World D)).inst
      = put w.inst (E.supply w.drawn) w.objs.length := by
  unfold finishInit
  simp [register]

theorem build_sound {E : Env D} {t s : Bool} {objs : List (Obj D)} {r : Ref} {S : Reg D} (hs : Setting E t s objs r S) {n0 : Nat}
    {f : Cls → Uid → Reg D → World D → Except Err (Ref × Reg D) × World D} (hf : Sound E t s objs r S n0 f)
    {c : Cls} {q : Ref} {u : Uid} {o : Obj D} {reg : Reg D} {w : World D} {x : Ref} {reg' : Reg D} {w' : World D} {js : List (JSlot D)}
    (hq : Reach objs r q) (ho : objs[q]? = some o) (hu : o.uid = some u)
    (hc : outClass E c (some (E.name o.cls)) t s = .ok o.cls) (hp : Part objs r S n0 reg w)
    (hg : ∀ z, get reg u ≠ some (.inst z)) (hfl : Flats objs o.slots js)
    (h : build E t s f c u (some ⟨some (E.name o.cls), some u, js⟩) reg w = (.ok (x, reg'), w')) :
    Later objs r S n0 reg w reg' w' ∧ get reg' u = some (.inst x) ∧ (get w'.inst u).isSome = true := by
  unfold build at h
  simp only [Option.bind, hc] at h
  have hal : alloc E o.cls w = (w.objs.length, { w with
      objs := w.objs ++ [{ cls := o.cls, uid := some (E.supply w.drawn) }], drawn := w.drawn + 1 }) := rfl
  simp only [hal] at h
  generalize hw2 : finishInit w.objs.length ({ w with
      objs := w.objs ++ [{ cls := o.cls, uid := some (E.supply w.drawn) }], drawn := w.drawn + 1 } : World D) = w2 at h
  have hobjs : w2.objs = w.objs ++ [{ cls := o.cls, uid := some (E.supply w.drawn) }] := by
    rw [← hw2]
    unfold finishInit
    simp [register]
  have hp2 := part_alloc hs hp hq ho hu hobjs rfl
  split at h
  · cases h
  · rename_i ss reg3 w3 h3
    obtain ⟨a, b, b2, _⟩ := desSlots_sound hf hfl (fun c' q' hm =>
      ⟨.step hq ⟨o, c', ho, hm⟩, fun o' ho' => hs.classes q q' c' o o' hq ho hm ho'⟩) _ _ _ _ _ hp2 h3
    split at h
    · cases h
    · rename_i w4 h4
      cases h
      have hx3 : w3.objs[w.objs.length]? = some { cls := o.cls, uid := some (E.supply w.drawn) } :=
        a.kept _ _ (by rw [hobjs]; simp)
      have hw' : ∀ y : Ref, (register u w.objs.length (modify w.objs.length (fun o => { o with live := true }) w4)).objs[y]? =
          if y = w.objs.length then some { cls := o.cls, uid := some u, slots := ss, live := true } else w3.objs[y]? := by
        intro y
        show (modify w.objs.length _ w4).objs[y]? = _
        rw [modify_objs]
        split
        · rw [setFields_ok h4, if_pos rfl, hx3]; rfl
        · rename_i hne
          rw [setFields_ok h4, if_neg hne]
      have hux : get reg' u = some (.inst w.objs.length) := a.keep _ _ (get_put_self _ _ _)
      refine ⟨⟨⟨fun q' v hq' hv => ?_, a.part.inj, ?_⟩, fun v y hv => ?_, fun y o' ho' => ?_, fun q' v y hq' hv hn hy => ?_, fun v hv => ?_⟩, hux,
        by show (get (put _ u w.objs.length) u).isSome = true; rw [get_put_self]; rfl⟩
      · rcases a.part.here q' v hq' hv with h | ⟨y, o1, o1', h1, h2, h3, h4, h5⟩
        · exact .inl h
        · refine .inr ?_
          by_cases hy : y = w.objs.length
          · subst hy
            rw [hx3] at h3; cases h3
            exact ⟨_, o1, { cls := o.cls, uid := some u, slots := ss, live := true }, h1, h2, by rw [hw', if_pos rfl], h4, h5⟩
          · exact ⟨y, o1, o1', h1, h2, by rw [hw', if_neg hy]; exact h3, h4, h5⟩
      · have : w.objs.length < (register u w.objs.length (modify w.objs.length (fun o => { o with live := true }) w4)).objs.length := by
          have := hw' w.objs.length
          rw [if_pos rfl] at this
          exact (List.getElem?_eq_some_iff.1 this).1
        exact Nat.le_trans hp.size (Nat.le_of_lt this)
      · refine a.keep v y ?_
        by_cases hvu : v = u
        · subst hvu; exact absurd hv (hg y)
        · rw [get_put_ne _ _ hvu]; exact hv
      · have hlt := (List.getElem?_eq_some_iff.1 ho').1
        rw [hw', if_neg (Nat.ne_of_lt hlt)]
        exact a.kept y o' (by rw [hobjs, List.getElem?_append_left hlt]; exact ho')
      · by_cases hvu : v = u
        · subst hvu
          have := hs.graph.distinct q q' v hq hq' ⟨o, ho, hu⟩ hv
          subst this
          rw [hux] at hy; cases hy
          exact ⟨o, { cls := o.cls, uid := some v, slots := ss, live := true }, ho, by rw [hw', if_pos rfl], rfl, hu.symm, b, b2⟩
        · obtain ⟨o1, o1', h1, h2, h3, h4, h5⟩ := a.done q' v y hq' hv (fun z hz => by
            rw [get_put_ne _ _ hvu] at hz; exact hn z hz) hy
          have hne : y ≠ w.objs.length := by
            rintro rfl
            exact hvu (a.part.inj q' q v u _ hq' hq hv ⟨o, ho, hu⟩ hy hux)
          exact ⟨o1, o1', h1, by rw [hw', if_neg hne]; exact h2, h3, h4, h5⟩
      · show (get (put _ u w.objs.length) v).isSome = true
        refine get_put_isSome _ _ _ _ ?_
        rw [(modify_inst _ _ _).1, setFields_inst h4]
        refine a.taken v ?_
        rw [← hw2, finishInit_inst]
        exact get_put_isSome _ _ _ _ hv

theorem des_sound {E : Env D} {t s : Bool} {objs : List (Obj D)} {r : Ref} {S : Reg D} (hs : Setting E t s objs r S) (n0 : Nat) :
    ∀ k, Sound E t s objs r S n0 (des E t s k)
  | 0, _, _, _, _, _, _, _, _, _, _, _, _, _, _, h => by cases h
  | k + 1, c, q, u, o, reg, w, x, reg', w', hq, ho, hu, hc, hp, h => by
    have ih := des_sound hs n0 k
    simp only [des] at h
    obtain ⟨v, h1, o', js, h2, h3, h4, h5⟩ := hs.flat q u hq ⟨o, ho, hu⟩
    rw [ho] at h2; cases h2
    rcases hp.here q u hq ⟨o, ho, hu⟩ with hg | ⟨y, o1, o1', hg, _⟩
    · rw [hg, h1, h4] at h
      cases hi : get w.inst u with
      | some y => rw [hi] at h; cases h
      | none =>
        rw [hi] at h
        obtain ⟨a, b, d⟩ := build_sound hs ih hq ho hu hc hp (fun z hz => by rw [hg, h1, h4] at hz; cases hz) h5 h
        exact ⟨a, b, rfl, d⟩
    · rw [hg] at h
      cases hi : get w.inst u with
      | some y => rw [hi] at h; cases h
      | none =>
        rw [hi] at h
        cases h
        refine ⟨.same hp rfl fun v hv => ?_, hg, rfl, ?_⟩
        · show (get (put _ u x) v).isSome = true
          exact get_put_isSome _ _ _ _ hv
        · show (get (put _ u x) u).isSome = true
          rw [get_put_self]; rfl

theorem inside_reach {objs : List (Obj D)} {r q : Ref} (h : Inside objs r q) : Reach objs r q := by
  induction h with
  | refl => exact .refl
  | step _ e ih => exact .step ih e

theorem setting_start {E : Env D} {t s : Bool} {objs : List (Obj D)} {r : Ref} {S : Reg D} (hs : Setting E t s objs r S) (w : World D) :
    Part objs r S w.objs.length S w :=
  ⟨fun _ _ _ _ => .inl rfl, (fun q q' u u' y hq _ hu _ h1 _ => by
    obtain ⟨v, h2, _, _, _, _, h3, _⟩ := hs.flat q u hq hu
    rw [h1, h3] at h2
    cases h2), Nat.le_refl _⟩

theorem setting_raw {E : Env D} {t s : Bool} {objs : List (Obj D)} {r : Ref} {S : Reg D} (hs : Setting E t s objs r S) {q : Ref} {v : Uid}
    (hq : Reach objs r q) (hv : Has objs q v) (z : Ref) : get S v ≠ some (.inst z) := fun hz => by
  obtain ⟨v', h2, _, _, _, _, h3, _⟩ := hs.flat q v hq hv
  rw [hz, h3] at h2
  cases h2

theorem made_copies {objs : List (Obj D)} {f : Ref → Ref → Prop} {l l' : List (Slot D)} (h : Copies objs f l l') {c : Cls} {q : Ref}
    (hm : .ref false c q ∈ l) : ∃ y, f q y := by
  induction h with
  | nil => cases hm
  | cons hs _ ih =>
    rcases List.mem_cons.1 hm with rfl | hm
    · cases hs with
      | ref hf => exact ⟨_, hf⟩
    · exact ih hm

theorem later_made {E : Env D} {t s : Bool} {objs : List (Obj D)} {r : Ref} {S : Reg D} (hs : Setting E t s objs r S) {n0 : Nat}
    {w : World D} {reg' : Reg D} {w' : World D} (hl : Later objs r S n0 S w reg' w') {u : Uid} {x : Ref} (hu : Has objs r u)
    (hux : get reg' u = some (.inst x)) {q : Ref} (hq : Inside objs r q) : ∃ y, MadeFor objs reg' q y ∧ Done objs reg' w' q y := by
  induction hq with
  | refl => exact ⟨x, ⟨u, hu, hux⟩, hl.done r u x .refl hu (setting_raw hs .refl hu) hux⟩
  | @step q q' hq he ih =>
    obtain ⟨y, _, o1, o2, a1, a2, _, _, a3, _⟩ := ih
    obtain ⟨o1', c', b1, b2⟩ := he
    rw [a1] at b1; cases b1
    obtain ⟨y', v, hv, hy⟩ := made_copies a3 b2
    have hr' : Reach objs r q' := inside_reach (.step hq ⟨o1, c', a1, b2⟩)
    exact ⟨y', ⟨v, hv, hy⟩, hl.done q' v y' hr' hv (setting_raw hs hr' hv) hy⟩

/-- What a deserialization of the flat form that returns has done. -/
theorem deserialize_later {E : Env D} {t s : Bool} {objs : List (Obj D)} {r : Ref} (hg : Graph objs r) (hcl : Classes E t s objs r)
    {k : Nat} (hk : objs.length < k) {S : Reg D} (hS : serialize E objs k r = .ok S)
    {c : Cls} (hc : ∀ o, objs[r]? = some o → outClass E c (some (E.name o.cls)) t s = .ok o.cls)
    {n : Nat} {w w' : World D} {x : Ref} (h : deserialize E t s n c none S w = (.ok x, w')) :
    Setting E t s objs r S ∧ ∃ reg' u, Has objs r u ∧ Later objs r S w.objs.length S w reg' w' ∧ get reg' u = some (.inst x) := by
  obtain ⟨S', hS', _, ⟨u, hu, hroot⟩, hflat, _⟩ := C44_flat E objs r hg k hk
  rw [hS] at hS'; cases hS'
  have hs : Setting E t s objs r S := ⟨hg, hflat, hcl⟩
  obtain ⟨o, ho, hou⟩ := hu
  unfold deserialize at h
  rw [hroot] at h
  simp only at h
  split at h
  · cases h
  · rename_i x' reg' w1 h1
    cases h
    obtain ⟨hl, hux, _⟩ := des_sound hs w.objs.length n c r u o S w x reg' w' .refl ho hou (hc o ho) (setting_start hs w) h1
    exact ⟨hs, reg', u, ⟨o, ho, hou⟩, hl, hux⟩

open Classical in
/-- C45: a deserialization of the flat form of a graph that returns has built a copy
of the graph: new instances of the same classes, with the same identifiers and
values, and with the references of the originals; instances that were shared are
shared, and cycles are cycles. -/
theorem C45_isomorphic (E : Env D) (t s : Bool) (objs : List (Obj D)) (r : Ref) (hg : Graph objs r) (hcl : Classes E t s objs r)
    (k : Nat) (hk : objs.length < k) (S : Reg D) (hS : serialize E objs k r = .ok S)
    (c : Cls) (hc : ∀ o, objs[r]? = some o → outClass E c (some (E.name o.cls)) t s = .ok o.cls)
    (n : Nat) (w w' : World D) (x : Ref) (h : deserialize E t s n c none S w = (.ok x, w')) :
    ∃ φ, φ r = x ∧ Iso objs r w w' φ := by
  obtain ⟨hs, reg', u, hu, hl, hux⟩ := deserialize_later hg hcl hk hS hc h
  have made : ∀ q, Inside objs r q → ∃ y, MadeFor objs reg' q y ∧ Done objs reg' w' q y := fun q hq => later_made hs hl hu hux hq
  have unique : ∀ q y y', MadeFor objs reg' q y → MadeFor objs reg' q y' → y = y' := by
    rintro q y y' ⟨u1, a1, b1⟩ ⟨u2, a2, b2⟩
    rw [has_inj a1 a2, b2] at b1
    cases b1; rfl
  let φ : Ref → Ref := fun q => if hq : ∃ y, MadeFor objs reg' q y then Classical.choose hq else 0
  have hφ : ∀ q y, MadeFor objs reg' q y → φ q = y := fun q y hm => by
    have hex : ∃ y, MadeFor objs reg' q y := ⟨y, hm⟩
    show (if hq : ∃ y, MadeFor objs reg' q y then Classical.choose hq else 0) = y
    rw [dif_pos hex]
    exact unique q _ _ (Classical.choose_spec hex) hm
  refine ⟨φ, hφ r x ⟨u, hu, hux⟩, fun q hq => ?_, fun q hq => ?_, fun q q' hq hq' he => ?_⟩
  · obtain ⟨y, hm, o1, o2, a1, a2, a3, a4, a5, _⟩ := made q hq
    exact ⟨o1, o2, a1, by rw [hφ q y hm]; exact a2, a3, a4, copies_mono (fun a b hab => (hφ a b hab).symm) a5⟩
  · obtain ⟨y, hm, _⟩ := made q hq
    rw [hφ q y hm]
    obtain ⟨v, hv, hy⟩ := hm
    rcases hl.part.here q v (inside_reach hq) hv with h2 | ⟨y', _, _, h2, _, _, _, h3⟩
    · rw [hy] at h2
      exact absurd h2.symm (setting_raw hs (inside_reach hq) hv y)
    · rw [hy] at h2; cases h2; exact h3
  · obtain ⟨y, hm, _⟩ := made q hq
    obtain ⟨y', hm', _⟩ := made q' hq'
    rw [hφ q y hm, hφ q' y' hm'] at he
    subst he
    obtain ⟨v, hv, hy⟩ := hm
    obtain ⟨v', hv', hy'⟩ := hm'
    have := hl.part.inj q q' v v' y (inside_reach hq) (inside_reach hq') hv hv' hy hy'
    subst this
    exact hg.distinct q q' v (inside_reach hq) (inside_reach hq') hv hv'

/-- C45: a flat form in which two places of one instance refer to the same instance is
never deserialized: the second reference is to an identifier in use. -/
theorem C45_twice_raises (E : Env D) (t s : Bool) (objs : List (Obj D)) (r : Ref) (hg : Graph objs r) (hcl : Classes E t s objs r)
    (k : Nat) (hk : objs.length < k) (S : Reg D) (hS : serialize E objs k r = .ok S)
    (c : Cls) (hc : ∀ o, objs[r]? = some o → outClass E c (some (E.name o.cls)) t s = .ok o.cls)
    (q : Ref) (o : Obj D) (hq : Inside objs r q) (ho : objs[q]? = some o) (hd : ¬ (refs o.slots).Nodup)
    (n : Nat) (w w' : World D) (x : Ref) : deserialize E t s n c none S w ≠ (.ok x, w') := fun h => by
  obtain ⟨hs, reg', u, hu, hl, hux⟩ := deserialize_later hg hcl hk hS hc h
  obtain ⟨y, _, o1, o2, a1, _, _, _, _, a2⟩ := later_made hs hl hu hux hq
  rw [ho] at a1; cases a1
  exact hd a2

/-! ## Termination -/

/-- The entries that are not yet replaced. -/
def rawCount : Reg D → Nat
  | [] => 0
  | (_, .raw _) :: l => rawCount l + 1
  | _ :: l => rawCount l

theorem rawCount_put {u : Uid} {e : Entry D} {x : Ref} : ∀ {reg : Reg D}, get reg u = some (.raw e) →
    rawCount (put reg u (.inst x)) + 1 = rawCount reg
  | [], h => by cases h
  | (k, v) :: l, h => by
    simp only [get] at h
    simp only [put]
    split at h
    · rename_i hk
      cases h
      rw [if_pos hk]
      rfl
    · rename_i hk
      rw [if_neg hk]
      have ih := rawCount_put (x := x) h
      cases v <;> simp only [rawCount] <;> omega

theorem rawCount_le : ∀ (reg : Reg D), rawCount reg ≤ reg.length
  | [] => Nat.le_refl _
  | (_, v) :: l => by
    have := rawCount_le l
    cases v <;> simp only [rawCount, List.length_cons] <;> omega

/-- What is shown of the deserializer of references: with enough depth no
RecursionError. -/
def Ends (k : Nat) (f : Cls → Uid → Reg D → World D → Except Err (Ref × Reg D) × World D) : Prop :=
  ∀ c u reg w, rawCount reg < k → (f c u reg w).1 ≠ .error .depth ∧ ∀ x reg', (f c u reg w).1 = .ok (x, reg') → rawCount reg' ≤ rawCount reg

theorem desSlots_ends {k : Nat} {f : Cls → Uid → Reg D → World D → Except Err (Ref × Reg D) × World D} (hf : Ends k f) :
    ∀ js reg w, rawCount reg < k → (desSlots f js reg w).1 ≠ .error .depth ∧
      ∀ ss reg', (desSlots f js reg w).1 = .ok (ss, reg') → rawCount reg' ≤ rawCount reg
  | [], reg, w, _ => ⟨nofun, fun _ _ h => by cases h; exact Nat.le_refl _⟩
  | .data d :: l, reg, w, hk => by
    obtain ⟨a, b⟩ := desSlots_ends hf l reg w hk
    simp only [desSlots]
    split
    · rename_i e w1 he
      rw [he] at a
      exact ⟨a, nofun⟩
    · rename_i ss reg1 w1 he
      rw [he] at b
      exact ⟨nofun, fun _ _ h => by cases h; exact b _ _ rfl⟩
  | .uid true c u :: l, reg, w, hk => by
    obtain ⟨a, b⟩ := desSlots_ends hf l reg w hk
    simp only [desSlots]
    split
    · rename_i e w1 he
      rw [he] at a
      exact ⟨a, nofun⟩
    · rename_i ss reg1 w1 he
      rw [he] at b
      exact ⟨nofun, fun _ _ h => by cases h; exact b _ _ rfl⟩
  | .uid false c u :: l, reg, w, hk => by
    obtain ⟨a, b⟩ := hf c u reg w hk
    simp only [desSlots]
    split
    · rename_i e w1 he
      rw [he] at a
      exact ⟨fun h => a (by cases h; rfl), nofun⟩
    · rename_i x reg1 w1 he
      rw [he] at b
      have hle := b _ _ rfl
      obtain ⟨a', b'⟩ := desSlots_ends hf l reg1 w1 (Nat.lt_of_le_of_lt hle hk)
      split
      · rename_i e w2 he'
        rw [he'] at a'
        exact ⟨a', nofun⟩
      · rename_i ss reg2 w2 he'
        rw [he'] at b'
        exact ⟨nofun, fun _ _ h => by cases h; exact Nat.le_trans (b' _ _ rfl) hle⟩

theorem outClass_value {E : Env D} {c : Cls} {n : Option PyStr} {t s : Bool} {e : Err} (h : outClass E c n t s = .error e) : e = .value := by
  unfold outClass at h
  split at h
  · cases h
  · split at h
    · cases h
    · split at h
      · cases h
      · split at h
        · cases h; rfl
        · cases h

theorem setFields_validation {E : Env D} {x : Ref} {u : Option Uid} {ss : List (Slot D)} {w w' : World D} {e : Err}
    (h : setFields E x u ss w = (.error e, w')) : e = .validation := by
  unfold setFields at h
  simp only at h
  split at h
  · cases h
  · cases h; rfl

theorem build_ends {E : Env D} {t s : Bool} {k : Nat} {f : Cls → Uid → Reg D → World D → Except Err (Ref × Reg D) × World D} (hf : Ends k f)
    (c : Cls) (u : Uid) (e : Option (Entry D)) (reg : Reg D) (w : World D) (hk : rawCount reg < k + 1)
    (he : ∀ e', e = some e' → get reg u = some (.raw e')) :
    (build E t s f c u e reg w).1 ≠ .error .depth ∧
      ∀ x reg', (build E t s f c u e reg w).1 = .ok (x, reg') → rawCount reg' ≤ rawCount reg := by
  unfold build
  split
  · rename_i err herr
    rw [outClass_value herr]
    exact ⟨nofun, nofun⟩
  · simp only
    split
    · exact ⟨nofun, nofun⟩
    · rename_i c' _ e' hc'
      have hput := rawCount_put (x := w.objs.length) (he e' rfl)
      have hput' : rawCount (put reg u (.inst (alloc E c' w).1)) + 1 = rawCount reg := hput
      obtain ⟨a, b⟩ := desSlots_ends hf e'.slots (put reg u (.inst (alloc E c' w).1)) (finishInit (alloc E c' w).1 (alloc E c' w).2) (by omega)
      split
      · rename_i err w1 h1
        rw [h1] at a
        exact ⟨fun h => a (by cases h; rfl), nofun⟩
      · rename_i ss reg1 w1 h1
        rw [h1] at b
        split
        · rename_i err w2 h2
          rw [setFields_validation h2]
          exact ⟨nofun, nofun⟩
        · exact ⟨nofun, fun _ _ h => by cases h; have := b _ _ rfl; omega⟩

theorem des_ends (E : Env D) (t s : Bool) : ∀ k, Ends k (des E t s k)
  | 0, _, _, _, _, h => absurd h (Nat.not_lt_zero _)
  | k + 1, c, u, reg, w, hk => by
    have ih := des_ends E t s k
    simp only [des]
    split
    · exact ⟨nofun, fun _ _ h => by cases h; exact Nat.le_refl _⟩
    · exact ⟨nofun, nofun⟩
    · exact ⟨nofun, nofun⟩
    · exact ⟨nofun, fun _ _ h => by cases h; exact Nat.le_refl _⟩
    · rename_i e h1 h2
      exact build_ends ih c u _ reg w hk (fun e' h => by cases h; exact h2)
    · exact build_ends ih c u _ reg w hk nofun

/-- C45: deserialization of any flat dictionary, also with cycles, ends: no entry is
expanded twice. -/
theorem C45_terminates (E : Env D) (t s : Bool) (c : Cls) (root : Option Uid) (reg : Reg D) (w : World D) (k : Nat) (hk : reg.length < k) :
    (deserialize E t s k c root reg w).1 ≠ .error .depth := by
  have key : ∀ u, (match des E t s k c u reg w with
      | (.error e, w) => ((.error e, w) : Res D Ref)
      | (.ok (x, _), w) => (.ok x, w)).1 ≠ .error .depth := fun u => by
    obtain ⟨a, _⟩ := des_ends E t s k c u reg w (Nat.lt_of_le_of_lt (rawCount_le reg) hk)
    split
    · rename_i e w1 he
      rw [he] at a
      exact fun h => a (by cases h; rfl)
    · exact nofun
  unfold deserialize
  split
  · exact key _
  · exact key _
  · exact nofun

/-! ## What is deserialized -/

/-- An instance replaced between two states of the dictionary. -/
def Newly (objs : List (Obj D)) (reg reg' : Reg D) (q : Ref) : Prop :=
  (∀ v z, Has objs q v → get reg v ≠ some (.inst z)) ∧ ∃ v y, Has objs q v ∧ get reg' v = some (.inst y)

/-- The references in `P` have been followed, and no others. -/
structure Followed (objs : List (Obj D)) (r : Ref) (P : Ref → Nat → Prop) (reg : Reg D) (w : World D) : Prop where
  inst : ∀ q v, Inside objs r q → Has objs q v → (get w.inst v).isSome = true → ∃ q₂ j, P q₂ j ∧ At objs q₂ j q
  source : ∀ q j, P q j → Inside objs r q ∧ ∃ v y, Has objs q v ∧ get reg v = some (.inst y)

/-- Uuids still to be drawn are not identifiers of the graph. -/
def Apart (E : Env D) (objs : List (Obj D)) (r : Ref) (w : World D) : Prop :=
  ∀ q v, Inside objs r q → Has objs q v → Unguessed E w v

/-- What is shown of the deserializer of references. -/
def Complete (E : Env D) (t s : Bool) (objs : List (Obj D)) (r : Ref) (S : Reg D) (n0 k : Nat)
    (f : Cls → Uid → Reg D → World D → Except Err (Ref × Reg D) × World D) : Prop :=
  ∀ c q u o reg w P, Inside objs r q → objs[q]? = some o → o.uid = some u →
    outClass E c (some (E.name o.cls)) t s = .ok o.cls → Part objs r S n0 reg w → Apart E objs r w → Followed objs r P reg w →
    rawCount reg < k → get w.inst u = none → ∃ x reg' w', f c u reg w = (.ok (x, reg'), w') ∧ w.drawn ≤ w'.drawn ∧
      ∀ q' v, Inside objs r q' → Has objs q' v → (get w'.inst v).isSome = true →
        q' = q ∨ ∃ q₂ j, (P q₂ j ∨ Inside objs r q₂ ∧ Newly objs reg reg' q₂) ∧ At objs q₂ j q'

theorem made_inside {objs : List (Obj D)} {r : Ref} {S : Reg D} {n0 : Nat} {a b : Reg D} {wa wb : World D}
    (h : Later objs r S n0 a wa b wb) {q : Ref} (hm : ∃ v y, Has objs q v ∧ get a v = some (.inst y)) :
    ∃ v y, Has objs q v ∧ get b v = some (.inst y) := by
  obtain ⟨v, y, h1, h2⟩ := hm
  exact ⟨v, y, h1, h.keep v y h2⟩

theorem newly_trans {objs : List (Obj D)} {r : Ref} {S : Reg D} {n0 : Nat} {a b c : Reg D} {wa wb wc : World D}
    (h : Later objs r S n0 a wa b wb) (g : Later objs r S n0 b wb c wc) {q : Ref} :
    (Newly objs a b q → Newly objs a c q) ∧ (Newly objs b c q → Newly objs a c q) :=
  ⟨fun ⟨h1, h2⟩ => ⟨h1, made_inside g h2⟩, fun ⟨h1, h2⟩ => ⟨fun v z hv hz => h1 v z hv (h.keep v z hz), h2⟩⟩

theorem at_drop {objs : List (Obj D)} {q : Ref} {o : Obj D} (ho : objs[q]? = some o) {i : Nat} {c : Cls} {q' : Ref} {l : List (Slot D)}
    (h : o.slots.drop i = .ref false c q' :: l) : At objs q i q' := by
  refine ⟨o, c, ho, ?_⟩
  have : (o.slots.drop i)[0]? = some (.ref false c q') := by rw [h]; rfl
  rwa [List.getElem?_drop, Nat.add_zero] at this

theorem desSlots_complete {E : Env D} {t s : Bool} {objs : List (Obj D)} {r : Ref} {S : Reg D} (hs : Setting E t s objs r S) {n0 k : Nat}
    {f : Cls → Uid → Reg D → World D → Except Err (Ref × Reg D) × World D} (hsnd : Sound E t s objs r S n0 f) (hend : Ends k f)
    (hf : Complete E t s objs r S n0 k f) (honce : Once objs r) {qs : Ref} {o : Obj D} (hqs : Inside objs r qs) (ho : objs[qs]? = some o)
    {l : List (Slot D)} {js : List (JSlot D)} (hl : Flats objs l js) :
    ∀ i, o.slots.drop i = l → ∀ reg w P, Part objs r S n0 reg w → Apart E objs r w → Followed objs r P reg w → rawCount reg < k →
    (∃ v y, Has objs qs v ∧ get reg v = some (.inst y)) → (∀ j, i ≤ j → ¬ P qs j) →
    ∃ ss reg' w', desSlots f js reg w = (.ok (ss, reg'), w') ∧ w.drawn ≤ w'.drawn ∧
      ∀ q' v, Inside objs r q' → Has objs q' v → (get w'.inst v).isSome = true →
        ∃ q₂ j, (P q₂ j ∨ q₂ = qs ∨ Inside objs r q₂ ∧ Newly objs reg reg' q₂) ∧ At objs q₂ j q' := by
  induction hl with
  | nil =>
    intro i _ reg w P _ _ hfol _ _ _
    refine ⟨[], reg, w, rfl, Nat.le_refl _, fun q' v hq hv hi => ?_⟩
    obtain ⟨q2, j, h1, h2⟩ := hfol.inst q' v hq hv hi
    exact ⟨q2, j, .inl h1, h2⟩
  | @cons sl j l js hsl hrest ih =>
    intro i hi reg w P hp hap hfol hk hme hnP
    have hi' : o.slots.drop (i + 1) = l := by
      rw [← List.drop_drop, hi]; rfl
    have plain : ∀ s' : Slot D, (desSlots f (j :: js) reg w =
        match desSlots f js reg w with
          | (.error e, w) => ((.error e, w) : Except Err (List (Slot D) × Reg D) × World D)
          | (.ok (ss, reg), w) => (.ok (s' :: ss, reg), w)) → ∃ ss reg' w', desSlots f (j :: js) reg w = (.ok (ss, reg'), w') ∧ w.drawn ≤ w'.drawn ∧
        ∀ q' v, Inside objs r q' → Has objs q' v → (get w'.inst v).isSome = true →
        ∃ q₂ j, (P q₂ j ∨ q₂ = qs ∨ Inside objs r q₂ ∧ Newly objs reg reg' q₂) ∧ At objs q₂ j q' := by
      intro s' he
      obtain ⟨ss, reg', w', h1, h2⟩ := ih (i + 1) hi' reg w P hp hap hfol hk hme (fun j hj => hnP j (by omega))
      rw [h1] at he
      exact ⟨s' :: ss, reg', w', he, h2⟩
    cases hsl with
    | data d => exact plain _ rfl
    | ptr c u => exact plain _ rfl
    | @ref p c q u hu =>
      cases p with
      | true => exact plain _ rfl
      | false =>
        obtain ⟨oq, hoq, hou⟩ := hu
        have hat := at_drop ho hi
        have hmem : .ref false c q ∈ o.slots := by
          have : (.ref false c q : Slot D) ∈ o.slots.drop i := by rw [hi]; exact List.mem_cons_self
          exact List.mem_of_mem_drop this
        have hq : Inside objs r q := .step hqs ⟨o, c, ho, hmem⟩
        have hcls := hs.classes qs q c o oq (inside_reach hqs) ho hmem hoq
        have hfree : get w.inst u = none := by
          cases hg : get w.inst u with
          | none => rfl
          | some z =>
            obtain ⟨q2, j2, h1, h2⟩ := hfol.inst q u hq ⟨oq, hoq, hou⟩ (by rw [hg]; rfl)
            obtain ⟨rfl, rfl⟩ := honce _ _ _ _ _ (hfol.source _ _ h1).1 hqs h2 hat
            exact absurd h1 (hnP _ (Nat.le_refl _))
        obtain ⟨x, reg1, w1, e1, d1, f1⟩ := hf c q u oq reg w P hq hoq hou hcls hp hap hfol hk hfree
        obtain ⟨l1, _⟩ := hsnd c q u oq reg w x reg1 w1 (inside_reach hq) hoq hou hcls hp e1
        have hk1 : rawCount reg1 < k := Nat.lt_of_le_of_lt ((hend c u reg w hk).2 x reg1 (by rw [e1])) hk
        obtain ⟨ss, reg2, w2, e2, d2, f2⟩ := ih (i + 1) hi' reg1 w1
          (fun q₂ j => P q₂ j ∨ (Inside objs r q₂ ∧ Newly objs reg reg1 q₂) ∨ (q₂ = qs ∧ j = i)) l1.part
          (fun q v hq hv m hm => hap q v hq hv m (Nat.le_trans d1 hm))
          ⟨fun q' v hq' hv hi' => by
            rcases f1 q' v hq' hv hi' with rfl | ⟨q2, j2, h1 | h1, h2⟩
            · exact ⟨qs, i, .inr (.inr ⟨rfl, rfl⟩), hat⟩
            · exact ⟨q2, j2, .inl h1, h2⟩
            · exact ⟨q2, j2, .inr (.inl h1), h2⟩,
          fun q' j' h => by
            rcases h with h | ⟨h, h'⟩ | ⟨rfl, _⟩
            · exact ⟨(hfol.source q' j' h).1, made_inside l1 (hfol.source q' j' h).2⟩
            · exact ⟨h, h'.2⟩
            · exact ⟨hqs, made_inside l1 hme⟩⟩ hk1 (made_inside l1 hme)
          (fun j hj h => by
            rcases h with h | ⟨_, h⟩ | ⟨_, h⟩
            · exact hnP j (by omega) h
            · obtain ⟨v, y, h1, h2⟩ := hme
              exact h.1 v y h1 h2
            · omega)
        have l2 := (desSlots_sound hsnd hrest (fun c' q' hm => by
            have hm' : (.ref false c' q' : Slot D) ∈ o.slots := by
              have : (.ref false c' q' : Slot D) ∈ o.slots.drop i := by rw [hi]; exact List.mem_cons_of_mem _ hm
              exact List.mem_of_mem_drop this
            exact ⟨inside_reach (.step hqs ⟨o, c', ho, hm'⟩), fun o' ho' => hs.classes qs q' c' o o' (inside_reach hqs) ho hm' ho'⟩)
          reg1 w1 ss reg2 w2 l1.part e2).1
        refine ⟨.ref false c x :: ss, reg2, w2, by simp only [desSlots, e1, e2], Nat.le_trans d1 d2, fun q' v hq' hv hi' => ?_⟩
        obtain ⟨q2, j2, h, h2⟩ := f2 q' v hq' hv hi'
        refine ⟨q2, j2, ?_, h2⟩
        rcases h with (h | ⟨h, h'⟩ | ⟨h, _⟩) | h | ⟨h, h'⟩
        · exact .inl h
        · exact .inr (.inr ⟨h, (newly_trans l1 l2).1 h'⟩)
        · exact .inr (.inl h)
        · exact .inr (.inl h)
        · exact .inr (.inr ⟨h, (newly_trans l1 l2).2 h'⟩)

theorem accepted_shape {objs : List (Obj D)} {r : Ref} {S : Reg D} {n0 : Nat} {E : Env D} {t s : Bool} (hs : Setting E t s objs r S)
    {reg : Reg D} {w w' : World D} (hp : Part objs r S n0 reg w)
    (hw : ∀ (x : Ref) (o : Obj D), w.objs[x]? = some o → ∃ o' : Obj D, w'.objs[x]? = some o' ∧ o'.cls = o.cls)
    {l ss : List (Slot D)} (hc : Copies objs (MadeFor objs reg) l ss) :
    (∀ c q, .ref false c q ∈ l → Reach objs r q) → ss.map (shape w') = l.map (accepted objs) := by
  induction hc with
  | nil => intro _; rfl
  | cons h _ ih =>
    intro hr
    rw [List.map_cons, List.map_cons, ih (fun c q hm => hr c q (List.mem_cons_of_mem _ hm))]
    congr 1
    cases h with
    | data d => rfl
    | ptr c u => rfl
    | pointer hu =>
      obtain ⟨o, ho, hou⟩ := hu
      simp [shape, accepted, ho, hou]
    | @ref c q y hf =>
      obtain ⟨u, hu, hy⟩ := hf
      have hq := hr c q (by simp)
      rcases hp.here q u hq hu with h | ⟨y', o, o', h1, h2, h3, h4, _⟩
      · rw [hy] at h
        exact absurd h.symm (setting_raw hs hq hu y)
      · rw [hy] at h1; cases h1
        obtain ⟨o2, h5, h6⟩ := hw _ _ h3
        simp [shape, accepted, clsOf, h2, h5, h6, h4]

theorem build_complete {E : Env D} {t s : Bool} {objs : List (Obj D)} {r : Ref} {S : Reg D} (hs : Setting E t s objs r S) {n0 k : Nat}
    {f : Cls → Uid → Reg D → World D → Except Err (Ref × Reg D) × World D} (hsnd : Sound E t s objs r S n0 f) (hend : Ends k f)
    (hf : Complete E t s objs r S n0 k f) (honce : Once objs r) (hval : Valid E objs r)
    {c : Cls} {q : Ref} {u : Uid} {o : Obj D} {reg : Reg D} {w : World D} {P : Ref → Nat → Prop} {js : List (JSlot D)}
    (hq : Inside objs r q) (ho : objs[q]? = some o) (hu : o.uid = some u)
    (hc : outClass E c (some (E.name o.cls)) t s = .ok o.cls) (hp : Part objs r S n0 reg w) (hap : Apart E objs r w)
    (hfol : Followed objs r P reg w) (hk : rawCount reg < k + 1) (hraw : get reg u = some (.raw ⟨some (E.name o.cls), some u, js⟩))
    (hfl : Flats objs o.slots js) :
    ∃ x reg' w', build E t s f c u (some ⟨some (E.name o.cls), some u, js⟩) reg w = (.ok (x, reg'), w') ∧ w.drawn ≤ w'.drawn ∧
      ∀ q' v, Inside objs r q' → Has objs q' v → (get w'.inst v).isSome = true →
        q' = q ∨ ∃ q₂ j, (P q₂ j ∨ Inside objs r q₂ ∧ Newly objs reg reg' q₂) ∧ At objs q₂ j q' := by
  have hhas : Has objs q u := ⟨o, ho, hu⟩
  have hnot : ∀ v z, Has objs q v → get reg v ≠ some (.inst z) := fun v z hv hz => by
    rw [has_inj hv hhas, hraw] at hz; cases hz
  unfold build
  simp only [Option.bind, hc]
  have hal : alloc E o.cls w = (w.objs.length, { w with
      objs := w.objs ++ [{ cls := o.cls, uid := some (E.supply w.drawn) }], drawn := w.drawn + 1 }) := rfl
  simp only [hal]
  generalize hw2 : finishInit w.objs.length ({ w with
      objs := w.objs ++ [{ cls := o.cls, uid := some (E.supply w.drawn) }], drawn := w.drawn + 1 } : World D) = w2
  have hobjs : w2.objs = w.objs ++ [{ cls := o.cls, uid := some (E.supply w.drawn) }] := by
    rw [← hw2]
    unfold finishInit
    simp [register]
  have hinst : w2.inst = put w.inst (E.supply w.drawn) w.objs.length := by rw [← hw2, finishInit_inst]
  have hdrawn : w2.drawn = w.drawn + 1 := by
    rw [← hw2]
    unfold finishInit
    simp [register]
  have hp2 := part_alloc hs hp (inside_reach hq) ho hu hobjs rfl
  have hput := rawCount_put (x := w.objs.length) hraw
  have hap2 : Apart E objs r w2 := fun q' v hq' hv m hm => hap q' v hq' hv m (by omega)
  have hkeep : ∀ v y, get reg v = some (.inst y) → get (put reg u (.inst w.objs.length)) v = some (.inst y) := fun v y hv => by
    rw [get_put_ne _ _ (by rintro rfl; exact hnot v y hhas hv)]; exact hv
  have hfol2 : Followed objs r P (put reg u (.inst w.objs.length)) w2 :=
    ⟨fun q' v hq' hv hi => by
      rw [hinst, get_put_ne _ _ (fun h => hap q' v hq' hv w.drawn (Nat.le_refl _) h.symm)] at hi
      exact hfol.inst q' v hq' hv hi,
    fun q' j h => by
      obtain ⟨a, v, y, b, c⟩ := hfol.source q' j h
      exact ⟨a, v, y, b, hkeep v y c⟩⟩
  have hme : ∃ v y, Has objs q v ∧ get (put reg u (.inst w.objs.length)) v = some (.inst y) := ⟨u, _, hhas, get_put_self _ _ _⟩
  obtain ⟨ss, reg3, w3, h3, d3, f3⟩ := desSlots_complete hs hsnd hend hf honce hq ho hfl 0 rfl _ _ P hp2 hap2 hfol2 (by omega) hme
    (fun j _ h => by
      obtain ⟨_, v, y, a, b⟩ := hfol.source q j h
      exact hnot v y a b)
  rw [h3]
  simp only
  have hrefs : ∀ c' q', (.ref false c' q' : Slot D) ∈ o.slots → Reach objs r q' := fun c' q' hm => inside_reach (.step hq ⟨o, c', ho, hm⟩)
  obtain ⟨l3, hcop, _⟩ := desSlots_sound hsnd hfl (fun c' q' hm =>
      ⟨hrefs c' q' hm, fun o' ho' => hs.classes q q' c' o o' (inside_reach hq) ho hm ho'⟩) _ _ _ _ _ hp2 h3
  have hx3 : w3.objs[w.objs.length]? = some { cls := o.cls, uid := some (E.supply w.drawn) } :=
    l3.kept _ _ (by rw [hobjs]; simp)
  have hown : ∀ (y : Ref) (o' : Obj D), w3.objs[y]? = some o' → ∃ o2 : Obj D, (setOwn w.objs.length (some u) w3).objs[y]? = some o2 ∧ o2.cls = o'.cls := by
    intro y o' hy
    simp only [setOwn, modify_objs]
    split
    · rename_i he
      subst he
      rw [hy]
      exact ⟨_, rfl, rfl⟩
    · exact ⟨_, hy, rfl⟩
  have hclsx : clsOf (setOwn w.objs.length (some u) w3) w.objs.length = o.cls := by
    obtain ⟨o2, a, b⟩ := hown _ _ hx3
    simp only [clsOf, a, b]
  have hacc : E.accept (clsOf (setOwn w.objs.length (some u) w3) w.objs.length)
      (ss.map (shape (setOwn w.objs.length (some u) w3))) = true := by
    rw [hclsx, accepted_shape hs l3.part hown hcop hrefs]
    exact hval q o hq ho
  have hset : setFields E w.objs.length (some u) ss w3 =
      (.ok (), modify w.objs.length (fun o => { o with slots := ss }) (setOwn w.objs.length (some u) w3)) := by
    unfold setFields
    simp only [hacc, if_true]
  rw [hset]
  simp only
  refine ⟨w.objs.length, reg3, _, rfl, ?_, fun q' v hq' hv hi => ?_⟩
  · show w.drawn ≤ (modify _ _ (modify _ _ (modify _ _ w3))).drawn
    rw [(modify_inst _ _ _).2, (modify_inst _ _ _).2, (modify_inst _ _ _).2]
    omega
  · by_cases hvu : v = u
    · subst hvu
      exact .inl (hs.graph.distinct q' q v (inside_reach hq') (inside_reach hq) hv hhas)
    · have hi2 : (get (put (modify w.objs.length (fun o => { o with live := true }) (modify w.objs.length (fun o => { o with slots := ss })
          (modify w.objs.length (fun o => { o with uid := some u }) w3))).inst u w.objs.length) v).isSome = true := hi
      rw [get_put_ne _ _ hvu, (modify_inst _ _ _).1, (modify_inst _ _ _).1, (modify_inst _ _ _).1] at hi2
      obtain ⟨q2, j2, h, h2⟩ := f3 q' v hq' hv hi2
      refine .inr ⟨q2, j2, ?_, h2⟩
      rcases h with h | rfl | ⟨h, h'⟩
      · exact .inl h
      · exact .inr ⟨hq, hnot, made_inside l3 hme⟩
      · exact .inr ⟨h, fun v z hv hz => h'.1 v z hv (hkeep v z hz), h'.2⟩

theorem des_complete {E : Env D} {t s : Bool} {objs : List (Obj D)} {r : Ref} {S : Reg D} (hs : Setting E t s objs r S) (n0 : Nat)
    (honce : Once objs r) (hval : Valid E objs r) : ∀ k, Complete E t s objs r S n0 k (des E t s k)
  | 0, _, _, _, _, _, _, _, _, _, _, _, _, _, _, h, _ => absurd h (Nat.not_lt_zero _)
  | k + 1, c, q, u, o, reg, w, P, hq, ho, hu, hc, hp, hap, hfol, hk, hfree => by
    have ih := des_complete hs n0 honce hval k
    simp only [des, hfree]
    obtain ⟨v, h1, o', js, h2, h3, h4, h5⟩ := hs.flat q u (inside_reach hq) ⟨o, ho, hu⟩
    rw [ho] at h2; cases h2
    rcases hp.here q u (inside_reach hq) ⟨o, ho, hu⟩ with hg | ⟨y, o1, o1', hg, _⟩
    · rw [h1, h4] at hg
      rw [hg]
      exact build_complete hs (des_sound hs n0 k) (des_ends E t s k) ih honce hval hq ho hu hc hp hap hfol hk hg h5
    · rw [hg]
      refine ⟨y, reg, _, rfl, Nat.le_refl _, fun q' v hq' hv hi => ?_⟩
      by_cases hvu : v = u
      · subst hvu
        exact .inl (hs.graph.distinct q' q v (inside_reach hq') (inside_reach hq) hv ⟨o, ho, hu⟩)
      · have hi2 : (get (put w.inst u y) v).isSome = true := hi
        rw [get_put_ne _ _ hvu] at hi2
        obtain ⟨q2, j2, a, b⟩ := hfol.inst q' v hq' hv hi2
        exact .inr ⟨q2, j2, .inl a, b⟩

/-- C45: the flat form of a graph in which every instance is referred to at most once
(trees, and rings through the root) deserializes to a copy, where no identifier is in
use and every value is valid. -/
theorem C45_round_trip (E : Env D) (t s : Bool) (objs : List (Obj D)) (r : Ref) (hg : Graph objs r) (hcl : Classes E t s objs r)
    (honce : Once objs r) (hval : Valid E objs r)
    (k : Nat) (hk : objs.length < k) (S : Reg D) (hS : serialize E objs k r = .ok S)
    (c : Cls) (hc : ∀ o, objs[r]? = some o → outClass E c (some (E.name o.cls)) t s = .ok o.cls)
    (n : Nat) (hn : S.length < n) (w : World D) (hap : ∀ q v, Inside objs r q → Has objs q v → Unguessed E w v)
    (hfree : ∀ q v, Inside objs r q → Has objs q v → get w.inst v = none) :
    ∃ x w' φ, deserialize E t s n c none S w = (.ok x, w') ∧ φ r = x ∧ Iso objs r w w' φ := by
  obtain ⟨S', hS', _, ⟨u, hu, hroot⟩, hflat, _⟩ := C44_flat E objs r hg k hk
  rw [hS] at hS'; cases hS'
  have hs : Setting E t s objs r S := ⟨hg, hflat, hcl⟩
  obtain ⟨o, ho, hou⟩ := hu
  obtain ⟨x, reg', w', he, _⟩ := des_complete hs w.objs.length honce hval n c r u o S w (fun _ _ => False) .refl ho hou (hc o ho)
    (setting_start hs w) hap ⟨(fun q v hq hv hi => by rw [hfree q v hq hv] at hi; cases hi), nofun⟩
    (Nat.lt_of_le_of_lt (rawCount_le S) hn) (hfree r u .refl ⟨o, ho, hou⟩)
  have hd : deserialize E t s n c none S w = (.ok x, w') := by
    unfold deserialize
    rw [hroot]
    simp only [he]
  obtain ⟨φ, h1, h2⟩ := C45_isomorphic E t s objs r hg hcl k hk S hS c hc n w w' x hd
  exact ⟨x, w', φ, hd, h1, h2⟩

/-! ## Concrete cases -/

/-- The graph of C44, a ring with a pointer, meets the hypotheses. -/
theorem C45_example : ∃ S x w' φ, serialize demoEnv demoObjs 5 0 = .ok S ∧ deserialize demoEnv false false 9 0 none S {} = (.ok x, w') ∧
    φ 0 = x ∧ Iso demoObjs 0 {} w' φ := by
  have hcls : ∀ c : Cls, outClass demoEnv c (some (s% "A")) false false = .ok c := fun c => by
    simp [outClass, demoEnv]
  have hzero : ∀ (q : Nat) (o : Obj Nat), demoObjs[q]? = some o → o.cls = 0 ∧ ∀ c q', .ref false c q' ∈ o.slots → c = 0 := by
    intro q o h
    have hm := List.mem_of_getElem? h
    simp only [demoObjs, List.mem_cons, List.not_mem_nil, or_false] at hm
    rcases hm with rfl | rfl | rfl | rfl <;> refine ⟨rfl, fun c q' hm => ?_⟩ <;> simp at hm
    · rcases hm with ⟨h, _⟩ | ⟨h, _⟩ <;> exact h
    · exact hm.1
  have hat : ∀ q j q', At demoObjs q j q' → (q = 0 ∧ j = 1 ∧ q' = 1) ∨ (q = 0 ∧ j = 2 ∧ q' = 2) ∨ (q = 1 ∧ j = 0 ∧ q' = 0) := by
    rintro q j q' ⟨o, c, ho, hj⟩
    match q, ho with
    | 0, ho =>
      cases Option.some.inj ho
      match j, hj with
      | 0, hj => cases hj
      | 1, hj => cases hj; simp
      | 2, hj => cases hj; simp
      | 3, hj => cases hj
      | j + 4, hj => cases hj
    | 1, ho =>
      cases Option.some.inj ho
      match j, hj with
      | 0, hj => cases hj; simp
      | 1, hj => cases hj
      | j + 2, hj => cases hj
    | 2, ho => cases Option.some.inj ho; cases hj
    | 3, ho => cases Option.some.inj ho; cases hj
    | q + 4, ho => cases ho
  obtain ⟨S, hS, hlen⟩ : ∃ S, serialize demoEnv demoObjs 5 0 = .ok S ∧ S.length < 9 := ⟨_, C44_example, by decide⟩
  obtain ⟨x, w', φ, h1, h2, h3⟩ := C45_round_trip demoEnv false false demoObjs 0 C44_example_graph
    (fun q q' c o o' _ h hm h' => by
      rw [(hzero q' o' h').1, (hzero q o h).2 c q' hm]; exact hcls 0)
    (fun q1 j1 q2 j2 q' _ _ h h' => by
      rcases hat _ _ _ h with ⟨rfl, rfl, rfl⟩ | ⟨rfl, rfl, rfl⟩ | ⟨rfl, rfl, rfl⟩ <;>
        rcases hat _ _ _ h' with ⟨rfl, rfl, h⟩ | ⟨rfl, rfl, h⟩ | ⟨rfl, rfl, h⟩ <;> first | exact ⟨rfl, rfl⟩ | exact absurd h (by decide))
    (fun _ _ _ _ => rfl) 5 (by decide) S hS 0 (fun o ho => by rw [(hzero 0 o ho).1]; exact hcls 0) 9 hlen {}
    (fun q v _ hv m _ => by
      obtain ⟨o, ho, hu⟩ := hv
      have hm := List.mem_of_getElem? ho
      simp only [demoObjs, List.mem_cons, List.not_mem_nil, or_false] at hm
      rcases hm with rfl | rfl | rfl | rfl <;> cases hu <;> exact uuid_ne m _ (by decide))
    (fun _ _ _ _ => rfl)
  exact ⟨S, x, w', φ, hS, h1, h2, h3⟩

/-- Finding: two instances that share a third are serialized, but the flat form does
not deserialize. -/
theorem C45_diamond :
    serialize demoEnv [{ cls := 0, uid := some (s% "a"), slots := [.ref false 0 1, .ref false 0 2] },
      { cls := 0, uid := some (s% "b"), slots := [.ref false 0 3] }, { cls := 0, uid := some (s% "c"), slots := [.ref false 0 3] },
      { cls := 0, uid := some (s% "d") }] 5 0 = .ok
     [(rootKey, .text (s% "a")), (s% "a", .raw ⟨some (s% "A"), some (s% "a"), [.uid false 0 (s% "b"), .uid false 0 (s% "c")]⟩),
       (s% "b", .raw ⟨some (s% "A"), some (s% "b"), [.uid false 0 (s% "d")]⟩), (s% "d", .raw ⟨some (s% "A"), some (s% "d"), []⟩),
       (s% "c", .raw ⟨some (s% "A"), some (s% "c"), [.uid false 0 (s% "d")]⟩)] ∧
    (deserialize demoEnv false false 9 0 none
     [(rootKey, .text (s% "a")), (s% "a", .raw ⟨some (s% "A"), some (s% "a"), [.uid false 0 (s% "b"), .uid false 0 (s% "c")]⟩),
       (s% "b", .raw ⟨some (s% "A"), some (s% "b"), [.uid false 0 (s% "d")]⟩), (s% "d", .raw ⟨some (s% "A"), some (s% "d"), []⟩),
       (s% "c", .raw ⟨some (s% "A"), some (s% "c"), [.uid false 0 (s% "d")]⟩)] {}).1 = .error .value :=
  ⟨by with_unfolding_all rfl, by with_unfolding_all rfl⟩

/-! ## Class names -/

/-- Instances from `n` on have classes in `K`. -/
def Only (K : Cls → Prop) (n : Nat) (w : World D) : Prop := ∀ (i : Nat) (o : Obj D), n ≤ i → w.objs[i]? = some o → K o.cls

/-- So have the references of a flat dictionary. -/
def RefsIn (K : Cls → Prop) (reg : Reg D) : Prop :=
  ∀ (u : Uid) (e : Entry D), get reg u = some (.raw e) → ∀ p c v, .uid p c v ∈ e.slots → K c

/-- What is shown of the deserializer of references. -/
def Chooses (K : Cls → Prop) (n : Nat) (f : Cls → Uid → Reg D → World D → Except Err (Ref × Reg D) × World D) : Prop :=
  ∀ (c : Cls) (u : Uid) (reg : Reg D) (w : World D), K c → RefsIn K reg → Only K n w →
    Only K n (f c u reg w).2 ∧ ∀ r reg' w', f c u reg w = (.ok (r, reg'), w') → RefsIn K reg'

theorem desSlots_chooses {K : Cls → Prop} {n : Nat} {f : Cls → Uid → Reg D → World D → Except Err (Ref × Reg D) × World D}
    (hf : Chooses K n f) : ∀ (l : List (JSlot D)) (reg : Reg D) (w : World D), (∀ p c v, .uid p c v ∈ l → K c) →
    RefsIn K reg → Only K n w → Only K n (desSlots f l reg w).2 ∧
      ∀ ss reg' w', desSlots f l reg w = (.ok (ss, reg'), w') → RefsIn K reg'
  | [], reg, w, _, hr, hw => ⟨hw, fun _ _ _ h => by cases h; exact hr⟩
  | .data d :: l, reg, w, hl, hr, hw => by
      have ih := desSlots_chooses hf l reg w (fun p c v hm => hl p c v (List.mem_cons_of_mem _ hm)) hr hw
      unfold desSlots
      rcases h : desSlots f l reg w with ⟨(e | ⟨ss, reg'⟩), w'⟩
      · rw [h] at ih
        exact ⟨ih.1, fun _ _ _ h => by cases h⟩
      · rw [h] at ih
        exact ⟨ih.1, fun _ _ _ h => by cases h; exact ih.2 _ _ _ rfl⟩
  | .uid true c u :: l, reg, w, hl, hr, hw => by
      have ih := desSlots_chooses hf l reg w (fun p c v hm => hl p c v (List.mem_cons_of_mem _ hm)) hr hw
      unfold desSlots
      rcases h : desSlots f l reg w with ⟨(e | ⟨ss, reg'⟩), w'⟩
      · rw [h] at ih
        exact ⟨ih.1, fun _ _ _ h => by cases h⟩
      · rw [h] at ih
        exact ⟨ih.1, fun _ _ _ h => by cases h; exact ih.2 _ _ _ rfl⟩
  | .uid false c u :: l, reg, w, hl, hr, hw => by
      have h0 := hf c u reg w (hl false c u List.mem_cons_self) hr hw
      unfold desSlots
      rcases h1 : f c u reg w with ⟨(e | ⟨r, reg1⟩), w1⟩
      · rw [h1] at h0
        exact ⟨h0.1, fun _ _ _ h => by cases h⟩
      · rw [h1] at h0
        have ih := desSlots_chooses hf l reg1 w1 (fun p c v hm => hl p c v (List.mem_cons_of_mem _ hm)) (h0.2 _ _ _ rfl) h0.1
        dsimp only
        rcases h : desSlots f l reg1 w1 with ⟨(e | ⟨ss, reg'⟩), w'⟩
        · rw [h] at ih
          exact ⟨ih.1, fun _ _ _ h => by cases h⟩
        · rw [h] at ih
          exact ⟨ih.1, fun _ _ _ h => by cases h; exact ih.2 _ _ _ rfl⟩

theorem only_modify {K : Cls → Prop} {n : Nat} {w : World D} (h : Only K n w) (r : Ref) (g : Obj D → Obj D)
    (hg : ∀ o, (g o).cls = o.cls) : Only K n (modify r g w) := by
  intro i o hi ho
  unfold modify at ho
  cases hr : w.objs[r]? with
  | none => rw [hr] at ho; exact h i o hi ho
  | some o1 =>
    rw [hr] at ho
    dsimp only at ho
    by_cases e : r = i
    · subst e
      rw [List.getElem?_set_self (List.getElem?_eq_some_iff.1 hr).1] at ho
      cases ho
      rw [hg]
      exact h r o1 hi hr
    · rw [List.getElem?_set_ne e] at ho
      exact h i o hi ho

theorem only_register {K : Cls → Prop} {n : Nat} {w : World D} (h : Only K n w) (u : Uid) (r : Ref) :
    Only K n (register u r w) := h

theorem only_finishInit {K : Cls → Prop} {n : Nat} {w : World D} (h : Only K n w) (r : Ref) : Only K n (finishInit r w) := by
  unfold finishInit
  split
  · exact h
  · split
    · exact h
    · exact h

theorem only_alloc {K : Cls → Prop} {n : Nat} {w : World D} (h : Only K n w) (E : Env D) {c : Cls} (hc : K c) :
    Only K n (alloc E c w).2 := by
  intro i o hi ho
  simp only [alloc] at ho
  by_cases hl : i < w.objs.length
  · rw [List.getElem?_append_left hl] at ho
    exact h i o hi ho
  · rw [List.getElem?_append_right (Nat.le_of_not_lt hl)] at ho
    cases hd : i - w.objs.length with
    | zero => rw [hd] at ho; simp at ho; subst ho; exact hc
    | succ m => rw [hd] at ho; simp at ho

theorem only_setFields {K : Cls → Prop} {n : Nat} {w : World D} (h : Only K n w) (E : Env D) (x : Ref) (u : Option Uid)
    (ss : List (Slot D)) : Only K n (setFields E x u ss w).2 := by
  have h1 : Only K n (setOwn x u w) := by
    unfold setOwn
    split
    · exact h
    · exact only_modify h _ _ fun _ => rfl
  unfold setFields
  dsimp only
  split
  · exact only_modify h1 _ _ fun _ => rfl
  · exact h1

theorem outClass_untrusted {E : Env D} {c c' : Cls} {m : Option PyStr} {s : Bool}
    (h : outClass E c m false s = .ok c') : c' = c := by
  unfold outClass at h
  split at h
  · cases h; rfl
  · split at h
    · cases h; rfl
    · simp only [Bool.false_eq_true, if_false] at h
      cases s <;> cases h
      rfl

theorem build_chooses {E : Env D} {s : Bool} {K : Cls → Prop} {n : Nat}
    {f : Cls → Uid → Reg D → World D → Except Err (Ref × Reg D) × World D} (hf : Chooses K n f) (c : Cls) (u : Uid)
    (e : Option (Entry D)) (reg : Reg D) (w : World D) (hc : K c)
    (he : ∀ e', e = some e' → ∀ p c v, .uid p c v ∈ e'.slots → K c) (hr : RefsIn K reg) (hw : Only K n w) :
    Only K n (build E false s f c u e reg w).2 ∧
      ∀ r reg' w', build E false s f c u e reg w = (.ok (r, reg'), w') → RefsIn K reg' := by
  unfold build
  cases ho : outClass E c (e.bind (·.cls)) false s with
  | error err => exact ⟨hw, fun _ _ _ h => by cases h⟩
  | ok c' =>
    have := outClass_untrusted ho
    subst this
    have h1 := only_finishInit (only_alloc hw E hc) (alloc E c' w).1
    cases e with
    | none => exact ⟨h1, fun _ _ _ h => by cases h⟩
    | some e =>
      have h2 := desSlots_chooses hf e.slots (put reg u (.inst (alloc E c' w).1)) _ (he e rfl) (by
        intro v e' hg
        by_cases huv : u = v
        · subst huv
          rw [get_put_self] at hg
          cases hg
        · rw [get_put_ne _ _ (Ne.symm huv)] at hg
          exact hr v e' hg) h1
      dsimp only
      rcases h3 : desSlots f e.slots (put reg u (.inst (alloc E c' w).1)) (finishInit (alloc E c' w).1 (alloc E c' w).2)
        with ⟨(err | ⟨ss, reg1⟩), w1⟩
      · rw [h3] at h2
        exact ⟨h2.1, fun _ _ _ h => by cases h⟩
      · rw [h3] at h2
        have h4 := only_setFields h2.1 E (alloc E c' w).1 e.uid ss
        dsimp only at h4 ⊢
        rcases h5 : setFields E (alloc E c' w).1 e.uid ss w1 with ⟨(err | x), w2⟩
        · rw [h5] at h4
          exact ⟨h4, fun _ _ _ h => by cases h⟩
        · rw [h5] at h4
          exact ⟨only_modify h4 _ _ fun _ => rfl, fun _ _ _ h => by cases h; exact h2.2 _ _ _ rfl⟩

theorem des_chooses (E : Env D) (s : Bool) (K : Cls → Prop) (n : Nat) : ∀ k, Chooses K n (des E false s k)
  | 0 => fun _ _ _ _ _ _ hw => ⟨hw, fun _ _ _ h => by cases h⟩
  | k + 1 => fun c u reg w hc hr hw => by
      have ih := des_chooses E s K n k
      unfold des
      split
      · exact ⟨hw, fun _ _ _ h => by cases h; exact hr⟩
      · exact ⟨hw, fun _ _ _ h => by cases h⟩
      · exact ⟨hw, fun _ _ _ h => by cases h⟩
      · exact ⟨hw, fun _ _ _ h => by cases h; exact hr⟩
      · rename_i e hi hg
        exact build_chooses ih c u _ reg w hc (fun e' he => by cases he; exact hr u e hg) hr hw
      · exact build_chooses ih c u none reg w hc (fun e' he => by cases he) hr hw

/-- C45: without `trusted`, class names in a flat dictionary choose nothing: whatever the
dictionary and the class registry, and whether the call returns or not, every instance it makes is of the
class the call is made on or of a class that a property declares for the reference. -/
theorem C45_untrusted (E : Env D) (s : Bool) (k : Nat) (c : Cls) (root : Option Uid) (reg : Reg D) (w : World D)
    (i : Nat) (o : Obj D) (hi : w.objs.length ≤ i) (ho : (deserialize E false s k c root reg w).2.objs[i]? = some o) :
    o.cls = c ∨ Mentions reg o.cls := by
  have key : ∀ u, Only (fun c' => c' = c ∨ Mentions reg c') w.objs.length (des E false s k c u reg w).2 := fun u =>
    (des_chooses E s (fun c' => c' = c ∨ Mentions reg c') w.objs.length k c u reg w (.inl rfl)
      (fun u e hg p c' v hm => .inr ⟨u, e, p, v, hg, hm⟩)
      (fun j o hj hjo => absurd (List.getElem?_eq_some_iff.1 hjo).1 (Nat.not_lt.2 hj))).1
  have base : Only (fun c' => c' = c ∨ Mentions reg c') w.objs.length w := fun j o hj hjo =>
    absurd (List.getElem?_eq_some_iff.1 hjo).1 (Nat.not_lt.2 hj)
  unfold deserialize at ho
  split at ho
  · rename_i u
    have := key u
    rcases hd : des E false s k c u reg w with ⟨(e | ⟨x, r⟩), w'⟩ <;> rw [hd] at this ho <;> exact this i o hi ho
  · rename_i u _
    have := key u
    rcases hd : des E false s k c u reg w with ⟨(e | ⟨x, r⟩), w'⟩ <;> rw [hd] at this ho <;> exact this i o hi ho
  · exact base i o hi ho

/-- C45: with `trusted` they do choose: here the entry names a class that no property mentions, and
without `trusted` the name is ignored (or, with `strict`, refused). -/
theorem C45_untrusted_example :
    let E : Env Nat := { demoEnv with byName := fun s => if s = s% "Evil" then some 9 else none }
    let reg : Reg Nat := [(rootKey, .text (s% "a")), (s% "a", .raw ⟨some (s% "Evil"), some (s% "a"), [.data 7]⟩)]
    ((deserialize E false false 9 0 none reg {}).2.objs.map (·.cls)) = [0] ∧
    ((deserialize E true false 9 0 none reg {}).2.objs.map (·.cls)) = [9] ∧
    (deserialize E false true 9 0 none reg {}).2.objs.length = 0 := by
  exact ⟨by decide, by decide, by decide⟩

/-! ## Validity of what is made -/

/-- Instances keep their classes and stay finished. -/
structure Ext (w w' : World D) : Prop where
  len : w.objs.length ≤ w'.objs.length
  at_ : ∀ (i : Nat) (o : Obj D), w.objs[i]? = some o → ∃ o', w'.objs[i]? = some o' ∧ o'.cls = o.cls ∧
    (o.live = true → o'.live = true)

theorem Ext.refl (w : World D) : Ext w w := ⟨Nat.le_refl _, fun _ o h => ⟨o, h, rfl, id⟩⟩

theorem Ext.trans {a b c : World D} (h : Ext a b) (g : Ext b c) : Ext a c :=
  ⟨Nat.le_trans h.len g.len, fun i o ho => by
    obtain ⟨o1, h1, c1, l1⟩ := h.at_ i o ho
    obtain ⟨o2, h2, c2, l2⟩ := g.at_ i o1 h1
    exact ⟨o2, h2, c2.trans c1, fun l => l2 (l1 l)⟩⟩

theorem Ext.clsOf {w w' : World D} (h : Ext w w') {r : Ref} (hr : r < w.objs.length) : clsOf w' r = clsOf w r := by
  have ho := List.getElem?_eq_getElem hr
  obtain ⟨o', h1, h2, _⟩ := h.at_ r _ ho
  simp [Uid.clsOf, ho, h1, h2]

/-- The references are to instances that exist. -/
def Exist (n : Nat) (ss : List (Slot D)) : Prop := ∀ p c r, .ref p c r ∈ ss → r < n

theorem Ext.shapes {w w' : World D} (h : Ext w w') {ss : List (Slot D)} (hs : Exist w.objs.length ss) :
    ss.map (shape w') = ss.map (shape w) := by
  refine List.map_congr_left fun s hm => ?_
  cases s with
  | data d => rfl
  | ptr c u => rfl
  | ref p c r => simp [shape, h.clsOf (hs p c r hm)]

/-- Finished instances from `n` on are valid; identifiers in use and replaced entries are those of instances. -/
structure Fitting (E : Env D) (n : Nat) (w : World D) : Prop where
  inst : ∀ (u : Uid) (x : Ref), get w.inst u = some x → x < w.objs.length
  valid : ∀ (i : Nat) (o : Obj D), n ≤ i → w.objs[i]? = some o → o.live = true →
    Exist w.objs.length o.slots ∧ E.accept o.cls (o.slots.map (shape w)) = true

def RegFit (w : World D) (reg : Reg D) : Prop := ∀ (u : Uid) (x : Ref), get reg u = some (.inst x) → x < w.objs.length

theorem RegFit.ext {w w' : World D} {reg : Reg D} (h : RegFit w reg) (e : Ext w w') : RegFit w' reg :=
  fun u x hx => Nat.lt_of_lt_of_le (h u x hx) e.len

theorem Fitting.register {E : Env D} {n : Nat} {w : World D} (h : Fitting E n w) {u : Uid} {x : Ref} (hx : x < w.objs.length) :
    Fitting E n (register u x w) := by
  refine ⟨fun v y hy => ?_, h.valid⟩
  by_cases e : v = u
  · subst e
    simp only [Uid.register] at hy
    rw [get_put_self] at hy
    cases hy
    exact hx
  · simp only [Uid.register] at hy
    rw [get_put_ne _ _ e] at hy
    exact h.inst v y hy

theorem ext_register (w : World D) (u : Uid) (x : Ref) : Ext w (register u x w) :=
  ⟨Nat.le_refl _, fun _ o h => ⟨o, h, rfl, id⟩⟩

theorem modify_objs_eq {w : World D} {r : Ref} {o : Obj D} (ho : w.objs[r]? = some o) (g : Obj D → Obj D) :
    (modify r g w).objs = w.objs.set r (g o) := by
  simp [modify, ho]

theorem ext_modify (w : World D) (r : Ref) (g : Obj D → Obj D) (hg : ∀ o, (g o).cls = o.cls)
    (hl : ∀ o, o.live = true → (g o).live = true) : Ext w (modify r g w) := by
  cases hr : w.objs[r]? with
  | none => simp only [modify, hr]; exact .refl w
  | some o =>
    refine ⟨by rw [modify_objs_eq hr]; simp, fun i o' ho' => ?_⟩
    rw [modify_objs_eq hr]
    by_cases e : r = i
    · subst e
      rw [hr] at ho'
      cases ho'
      exact ⟨g o, by rw [List.getElem?_set_self (List.getElem?_eq_some_iff.1 hr).1], hg o, hl o⟩
    · exact ⟨o', by rw [List.getElem?_set_ne e]; exact ho', rfl, id⟩

theorem modify_length (w : World D) (r : Ref) (g : Obj D → Obj D) : (modify r g w).objs.length = w.objs.length := by
  cases hr : w.objs[r]? with
  | none => simp only [modify, hr]
  | some o => rw [modify_objs_eq hr]; simp

theorem modify_inst_eq (w : World D) (r : Ref) (g : Obj D → Obj D) : (modify r g w).inst = w.inst := by
  cases hr : w.objs[r]? <;> simp only [modify, hr]

/-- A change of one instance, which is valid afterwards if it is finished. -/
theorem Fitting.modify {E : Env D} {n : Nat} {w : World D} (h : Fitting E n w) (r : Ref) (g : Obj D → Obj D)
    (hg : ∀ o, (g o).cls = o.cls) (hl : ∀ o, o.live = true → (g o).live = true)
    (hv : ∀ o, w.objs[r]? = some o → n ≤ r → (g o).live = true → Exist w.objs.length (g o).slots ∧
      E.accept o.cls ((g o).slots.map (shape w)) = true) : Fitting E n (modify r g w) := by
  have he := ext_modify w r g hg hl
  refine ⟨fun u x hx => ?_, fun i o hi ho hlv => ?_⟩
  · rw [modify_inst_eq] at hx
    rw [modify_length]
    exact h.inst u x hx
  · cases hr : w.objs[r]? with
    | none =>
      simp only [Uid.modify, hr] at ho ⊢
      exact h.valid i o hi ho hlv
    | some o1 =>
      rw [modify_length]
      rw [modify_objs_eq hr] at ho
      by_cases e : r = i
      · subst e
        rw [List.getElem?_set_self (List.getElem?_eq_some_iff.1 hr).1] at ho
        cases ho
        have := hv o1 hr hi hlv
        rw [he.shapes this.1, hg]
        exact this
      · rw [List.getElem?_set_ne e] at ho
        have := h.valid i o hi ho hlv
        rw [he.shapes this.1]
        exact this

theorem ext_alloc (E : Env D) (c : Cls) (w : World D) : Ext w (alloc E c w).2 := by
  refine ⟨by simp [alloc], fun i o ho => ⟨o, ?_, rfl, id⟩⟩
  simp only [alloc]
  rw [List.getElem?_append_left (List.getElem?_eq_some_iff.1 ho).1]
  exact ho

theorem Fitting.alloc {E : Env D} {n : Nat} {w : World D} (h : Fitting E n w) (c : Cls) : Fitting E n (alloc E c w).2 := by
  refine ⟨fun u x hx => Nat.lt_of_lt_of_le (h.inst u x hx) (ext_alloc E c w).len, fun i o hi ho hlv => ?_⟩
  by_cases hl : i < w.objs.length
  · simp only [Uid.alloc] at ho
    rw [List.getElem?_append_left hl] at ho
    have := h.valid i o hi ho hlv
    rw [(ext_alloc E c w).shapes this.1]
    exact ⟨fun p c' r hm => Nat.lt_of_lt_of_le (this.1 p c' r hm) (ext_alloc E c w).len, this.2⟩
  · simp only [Uid.alloc] at ho
    rw [List.getElem?_append_right (Nat.le_of_not_lt hl)] at ho
    cases hd : i - w.objs.length with
    | zero => rw [hd] at ho; simp at ho; subst ho; cases hlv
    | succ m => rw [hd] at ho; simp at ho

theorem Fitting.finishInit {E : Env D} {n : Nat} {w : World D} (h : Fitting E n w) (r : Ref) : Fitting E n (finishInit r w) := by
  unfold Uid.finishInit
  cases hr : w.objs[r]? with
  | none => exact h
  | some o =>
    dsimp only
    cases o.uid with
    | none => exact ⟨h.inst, h.valid⟩
    | some u => exact h.register (List.getElem?_eq_some_iff.1 hr).1

theorem finishInit_objs_eq (r : Ref) (w : World D) : (finishInit r w).objs = w.objs := by
  unfold finishInit
  cases hr : w.objs[r]? with
  | none => rfl
  | some o => dsimp only; cases o.uid <;> rfl

theorem ext_finishInit (r : Ref) (w : World D) : Ext w (finishInit r w) := by
  unfold finishInit
  cases hr : w.objs[r]? with
  | none => exact .refl w
  | some o =>
    dsimp only
    cases o.uid with
    | none => exact ⟨Nat.le_refl _, fun _ o h => ⟨o, h, rfl, id⟩⟩
    | some u => exact ext_register w u r

/-- All instances from `w` to `w'` are finished. -/
def Finished (m : Nat) (w' : World D) : Prop := ∀ (i : Nat) (o : Obj D), m ≤ i → w'.objs[i]? = some o → o.live = true

/-- What is shown of the deserializer of references. -/
def MakesValid (E : Env D) (n : Nat) (f : Cls → Uid → Reg D → World D → Except Err (Ref × Reg D) × World D) : Prop :=
  ∀ (c : Cls) (u : Uid) (reg : Reg D) (w : World D), Fitting E n w → RegFit w reg →
    Ext w (f c u reg w).2 ∧ Fitting E n (f c u reg w).2 ∧
    ∀ r reg' w', f c u reg w = (.ok (r, reg'), w') → RegFit w' reg' ∧ r < w'.objs.length ∧ Finished w.objs.length w'

theorem Finished.ext {m : Nat} {a b : World D} (h : Finished m a) (e : Ext a b) (g : Finished a.objs.length b) : Finished m b := by
  intro i o hi ho
  by_cases hl : i < a.objs.length
  · obtain ⟨o', h1, _, h3⟩ := e.at_ i _ (List.getElem?_eq_getElem hl)
    rw [ho] at h1
    cases h1
    exact h3 (h i _ hi (List.getElem?_eq_getElem hl))
  · exact g i o (Nat.le_of_not_lt hl) ho

theorem finished_self (w : World D) : Finished w.objs.length w := fun _ _ hi ho =>
  absurd (List.getElem?_eq_some_iff.1 ho).1 (Nat.not_lt.2 hi)

theorem desSlots_valid {E : Env D} {n : Nat} {f : Cls → Uid → Reg D → World D → Except Err (Ref × Reg D) × World D}
    (hf : MakesValid E n f) : ∀ (l : List (JSlot D)) (reg : Reg D) (w : World D), Fitting E n w → RegFit w reg →
    Ext w (desSlots f l reg w).2 ∧ Fitting E n (desSlots f l reg w).2 ∧
      ∀ ss reg' w', desSlots f l reg w = (.ok (ss, reg'), w') →
        RegFit w' reg' ∧ Exist w'.objs.length ss ∧ Finished w.objs.length w'
  | [], reg, w, hw, hr => ⟨.refl w, hw, fun _ _ _ h => by
      cases h
      exact ⟨hr, fun _ _ _ hm => (List.not_mem_nil hm).elim, finished_self w⟩⟩
  | .data d :: l, reg, w, hw, hr => by
      have ih := desSlots_valid hf l reg w hw hr
      unfold desSlots
      rcases h : desSlots f l reg w with ⟨(e | ⟨ss, reg'⟩), w'⟩
      · rw [h] at ih
        exact ⟨ih.1, ih.2.1, fun _ _ _ h => by cases h⟩
      · rw [h] at ih
        refine ⟨ih.1, ih.2.1, fun _ _ _ h => ?_⟩
        cases h
        obtain ⟨a, b, c⟩ := ih.2.2 _ _ _ rfl
        refine ⟨a, fun p c r hm => ?_, c⟩
        rcases List.mem_cons.1 hm with e | hm
        · cases e
        · exact b p c r hm
  | .uid true c u :: l, reg, w, hw, hr => by
      have ih := desSlots_valid hf l reg w hw hr
      unfold desSlots
      rcases h : desSlots f l reg w with ⟨(e | ⟨ss, reg'⟩), w'⟩
      · rw [h] at ih
        exact ⟨ih.1, ih.2.1, fun _ _ _ h => by cases h⟩
      · rw [h] at ih
        refine ⟨ih.1, ih.2.1, fun _ _ _ h => ?_⟩
        cases h
        obtain ⟨a, b, c⟩ := ih.2.2 _ _ _ rfl
        refine ⟨a, fun p c r hm => ?_, c⟩
        rcases List.mem_cons.1 hm with e | hm
        · cases e
        · exact b p c r hm
  | .uid false c u :: l, reg, w, hw, hr => by
      have h0 := hf c u reg w hw hr
      unfold desSlots
      rcases h1 : f c u reg w with ⟨(e | ⟨r, reg1⟩), w1⟩
      · rw [h1] at h0
        exact ⟨h0.1, h0.2.1, fun _ _ _ h => by cases h⟩
      · rw [h1] at h0
        obtain ⟨a0, b0, c0⟩ := h0
        obtain ⟨g1, g2, g3⟩ := c0 _ _ _ rfl
        have ih := desSlots_valid hf l reg1 w1 b0 g1
        dsimp only at a0 ⊢
        rcases h : desSlots f l reg1 w1 with ⟨(e | ⟨ss, reg'⟩), w'⟩
        · rw [h] at ih
          exact ⟨a0.trans ih.1, ih.2.1, fun _ _ _ h => by cases h⟩
        · rw [h] at ih
          refine ⟨a0.trans ih.1, ih.2.1, fun _ _ _ h => ?_⟩
          cases h
          obtain ⟨a, b, c⟩ := ih.2.2 _ _ _ rfl
          refine ⟨a, fun p c r hm => ?_, g3.ext ih.1 c⟩
          rcases List.mem_cons.1 hm with e | hm
          · cases e
            exact Nat.lt_of_lt_of_le g2 ih.1.len
          · exact b p c r hm

theorem build_valid {E : Env D} {t s : Bool} {n : Nat}
    {f : Cls → Uid → Reg D → World D → Except Err (Ref × Reg D) × World D} (hf : MakesValid E n f) (c : Cls) (u : Uid)
    (e : Option (Entry D)) (reg : Reg D) (w : World D) (hw : Fitting E n w) (hr : RegFit w reg) :
    Ext w (build E t s f c u e reg w).2 ∧ Fitting E n (build E t s f c u e reg w).2 ∧
    ∀ r reg' w', build E t s f c u e reg w = (.ok (r, reg'), w') →
      RegFit w' reg' ∧ r < w'.objs.length ∧ Finished w.objs.length w' := by
  unfold build
  cases ho : outClass E c (e.bind (·.cls)) t s with
  | error err => exact ⟨.refl w, hw, fun _ _ _ h => by cases h⟩
  | ok c' =>
    have h1 := (hw.alloc c').finishInit (alloc E c' w).1
    have e1 : Ext w (finishInit (alloc E c' w).1 (alloc E c' w).2) := (ext_alloc E c' w).trans (ext_finishInit _ _)
    have hx : (alloc E c' w).1 < (finishInit (alloc E c' w).1 (alloc E c' w).2).objs.length :=
      Nat.lt_of_lt_of_le (by simp [alloc]) (ext_finishInit (alloc E c' w).1 (alloc E c' w).2).len
    have hlen : (finishInit (alloc E c' w).1 (alloc E c' w).2).objs.length = w.objs.length + 1 := by
      rw [finishInit_objs_eq]
      simp [alloc]
    cases e with
    | none => exact ⟨e1, h1, fun _ _ _ h => by cases h⟩
    | some e =>
      have h2 := desSlots_valid hf e.slots (put reg u (.inst (alloc E c' w).1)) _ h1 (by
        intro v y hg
        by_cases huv : v = u
        · subst huv
          rw [get_put_self] at hg
          cases hg
          exact hx
        · rw [get_put_ne _ _ huv] at hg
          exact Nat.lt_of_lt_of_le (hr v y hg) e1.len)
      dsimp only
      rcases h3 : desSlots f e.slots (put reg u (.inst (alloc E c' w).1)) (finishInit (alloc E c' w).1 (alloc E c' w).2)
        with ⟨(err | ⟨ss, reg1⟩), w1⟩
      · rw [h3] at h2
        exact ⟨e1.trans h2.1, h2.2.1, fun _ _ _ h => by cases h⟩
      · rw [h3] at h2
        obtain ⟨a2, b2, c2⟩ := h2
        obtain ⟨g1, g2, g3⟩ := c2 _ _ _ rfl
        dsimp only at a2 b2 ⊢
        have hx1 : (alloc E c' w).1 < w1.objs.length := Nat.lt_of_lt_of_le hx a2.len
        generalize hxx : (alloc E c' w).1 = x at *
        have hxl : x = w.objs.length := by rw [← hxx]; rfl
        have e4 : Ext w1 (setOwn x e.uid w1) := by
          unfold setOwn
          split
          · exact .refl _
          · exact ext_modify _ _ _ (fun _ => rfl) (fun _ h => h)
        have f4 : Fitting E n (setOwn x e.uid w1) := by
          unfold setOwn
          split
          · exact b2
          · refine b2.modify _ _ (fun _ => rfl) (fun _ h => h) fun o ho hn hl => ?_
            exact b2.valid x o hn ho hl
        have l4 : (setOwn x e.uid w1).objs.length = w1.objs.length := by
          unfold setOwn
          split
          · rfl
          · exact modify_length _ _ _
        unfold setFields
        dsimp only
        by_cases hacc : E.accept (clsOf (setOwn x e.uid w1) x) (ss.map (shape (setOwn x e.uid w1))) = true
        · rw [if_pos hacc]
          dsimp only
          generalize setOwn x e.uid w1 = w4 at *
          have hss : Exist w4.objs.length ss := fun p c r hm => Nat.lt_of_lt_of_le (g2 p c r hm) e4.len
          have e5 : Ext w4 (modify x (fun o => { o with slots := ss }) w4) :=
            ext_modify _ _ _ (fun _ => rfl) (fun _ h => h)
          have f5 : Fitting E n (modify x (fun o => { o with slots := ss }) w4) := by
            refine f4.modify _ _ (fun _ => rfl) (fun _ h => h) fun o ho _ _ => ⟨hss, ?_⟩
            simpa [clsOf, ho] using hacc
          have hx4 : x < w4.objs.length := Nat.lt_of_lt_of_le hx1 e4.len
          have h5 : (modify x (fun o => { o with slots := ss }) w4).objs[x]? = some { w4.objs[x] with slots := ss } := by
            rw [modify_objs_eq (List.getElem?_eq_getElem hx4), List.getElem?_set_self hx4]
          have l5 : (modify x (fun o => { o with slots := ss }) w4).objs.length = w4.objs.length := modify_length _ _ _
          generalize modify x (fun o => { o with slots := ss }) w4 = w5 at *
          have e6 : Ext w5 (modify x (fun o => { o with live := true }) w5) :=
            ext_modify _ _ _ (fun _ => rfl) (fun _ _ => rfl)
          have f6 : Fitting E n (modify x (fun o => { o with live := true }) w5) := by
            refine f5.modify _ _ (fun _ => rfl) (fun _ _ => rfl) fun o ho _ _ => ?_
            rw [h5] at ho
            cases ho
            refine ⟨fun p c r hm => l5 ▸ hss p c r hm, ?_⟩
            dsimp only
            rw [e5.shapes hss]
            simpa [clsOf, List.getElem?_eq_getElem hx4] using hacc
          have l6 : (modify x (fun o => { o with live := true }) w5).objs.length = w5.objs.length := modify_length _ _ _
          have hx5 : x < w5.objs.length := l5 ▸ hx4
          have e56 := (e4.trans e5).trans e6
          refine ⟨((e1.trans a2).trans e56).trans (ext_register _ _ _), f6.register (l6 ▸ hx5), fun r reg' w' h => ?_⟩
          cases h
          refine ⟨(g1.ext e56).ext (ext_register _ _ _), l6 ▸ hx5, ?_⟩
          intro i o hi hoi
          have hoi : (modify x (fun o => { o with live := true }) w5).objs[i]? = some o := hoi
          by_cases hix : i = x
          · subst hix
            rw [modify_objs_eq h5, List.getElem?_set_self hx5] at hoi
            cases hoi
            rfl
          · have hi1 : (finishInit x (alloc E c' w).2).objs.length ≤ i := by
              rw [hlen, ← hxl]
              exact Nat.lt_of_le_of_ne (hxl ▸ hi) (Ne.symm hix)
            have hi1' : i < w1.objs.length := by
              have := (List.getElem?_eq_some_iff.1 hoi).1
              omega
            obtain ⟨o', k1, _, k3⟩ := e56.at_ i _ (List.getElem?_eq_getElem hi1')
            rw [hoi] at k1
            cases k1
            exact k3 (g3 i _ hi1 (List.getElem?_eq_getElem hi1'))
        · rw [if_neg hacc]
          exact ⟨(e1.trans a2).trans e4, f4, fun _ _ _ h => by cases h⟩

theorem des_valid (E : Env D) (t s : Bool) (n : Nat) : ∀ k, MakesValid E n (des E t s k)
  | 0 => fun _ _ _ w hw _ => ⟨.refl w, hw, fun _ _ _ h => by cases h⟩
  | k + 1 => fun c u reg w hw hr => by
      have ih := des_valid E t s n k
      unfold des
      split
      · rename_i x hx _
        exact ⟨.refl w, hw, fun _ _ _ h => by cases h; exact ⟨hr, hw.inst u x hx, finished_self w⟩⟩
      · exact ⟨.refl w, hw, fun _ _ _ h => by cases h⟩
      · exact ⟨.refl w, hw, fun _ _ _ h => by cases h⟩
      · rename_i x _ hx
        refine ⟨ext_register _ _ _, hw.register (hr u x hx), fun _ _ _ h => ?_⟩
        cases h
        exact ⟨hr, hr u x hx, finished_self w⟩
      · exact build_valid ih c u _ reg w hw hr
      · exact build_valid ih c u none reg w hw hr

/-- C45: whatever the flat dictionary and whatever class names it has, when deserialization returns, every instance that it
made has values that its class accepts. -/
theorem C45_valid (E : Env D) (t s : Bool) (k : Nat) (c : Cls) (root : Option Uid) (reg : Reg D) (w : World D)
    (hw : ∀ u x, get w.inst u = some x → x < w.objs.length) (hreg : ∀ u x, get reg u ≠ some (.inst x))
    (x : Ref) (w' : World D) (hret : deserialize E t s k c root reg w = (.ok x, w'))
    (i : Nat) (o : Obj D) (hi : w.objs.length ≤ i) (ho : w'.objs[i]? = some o) :
    E.accept o.cls (o.slots.map (shape w')) = true := by
  have base : Fitting E w.objs.length w := ⟨hw, fun j o hj hjo =>
    absurd (List.getElem?_eq_some_iff.1 hjo).1 (Nat.not_lt.2 hj)⟩
  have key : ∀ u r, des E t s k c u reg w = (.ok (x, r), w') → E.accept o.cls (o.slots.map (shape w')) = true := by
    intro u r h
    obtain ⟨_, b, d⟩ := des_valid E t s w.objs.length k c u reg w base (fun u x hx => absurd hx (hreg u x))
    rw [h] at b
    exact (b.valid i o hi ho ((d _ _ _ h).2.2 i o hi ho)).2
  unfold deserialize at hret
  split at hret
  · rename_i u
    rcases hd : des E t s k c u reg w with ⟨(e | ⟨x, r⟩), w'⟩ <;> rw [hd] at hret <;> cases hret
    exact key u r hd
  · rename_i u _
    rcases hd : des E t s k c u reg w with ⟨(e | ⟨x, r⟩), w'⟩ <;> rw [hd] at hret <;> cases hret
    exact key u r hd
  · cases hret

/-- C45: an entry with a value that the class refuses raises ValidationError; one it accepts does not. -/
theorem C45_valid_example :
    let E : Env Nat := { demoEnv with accept := fun _ l => l.all fun s => match s with | .data d => d < 5 | _ => true }
    let reg : Nat → Reg Nat := fun d => [(rootKey, .text (s% "a")), (s% "a", .raw ⟨none, some (s% "a"), [.data d]⟩)]
    (deserialize E false false 9 0 none (reg 7) {}).1 = .error .validation ∧
    (deserialize E false false 9 0 none (reg 3) {}).1 = .ok 0 := by
  exact ⟨by rfl, by rfl⟩

end Verif.Uid
