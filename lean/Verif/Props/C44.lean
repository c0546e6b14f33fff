import Verif.Props.C43

/-!
# C44: the flat form of a graph
-/

namespace Verif.Uid

open Spec

variable {D : Type}

/-- The entry of an instance. -/
def IsEntry (E : Env D) (objs : List (Obj D)) (q : Ref) (u : Uid) (v : RVal D) : Prop :=
  ∃ o js, objs[q]? = some o ∧ o.uid = some u ∧ v = .raw ⟨some (E.name o.cls), some u, js⟩ ∧ Flats objs o.slots js

/-- An instance whose key is not in the dictionary yet. -/
def isOut (reg : Reg D) (o : Obj D) : Bool := match o.uid with
  | none => true
  | some u => !(get reg u).isSome

/-- How many there are. -/
def missing (reg : Reg D) : List (Obj D) → Nat
  | [] => 0
  | o :: l => (if isOut reg o then 1 else 0) + missing reg l

theorem isOut_mono {reg reg' : Reg D} (h : ∀ u, (get reg u).isSome = true → (get reg' u).isSome = true) (o : Obj D)
    (ho : isOut reg' o = true) : isOut reg o = true := by
  unfold isOut at *
  split
  · rfl
  · rename_i u hu
    rw [hu] at ho
    simp only at ho
    cases hg : (get reg u).isSome with
    | false => rfl
    | true => rw [h u hg] at ho; cases ho

theorem missing_mono {reg reg' : Reg D} (h : ∀ u, (get reg u).isSome = true → (get reg' u).isSome = true) (objs : List (Obj D)) :
    missing reg' objs ≤ missing reg objs := by
  induction objs with
  | nil => exact Nat.le_refl _
  | cons o l ih =>
    simp only [missing]
    have := isOut_mono h o
    by_cases h1 : isOut reg' o = true
    · rw [if_pos h1, if_pos (this h1)]; omega
    · rw [if_neg h1]; omega

theorem missing_lt {reg reg' : Reg D} (h : ∀ u, (get reg u).isSome = true → (get reg' u).isSome = true) {objs : List (Obj D)}
    {r : Ref} {o : Obj D} {u : Uid} (ho : objs[r]? = some o) (hu : o.uid = some u) (h1 : get reg u = none)
    (h2 : (get reg' u).isSome = true) : missing reg' objs < missing reg objs := by
  induction objs generalizing r with
  | nil => simp at ho
  | cons a l ih =>
    have hm := missing_mono h l
    simp only [missing]
    cases r with
    | zero =>
      have : a = o := by simpa using ho
      subst this
      have h3 : isOut reg a = true := by unfold isOut; rw [hu]; simp only [h1]; rfl
      have h4 : isOut reg' a = false := by unfold isOut; rw [hu]; simp only [h2]; rfl
      rw [h3, h4]
      simp only [Bool.false_eq_true, if_false, if_true]
      omega
    | succ r =>
      have := ih (r := r) (by simpa using ho)
      have h5 := isOut_mono h a
      by_cases h6 : isOut reg' a = true
      · rw [if_pos h6, if_pos (h5 h6)]; omega
      · rw [if_neg h6]; omega

/-- The new keys are those of reachable instances, each with its entry, and the keys
of what they refer to. -/
structure Grows (E : Env D) (objs : List (Obj D)) (r : Ref) (reg reg' : Reg D) : Prop where
  old : ∀ u v, get reg u = some v → get reg' u = some v
  new : ∀ u v, get reg u = none → get reg' u = some v → ∃ q, Reach objs r q ∧ IsEntry E objs q u v ∧
    ∀ p q' u', Edge objs p q q' → Has objs q' u' → (get reg' u').isSome = true

theorem Grows.refl (E : Env D) (objs : List (Obj D)) (r : Ref) (reg : Reg D) : Grows E objs r reg reg :=
  ⟨fun _ _ h => h, fun u v h1 h2 => by rw [h1] at h2; cases h2⟩

theorem Grows.isSome {E : Env D} {objs : List (Obj D)} {r : Ref} {reg reg' : Reg D} (h : Grows E objs r reg reg') (u : Uid)
    (hu : (get reg u).isSome = true) : (get reg' u).isSome = true := by
  obtain ⟨v, hv⟩ := Option.isSome_iff_exists.1 hu
  rw [h.old u v hv]; rfl

theorem reach_trans {objs : List (Obj D)} {a b c : Ref} (h : Reach objs a b) (g : Reach objs b c) : Reach objs a c := by
  induction g with
  | refl => exact h
  | step _ e ih => exact .step ih e

/-- Two parts of a serialization; the second starts at something reachable. -/
theorem Grows.trans {E : Env D} {objs : List (Obj D)} {r q : Ref} {a b c : Reg D} (h : Grows E objs r a b) (g : Grows E objs q b c)
    (hq : Reach objs r q) : Grows E objs r a c where
  old := fun u v hu => g.old u v (h.old u v hu)
  new := fun u v hn hs => by
    cases hb : get b u with
    | none =>
      obtain ⟨q', h1, h2, h3⟩ := g.new u v hb hs
      exact ⟨q', reach_trans hq h1, h2, h3⟩
    | some v' =>
      have := g.old u v' hb
      rw [hs] at this; cases this
      obtain ⟨q', h1, h2, h3⟩ := h.new u v hn hb
      exact ⟨q', h1, h2, fun p q'' u' he hh => g.isSome u' (h3 p q'' u' he hh)⟩

theorem serSlots_grows {E : Env D} {objs : List (Obj D)} {f : Ref → Reg D → Except Err (Uid × Reg D)} {r : Ref} {m : Nat} :
    ∀ (l : List (Slot D)) (reg : Reg D), missing reg objs ≤ m →
    (∀ p c q, .ref p c q ∈ l → Reach objs r q ∧ ∀ reg, missing reg objs ≤ m →
      ∃ u reg', f q reg = .ok (u, reg') ∧ Has objs q u ∧ Grows E objs q reg reg' ∧ (get reg' u).isSome = true) →
    ∃ js reg', serSlots f l reg = .ok (js, reg') ∧ Flats objs l js ∧ Grows E objs r reg reg' ∧
      ∀ p c q u, .ref p c q ∈ l → Has objs q u → (get reg' u).isSome = true
  | [], reg, _, _ => ⟨[], reg, rfl, .nil, .refl _ _ _ _, fun _ _ _ _ h => by cases h⟩
  | .data d :: l, reg, hm, hl => by
    obtain ⟨js, reg', h1, h2, h3, h4⟩ := serSlots_grows l reg hm (fun p c q h => hl p c q (List.mem_cons_of_mem _ h))
    refine ⟨.data d :: js, reg', by simp only [serSlots, h1], .cons (.data d) h2, h3, fun p c q u h => ?_⟩
    rcases List.mem_cons.1 h with h | h
    · cases h
    · exact h4 p c q u h
  | .ptr c0 u0 :: l, reg, hm, hl => by
    obtain ⟨js, reg', h1, h2, h3, h4⟩ := serSlots_grows l reg hm (fun p c q h => hl p c q (List.mem_cons_of_mem _ h))
    refine ⟨.uid true c0 u0 :: js, reg', by simp only [serSlots, h1], .cons (.ptr c0 u0) h2, h3, fun p c q u h => ?_⟩
    rcases List.mem_cons.1 h with h | h
    · cases h
    · exact h4 p c q u h
  | .ref p0 c0 q0 :: l, reg, hm, hl => by
    obtain ⟨hr, hf⟩ := hl p0 c0 q0 (by simp)
    obtain ⟨u0, reg1, f1, f2, f3, f4⟩ := hf reg hm
    have hm1 : missing reg1 objs ≤ m := Nat.le_trans (missing_mono f3.isSome objs) hm
    obtain ⟨js, reg', h1, h2, h3, h4⟩ := serSlots_grows l reg1 hm1 (fun p c q h => hl p c q (List.mem_cons_of_mem _ h))
    have hg : Grows E objs r reg reg1 :=
      ⟨f3.old, fun u v a b => by obtain ⟨q', x, y⟩ := f3.new u v a b; exact ⟨q', reach_trans hr x, y⟩⟩
    refine ⟨.uid p0 c0 u0 :: js, reg', by simp only [serSlots, f1, h1], .cons (.ref f2) h2, hg.trans h3 .refl, fun p c q u h hh => ?_⟩
    rcases List.mem_cons.1 h with h | h
    · cases h
      obtain ⟨o, a, b⟩ := f2
      obtain ⟨o', a', b'⟩ := hh
      rw [a] at a'; cases a'
      rw [b] at b'; cases b'
      exact h3.isSome _ f4
    · exact h4 p c q u h hh

theorem ser_grows {E : Env D} {objs : List (Obj D)} : ∀ (k : Nat) (r : Ref) (reg : Reg D),
    (∀ q, Reach objs r q → ∃ u, Has objs q u) → missing reg objs < k →
    ∃ u reg', ser E objs k r reg = .ok (u, reg') ∧ Has objs r u ∧ Grows E objs r reg reg' ∧ (get reg' u).isSome = true
  | 0, _, _, _, h => absurd h (Nat.not_lt_zero _)
  | k + 1, r, reg, hn, hk => by
    obtain ⟨u, o, ho, hu⟩ := hn r .refl
    cases hg : get reg u with
    | some v =>
      exact ⟨u, reg, by simp only [ser, ho, hu, hg]; rfl, ⟨o, ho, hu⟩, .refl _ _ _ _, by rw [hg]; rfl⟩
    | none =>
      have mono0 : ∀ v, (get reg v).isSome = true → (get (put reg u .null) v).isSome = true :=
        fun v hv => get_put_isSome _ _ _ _ hv
      have hlt := missing_lt mono0 ho hu hg (by rw [get_put_self]; rfl)
      have hle : missing (put reg u .null) objs ≤ k - 1 := by omega
      obtain ⟨js, reg', h1, h2, h3, h4⟩ := serSlots_grows (E := E) (objs := objs) (f := ser E objs k) (r := r) (m := k - 1) o.slots
        (put reg u .null) hle (fun p c q hq => by
          have hr : Reach objs r q := .step .refl ⟨o, c, ho, hq⟩
          refine ⟨hr, fun reg'' hm => ?_⟩
          have hk0 : 0 < k := by
            have : missing (put reg u .null) objs < k := by omega
            omega
          exact ser_grows k q reg'' (fun q' h' => hn q' (reach_trans hr h')) (by omega))
      refine ⟨u, put reg' u (.raw ⟨some (E.name o.cls), some u, js⟩), by simp only [ser, ho, hu, hg, h1]; rfl, ⟨o, ho, hu⟩, ?_,
        by rw [get_put_self]; rfl⟩
      have some' : ∀ v, (get reg' v).isSome = true → (get (put reg' u (.raw ⟨some (E.name o.cls), some u, js⟩)) v).isSome = true :=
        fun v hv => get_put_isSome _ _ _ _ hv
      constructor
      · intro v x hv
        have hne : v ≠ u := by rintro rfl; rw [hg] at hv; cases hv
        rw [get_put_ne _ _ hne]
        exact h3.old v x (by rw [get_put_ne _ _ hne]; exact hv)
      · intro v x hv hx
        by_cases hvu : v = u
        · subst hvu
          rw [get_put_self] at hx; cases hx
          refine ⟨r, .refl, ⟨o, js, ho, hu, rfl, h2⟩, ?_⟩
          rintro p q' u' ⟨o', c, ho', hm⟩ hh
          rw [ho] at ho'; cases ho'
          exact some' _ (h4 p c q' u' hm hh)
        · rw [get_put_ne _ _ hvu] at hx
          obtain ⟨q, a, b, c⟩ := h3.new v x (by rw [get_put_ne _ _ hvu]; exact hv) hx
          exact ⟨q, a, b, fun p q' u' he hh => some' _ (c p q' u' he hh)⟩

theorem missing_le (reg : Reg D) : ∀ objs : List (Obj D), missing reg objs ≤ objs.length
  | [] => Nat.le_refl _
  | o :: l => by
    have := missing_le reg l
    simp only [missing, List.length_cons]
    split <;> omega

/-! ## Keys occur once -/

def keys {α : Type} (l : List (Uid × α)) : List Uid := l.map Prod.fst

theorem keys_put {α : Type} (l : List (Uid × α)) (u : Uid) (x : α) :
    keys (put l u x) = if (get l u).isSome then keys l else keys l ++ [u] := by
  induction l with
  | nil => rfl
  | cons a l ih =>
    obtain ⟨k, v⟩ := a
    simp only [put, get]
    split
    · rfl
    · show k :: keys (put l u x) = _
      rw [ih]
      split <;> rfl

theorem mem_keys {α : Type} (l : List (Uid × α)) (u : Uid) : u ∈ keys l ↔ (get l u).isSome = true := by
  induction l with
  | nil => simp [keys, get]
  | cons a l ih =>
    obtain ⟨k, v⟩ := a
    simp only [get]
    show u ∈ k :: keys l ↔ _
    rw [List.mem_cons, ih]
    split
    · rename_i h; subst h; simp
    · rename_i h
      constructor
      · rintro (h' | h')
        · exact absurd h'.symm h
        · exact h'
      · exact .inr

theorem nodup_put {α : Type} {l : List (Uid × α)} (h : (keys l).Nodup) (u : Uid) (x : α) : (keys (put l u x)).Nodup := by
  rw [keys_put]
  split
  · exact h
  · rename_i hn
    rw [List.nodup_append]
    refine ⟨h, by simp, fun a ha b hb => ?_⟩
    simp only [List.mem_singleton] at hb
    subst hb
    rintro rfl
    exact hn ((mem_keys l a).1 ha)

theorem serSlots_nodup {f : Ref → Reg D → Except Err (Uid × Reg D)}
    (hf : ∀ r reg u reg', (keys reg).Nodup → f r reg = .ok (u, reg') → (keys reg').Nodup) :
    ∀ (l : List (Slot D)) reg js reg', (keys reg).Nodup → serSlots f l reg = .ok (js, reg') → (keys reg').Nodup
  | [], reg, js, reg', h, he => by cases he; exact h
  | .data d :: l, reg, js, reg', h, he => by
    simp only [serSlots] at he
    split at he
    · cases he
    · rename_i hs; cases he; exact serSlots_nodup hf l _ _ _ h hs
  | .ptr c u :: l, reg, js, reg', h, he => by
    simp only [serSlots] at he
    split at he
    · cases he
    · rename_i hs; cases he; exact serSlots_nodup hf l _ _ _ h hs
  | .ref p c r :: l, reg, js, reg', h, he => by
    simp only [serSlots] at he
    split at he
    · cases he
    · rename_i hs
      have h1 := hf _ _ _ _ h hs
      split at he
      · cases he
      · rename_i hs'; cases he; exact serSlots_nodup hf l _ _ _ h1 hs'

theorem ser_nodup (E : Env D) (objs : List (Obj D)) : ∀ (k : Nat) r reg u reg', (keys reg).Nodup → ser E objs k r reg = .ok (u, reg') →
    (keys reg').Nodup
  | 0, _, _, _, _, _, he => by cases he
  | k + 1, r, reg, u, reg', h, he => by
    simp only [ser] at he
    split at he
    · cases he
    · split at he
      · cases he
      · split at he
        · cases he; exact h
        · split at he
          · cases he
          · rename_i hs
            cases he
            exact nodup_put (serSlots_nodup (ser_nodup E objs k) _ _ _ _ (nodup_put h _ _) hs) _ _

/-- C44: the flat form of a graph, with cycles and shared instances or without, has
the root under its key and, for each reachable instance and nothing else, exactly one
entry with its references by identifier. -/
theorem C44_flat (E : Env D) (objs : List (Obj D)) (r : Ref) (hg : Graph objs r) (k : Nat) (hk : objs.length < k) :
    ∃ reg, serialize E objs k r = .ok reg ∧ (keys reg).Nodup ∧
      (∃ u, Has objs r u ∧ get reg rootKey = some (.text u)) ∧
      (∀ q u, Reach objs r q → Has objs q u → ∃ v, get reg u = some v ∧ IsEntry E objs q u v) ∧
      (∀ u v, get reg u = some v → u = rootKey ∨ ∃ q, Reach objs r q ∧ Has objs q u) := by
  obtain ⟨u0, o0, ho0, hu0⟩ := hg.named r .refl
  obtain ⟨u, reg, h1, h2, h3, h4⟩ := ser_grows (E := E) k r [(rootKey, .text u0)] hg.named
    (Nat.lt_of_le_of_lt (missing_le _ _) hk)
  have start : ∀ u, u ≠ rootKey → get [(rootKey, (.text u0 : RVal D))] u = none := fun u hu => by
    simp [get, Ne.symm hu]
  have hroot : get reg rootKey = some (.text u0) := h3.old _ _ (by simp [get])
  refine ⟨reg, by simp only [serialize, ho0, hu0, h1], ?_, ⟨u0, ⟨o0, ho0, hu0⟩, hroot⟩, ?_, ?_⟩
  · exact ser_nodup E objs k r _ _ _ (by simp [keys]) h1
  · -- every reachable instance has a key
    have hall : ∀ q, Reach objs r q → ∀ u, Has objs q u → (get reg u).isSome = true := by
      intro q hq
      induction hq with
      | refl =>
        rintro v ⟨o, a, b⟩
        obtain ⟨o', a', b'⟩ := h2
        rw [a] at a'; cases a'
        rw [b] at b'; cases b'
        exact h4
      | @step p q q' hq he ih =>
        intro v hv
        obtain ⟨uq, huq⟩ := hg.named q hq
        obtain ⟨x, hx⟩ := Option.isSome_iff_exists.1 (ih uq huq)
        have hne : uq ≠ rootKey := by rintro rfl; exact hg.noRoot q hq huq
        obtain ⟨q1, a, ⟨o, js, b1, b2, _⟩, c⟩ := h3.new uq x (start uq hne) hx
        have := hg.distinct q q1 uq hq a huq ⟨o, b1, b2⟩
        subst this
        exact c p q' v he hv
    intro q v hq hv
    obtain ⟨x, hx⟩ := Option.isSome_iff_exists.1 (hall q hq v hv)
    have hne : v ≠ rootKey := by rintro rfl; exact hg.noRoot q hq hv
    obtain ⟨q1, a, ⟨o, js, b1, b2, b3⟩, c⟩ := h3.new v x (start v hne) hx
    have := hg.distinct q q1 v hq a hv ⟨o, b1, b2⟩
    subst this
    exact ⟨x, hx, o, js, b1, b2, b3⟩
  · intro v x hx
    by_cases hne : v = rootKey
    · exact .inl hne
    · obtain ⟨q1, a, ⟨o, js, b1, b2, b3⟩, c⟩ := h3.new v x (start v hne) hx
      exact .inr ⟨q1, a, o, b1, b2⟩

/-- C44: every reference to an instance is to a key of the flat form. -/
theorem C44_defined (E : Env D) (objs : List (Obj D)) (r : Ref) (hg : Graph objs r) (k : Nat) (hk : objs.length < k)
    (reg : Reg D) (h : serialize E objs k r = .ok reg) (p : Bool) (q q' : Ref) (u' : Uid) (hq : Reach objs r q)
    (he : Edge objs p q q') (hu : Has objs q' u') : (get reg u').isSome = true := by
  obtain ⟨reg', h1, _, _, h2, _⟩ := C44_flat E objs r hg k hk
  rw [h] at h1; cases h1
  obtain ⟨v, hv, _⟩ := h2 q' u' (.step hq he) hu
  rw [hv]; rfl

/-! ## Concrete cases -/

/-- Two instances that refer to each other, one of them also twice to a third. -/
def demoObjs : List (Obj Nat) :=
  [{ cls := 0, uid := some (s% "a"), slots := [.data 7, .ref false 0 1, .ref false 0 2, .ref true 0 2] },
   { cls := 0, uid := some (s% "b"), slots := [.ref false 0 0, .ptr 0 (s% "x")] },
   { cls := 0, uid := some (s% "c") }, { cls := 0, uid := some (s% "d") }]

theorem C44_example_graph : Graph demoObjs 0 := by
  have hr : ∀ q, Reach demoObjs 0 q → q = 0 ∨ q = 1 ∨ q = 2 := by
    intro q h
    induction h with
    | refl => exact .inl rfl
    | @step p q q' hq he ih =>
      obtain ⟨o, c, ho, hm⟩ := he
      rcases ih with rfl | rfl | rfl <;> simp [demoObjs] at ho <;> subst ho <;> simp at hm
      · rcases hm with ⟨_, _, rfl⟩ | ⟨_, _, rfl⟩ | ⟨_, _, rfl⟩ <;> simp
      · simp [hm]
  have hu : ∀ q u, Reach demoObjs 0 q → Has demoObjs q u → (q = 0 ∧ u = s% "a") ∨ (q = 1 ∧ u = s% "b") ∨ (q = 2 ∧ u = s% "c") := by
    rintro q u h ⟨o, ho, hu⟩
    rcases hr q h with rfl | rfl | rfl <;> simp [demoObjs] at ho <;> subst ho <;> simp at hu <;> subst hu <;> simp
  refine ⟨fun q h => ?_, fun q q' u h h' a b => ?_, fun q h a => ?_⟩
  · rcases hr q h with rfl | rfl | rfl
    · exact ⟨_, _, rfl, rfl⟩
    · exact ⟨_, _, rfl, rfl⟩
    · exact ⟨_, _, rfl, rfl⟩
  · rcases hu q u h a with ⟨rfl, rfl⟩ | ⟨rfl, rfl⟩ | ⟨rfl, rfl⟩ <;> rcases hu q' _ h' b with ⟨rfl, h2⟩ | ⟨rfl, h2⟩ | ⟨rfl, h2⟩ <;>
      first | rfl | (exact absurd h2 (by decide))
  · rcases hu q _ h a with ⟨_, h2⟩ | ⟨_, h2⟩ | ⟨_, h2⟩ <;> exact absurd h2 (by decide)

theorem C44_example :
    serialize demoEnv demoObjs 5 0 = .ok [(rootKey, .text (s% "a")),
      (s% "a", .raw ⟨some (s% "A"), some (s% "a"), [.data 7, .uid false 0 (s% "b"), .uid false 0 (s% "c"), .uid true 0 (s% "c")]⟩),
      (s% "b", .raw ⟨some (s% "A"), some (s% "b"), [.uid false 0 (s% "a"), .uid true 0 (s% "x")]⟩),
      (s% "c", .raw ⟨some (s% "A"), some (s% "c"), []⟩)] := by
  with_unfolding_all rfl

/-- With the identifier `__root__` an instance is left out. -/
theorem C44_root_key :
    serialize demoEnv [{ cls := 0, uid := some (s% "a"), slots := [.ref false 0 1] }, { cls := 0, uid := some (s% "__root__"), slots := [.data 3] }] 5 0 =
      .ok [(rootKey, .text (s% "a")), (s% "a", .raw ⟨some (s% "A"), some (s% "a"), [.uid false 0 (s% "__root__")]⟩)] := by
  with_unfolding_all rfl

end Verif.Uid
