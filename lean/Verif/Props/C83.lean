import Verif.Spec.ChoiceSet
import Verif.Props.C04
import Verif.Models.Demo

/-!
# C83: the settings of a StringChoice over its life
-/

namespace Verif.ChoiceSet
open Spec

theorem same_alike (E : Env) (cs : Bool) (a b : PyStr) : SameChoice E cs a b ↔ Alike E cs a b := by
  unfold SameChoice Alike
  cases cs with
  | true => simp
  | false =>
    simp only [Bool.false_eq_true, if_false, true_and]
    exact ⟨.inr, fun h => h.elim (fun e => by rw [e]) id⟩

theorem textAll_mem : ∀ {xs : List Item} {l : List PyStr}, textAll xs = some l →
    (∀ x ∈ xs, ∃ s ∈ l, x = .text s) ∧ ∀ s ∈ l, Item.text s ∈ xs
  | [], l, h => by cases h; simp
  | .text s :: xs, l, h => by
      simp only [textAll, Option.map_eq_some_iff] at h
      obtain ⟨r, hr, rfl⟩ := h
      obtain ⟨h1, h2⟩ := textAll_mem hr
      constructor
      · intro x hx
        rcases List.mem_cons.1 hx with rfl | hx
        · exact ⟨s, by simp, rfl⟩
        · obtain ⟨u, hu, e⟩ := h1 x hx
          exact ⟨u, List.mem_cons_of_mem _ hu, e⟩
      · intro u hu
        rcases List.mem_cons.1 hu with rfl | hu
        · simp
        · exact List.mem_cons_of_mem _ (h2 u hu)
  | .other _ :: _, _, h => by cases h

theorem textAll_some : ∀ {xs : List Item}, (∀ x ∈ xs, ∃ s, x = .text s) → ∃ l, textAll xs = some l
  | [], _ => ⟨[], rfl⟩
  | x :: xs, h => by
      obtain ⟨s, rfl⟩ := h x (by simp)
      obtain ⟨l, hl⟩ := textAll_some (xs := xs) fun y hy => h y (List.mem_cons_of_mem _ hy)
      exact ⟨s :: l, by simp [textAll, hl]⟩

theorem entries_mem : ∀ {t : Table} {kvs : List (PyStr × List PyStr)}, entries t = some kvs →
    (∀ k a, (k, a) ∈ t → ∃ s l, k = .text s ∧ textAll a.list = some l ∧ (s, l) ∈ kvs) ∧
    ∀ s l, (s, l) ∈ kvs → ∃ a, (Item.text s, a) ∈ t ∧ textAll a.list = some l
  | [], kvs, h => by cases h; simp
  | (.other _, _) :: _, _, h => by cases h
  | (.text k, a) :: t, kvs, h => by
      unfold entries at h
      cases ha : textAll a.list with
      | none => simp [ha] at h
      | some l =>
        cases ht : entries t with
        | none => simp [ha, ht] at h
        | some r =>
          simp only [ha, ht, Option.some.injEq] at h
          subst h
          obtain ⟨h1, h2⟩ := entries_mem ht
          constructor
          · intro k' a' hm
            rcases List.mem_cons.1 hm with e | hm
            · cases e
              exact ⟨k, l, rfl, ha, by simp⟩
            · obtain ⟨s, l', e1, e2, e3⟩ := h1 k' a' hm
              exact ⟨s, l', e1, e2, List.mem_cons_of_mem _ e3⟩
          · intro s l' hm
            rcases List.mem_cons.1 hm with e | hm
            · cases e
              exact ⟨a, by simp, ha⟩
            · obtain ⟨a', e1, e2⟩ := h2 s l' hm
              exact ⟨a', List.mem_cons_of_mem _ e1, e2⟩

theorem entries_some : ∀ {t : Table}, (∀ k a, (k, a) ∈ t → ∃ s, k = .text s) →
    (∀ k a, (k, a) ∈ t → ∀ x ∈ a.list, ∃ s, x = .text s) → ∃ kvs, entries t = some kvs
  | [], _, _ => ⟨[], rfl⟩
  | (k, a) :: t, h1, h2 => by
      obtain ⟨s, rfl⟩ := h1 k a (by simp)
      obtain ⟨l, hl⟩ := textAll_some (h2 (.text s) a (by simp))
      obtain ⟨r, hr⟩ := entries_some (t := t) (fun k a hm => h1 k a (List.mem_cons_of_mem _ hm))
        fun k a hm => h2 k a (List.mem_cons_of_mem _ hm)
      exact ⟨(s, l) :: r, by simp [entries, hl, hr]⟩

/-- Standing for a choice, in the entries. -/
theorem stands_entries (E : Env) (cs : Bool) {t : Table} {kvs : List (PyStr × List PyStr)}
    (h : entries t = some kvs) (s k : PyStr) :
    (∃ als, (k, als) ∈ kvs ∧ (SameChoice E cs s k ∨ ∃ a ∈ als, SameChoice E cs s a)) ↔ Stands E cs t s k := by
  obtain ⟨h1, h2⟩ := entries_mem h
  constructor
  · rintro ⟨als, hm, hs⟩
    obtain ⟨a, ha, hl⟩ := h2 k als hm
    refine ⟨a, ha, ?_⟩
    rcases hs with hs | ⟨x, hx, hs⟩
    · exact .inl ((same_alike ..).1 hs)
    · exact .inr ⟨x, (textAll_mem hl).2 x hx, (same_alike ..).1 hs⟩
  · rintro ⟨a, ha, hs⟩
    obtain ⟨k', l, e, hl, hm⟩ := h1 _ _ ha
    cases e
    refine ⟨l, hm, ?_⟩
    rcases hs with hs | ⟨x, hx, hs⟩
    · exact .inl ((same_alike ..).2 hs)
    · obtain ⟨y, hy, e⟩ := (textAll_mem hl).1 _ hx
      cases e
      exact .inr ⟨x, hy, (same_alike ..).2 hs⟩

theorem distinct_declared {E : Env} {cs : Bool} {kvs : List (PyStr × List PyStr)} (h : distinct E cs kvs = true) :
    declareChoices E cs (.table kvs) = some kvs := by
  rw [C05_declares_table, ← nodup_choices]
  unfold distinct at h
  rw [decide_eq_true_iff] at h
  refine ⟨?_, rfl⟩
  cases cs with
  | true =>
    have e : choiceKey E true = id := by funext s; simp [choiceKey]
    rw [e, List.map_id] at h
    exact h
  | false =>
    have e : choiceKey E false = E.upper := by funext s; simp [choiceKey]
    rw [e] at h
    exact h

theorem listed_list (t : Table) : ∀ k a, (k, a) ∈ listed t → ∃ xs, a = .many xs := by
  intro k a h
  obtain ⟨e, _, he⟩ := List.mem_map.1 h
  cases he
  exact ⟨_, rfl⟩

theorem listed_sound {t : Table} (h : ∀ k a, (k, a) ∈ t → ∃ xs, a = .many xs) : listed t = t := by
  unfold listed
  conv => rhs; rw [← List.map_id t]
  refine List.map_congr_left fun e he => ?_
  obtain ⟨k, a⟩ := e
  obtain ⟨xs, rfl⟩ := h k a he
  rfl

theorem listed_keys (t : Table) : (listed t).map (·.1) = t.map (·.1) := by
  unfold listed
  rw [List.map_map]
  rfl

/-- What the checks of the setter establish. -/
theorem sound_of {E : Env} {cs : Bool} {t : Table} {kvs : List (PyStr × List PyStr)}
    (ha : ∀ k a, (k, a) ∈ t → ∃ xs, a = .many xs) (he : entries t = some kvs) (hd : distinct E cs kvs = true) :
    Sound E cs t where
  keys k a h := let ⟨s, _, e, _⟩ := (entries_mem he).1 k a h; ⟨s, e⟩
  aliases k a h := by
    obtain ⟨xs, rfl⟩ := ha k a h
    obtain ⟨_, l, _, hl, _⟩ := (entries_mem he).1 k _ h
    exact ⟨xs, rfl, fun x hx => let ⟨s, _, e⟩ := (textAll_mem hl).1 x hx; ⟨s, e⟩⟩
  one s k k' h h' := by
    obtain ⟨als, hm, hs⟩ := (stands_entries E cs he s k).2 h
    obtain ⟨als', hm', hs'⟩ := (stands_entries E cs he s k').2 h'
    have := declared_unique E cs _ kvs (distinct_declared hd) s (k, als) (k', als') hm hm' hs hs'
    cases this
    rfl

theorem sound_entries {E : Env} {cs : Bool} {t : Table} (h : Sound E cs t) : ∃ kvs, entries t = some kvs :=
  entries_some h.keys fun k a hm x hx => by
    obtain ⟨xs, rfl, hs⟩ := h.aliases k a hm
    exact hs x hx

theorem sound_firm {E : Env} {cs cs' : Bool} {t : Table} (h : Sound E cs t) (hc : cs' = false → cs = false) :
    Sound E cs' t where
  keys := h.keys
  aliases := h.aliases
  one s k k' a b := by
    have up : ∀ x y, Alike E cs' x y → Alike E cs x y := fun x y hxy => by
      rcases hxy with e | ⟨e, u⟩
      · exact .inl e
      · exact .inr ⟨hc e, u⟩
    have st : ∀ k, Stands E cs' t s k → Stands E cs t s k := by
      rintro k ⟨a, ha, h1 | ⟨x, hx, h1⟩⟩
      · exact ⟨a, ha, .inl (up _ _ h1)⟩
      · exact ⟨a, ha, .inr ⟨x, hx, up _ _ h1⟩⟩
    exact h.one s k k' (st k a) (st k' b)

/-! ### The setter -/

/-- What the setter of `choices` does to dictionaries: at most one is added, and at most one
that was there has its single aliases put in lists. -/
theorem setChoices_world (E : Env) (cs : Bool) (a : Arg) (w : World) :
    (setChoices E cs a w).2.descrs = w.descrs ∧ (setChoices E cs a w).2.props = w.props ∧
    ∃ added j, (setChoices E cs a w).2.tables = (w.tables ++ added).modify j listed ∧ ∀ t ∈ added, Dict t := by
  unfold setChoices
  cases hp : pick w a with
  | none => exact ⟨rfl, rfl, [], w.tables.length, by simp [List.modify_eq_self], by simp⟩
  | some iw =>
    obtain ⟨i, w1⟩ := iw
    have h1 : w1.descrs = w.descrs ∧ w1.props = w.props ∧ ∃ added, w1.tables = w.tables ++ added ∧ ∀ t ∈ added, Dict t := by
      unfold pick at hp
      cases a with
      | names xs =>
        simp only at hp
        split at hp
        · rename_i hn
          cases hp
          refine ⟨rfl, rfl, _, rfl, ?_⟩
          intro t ht
          rw [List.mem_singleton] at ht
          subst ht
          unfold Dict
          rw [List.map_map]
          have : ((fun x : Item × Als => x.1) ∘ fun x => (x, Als.many [])) = id := rfl
          rw [this, List.map_id]
          exact hn
        · cases hp
      | dict i =>
        simp only at hp
        split at hp
        · cases hp; exact ⟨rfl, rfl, [], by simp, by simp⟩
        · cases hp
      | other => cases hp
    obtain ⟨e1, e2, added, e3, e4⟩ := h1
    simp only
    split
    · exact ⟨e1, e2, added, i, by simp [e3], e4⟩
    · split <;> exact ⟨e1, e2, added, i, by simp [e3], e4⟩

theorem setChoices_ok {E : Env} {cs : Bool} {a : Arg} {w w' : World} {i : Nat} (h : setChoices E cs a w = (.ok i, w')) :
    ∃ t, w'.tables[i]? = some t ∧ Sound E cs t := by
  unfold setChoices at h
  cases hp : pick w a with
  | none => simp [hp] at h
  | some iw =>
    obtain ⟨j, w1⟩ := iw
    simp only [hp] at h
    have hlt : j < w1.tables.length := by
      unfold pick at hp
      cases a with
      | names xs =>
        simp only at hp
        split at hp
        · cases hp; simp
        · cases hp
      | dict i =>
        simp only at hp
        split at hp
        · rename_i hl; cases hp; exact hl
        · cases hp
      | other => cases hp
    have hg : (w1.tables.modify j listed)[j]? = some (listed w1.tables[j]) := by
      rw [List.getElem?_modify, List.getElem?_eq_getElem hlt]
      simp
    split at h
    · cases h
    · rename_i kvs he
      split at h
      · rename_i hd
        cases h
        refine ⟨_, hg, sound_of (listed_list _) ?_ hd⟩
        rw [hg] at he
        exact he
      · cases h

/-- Every property is sound, and dictionaries have distinct keys. -/
structure Inv (E : Env) (w : World) : Prop where
  props : ∀ p ∈ w.props, ∃ t, w.tables[p.choices]? = some t ∧ Sound E p.case t
  tables : ∀ t ∈ w.tables, Dict t
  descrs : ∀ d ∈ w.descrs, Dict d

theorem modify_append_some {α : Type} {l : List α} {i : Nat} {x : α} (h : l[i]? = some x) (m : List α) (f : α → α) (j : Nat) :
    ((l ++ m).modify j f)[i]? = some (if j = i then f x else x) := by
  have hlt : i < l.length := (List.getElem?_eq_some_iff.1 h).1
  rw [List.getElem?_modify, List.getElem?_append_left hlt, h]
  by_cases e : j = i <;> simp [e]

/-- Setting choices anywhere keeps every property as it is. -/
theorem inv_setChoices {E : Env} {w : World} (h : Inv E w) (cs : Bool) (a : Arg) : Inv E (setChoices E cs a w).2 ∧
    ∀ p ∈ w.props, (setChoices E cs a w).2.tables[p.choices]? = w.tables[p.choices]? := by
  obtain ⟨e1, e2, added, j, e3, e4⟩ := setChoices_world E cs a w
  have key : ∀ p ∈ w.props, (setChoices E cs a w).2.tables[p.choices]? = w.tables[p.choices]? := by
    intro p hp
    obtain ⟨t, ht, hs⟩ := h.props p hp
    rw [e3, modify_append_some ht, ht]
    split
    · rw [listed_sound fun k a hm => let ⟨xs, e, _⟩ := hs.aliases k a hm; ⟨xs, e⟩]
    · rfl
  refine ⟨⟨fun p hp => ?_, fun t ht => ?_, fun d hd => h.descrs d (e1 ▸ hd)⟩, key⟩
  · rw [e2] at hp
    rw [key p hp]
    exact h.props p hp
  · rw [e3] at ht
    obtain ⟨i, hi⟩ := List.mem_iff_getElem?.1 ht
    rw [List.getElem?_modify] at hi
    change Option.map _ _ = _ at hi
    rw [Option.map_eq_some_iff] at hi
    obtain ⟨t0, h0, h1⟩ := hi
    have hd : Dict t0 := by
      rcases List.mem_append.1 (List.mem_of_getElem? h0) with hm | hm
      · exact h.tables t0 hm
      · exact e4 t0 hm
    subst h1
    by_cases hj : j = i
    · simp only [hj, if_true]
      unfold Dict
      rw [listed_keys]
      exact hd
    · simp only [hj, if_false]
      exact hd

theorem setDescr_same {p q : SC} {d : Option Nat} {w : World} (h : setDescr p d w = .ok q) :
    q.case = p.case ∧ q.choices = p.choices := by
  unfold setDescr at h
  split at h
  · cases h
  · split at h
    · split at h
      · cases h; exact ⟨rfl, rfl⟩
      · cases h
    · cases h

/-- Props of the new state are sound if the new one is. -/
theorem Inv.set {E : Env} {w : World} (h : Inv E w) {n : Nat} {q : SC}
    (hq : ∃ t, w.tables[q.choices]? = some t ∧ Sound E q.case t) : Inv E { w with props := w.props.set n q } where
  props p hp := by
    rcases List.mem_or_eq_of_mem_set hp with hp | rfl
    · exact h.props p hp
    · exact hq
  tables := h.tables
  descrs := h.descrs

theorem Inv.add {E : Env} {w : World} (h : Inv E w) {q : SC}
    (hq : ∃ t, w.tables[q.choices]? = some t ∧ Sound E q.case t) : Inv E { w with props := w.props ++ [q] } where
  props p hp := by
    rcases List.mem_append.1 hp with hp | hp
    · exact h.props p hp
    · rw [List.mem_singleton] at hp
      subst hp
      exact hq
  tables := h.tables
  descrs := h.descrs

theorem Inv.step {E : Env} {w : World} (h : Inv E w) {op : Op} {ops : List Op} (ho : Owned E w (op :: ops))
    (hf : Firm E w (op :: ops)) : Inv E (exec E w op) := by
  cases op with
  | table t =>
    refine ⟨fun p hp => ?_, fun t' ht => ?_, h.descrs⟩
    · obtain ⟨t', ht, hs⟩ := h.props p hp
      refine ⟨t', ?_, hs⟩
      show (w.tables ++ [t])[p.choices]? = some t'
      rw [List.getElem?_append_left (List.getElem?_eq_some_iff.1 ht).1]
      exact ht
    · rcases List.mem_append.1 ht with ht | ht
      · exact h.tables t' ht
      · rw [List.mem_singleton] at ht
        subst ht
        exact ho.1
  | write i t =>
    refine ⟨fun p hp => ?_, fun t' ht => ?_, h.descrs⟩
    · obtain ⟨t', ht, hs⟩ := h.props p hp
      refine ⟨t', ?_, hs⟩
      show (w.tables.set i t)[p.choices]? = some t'
      rw [List.getElem?_set_ne (Ne.symm (ho.1.2 p hp))]
      exact ht
    · rcases List.mem_or_eq_of_mem_set ht with ht | rfl
      · exact h.tables t' ht
      · exact ho.1.1
  | descr d =>
    refine ⟨h.props, h.tables, fun d' hd => ?_⟩
    rcases List.mem_append.1 hd with hd | hd
    · exact h.descrs d' hd
    · rw [List.mem_singleton] at hd
      subst hd
      exact ho.1
  | writeDescr j d =>
    refine ⟨h.props, h.tables, fun d' hd => ?_⟩
    rcases List.mem_or_eq_of_mem_set hd with hd | rfl
    · exact h.descrs d' hd
    · exact ho.1.1
  | make c a d =>
    show Inv E (make E c a d w).2
    unfold make
    cases c with
    | none => exact h
    | some c =>
      simp only
      have hi := (inv_setChoices h c a).1
      rcases hs : setChoices E c a w with ⟨r, w1⟩
      rw [hs] at hi
      cases r with
      | error e => exact hi
      | ok i =>
        have hq := setChoices_ok hs
        cases d with
        | none => exact hi.add hq
        | some d =>
          simp only
          split
          · exact hi
          · rename_i p hp
            obtain ⟨e1, e2⟩ := setDescr_same hp
            exact hi.add (by rw [e1, e2]; exact hq)
  | choices n a =>
    show Inv E (match w.props[n]? with
      | none => w
      | some s => match setChoices E s.case a w with
          | (.error _, w) => w
          | (.ok i, w) => { w with props := w.props.set n { s with choices := i } })
    split
    · exact h
    · rename_i s hn
      have hi := (inv_setChoices h s.case a).1
      rcases hs : setChoices E s.case a w with ⟨r, w1⟩
      rw [hs] at hi
      cases r with
      | error e => exact hi
      | ok i => exact hi.set (setChoices_ok hs)
  | case n c =>
    unfold exec
    simp only
    split
    · rename_i s c hn
      obtain ⟨t, ht, hs⟩ := h.props s (List.mem_of_getElem? hn)
      refine h.set ⟨t, ht, sound_firm hs ?_⟩
      intro e
      have e' : c = false := e
      subst e'
      exact hf.1 s hn
    · exact h
  | descriptions n d =>
    show Inv E (match w.props[n]? with
      | none => w
      | some s => match setDescr s d w with
          | .error _ => w
          | .ok s => { w with props := w.props.set n s })
    split
    · exact h
    · rename_i s hn
      split
      · exact h
      · rename_i q hq
        obtain ⟨e1, e2⟩ := setDescr_same hq
        exact h.set (by rw [e1, e2]; exact h.props s (List.mem_of_getElem? hn))

theorem Inv.all {E : Env} : ∀ (ops : List Op) {w : World}, Inv E w → Owned E w ops → Firm E w ops → Inv E (execAll E w ops)
  | [], _, h, _, _ => h
  | _ :: ops, _, h, ho, hf => Inv.all ops (h.step ho hf) ho.2 hf.2

theorem Inv.start (E : Env) : Inv E {} := ⟨by simp, by simp, by simp⟩

/-- What a sound property accepts. -/
theorem sound_validate {E : Env} {w : World} {p : SC} {t : Table} (ht : w.tables[p.choices]? = some t)
    (hs : Sound E p.case t) (v : Val) : ∃ r, validate E w p v = some r ∧
      (∀ x, r = .ok x ↔ ∃ s k, v = .str s ∧ x = .str k ∧ Stands E p.case t s k) := by
  obtain ⟨kvs, hk⟩ := sound_entries hs
  refine ⟨choiceValidate E kvs p.case v, by unfold validate; simp only [ht, hk]; rfl, fun x => ?_⟩
  cases v with
  | str s =>
    unfold choiceValidate
    simp only
    cases hf : choiceFind E p.case s kvs with
    | none =>
      refine ⟨fun h => (by cases h), ?_⟩
      rintro ⟨s', k, e, _, hst⟩
      cases e
      obtain ⟨als, hm, h1⟩ := (stands_entries E p.case hk s k).2 hst
      exact absurd h1 ((choiceFind_none E p.case s kvs).1 hf _ hm)
    | some k =>
      have hst : Stands E p.case t s k := (stands_entries E p.case hk s k).1 (choiceFind_some E p.case s k kvs hf)
      constructor
      · intro h
        cases h
        exact ⟨s, k, rfl, rfl, hst⟩
      · rintro ⟨s', k', e, rfl, hst'⟩
        cases e
        rw [hs.one s k k' hst hst']
  | _ =>
    refine ⟨fun h => (by cases h), ?_⟩
    rintro ⟨s, k, e, _⟩
    cases e

/-- C83: after any history of declarations and changes of settings in which the client leaves the
dictionaries in use alone and no property is switched from case sensitive to not, every property
accepts exactly the text that stands for one of its choices, and stores the choice; no text stands
for two. -/
theorem C83_accepts (E : Env) {ops : List Op} (ho : Owned E {} ops) (hf : Firm E {} ops) {p : SC}
    (hp : p ∈ (execAll E {} ops).props) : ∃ t, (execAll E {} ops).tables[p.choices]? = some t ∧
      (∀ s k k', Stands E p.case t s k → Stands E p.case t s k' → k = k') ∧
      ∀ v, ∃ r, validate E (execAll E {} ops) p v = some r ∧
        ∀ x, r = .ok x ↔ ∃ s k, v = .str s ∧ x = .str k ∧ Stands E p.case t s k := by
  obtain ⟨t, ht, hs⟩ := ((Inv.start E).all ops ho hf).props p hp
  exact ⟨t, ht, hs.one, fun v => sound_validate ht hs v⟩

/-- C83: every choice of such a property is accepted as it is, and so is every alias. -/
theorem C83_choices (E : Env) {ops : List Op} (ho : Owned E {} ops) (hf : Firm E {} ops) {p : SC}
    (hp : p ∈ (execAll E {} ops).props) {t : Table} (ht : (execAll E {} ops).tables[p.choices]? = some t)
    {k : Item} {a : Als} (hm : (k, a) ∈ t) : ∃ s xs, k = .text s ∧ a = .many xs ∧
      validate E (execAll E {} ops) p (.str s) = some (.ok (.str s)) ∧
      ∀ x ∈ xs, ∃ u, x = .text u ∧ validate E (execAll E {} ops) p (.str u) = some (.ok (.str s)) := by
  obtain ⟨t', ht', hs⟩ := ((Inv.start E).all ops ho hf).props p hp
  rw [ht] at ht'
  cases ht'
  obtain ⟨s, rfl⟩ := hs.keys k a hm
  obtain ⟨xs, rfl, hx⟩ := hs.aliases _ a hm
  refine ⟨s, xs, rfl, rfl, ?_, fun x hxm => ?_⟩
  · obtain ⟨r, h1, h2⟩ := sound_validate ht hs (.str s)
    rw [h1, (h2 (.str s)).2 ⟨s, s, rfl, rfl, _, hm, .inl (.inl rfl)⟩]
  · obtain ⟨u, rfl⟩ := hx x hxm
    refine ⟨u, rfl, ?_⟩
    obtain ⟨r, h1, h2⟩ := sound_validate ht hs (.str u)
    rw [h1, (h2 (.str s)).2 ⟨u, s, rfl, rfl, _, hm, .inr ⟨u, hxm, .inl rfl⟩⟩]

/-! ### The dictionary of the caller -/

/-- C83: setting choices from a dictionary, accepted or not, puts its single aliases in lists in
the dictionary of the caller, changes no other dictionary, and if accepted keeps that dictionary. -/
theorem C83_dictionary (E : Env) (cs : Bool) {w : World} {i : Nat} {t : Table} (ht : w.tables[i]? = some t) :
    (setChoices E cs (.dict i) w).2 = { w with tables := w.tables.set i (t.map fun e => (e.1, .many (match e.2 with
      | .one x => [x]
      | .many xs => xs))) } ∧
    ∀ j, (setChoices E cs (.dict i) w).1 = .ok j → j = i := by
  have hlt := (List.getElem?_eq_some_iff.1 ht).1
  have hm : w.tables.modify i listed = w.tables.set i (t.map fun e => (e.1, .many (match e.2 with
      | .one x => [x]
      | .many xs => xs))) := by
    refine List.ext_getElem? fun j => ?_
    rw [List.getElem?_modify, List.getElem?_set]
    by_cases hj : i = j
    · subst hj
      rw [ht]
      simp only [if_true, hlt]
      rfl
    · simp [hj]
  have hw : pick w (.dict i) = some (i, w) := by
    unfold pick
    simp only [hlt, if_true]
  unfold setChoices
  rw [hw]
  simp only [hm]
  split
  · exact ⟨rfl, fun j h => by cases h⟩
  · split
    · exact ⟨rfl, fun j h => by cases h; rfl⟩
    · exact ⟨rfl, fun j h => by cases h⟩

/-! ### Descriptions -/

/-- C83: descriptions are accepted exactly if they describe the choices: one text for each choice,
and none for anything else. -/
theorem C83_descriptions {w : World} {p : SC} {j : Nat} {d : Descr} {t : Table} (hd : w.descrs[j]? = some d)
    (ht : w.tables[p.choices]? = some t) (dd : Dict d) (dt : Dict t) :
    (∃ q, setDescr p (some j) w = .ok q) ↔ Describes d t := by
  have hall : (d.length = t.length ∧ d.all (fun e =>
              decide (e.1 ∈ t.map (·.1)) && (match e.2 with | .text _ => true | .other _ => false)) = true) ↔
      Describes d t := by
    have hk : ∀ k, (∃ a, (k, a) ∈ t) ↔ k ∈ t.map (·.1) := fun k =>
      ⟨fun ⟨a, h⟩ => List.mem_map.2 ⟨(k, a), h, rfl⟩, fun h => let ⟨e, h1, h2⟩ := List.mem_map.1 h; ⟨e.2, h2 ▸ h1⟩⟩
    have hk' : ∀ k, (∃ a, (k, a) ∈ d) ↔ k ∈ d.map (·.1) := fun k =>
      ⟨fun ⟨a, h⟩ => List.mem_map.2 ⟨(k, a), h, rfl⟩, fun h => let ⟨e, h1, h2⟩ := List.mem_map.1 h; ⟨e.2, h2 ▸ h1⟩⟩
    rw [List.all_eq_true]
    constructor
    · rintro ⟨hl, ha⟩
      have sub : d.map (·.1) ⊆ t.map (·.1) := by
        intro k hm
        obtain ⟨e, he, rfl⟩ := List.mem_map.1 hm
        have := ha e he
        rw [Bool.and_eq_true, decide_eq_true_iff] at this
        exact this.1
      have hp : (d.map (·.1)).Perm (t.map (·.1)) :=
        (List.subperm_of_subset dd sub).perm_of_length_le (by simp [hl])
      refine ⟨fun k => ?_, fun k x hm => ?_⟩
      · rw [hk, hk']
        exact hp.mem_iff.symm
      · have := ha _ hm
        rw [Bool.and_eq_true] at this
        cases x with
        | text s => exact ⟨s, rfl⟩
        | other n => cases this.2
    · rintro ⟨h1, h2⟩
      have hp : (d.map (·.1)).Perm (t.map (·.1)) :=
        (List.perm_ext_iff_of_nodup dd dt).2 fun k => by rw [← hk, ← hk']; exact (h1 k).symm
      refine ⟨by simpa using hp.length_eq, fun e he => ?_⟩
      obtain ⟨s, hs⟩ := h2 e.1 e.2 he
      rw [Bool.and_eq_true, decide_eq_true_iff]
      refine ⟨hp.mem_iff.1 (List.mem_map.2 ⟨e, he, rfl⟩), ?_⟩
      rw [hs]
  rw [← hall]
  unfold setDescr
  simp only [hd, ht]
  constructor
  · rintro ⟨q, hq⟩
    split at hq
    · rename_i h; exact h
    · cases hq
  · intro h
    exact ⟨_, if_pos h⟩

/-- Properties with descriptions have the right ones. -/
def Told (w : World) : Prop := ∀ p ∈ w.props, ∀ j, p.descr = some j → ∃ d t, w.descrs[j]? = some d ∧
  w.tables[p.choices]? = some t ∧ Describes d t

theorem setDescr_told {E : Env} {w : World} (h : Inv E w) {p q : SC} {d : Option Nat}
    (hq : setDescr p d w = .ok q) : ∀ j, q.descr = some j → ∃ d t, w.descrs[j]? = some d ∧
      w.tables[q.choices]? = some t ∧ Describes d t := by
  intro j hj
  cases d with
  | none => cases hq
  | some i =>
    cases h1 : w.descrs[i]? with
    | none => simp [setDescr, h1] at hq
    | some d =>
      cases h2 : w.tables[p.choices]? with
      | none => simp [setDescr, h1, h2] at hq
      | some t =>
        have hd := (C83_descriptions h1 h2 (h.descrs d (List.mem_of_getElem? h1)) (h.tables t (List.mem_of_getElem? h2))).1
          ⟨q, hq⟩
        obtain ⟨_, e2⟩ := setDescr_same hq
        have e3 : q.descr = some i := by
          unfold setDescr at hq
          simp only [h1, h2] at hq
          split at hq
          · cases hq; rfl
          · cases hq
        rw [e3] at hj
        cases hj
        exact ⟨d, t, h1, e2 ▸ h2, hd⟩

theorem Told.step {E : Env} {w : World} (h : Inv E w) (ht : Told w) {op : Op} {ops : List Op} (ho : Owned E w (op :: ops))
    (hs : Settled E w (op :: ops)) : Told (exec E w op) := by
  have keep : ∀ cs a, Told (setChoices E cs a w).2 := by
    intro cs a p hp j hj
    obtain ⟨e1, e2, _⟩ := setChoices_world E cs a w
    rw [e2] at hp
    rw [e1, (inv_setChoices h cs a).2 p hp]
    exact ht p hp j hj
  cases op with
  | table t =>
    intro p hp j hj
    obtain ⟨d, t', h1, h2, h3⟩ := ht p hp j hj
    refine ⟨d, t', h1, ?_, h3⟩
    show (w.tables ++ [t])[p.choices]? = some t'
    rw [List.getElem?_append_left (List.getElem?_eq_some_iff.1 h2).1]
    exact h2
  | write i t =>
    intro p hp j hj
    obtain ⟨d, t', h1, h2, h3⟩ := ht p hp j hj
    refine ⟨d, t', h1, ?_, h3⟩
    show (w.tables.set i t)[p.choices]? = some t'
    rw [List.getElem?_set_ne (Ne.symm (ho.1.2 p hp))]
    exact h2
  | descr d0 =>
    intro p hp j hj
    obtain ⟨d, t', h1, h2, h3⟩ := ht p hp j hj
    refine ⟨d, t', ?_, h2, h3⟩
    show (w.descrs ++ [d0])[j]? = some d
    rw [List.getElem?_append_left (List.getElem?_eq_some_iff.1 h1).1]
    exact h1
  | writeDescr i d0 =>
    intro p hp j hj
    obtain ⟨d, t', h1, h2, h3⟩ := ht p hp j hj
    refine ⟨d, t', ?_, h2, h3⟩
    show (w.descrs.set i d0)[j]? = some d
    rw [List.getElem?_set_ne (fun e => ho.1.2 p hp (by rw [e]; exact hj))]
    exact h1
  | make c a d =>
    show Told (make E c a d w).2
    unfold make
    cases c with
    | none => exact ht
    | some c =>
      simp only
      have hk := keep c a
      have hi := (inv_setChoices h c a).1
      rcases hs : setChoices E c a w with ⟨r, w1⟩
      rw [hs] at hk hi
      cases r with
      | error e => exact hk
      | ok i =>
        cases d with
        | none =>
          intro p hp j hj
          rcases List.mem_append.1 hp with hp | hp
          · exact hk p hp j hj
          · rw [List.mem_singleton] at hp
            subst hp
            cases hj
        | some d =>
          simp only
          split
          · exact hk
          · rename_i q hq
            intro p hp j hj
            rcases List.mem_append.1 hp with hp | hp
            · exact hk p hp j hj
            · rw [List.mem_singleton] at hp
              subst hp
              exact setDescr_told hi hq j hj
  | choices n a =>
    unfold exec
    simp only
    split
    · exact ht
    · rename_i s hn
      have hk := keep s.case a
      rcases hc : setChoices E s.case a w with ⟨r, w1⟩
      rw [hc] at hk
      cases r with
      | error e => exact hk
      | ok i =>
        intro p hp j hj
        rcases List.mem_or_eq_of_mem_set hp with hp | rfl
        · exact hk p hp j hj
        · have := hs.1 s hn
          have hj' : s.descr = some j := hj
          rw [this] at hj'
          cases hj'
  | case n c =>
    unfold exec
    simp only
    split
    · rename_i s c hn
      intro p hp j hj
      rcases List.mem_or_eq_of_mem_set hp with hp | rfl
      · exact ht p hp j hj
      · exact ht s (List.mem_of_getElem? hn) j hj
    · exact ht
  | descriptions n d =>
    unfold exec
    simp only
    split
    · exact ht
    · rename_i s hn
      split
      · exact ht
      · rename_i q hq
        intro p hp j hj
        rcases List.mem_or_eq_of_mem_set hp with hp | rfl
        · exact ht p hp j hj
        · exact setDescr_told h hq j hj

theorem Told.all {E : Env} : ∀ (ops : List Op) {w : World}, Inv E w → Told w → Owned E w ops → Firm E w ops →
    Settled E w ops → Told (execAll E w ops)
  | [], _, _, ht, _, _, _ => ht
  | _ :: ops, _, h, ht, ho, hf, hs => Told.all ops (h.step ho hf) (ht.step h ho hs) ho.2 hf.2 hs.2

theorem described_ok {d : Descr} : ∀ {t : Table}, (∀ k a, (k, a) ∈ t → ∃ x, (k, x) ∈ d) →
    ∃ l, described d t = .ok l ∧ l.map (·.1) = t.map (·.1) ∧ ∀ e ∈ l, e ∈ d
  | [], _ => ⟨[], rfl, rfl, by simp⟩
  | (k, a) :: t, h => by
      obtain ⟨l, h1, h2, h3⟩ := described_ok (t := t) fun k a hm => h k a (List.mem_cons_of_mem _ hm)
      obtain ⟨x, hx⟩ := h k a (by simp)
      have hsome : (d.find? fun e => e.1 = k).isSome := by
        rw [List.find?_isSome]
        exact ⟨(k, x), hx, by simp⟩
      obtain ⟨e, he⟩ := Option.isSome_iff_exists.1 hsome
      have hk : e.1 = k := by simpa using List.find?_some he
      refine ⟨e :: l, ?_, ?_, ?_⟩
      · unfold described
        simp only [he, h1]
      · simp [hk, h2]
      · intro y hy
        rcases List.mem_cons.1 hy with rfl | hy
        · exact List.mem_of_find?_eq_some he
        · exact h3 y hy

/-- C83: if moreover the choices of a property with descriptions are not set again, `info` lists
every choice, in order, each with its description if there are any. -/
theorem C83_info (E : Env) {ops : List Op} (ho : Owned E {} ops) (hf : Firm E {} ops) (hs : Settled E {} ops) {p : SC}
    (hp : p ∈ (execAll E {} ops).props) : ∃ t l, (execAll E {} ops).tables[p.choices]? = some t ∧
      info (execAll E {} ops) p = .ok l ∧ l.map (·.1) = t.map (·.1) ∧
      (p.descr = none → ∀ k x, (k, x) ∈ l → x = none) ∧
      ∀ j, p.descr = some j → ∃ d, (execAll E {} ops).descrs[j]? = some d ∧
        ∀ k x, (k, x) ∈ l → ∃ s, x = some (.text s) ∧ (k, Item.text s) ∈ d := by
  have hi := (Inv.start E).all ops ho hf
  have hq := Told.all ops (Inv.start E) (by intro p hp; cases hp) ho hf hs
  obtain ⟨t, ht, _⟩ := hi.props p hp
  cases hd : p.descr with
  | none =>
    refine ⟨t, t.map fun e => (e.1, none), ht, ?_, ?_, ?_, ?_⟩
    · unfold info
      simp only [ht, hd]
      rfl
    · simp
    · intro _ k x hm
      obtain ⟨e, _, he⟩ := List.mem_map.1 hm
      cases he
      rfl
    · intro j h
      cases h
  | some j =>
    obtain ⟨d, t', h1, h2, h3⟩ := hq p hp j hd
    rw [ht] at h2
    cases h2
    obtain ⟨l, e1, e2, e3⟩ := described_ok (d := d) (t := t) fun k a hm => (h3.1 k).1 ⟨a, hm⟩
    refine ⟨t, l.map fun e => (e.1, some e.2), ht, ?_, ?_, ?_, ?_⟩
    · unfold info
      simp only [ht, hd, h1, Option.getD_some, e1]
    · rw [List.map_map, ← e2]
      rfl
    · intro h
      cases h
    · intro j' h
      cases h
      refine ⟨d, h1, fun k x hm => ?_⟩
      obtain ⟨e, he, hx⟩ := List.mem_map.1 hm
      cases hx
      obtain ⟨s, hs⟩ := h3.2 e.1 e.2 (e3 e he)
      exact ⟨s, by rw [hs], hs ▸ e3 e he⟩

/-! ### Examples, and where it fails -/

/-- Letters `a` and `A` differ in case only. -/
def c83Env : Env := { demoEnv with upper := fun s => s.map fun c => if c = 'a' then 'A' else c }

def c83Ops : List Op :=
  [.table [(.text (s% "N"), .one (.text (s% "north"))), (.text (s% "S"), .many [])],
   .descr [(.text (s% "S"), .text (s% "down")), (.text (s% "N"), .text (s% "up"))],
   .make (some true) (.names [.text (s% "a"), .text (s% "A")]) none,
   .make none (.dict 0) (some (some 0)),
   .make (some false) (.dict 0) (some (some 0)),
   .choices 1 (.names [.text (s% "x"), .text (s% "x")]),
   .case 1 (some true),
   .choices 0 (.names [.text (s% "b")])]

/-- C83: the hypotheses are met by a history with refused settings; two properties are made. -/
theorem C83_example : Owned c83Env {} c83Ops ∧ Firm c83Env {} c83Ops ∧ Settled c83Env {} (c83Ops.eraseIdx 5) ∧
    (execAll c83Env {} c83Ops).props.length = 2 ∧
    (execAll c83Env {} c83Ops).props.map (fun p => validate c83Env (execAll c83Env {} c83Ops) p (.str (s% "north"))) =
      [some (.error (.invalid 1)), some (.ok (.str (s% "N")))] ∧
    (execAll c83Env {} c83Ops).props.map (fun p => (info (execAll c83Env {} c83Ops) p)) =
      [.ok [(.text (s% "b"), none)],
       .ok [(.text (s% "N"), some (.text (s% "up"))), (.text (s% "S"), some (.text (s% "down")))]] := by
  refine ⟨?_, ?_, ?_, ?_, ?_, ?_⟩
  · simp [c83Ops, Owned, Dict]
  · simp [c83Ops, Firm]
  · refine ⟨trivial, trivial, trivial, trivial, trivial, trivial, ?_, trivial⟩
    intro s h
    cases h
    rfl
  all_goals rfl

/-- C83: switching a property to ignore case after its choices were set is not checked: one of
the choices can no longer be chosen. -/
theorem C83_case_later : let w := execAll c83Env {} [.make (some true) (.names [.text (s% "a"), .text (s% "A")]) none, .case 0 (some false)]
    ∃ p ∈ w.props, (∃ t a, w.tables[p.choices]? = some t ∧ (Item.text (s% "A"), a) ∈ t) ∧
      validate c83Env w p (.str (s% "A")) = some (.ok (.str (s% "a"))) :=
  ⟨⟨false, 0, none⟩, List.Mem.head [], ⟨_, _, rfl, .tail _ (.head _)⟩, rfl⟩

/-- C83: a property goes on using the dictionary of the caller: what the caller writes to it is
accepted, and not checked. -/
theorem C83_shared : let ops : List Op := [.table [(.text (s% "N"), .many [])], .make (some false) (.dict 0) none]
    let w := execAll c83Env {} ops
    let w' := execAll c83Env {} (ops ++ [.write 0 [(.text (s% "N"), .many []), (.text (s% "S"), .many [.text (s% "N")])]])
    w.props = w'.props ∧ ∀ p ∈ w.props, validate c83Env w p (.str (s% "S")) = some (.error (.invalid 1)) ∧
      validate c83Env w' p (.str (s% "S")) = some (.ok (.str (s% "S"))) ∧
      ∃ t, w'.tables[p.choices]? = some t ∧ ¬ Sound c83Env p.case t := by
  refine ⟨rfl, ?_⟩
  intro p hp
  have : p = ⟨false, 0, none⟩ := by
    have e : (execAll c83Env {} [.table [(.text (s% "N"), .many [])], .make (some false) (.dict 0) none]).props = [⟨false, 0, none⟩] := rfl
    rw [e] at hp
    simpa using hp
  subst this
  refine ⟨rfl, rfl, _, rfl, fun h => ?_⟩
  have := h.one (s% "N") (s% "N") (s% "S") ⟨_, .head _, .inl (.inl rfl)⟩ ⟨_, .tail _ (.head _), .inr ⟨s% "N", .head _, .inl rfl⟩⟩
  cases this

/-- C83: choices that are set after the descriptions are not checked against them: `info`, which
every error message contains, raises KeyError. -/
theorem C83_stale : let ops : List Op := [.descr [(.text (s% "N"), .text (s% "up"))],
      .make (some false) (.names [.text (s% "N")]) (some (some 0)), .choices 0 (.names [.text (s% "S")])]
    (execAll c83Env {} ops).props.map (fun p => info (execAll c83Env {} ops) p) = [.error .key] := rfl

/-- C83: a dictionary that is refused has been changed. -/
theorem C83_refused : let w : World := { tables := [[(.text (s% "N"), .one (.text (s% "up"))), (.text (s% "up"), .many [])]] }
    setChoices c83Env true (.dict 0) w =
      (.error .type, { tables := [[(.text (s% "N"), .many [.text (s% "up")]), (.text (s% "up"), .many [])]] }) := rfl

end Verif.ChoiceSet
