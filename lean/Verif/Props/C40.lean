import Verif.Spec.Links

/-!
# C40, C41, C42: links
-/

namespace Verif.Links
open Spec
variable {V : Type}

/-! ## Propagation ends -/

/-- Links that are not being updated. -/
def idleCount (w : LW V) : Nat := (w.links.filter fun l => !w.upd l.id).length

theorem put_put {f : Nat → Bool} {i : Nat} (h : f i = false) : put (put f i true) i false = f := by
  funext j
  unfold put
  split
  · subst_vars; exact h.symm
  · rfl

theorem idle_lt {w : LW V} {l : Lnk V} (hl : l ∈ w.links) (hu : w.upd l.id = false) :
    idleCount { w with upd := put w.upd l.id true } < idleCount w := by
  unfold idleCount
  simp only []
  have hsub : (w.links.filter fun m => !put w.upd l.id true m.id) =
      (w.links.filter fun m => !w.upd m.id).filter (fun m => !(m.id == l.id)) := by
    rw [List.filter_filter]
    congr 1
    funext m
    unfold put
    by_cases h : m.id = l.id <;> simp [h]
  rw [hsub]
  have hin : l ∈ w.links.filter fun m => !w.upd m.id := by simp [hl, hu]
  exact List.length_filter_lt_length_iff_exists.2 ⟨l, hin, by simp⟩

/-- A setter that ends and leaves the links as they are, for states with few
idle links. -/
def Settles (set set' : Nat → V → LM V) (k : Nat) : Prop :=
  ∀ n v w, idleCount w < k → set n v w = set' n v w ∧ (set n v w).1 ≠ .error .recursion ∧
    (set n v w).2.links = w.links ∧ (set n v w).2.upd = w.upd ∧ (set n v w).2.unl = w.unl

theorem update_settles {E : LEnv V} {set set' : Nat → V → LM V} {k : Nat} (hs : Settles set set' k) {l : Lnk V}
    {w : LW V} (hl : l ∈ w.links) (hk : idleCount w < k + 1) :
    update E set l w = update E set' l w ∧ (update E set l w).1 ≠ .error .recursion ∧
    (update E set l w).2.links = w.links ∧ (update E set l w).2.upd = w.upd ∧ (update E set l w).2.unl = w.unl := by
  unfold update
  split
  · exact ⟨rfl, by simp, rfl, rfl, rfl⟩
  · split
    · exact ⟨rfl, by simp, rfl, rfl, rfl⟩
    · rename_i h1 h2
      have hu : w.upd l.id = false := by simpa using h2
      simp only []
      cases ht : l.transform ((w.vals l.src).getD E.noneV) with
      | none => exact ⟨rfl, by simp, rfl, put_put hu, rfl⟩
      | some v =>
        have := idle_lt hl hu
        obtain ⟨a, b, c, d, e⟩ := hs l.tgt v { w with upd := put w.upd l.id true } (by omega)
        refine ⟨by simp only [a], b, c, ?_, e⟩
        show put (set l.tgt v _).2.upd l.id false = _
        rw [d]
        exact put_put hu

theorem idle_same {w w' : LW V} (h1 : w'.links = w.links) (h2 : w'.upd = w.upd) : idleCount w' = idleCount w := by
  unfold idleCount; rw [h1, h2]

theorem runLinks_settles {E : LEnv V} {set set' : Nat → V → LM V} {k : Nat} (hs : Settles set set' k) :
    ∀ (ls : List (Lnk V)) (w : LW V), (∀ l ∈ ls, l ∈ w.links) → idleCount w < k + 1 →
    runLinks E set ls w = runLinks E set' ls w ∧ (runLinks E set ls w).1 ≠ .error .recursion ∧
    (runLinks E set ls w).2.links = w.links ∧ (runLinks E set ls w).2.upd = w.upd ∧
    (runLinks E set ls w).2.unl = w.unl
  | [], w, _, _ => ⟨rfl, by simp [runLinks], rfl, rfl, rfl⟩
  | l :: ls, w, hl, hk => by
    obtain ⟨a, b, c, d, e⟩ := update_settles (E := E) hs (hl l (by simp)) hk
    unfold runLinks
    rw [← a]
    cases hu : update E set l w with
    | mk r w1 =>
      rw [hu] at b c d e
      cases r with
      | error x => exact ⟨rfl, b, c, d, e⟩
      | ok u =>
        simp only at c d e ⊢
        obtain ⟨a', b', c', d', e'⟩ := runLinks_settles hs ls w1 (fun m hm => c ▸ hl m (by simp [hm]))
          (by rw [idle_same c d]; exact hk)
        exact ⟨a', b', c'.trans c, d'.trans d, e'.trans e⟩

theorem setNode_settles {E : LEnv V} {set set' : Nat → V → LM V} {k : Nat} (hs : Settles set set' k) (n : Nat)
    (v : Option V) (w : LW V) (hk : idleCount w < k + 1) :
    setNode E set n v w = setNode E set' n v w ∧ (setNode E set n v w).1 ≠ .error .recursion ∧
    (setNode E set n v w).2.links = w.links ∧ (setNode E set n v w).2.upd = w.upd ∧
    (setNode E set n v w).2.unl = w.unl := by
  have hobs : ∀ (w : LW V) n b, ∀ l ∈ observers w n b, l ∈ w.links := fun w n b l h => (List.mem_filter.1 h).1
  have key : ∀ (differ : Bool) (w1 : LW V), idleCount w1 < k + 1 →
      notifyLinks E set n differ w1 = notifyLinks E set' n differ w1 ∧
      (notifyLinks E set n differ w1).1 ≠ .error .recursion ∧ (notifyLinks E set n differ w1).2.links = w1.links ∧
      (notifyLinks E set n differ w1).2.upd = w1.upd ∧ (notifyLinks E set n differ w1).2.unl = w1.unl := by
    intro differ w1 hk
    unfold notifyLinks
    cases differ with
    | false =>
      simp only [Bool.false_eq_true, if_false]
      exact runLinks_settles (E := E) hs (observers w1 n false) w1 (hobs _ _ _) hk
    | true =>
      simp only [if_true]
      obtain ⟨a, b, c, d, e⟩ := runLinks_settles (E := E) hs (observers w1 n true) w1 (hobs _ _ _) hk
      rw [← a]
      cases hr : runLinks E set (observers w1 n true) w1 with
      | mk r w2 =>
        rw [hr] at b c d e
        cases r with
        | error x => exact ⟨rfl, b, c, d, e⟩
        | ok u =>
          simp only at c d e ⊢
          obtain ⟨a', b', c', d', e'⟩ := runLinks_settles (E := E) hs (observers w2 n false) w2 (hobs _ _ _)
            (by rw [idle_same c d]; exact hk)
          exact ⟨a', b', c'.trans c, d'.trans d, e'.trans e⟩
  exact key _ _ hk

theorem assign_settles (E : LEnv V) : ∀ k, Settles (assign E k) (assign E (k + 1)) k
  | 0, n, v, w, h => absurd h (Nat.not_lt_zero _)
  | k + 1, n, v, w, h => by
    have ih := assign_settles E k
    simp only [assign]
    cases E.coerce n v with
    | none => exact ⟨rfl, by simp, rfl, rfl, rfl⟩
    | some x => exact setNode_settles ih n (some x) w h

/-- C41: a stack deeper than the number of links is enough for every assignment,
on every graph of links, cyclic or not: it never ends in RecursionError, a deeper
stack changes nothing, and no link is left in the state of being updated. -/
theorem C41_terminates (E : LEnv V) (n : Nat) (v : V) (w : LW V) {k : Nat} (hk : w.links.length < k) :
    (assign E k n v w).1 ≠ .error .recursion ∧ (∀ j, k ≤ j → assign E j n v w = assign E k n v w) ∧
    (assign E k n v w).2.upd = w.upd ∧ (assign E k n v w).2.links = w.links ∧ (assign E k n v w).2.unl = w.unl := by
  have hi : idleCount w ≤ w.links.length := List.length_filter_le _ _
  obtain ⟨a, b, c, d, e⟩ := assign_settles E k n v w (by omega)
  refine ⟨b, fun j hj => ?_, d, c, e⟩
  obtain ⟨m, rfl⟩ := Nat.exists_eq_add_of_le hj
  clear hj
  induction m with
  | zero => rfl
  | succ m ih => rw [← ih]; exact (assign_settles E (k + m) n v w (by omega)).1.symm

/-- C41 for deletions. -/
theorem C41_delete_terminates (E : LEnv V) (n : Nat) (w : LW V) {k : Nat} (hk : w.links.length ≤ k) :
    (delete E k n w).1 ≠ .error .recursion ∧ (delete E k n w).2.upd = w.upd := by
  have hi : idleCount w ≤ w.links.length := List.length_filter_le _ _
  obtain ⟨_, b, _, d, _⟩ := setNode_settles (E := E) (assign_settles E k) n none w (by omega)
  exact ⟨b, d⟩

/-! ## Linked nodes are in step -/

section
variable (E : LEnv V) (R : Nat → Prop) (G : Nat → V)

/-- Links may be out of step only if they are pending. -/
def Stepped (P : Lnk V → Prop) (w : LW V) : Prop :=
  ∀ l, Active w l → R l.src → w.vals l.src = some (G l.src) → w.vals l.tgt = some (G l.tgt) ∨ P l

/-- A link that is being updated has reached its target, or the target is about
to be set. -/
def Busy (n : Option Nat) (w : LW V) : Prop :=
  ∀ l, Active w l → R l.src → w.upd l.id = true → w.vals l.tgt = some (G l.tgt) ∨ n = some l.tgt

/-- Values only change to the chosen ones, within `R`. -/
def Towards (w w' : LW V) : Prop := ∀ m, w'.vals m = w.vals m ∨ (R m ∧ w'.vals m = some (G m))

/-- The same links in the same condition. -/
def SameLinks (w w' : LW V) : Prop := w'.links = w.links ∧ w'.unl = w.unl ∧ w'.upd = w.upd

/-- A setter that does what `assign` should. -/
def Sets (set : Nat → V → LM V) (k : Nat) : Prop :=
  ∀ n v w (P : Lnk V → Prop), idleCount w < k → Consistent E w R G → DistinctLinks w → R n → E.coerce n v = some (G n) →
    Stepped R G P w → Busy R G (some n) w → ∃ w', set n v w = (.ok (), w') ∧ SameLinks w w' ∧ Towards R G w w' ∧
      w'.vals n = some (G n) ∧ Stepped R G (fun l => P l ∧ ¬ (l.src = n ∧
        (w.vals n ≠ some (G n) ∨ l.changeOnly = false))) w'
end

variable {E : LEnv V} {R : Nat → Prop} {G : Nat → V}

theorem Towards.refl (w : LW V) : Towards R G w w := fun _ => .inl rfl

theorem Towards.trans {a b c : LW V} (h : Towards R G a b) (h2 : Towards R G b c) : Towards R G a c := fun m => by
  rcases h2 m with h' | h'
  · rw [h']; exact h m
  · exact .inr h'

theorem Towards.keep {a b : LW V} (h : Towards R G a b) {m : Nat} (hm : a.vals m = some (G m)) :
    b.vals m = some (G m) := by
  rcases h m with h' | h'
  · rw [h', hm]
  · exact h'.2

theorem SameLinks.trans {a b c : LW V} (h : SameLinks a b) (h2 : SameLinks b c) : SameLinks a c :=
  ⟨h2.1.trans h.1, h2.2.1.trans h.2.1, h2.2.2.trans h.2.2⟩

theorem active_same {w w' : LW V} (hl : w'.links = w.links) (hu : w'.unl = w.unl) {l : Lnk V} :
    Active w' l ↔ Active w l := by
  unfold Active; rw [hl, hu]

theorem consistent_same {w w' : LW V} (hl : w'.links = w.links) (hu : w'.unl = w.unl) (hc : Consistent E w R G) :
    Consistent E w' R G :=
  ⟨fun l h => hc.closed l ((active_same hl hu).1 h), fun l h => hc.image l ((active_same hl hu).1 h)⟩

theorem distinct_same {w w' : LW V} (hl : w'.links = w.links) (hd : DistinctLinks w) : DistinctLinks w' := by
  unfold DistinctLinks; rw [hl]; exact hd

theorem busy_towards {w w' : LW V} {n : Option Nat} (h : SameLinks w w') (ht : Towards R G w w')
    (hb : Busy R G n w) : Busy R G n w' := fun l hl hR hu =>
  (hb l ((active_same h.1 h.2.1).1 hl) hR (h.2.2 ▸ hu)).imp ht.keep id

theorem update_sets {set : Nat → V → LM V} {k : Nat} (hs : Sets E R G set k) {l : Lnk V} {w : LW V}
    {P : Lnk V → Prop} (hk : idleCount w < k + 1) (hc : Consistent E w R G) (hd : DistinctLinks w) (hl : l ∈ w.links)
    (hR : R l.src) (hv : w.vals l.src = some (G l.src)) (hy : Stepped R G P w) (hb : Busy R G none w) :
    ∃ w', update E set l w = (.ok (), w') ∧ SameLinks w w' ∧ Towards R G w w' ∧
      Stepped R G (fun m => P m ∧ m ≠ l) w' := by
  unfold update
  by_cases hu : w.unl l.id = true
  · rw [if_pos hu]
    refine ⟨w, rfl, ⟨rfl, rfl, rfl⟩, .refl w, fun m hm hR hv => (hy m hm hR hv).imp id fun h => ⟨h, ?_⟩⟩
    rintro rfl
    rw [hm.2] at hu
    cases hu
  · have hact : Active w l := ⟨hl, by simpa using hu⟩
    rw [if_neg hu]
    by_cases hup : w.upd l.id = true
    · rw [if_pos hup]
      have ht : w.vals l.tgt = some (G l.tgt) := (hb l hact hR hup).resolve_right (by simp)
      refine ⟨w, rfl, ⟨rfl, rfl, rfl⟩, .refl w, fun m hm hR hv => ?_⟩
      rcases hy m hm hR hv with h | h
      · exact .inl h
      · by_cases hml : m = l
        · subst hml; exact .inl ht
        · exact .inr ⟨h, hml⟩
    · rw [if_neg hup]
      have hup : w.upd l.id = false := by simpa using hup
      obtain ⟨y, h1, h2⟩ := hc.image l hact hR
      simp only [hv, Option.getD_some, h1]
      have hlt := idle_lt hl hup
      obtain ⟨w2, e1, e2, e3, e4, e5⟩ := hs l.tgt y { w with upd := put w.upd l.id true } P (by omega)
        (consistent_same (w := w) rfl rfl hc) (distinct_same (w := w) rfl hd) (hc.closed l hact hR) h2 hy (by
          intro m hm hRm hum
          by_cases hml : m.id = l.id
          · exact .inr (by rw [hd m l hm.1 hl hml])
          · refine (hb m hm hRm ?_).imp id (by simp)
            simpa [put, hml] using hum)
      simp only [e1]
      refine ⟨_, rfl, ⟨e2.1, e2.2.1, ?_⟩, e3, fun m hm hRm hvm => ?_⟩
      · show put w2.upd l.id false = _
        rw [e2.2.2]
        exact put_put hup
      · rcases e5 m hm hRm hvm with h | h
        · exact .inl h
        · by_cases hml : m = l
          · subst hml; exact .inl e4
          · exact .inr ⟨h.1, hml⟩

theorem runLinks_sets {set : Nat → V → LM V} {k : Nat} (hs : Sets E R G set k) :
    ∀ (ls : List (Lnk V)) (w : LW V) (P : Lnk V → Prop), idleCount w < k + 1 → Consistent E w R G → DistinctLinks w →
    (∀ l ∈ ls, l ∈ w.links ∧ R l.src ∧ w.vals l.src = some (G l.src)) → Stepped R G P w → Busy R G none w →
    ∃ w', runLinks E set ls w = (.ok (), w') ∧ SameLinks w w' ∧ Towards R G w w' ∧
      Stepped R G (fun m => P m ∧ m ∉ ls) w'
  | [], w, P, _, _, _, _, hy, _ => ⟨w, rfl, ⟨rfl, rfl, rfl⟩, .refl w, fun m hm hR hv => (hy m hm hR hv).imp id (by simp)⟩
  | l :: ls, w, P, hk, hc, hd, hl, hy, hb => by
    obtain ⟨h1, h2, h3⟩ := hl l (by simp)
    obtain ⟨w1, e1, e2, e3, e4⟩ := update_sets hs hk hc hd h1 h2 h3 hy hb
    obtain ⟨w2, f1, f2, f3, f4⟩ := runLinks_sets hs ls w1 _ (by rw [idle_same e2.1 e2.2.2]; exact hk)
      (consistent_same e2.1 e2.2.1 hc) (distinct_same e2.1 hd)
      (fun m hm => by
        obtain ⟨a, b, c⟩ := hl m (by simp [hm])
        exact ⟨e2.1 ▸ a, b, e3.keep c⟩) e4 (busy_towards e2 e3 hb)
    refine ⟨w2, ?_, e2.trans f2, e3.trans f3, fun m hm hR hv => (f4 m hm hR hv).imp id ?_⟩
    · unfold runLinks
      simp only [e1, f1]
    · rintro ⟨⟨a, b⟩, c⟩
      exact ⟨a, by simp [b, c]⟩

theorem mem_observers {w : LW V} {n : Nat} {b : Bool} {l : Lnk V} :
    l ∈ observers w n b ↔ l ∈ w.links ∧ l.src = n ∧ l.changeOnly = b := by
  simp [observers]

theorem assign_sets (hx : ExactEqual E R) : ∀ k, Sets E R G (assign E k) k
  | 0, _, _, _, _, h, _, _, _, _, _, _ => absurd h (Nat.not_lt_zero _)
  | k + 1, n, v, w, P, hk, hc, hd, hR, hco, hy, hb => by
    have ih := assign_sets hx k
    have hobs : ∀ (w : LW V) (b : Bool), w.vals n = some (G n) →
        ∀ l ∈ observers w n b, l ∈ w.links ∧ R l.src ∧ w.vals l.src = some (G l.src) := by
      intro w b hv l hl
      obtain ⟨a, b, c⟩ := mem_observers.1 hl
      exact ⟨a, b ▸ hR, by rw [b]; exact hv⟩
    let w1 : LW V := { w with vals := put w.vals n (some (G n)) }
    have hv1 : w1.vals n = some (G n) := by simp [w1, put]
    have ht1 : Towards R G w w1 := by
      intro m
      by_cases h : m = n
      · subst h; exact .inr ⟨hR, hv1⟩
      · left; simp [w1, put, h]
    have hb1 : Busy R G none w1 := by
      intro l hl hRl hul
      rcases hb l hl hRl hul with h | h
      · exact .inl (ht1.keep h)
      · cases h; exact .inl hv1
    have hsame : SameLinks w w1 := ⟨rfl, rfl, rfl⟩
    have hstep1 : Stepped R G (fun l => P l ∨ l.src = n) w1 := by
      intro l hl hRl hvl
      by_cases hn : l.src = n
      · exact .inr (.inr hn)
      · have : w.vals l.src = some (G l.src) := by simpa [w1, put, hn] using hvl
        exact (hy l hl hRl this).imp ht1.keep .inl
    unfold assign
    simp only [hco]
    -- with or without the observers of changes
    have last : ∀ (w2 : LW V) (Q : Lnk V → Prop), SameLinks w w2 → Towards R G w1 w2 → Stepped R G Q w2 →
        ∃ w', runLinks E (assign E k) (observers w2 n false) w2 = (.ok (), w') ∧ SameLinks w w' ∧
          Towards R G w w' ∧ w'.vals n = some (G n) ∧
          Stepped R G (fun l => Q l ∧ ¬ (l.src = n ∧ l.changeOnly = false)) w' := by
      intro w2 Q hs2 ht2 hq
      obtain ⟨w3, f1, f2, f3, f4⟩ := runLinks_sets ih (observers w2 n false) w2 Q
        (by rw [idle_same hs2.1 hs2.2.2]; exact hk) (consistent_same hs2.1 hs2.2.1 hc) (distinct_same hs2.1 hd)
        (hobs w2 false (ht2.keep hv1)) hq (busy_towards (w := w1) hs2 ht2 hb1)
      refine ⟨w3, f1, hs2.trans f2, ht1.trans (ht2.trans f3), f3.keep (ht2.keep hv1), fun l hl hRl hvl => ?_⟩
      refine (f4 l hl hRl hvl).imp id ?_
      rintro ⟨a, b⟩
      refine ⟨a, fun ⟨c, d⟩ => b (mem_observers.2 ⟨?_, c, d⟩)⟩
      rw [← f2.1]
      exact hl.1
    have withChange : ∃ w', notifyLinks E (assign E k) n true w1 = (.ok (), w') ∧ SameLinks w w' ∧ Towards R G w w' ∧
          w'.vals n = some (G n) ∧ Stepped R G (fun l => P l ∧ ¬ l.src = n) w' := by
      obtain ⟨w2, f1, f2, f3, f4⟩ := runLinks_sets ih (observers w1 n true) w1 _ (by exact hk)
        (consistent_same (w := w) rfl rfl hc) (distinct_same (w := w) rfl hd) (hobs w1 true hv1) hstep1 hb1
      obtain ⟨w3, g1, g2, g3, g4, g5⟩ := last w2 _ f2 f3 f4
      refine ⟨w3, by simp only [notifyLinks, if_true, f1, g1], g2, g3, g4, fun l hl hRl hvl => (g5 l hl hRl hvl).imp id ?_⟩
      rintro ⟨⟨a, b⟩, c⟩
      have hn : ¬ l.src = n := by
        intro hn
        cases hco : l.changeOnly with
        | false => exact c ⟨hn, hco⟩
        | true => exact b (mem_observers.2 ⟨by have := hl.1; rw [g2.1] at this; exact this, hn, hco⟩)
      exact ⟨a.resolve_right hn, hn⟩
    unfold setNode
    cases hp : w.vals n with
    | none =>
      obtain ⟨w', a, b, c, d, e⟩ := withChange
      exact ⟨w', a, b, c, d, fun l hl hRl hvl => (e l hl hRl hvl).imp id fun ⟨x, y⟩ => ⟨x, fun z => y z.1⟩⟩
    | some u =>
      cases hq : E.equal n u (G n) with
      | false =>
        have hdf : differs E n (some u) (some (G n)) = true := by simp [differs, hq]
        rw [hdf]
        obtain ⟨w', a, b, c, d, e⟩ := withChange
        exact ⟨w', a, b, c, d, fun l hl hRl hvl => (e l hl hRl hvl).imp id fun ⟨x, y⟩ => ⟨x, fun z => y z.1⟩⟩
      | true =>
        have hu := hx n u (G n) hR hq
        subst hu
        have hdf : differs E n (some (G n)) (some (G n)) = false := by simp [differs, hq]
        rw [hdf]
        simp only [notifyLinks, Bool.false_eq_true, if_false]
        have hstep : Stepped R G P w1 := by
          intro l hl hRl hvl
          have : w.vals l.src = some (G l.src) := by
            by_cases hn : l.src = n
            · rw [hn, hp]
            · simpa [w1, put, hn] using hvl
          exact (hy l hl hRl this).imp ht1.keep id
        obtain ⟨w', a, b, c, d, e⟩ := last w1 P hsame (.refl w1) hstep
        refine ⟨w', a, b, c, d, fun l hl hRl hvl => (e l hl hRl hvl).imp id fun ⟨x, y⟩ => ⟨x, fun z => y ⟨z.1, ?_⟩⟩⟩
        exact z.2.resolve_left (by simp)

/-- C40, one assignment: if the linked properties can all be given values that
agree (`Consistent`: on the nodes `R` reached from `a`, the value of each target is
the validated transform of the value of its source), an assignment to `a`
succeeds and afterwards the target of every active link from `a` holds its value —
if the assignment changed `a`, or for links that fire on every assignment.  No
other property changes except to the value it should have. -/
theorem C40_pushes (hx : ExactEqual E R) {w : LW V} (hi : Idle w) (hd : DistinctLinks w) (hc : Consistent E w R G)
    {a : Nat} {v : V} (hR : R a) (hv : E.coerce a v = some (G a)) {k : Nat} (hk : w.links.length < k) :
    ∃ w', assign E k a v w = (.ok (), w') ∧ w'.vals a = some (G a) ∧
      (∀ l, Active w l → l.src = a → (w.vals a ≠ some (G a) ∨ l.changeOnly = false) →
        w'.vals l.tgt = some (G l.tgt)) ∧
      (∀ m, w'.vals m = w.vals m ∨ (R m ∧ w'.vals m = some (G m))) ∧ Idle w' := by
  have hi' : idleCount w ≤ w.links.length := List.length_filter_le _ _
  obtain ⟨w', h1, h2, h3, h4, h5⟩ := assign_sets (G := G) hx k a v w (fun _ => True) (by omega) hc hd hR hv
    (fun _ _ _ _ => .inr trivial) (fun l _ _ h => by rw [hi] at h; cases h)
  refine ⟨w', h1, h4, fun l hl hs hch => ?_, h3, fun d => by rw [h2.2.2]; exact hi d⟩
  rcases h5 l ((active_same h2.1 h2.2.1).2 hl) (hs ▸ hR) (by rw [hs]; exact h4) with h | h
  · exact h
  · exact absurd ⟨hs, hch⟩ h.2

/-- C40, all the way: if the links were in step before, every property reachable
through links, over any number of links and around any cycle, holds its value
after the assignment. -/
theorem C40_in_step (hx : ExactEqual E R) {w : LW V} (hi : Idle w) (hd : DistinctLinks w) (hc : Consistent E w R G)
    {a : Nat} {v : V} (hR : R a) (hv : E.coerce a v = some (G a)) {k : Nat} (hk : w.links.length < k)
    (hs : ∀ l, Active w l → R l.src → InStep E w l) :
    ∃ w', assign E k a v w = (.ok (), w') ∧ (∀ m, Reach w a m → w'.vals m = some (G m)) ∧
      (∀ l, Active w l → Reach w a l.src → InStep E w' l) ∧
      (∀ m, w'.vals m = w.vals m ∨ (R m ∧ w'.vals m = some (G m))) := by
  have hi' : idleCount w ≤ w.links.length := List.length_filter_le _ _
  obtain ⟨w', h1, h2, h3, h4, h5⟩ := assign_sets (G := G) hx k a v w (fun _ => False) (by omega) hc hd hR hv
    (fun l hl hRl hvl => by
      obtain ⟨y, z, p, q, r⟩ := hs l hl hRl _ hvl
      obtain ⟨y', p', q'⟩ := hc.image l hl hRl
      rw [p] at p'; cases p'
      rw [q] at q'; cases q'
      exact .inl r) (fun l _ _ h => by rw [hi] at h; cases h)
  have hreach : ∀ m, Reach w a m → R m ∧ w'.vals m = some (G m) := by
    intro m hm
    induction hm with
    | here => exact ⟨hR, h4⟩
    | step _ hl ih =>
      exact ⟨hc.closed _ hl ih.1, (h5 _ ((active_same h2.1 h2.2.1).2 hl) ih.1 ih.2).resolve_right fun h => h.1⟩
  refine ⟨w', h1, fun m hm => (hreach m hm).2, fun l hl hr x hxv => ?_, h3⟩
  obtain ⟨hRl, hvl⟩ := hreach _ hr
  rw [hvl] at hxv
  cases hxv
  obtain ⟨y, p, q⟩ := hc.image l hl hRl
  exact ⟨y, _, p, q, (hreach _ (.step hr hl)).2⟩

/-! ## Groups -/

/-- C40 for `link()`: if the links between the members of a group are active, the
members' links lead nowhere else, and the value assigned is one that every member
keeps as it is, then after an assignment that changes one member all members hold
the same value, whatever they held before. -/
theorem C40_group {w : LW V} (items : List Nat) (hx : ExactEqual E (· ∈ items)) (hi : Idle w) (hd : DistinctLinks w)
    (hin : ∀ l, Active w l → l.src ∈ items → l.tgt ∈ items ∧ l.transform = some)
    (hall : ∀ a b, a ∈ items → b ∈ items → a ≠ b → ∃ l, Active w l ∧ l.src = a ∧ l.tgt = b)
    {a : Nat} {v x : V} (ha : a ∈ items) (hv : E.coerce a v = some x) (hfix : ∀ b ∈ items, E.coerce b x = some x)
    (hch : w.vals a ≠ some x) {k : Nat} (hk : w.links.length < k) :
    ∃ w', assign E k a v w = (.ok (), w') ∧ (∀ b ∈ items, w'.vals b = some x) ∧
      ∀ m, m ∉ items → w'.vals m = w.vals m := by
  obtain ⟨w', h1, h2, h3, h4, _⟩ := C40_pushes (R := (· ∈ items)) (G := fun _ => x) hx hi hd
    ⟨fun l hl hs => (hin l hl hs).1, fun l hl hs => ⟨x, by rw [(hin l hl hs).2], hfix _ (hin l hl hs).1⟩⟩ ha hv hk
  refine ⟨w', h1, fun b hb => ?_, fun m hm => ?_⟩
  · by_cases hab : b = a
    · subst hab; exact h2
    · obtain ⟨l, hl, hs, ht⟩ := hall a b ha hb (Ne.symm hab)
      rw [← ht]
      exact h3 l hl hs (.inl hch)
  · exact (h4 m).resolve_right fun h => hm h.1

/-- Creating a link that does not update now only appends it. -/
theorem create_later (k : Nat) (l : Lnk V) (w : LW V) (h : l.src ≠ l.tgt) :
    create E k l false w = (.ok (), { w with links := w.links ++ [l] }) := by
  unfold create
  rw [if_neg h]
  rfl

/-- `link(*items)`: the directional links one after the other. -/
theorem group_members {changeOnly : Bool} {id : Nat} {items : List Nat} {l : Lnk V} :
    l ∈ groupLinks changeOnly id items ↔ ∃ i j : Nat, i ≠ j ∧ ∃ a b, items[i]? = some a ∧ items[j]? = some b ∧
      l = ⟨id + i * items.length + j, a, b, some, changeOnly⟩ := by
  unfold groupLinks
  simp only [List.mem_flatMap, List.mem_range, List.mem_filterMap]
  constructor
  · rintro ⟨i, hi, j, hj, h⟩
    by_cases hij : i = j
    · simp [hij] at h
    · rw [if_neg hij] at h
      rw [List.getElem?_eq_getElem hi, List.getElem?_eq_getElem hj] at h
      simp only [Option.some.injEq] at h
      exact ⟨i, j, hij, _, _, List.getElem?_eq_getElem hi, List.getElem?_eq_getElem hj, h.symm⟩
  · rintro ⟨i, j, hij, a, b, ha, hb, rfl⟩
    obtain ⟨hi, _⟩ := List.getElem?_eq_some_iff.1 ha
    obtain ⟨hj, _⟩ := List.getElem?_eq_some_iff.1 hb
    exact ⟨i, hi, j, hj, by rw [if_neg hij, ha, hb]⟩

/-- C40 for a group as `link(*items)` makes it, in a state without other links. -/
theorem C40_link {w : LW V} {items : List Nat} (changeOnly : Bool) (id : Nat) (hnd : items.Nodup)
    (hx : ExactEqual E (· ∈ items)) (hi : Idle w) (hl : w.links = groupLinks changeOnly id items)
    (hu : ∀ d, w.unl d = false) {a : Nat} {v x : V} (ha : a ∈ items) (hv : E.coerce a v = some x)
    (hfix : ∀ b ∈ items, E.coerce b x = some x) (hch : w.vals a ≠ some x) {k : Nat} (hk : w.links.length < k) :
    ∃ w', assign E k a v w = (.ok (), w') ∧ (∀ b ∈ items, w'.vals b = some x) ∧
      ∀ m, m ∉ items → w'.vals m = w.vals m := by
  refine C40_group items hx hi ?_ ?_ ?_ ha hv hfix hch hk
  · intro l m hm1 hm2 he
    rw [hl] at hm1 hm2
    obtain ⟨i, j, hij, p, q, hp, hq, rfl⟩ := group_members.1 hm1
    obtain ⟨i', j', hij', p', q', hp', hq', rfl⟩ := group_members.1 hm2
    obtain ⟨h1, _⟩ := List.getElem?_eq_some_iff.1 hq
    obtain ⟨h2, _⟩ := List.getElem?_eq_some_iff.1 hq'
    have he : i * items.length + j = i' * items.length + j' := by simp only at he; omega
    have hn : 0 < items.length := by omega
    have h3 : i = i' := by
      have := congrArg (· / items.length) he
      simpa [Nat.mul_comm _ items.length, Nat.mul_add_div hn, Nat.div_eq_of_lt h1, Nat.div_eq_of_lt h2] using this
    subst h3
    have h4 : j = j' := by omega
    subst h4
    rw [hp] at hp'; cases hp'
    rw [hq] at hq'; cases hq'
    rfl
  · intro l hact hs
    have := hact.1
    rw [hl] at this
    obtain ⟨i, j, hij, p, q, hp, hq, rfl⟩ := group_members.1 this
    exact ⟨List.mem_of_getElem? hq, rfl⟩
  · intro p q hp hq hpq
    obtain ⟨i, hi'⟩ := List.mem_iff_getElem?.1 hp
    obtain ⟨j, hj'⟩ := List.mem_iff_getElem?.1 hq
    have hij : i ≠ j := by rintro rfl; rw [hi'] at hj'; cases hj'; exact hpq rfl
    exact ⟨_, ⟨by rw [hl]; exact group_members.2 ⟨i, j, hij, p, q, hi', hj', rfl⟩, hu _⟩, rfl, rfl⟩

/-! ## Unlinking -/

/-- Running in the state without a link. -/
def Blind (d : Nat) (m m' : LM V) : Prop :=
  ∀ w, w.unl d = true → m' (without d w) = ((m w).1, without d (m w).2) ∧ (m w).2.unl = w.unl

theorem update_blind {set : Nat → V → LM V} {d : Nat} (hs : ∀ n v, Blind d (set n v) (set n v)) (l : Lnk V) :
    Blind d (update E set l) (update E set l) := by
  intro w hw
  unfold update
  by_cases hu : w.unl l.id = true
  · have hu' : (without d w).unl l.id = true := hu
    rw [if_pos hu, if_pos hu']
    exact ⟨rfl, rfl⟩
  · have hu' : ¬ (without d w).unl l.id = true := hu
    rw [if_neg hu, if_neg hu']
    by_cases hp : w.upd l.id = true
    · have hp' : (without d w).upd l.id = true := hp
      rw [if_pos hp, if_pos hp']
      exact ⟨rfl, rfl⟩
    · have hp' : ¬ (without d w).upd l.id = true := hp
      rw [if_neg hp, if_neg hp']
      simp only [without]
      cases l.transform ((w.vals l.src).getD E.noneV) with
      | none => simp
      | some v =>
        obtain ⟨a, b⟩ := hs l.tgt v { w with upd := put w.upd l.id true } hw
        simp only [without] at a
        simp only [a]
        exact ⟨trivial, b⟩

theorem runLinks_blind {set : Nat → V → LM V} {d : Nat} (hs : ∀ n v, Blind d (set n v) (set n v)) :
    ∀ ls : List (Lnk V), Blind d (runLinks E set ls) (runLinks E set (ls.filter fun l => l.id != d))
  | [], w, _ => ⟨rfl, rfl⟩
  | l :: ls, w, hw => by
    by_cases hld : l.id = d
    · have hf : (l :: ls).filter (fun l => l.id != d) = ls.filter fun l => l.id != d := by simp [hld]
      have hup : update E set l w = (.ok (), w) := by
        unfold update
        rw [if_pos (by rw [hld]; exact hw)]
      rw [hf]
      simp only [runLinks, hup]
      exact runLinks_blind hs ls w hw
    · have hf : (l :: ls).filter (fun l => l.id != d) = l :: ls.filter fun l => l.id != d := by simp [hld]
      rw [hf]
      obtain ⟨a, b⟩ := update_blind (E := E) hs l w hw
      simp only [runLinks, a]
      cases hu : update E set l w with
      | mk r w1 =>
        rw [hu] at b
        cases r with
        | error e => exact ⟨rfl, b⟩
        | ok u =>
          obtain ⟨c, e⟩ := runLinks_blind hs ls w1 (by rw [show w1.unl = w.unl from b]; exact hw)
          exact ⟨c, e.trans b⟩

theorem observers_without (d : Nat) (w : LW V) (n : Nat) (b : Bool) :
    observers (without d w) n b = (observers w n b).filter fun l => l.id != d := by
  unfold observers without
  simp only [List.filter_filter]
  congr 1
  funext l
  exact Bool.and_comm _ _

theorem setNode_blind {set : Nat → V → LM V} {d : Nat} (hs : ∀ n v, Blind d (set n v) (set n v)) (n : Nat)
    (v : Option V) : Blind d (setNode E set n v) (setNode E set n v) := by
  have key : ∀ differ, Blind d (notifyLinks E set n differ) (notifyLinks E set n differ) := by
    intro differ w hw
    unfold notifyLinks
    cases differ with
    | false =>
      simp only [Bool.false_eq_true, if_false]
      rw [observers_without]
      exact runLinks_blind hs _ w hw
    | true =>
      simp only [if_true]
      obtain ⟨a, b⟩ := runLinks_blind (E := E) hs (observers w n true) w hw
      rw [observers_without, a]
      cases hr : runLinks E set (observers w n true) w with
      | mk r w1 =>
        rw [hr] at b
        cases r with
        | error e => exact ⟨rfl, b⟩
        | ok u =>
          simp only []
          rw [observers_without]
          obtain ⟨c, e⟩ := runLinks_blind (E := E) hs (observers w1 n false) w1 (by rw [show w1.unl = w.unl from b]; exact hw)
          exact ⟨c, e.trans b⟩
  intro w hw
  exact key (differs E n (w.vals n) v) { w with vals := put w.vals n v } hw

theorem assign_blind (d : Nat) : ∀ k n (v : V), Blind d (assign E k n v) (assign E k n v)
  | 0, _, _, _, _ => ⟨rfl, rfl⟩
  | k + 1, n, v, w, hw => by
    simp only [assign]
    cases E.coerce n v with
    | none => exact ⟨rfl, rfl⟩
    | some x => exact setNode_blind (assign_blind d k) n (some x) w hw

/-- A history leaves a link alone. -/
def LeavesAlone (d : Nat) : LOp V → Prop
  | .create l _ => l.id ≠ d
  | .relink d' => d' ≠ d
  | _ => True

theorem doOp_blind {d : Nat} (k : Nat) {o : LOp V} (ho : LeavesAlone d o) {w : LW V} (hw : w.unl d = true) :
    doOp E k o (without d w) = without d (doOp E k o w) ∧ (doOp E k o w).unl d = true := by
  cases o with
  | assign n v =>
    obtain ⟨a, b⟩ := assign_blind (E := E) d k n v w hw
    exact ⟨congrArg Prod.snd a, by rw [show (doOp E k (.assign n v) w).unl = w.unl from b]; exact hw⟩
  | delete n =>
    obtain ⟨a, b⟩ := setNode_blind (E := E) (assign_blind d k) n none w hw
    exact ⟨congrArg Prod.snd a, by rw [show (doOp E k (.delete n) w).unl = w.unl from b]; exact hw⟩
  | create l now =>
    have hl : l.id ≠ d := ho
    simp only [doOp, create]
    by_cases h : l.src = l.tgt
    · rw [if_pos h, if_pos h]; exact ⟨rfl, hw⟩
    · rw [if_neg h, if_neg h]
      cases now with
      | false =>
        simp only [Bool.false_eq_true, if_false]
        exact ⟨by simp [without, List.filter_append, hl], hw⟩
      | true =>
        simp only [if_true]
        obtain ⟨a, b⟩ := update_blind (E := E) (assign_blind d k) l w hw
        rw [a]
        cases hu : update E (assign E k) l w with
        | mk r w1 =>
          rw [hu] at b
          have hw1 : w1.unl d = true := by rw [show w1.unl = w.unl from b]; exact hw
          cases r with
          | error e => exact ⟨rfl, hw1⟩
          | ok u => exact ⟨by simp [without, List.filter_append, hl], hw1⟩
  | unlink d' =>
    refine ⟨rfl, ?_⟩
    show put w.unl d' true d = true
    unfold put
    split
    · rfl
    · exact hw
  | relink d' =>
    have hd : d' ≠ d := ho
    refine ⟨rfl, ?_⟩
    show put w.unl d' false d = true
    unfold put
    rw [if_neg (Ne.symm hd)]
    exact hw

theorem doOps_blind {d : Nat} (k : Nat) : ∀ (os : List (LOp V)) (w : LW V), (∀ o ∈ os, LeavesAlone d o) → w.unl d = true →
    doOps E k os (without d w) = without d (doOps E k os w)
  | [], _, _, _ => rfl
  | o :: os, w, ho, hw => by
    obtain ⟨a, b⟩ := doOp_blind (E := E) k (ho o (by simp)) hw
    simp only [doOps, a]
    exact doOps_blind k os _ (fun o' h => ho o' (by simp [h])) b

/-- C42: after `unlink`, every history that does not relink runs exactly as if
the link did not exist: all properties have the values they would have without
it. -/
theorem C42_unlinked (d : Nat) (k : Nat) (os : List (LOp V)) (w : LW V) (ho : ∀ o ∈ os, LeavesAlone d o) :
    (doOps E k os (unlink d w)).vals = (doOps E k os (without d (unlink d w))).vals := by
  rw [doOps_blind k os _ ho (by simp [unlink, put])]
  rfl

/-- C42: `unlink` and `relink` change no value; after both, an active link is as
before. -/
theorem C42_relink (d : Nat) (w : LW V) (h : w.unl d = false) :
    relink d (unlink d w) = w ∧ (unlink d w).vals = w.vals ∧ (relink d w).vals = w.vals := by
  refine ⟨?_, rfl, rfl⟩
  have : put (put w.unl d true) d false = w.unl := put_put h
  simp only [relink, unlink, this]

/-- C42: after `relink` the next assignment that changes the source is pushed to
the target, whatever happened while the link was not active. -/
theorem C42_resumes (hx : ExactEqual E R) {w : LW V} (l : Lnk V) (hl : l ∈ w.links) (hi : Idle w) (hd : DistinctLinks w)
    (hc : Consistent E (relink l.id w) R G) {v : V} (hR : R l.src) (hv : E.coerce l.src v = some (G l.src))
    (hch : w.vals l.src ≠ some (G l.src)) {k : Nat} (hk : w.links.length < k) :
    ∃ w', assign E k l.src v (relink l.id w) = (.ok (), w') ∧ w'.vals l.src = some (G l.src) ∧
      w'.vals l.tgt = some (G l.tgt) := by
  obtain ⟨w', h1, h2, h3, _⟩ := C40_pushes (w := relink l.id w) hx hi (distinct_same (w := w) rfl hd) hc hR hv hk
  exact ⟨w', h1, h2, h3 l ⟨hl, by simp [relink, put]⟩ rfl (.inl hch)⟩

/-! ## Histories keep links idle and distinct -/

theorem update_keeps (k : Nat) {w : LW V} (l : Lnk V) (hi : Idle w) (hk : w.links.length ≤ k) :
    (update E (assign E (k + 1)) l w).2.links = w.links ∧ Idle (update E (assign E (k + 1)) l w).2 := by
  have hi' : idleCount w ≤ w.links.length := List.length_filter_le _ _
  unfold update
  split
  · exact ⟨rfl, hi⟩
  · split
    · exact ⟨rfl, hi⟩
    · simp only []
      cases l.transform ((w.vals l.src).getD E.noneV) with
      | none => exact ⟨rfl, fun d => by rw [put_put (hi _)]; exact hi d⟩
      | some v =>
        have hle : idleCount { w with upd := put w.upd l.id true } ≤ w.links.length := List.length_filter_le _ _
        obtain ⟨_, _, c, d, _⟩ := assign_settles E (k + 1) l.tgt v { w with upd := put w.upd l.id true } (by omega)
        refine ⟨c, fun i => ?_⟩
        show put (assign E (k + 1) l.tgt v _).2.upd l.id false i = false
        rw [d, put_put (hi _)]
        exact hi i

/-- New links are new objects. -/
def FreshLinks : LW V → LOp V → Prop
  | w, .create l _ => ∀ m ∈ w.links, m.id ≠ l.id
  | _, _ => True

/-- C41, histories: between operations no link is being updated and links stay
distinct, which C40 asks for. -/
theorem C41_between (k : Nat) {w : LW V} (o : LOp V) (hi : Idle w) (hd : DistinctLinks w) (hf : FreshLinks w o)
    (hk : w.links.length ≤ k) : Idle (doOp E (k + 1) o w) ∧ DistinctLinks (doOp E (k + 1) o w) := by
  have hi' : idleCount w ≤ w.links.length := List.length_filter_le _ _
  cases o with
  | assign n v =>
    obtain ⟨_, _, c, d, _⟩ := assign_settles E (k + 1) n v w (by omega)
    exact ⟨fun i => by show (assign E (k + 1) n v w).2.upd i = false; rw [d]; exact hi i, distinct_same c hd⟩
  | delete n =>
    obtain ⟨_, _, c, d, _⟩ := setNode_settles (E := E) (assign_settles E (k + 1)) n none w (by omega)
    exact ⟨fun i => by show (delete E (k + 1) n w).2.upd i = false; unfold delete; rw [d]; exact hi i, distinct_same c hd⟩
  | unlink d => exact ⟨hi, distinct_same (w := w) rfl hd⟩
  | relink d => exact ⟨hi, distinct_same (w := w) rfl hd⟩
  | create l now =>
    have app : ∀ w1 : LW V, w1.links = w.links → DistinctLinks { w1 with links := w1.links ++ [l] } := by
      intro w1 h1 p q hp hq he
      simp only [h1, List.mem_append, List.mem_singleton] at hp hq
      rcases hp with hp | rfl <;> rcases hq with hq | rfl
      · exact hd p q hp hq he
      · exact absurd he (hf p hp)
      · exact absurd he.symm (hf q hq)
      · rfl
    simp only [doOp, create]
    by_cases h : l.src = l.tgt
    · rw [if_pos h]; exact ⟨hi, hd⟩
    · rw [if_neg h]
      cases now with
      | false => exact ⟨hi, app w rfl⟩
      | true =>
        simp only [if_true]
        obtain ⟨a, b⟩ := update_keeps (E := E) k l hi hk
        cases hu : update E (assign E (k + 1)) l w with
        | mk r w1 =>
          rw [hu] at a b
          cases r with
          | error e => exact ⟨b, distinct_same a hd⟩
          | ok u => exact ⟨b, app w1 a⟩

/-- C40: a property whose links follow changes only: deleting it when it is not
set does nothing at all, and assigning an equal value stores that value and does
nothing else. -/
theorem C40_no_change {n : Nat} {w : LW V} (k : Nat) (hl : ∀ l ∈ w.links, l.src = n → l.changeOnly = true) :
    (w.vals n = none → delete E k n w = (.ok (), w)) ∧
    (∀ a v x, w.vals n = some a → E.coerce n v = some x → E.equal n a x = true →
      assign E (k + 1) n v w = (.ok (), { w with vals := put w.vals n (some x) })) := by
  have hno : ∀ f, observers { w with vals := f } n false = [] := by
    intro f
    refine List.filter_eq_nil_iff.2 fun l hm => ?_
    intro hc
    simp only [Bool.and_eq_true, beq_iff_eq] at hc
    rw [hl l hm hc.1] at hc
    exact Bool.noConfusion hc.2
  constructor
  · intro h
    have hp : put w.vals n none = w.vals := by
      funext j; unfold put; split
      · subst_vars; exact h.symm
      · rfl
    show setNode E (assign E k) n none w = _
    unfold setNode notifyLinks
    rw [h]
    simp only [differs, Bool.false_eq_true, if_false, hno, runLinks, hp]
  · intro a v x h1 h2 h3
    show (match E.coerce n v with | none => _ | some x => setNode E (assign E k) n (some x) w) = _
    rw [h2]
    show setNode E (assign E k) n (some x) w = _
    unfold setNode notifyLinks
    rw [h1]
    simp only [differs, h3, Bool.not_true, Bool.false_eq_true, if_false, hno, runLinks]

/-! ## Concrete cases -/

/-- Numbers; node 3 only accepts numbers below 10. -/
def numEnv : LEnv Nat where
  coerce := fun n v => if n = 3 ∧ 10 ≤ v then none else some v
  equal := fun _ a b => a == b
  noneV := 1000

theorem numEnv_exact (R : Nat → Prop) : ExactEqual numEnv R := fun _ a b _ h => by simpa [numEnv] using h

/-- Three properties linked by `link()`. -/
def trio : LW Nat := ⟨fun n => if n = 0 then some 1 else none, groupLinks true 0 [0, 1, 2], fun _ => false, fun _ => false⟩

/-- Six links; an assignment gives all three the value. -/
theorem C40_example : trio.links.length = 6 ∧ ∃ w', assign numEnv 7 0 5 trio = (.ok (), w') ∧
    (∀ b ∈ [0, 1, 2], w'.vals b = some 5) ∧ ∀ m, m ∉ [0, 1, 2] → w'.vals m = trio.vals m :=
  ⟨by decide, C40_link (E := numEnv) true 0 (by decide) (numEnv_exact _) (fun _ => rfl) rfl (fun _ => rfl)
    (x := 5) (by decide) (by decide) (by decide) (by decide) (by decide)⟩

/-- A cycle with transforms that undo each other, and a further link. -/
def goodCycle : LW Nat :=
  ⟨fun _ => none, [⟨0, 0, 1, fun v => some (v + 1), true⟩, ⟨1, 1, 0, fun v => some (v - 1), true⟩,
    ⟨2, 1, 2, fun v => some (2 * v), false⟩], fun _ => false, fun _ => false⟩

/-- The hypotheses of `C40_in_step` on a cycle with transforms. -/
theorem C40_cycle_example : ∃ w', assign numEnv 4 0 5 goodCycle = (.ok (), w') ∧
    w'.vals 0 = some 5 ∧ w'.vals 1 = some 6 ∧ w'.vals 2 = some 12 := by
  obtain ⟨w', h1, h2, _⟩ := C40_in_step (E := numEnv) (w := goodCycle) (R := (· ≤ 2))
    (G := fun n => if n = 0 then 5 else if n = 1 then 6 else 12) (a := 0) (v := 5) (k := 4) (numEnv_exact _)
    (fun _ => rfl) (by
      intro l m hl hm he
      simp only [goodCycle, List.mem_cons, List.not_mem_nil, or_false] at hl hm
      rcases hl with rfl | rfl | rfl <;> rcases hm with rfl | rfl | rfl <;> first | rfl | cases he)
    (by
      constructor
      · rintro l ⟨hl, _⟩ _
        simp only [goodCycle, List.mem_cons, List.not_mem_nil, or_false] at hl
        rcases hl with rfl | rfl | rfl <;> decide
      · rintro l ⟨hl, _⟩ _
        simp only [goodCycle, List.mem_cons, List.not_mem_nil, or_false] at hl
        rcases hl with rfl | rfl | rfl <;> exact ⟨_, rfl, by decide⟩)
    (by decide) (by decide) (by decide) (fun l _ _ x hx => by cases hx)
  have a0 : Active goodCycle ⟨0, 0, 1, fun v => some (v + 1), true⟩ := ⟨by simp [goodCycle], rfl⟩
  have a2 : Active goodCycle ⟨2, 1, 2, fun v => some (2 * v), false⟩ := ⟨by simp [goodCycle], rfl⟩
  exact ⟨w', h1, h2 0 .here, h2 1 (.step (l := ⟨0, 0, 1, _, _⟩) .here a0),
    h2 2 (.step (l := ⟨2, 1, 2, _, _⟩) (.step (l := ⟨0, 0, 1, _, _⟩) .here a0) a2)⟩

/-- A cycle with transforms that do not undo each other. -/
def offCycle : LW Nat :=
  ⟨fun _ => none, [⟨0, 0, 1, fun v => some (v + 1), true⟩, ⟨1, 1, 0, some, true⟩], fun _ => false, fun _ => false⟩

/-- Why `Consistent` is needed: around a cycle whose transforms do not undo each
other, the assignment succeeds but the source no longer has the assigned value and
the target is not in step. -/
theorem C40_inconsistent_cycle : (assign numEnv 3 0 5 offCycle).1 = .ok () ∧
    (assign numEnv 3 0 5 offCycle).2.vals 0 = some 6 ∧ (assign numEnv 3 0 5 offCycle).2.vals 1 = some 6 ∧
    ¬ InStep numEnv (assign numEnv 3 0 5 offCycle).2 ⟨0, 0, 1, fun v => some (v + 1), true⟩ := by
  refine ⟨rfl, by decide, by decide, fun h => ?_⟩
  obtain ⟨y, z, h1, h2, h3⟩ := h 6 (by decide)
  cases h1
  have : z = 7 := by simpa [numEnv] using h2.symm
  subst this
  have h6 : (assign numEnv 3 0 5 offCycle).2.vals 1 = some 6 := by decide
  rw [h6] at h3
  cases h3

/-- A link from node 0 to node 3, in step. -/
def pair : LW Nat :=
  ⟨fun n => if n = 0 ∨ n = 3 then some 1 else none, [⟨0, 0, 3, some, true⟩], fun _ => false, fun _ => false⟩

/-- The hypotheses of `C40_no_change`: the link of `pair` follows changes only;
its source is set, and with the source unset the target keeps its own value. -/
theorem C40_no_change_example : (∀ l ∈ pair.links, l.src = 0 → l.changeOnly = true) ∧ pair.vals 0 = some 1 ∧
    assign numEnv 2 0 1 pair = (.ok (), { pair with vals := put pair.vals 0 (some 1) }) ∧
    delete numEnv 1 0 { pair with vals := put pair.vals 0 none } = (.ok (), { pair with vals := put pair.vals 0 none }) := by
  have hl : ∀ l ∈ pair.links, l.src = 0 → l.changeOnly = true := by
    intro l h _
    simp only [pair, List.mem_singleton] at h
    subst h
    rfl
  exact ⟨hl, rfl, (C40_no_change 1 hl).2 1 1 1 rfl rfl rfl,
    (C40_no_change (w := { pair with vals := put pair.vals 0 none }) 1 hl).1 rfl⟩

/-- Why the value must be acceptable to the target: otherwise the assignment
raises the target's error, but the source keeps the new value; no link is left
in the state of being updated. -/
theorem C40_rejected_by_target : (assign numEnv 2 0 50 pair).1 = .error .invalid ∧
    (assign numEnv 2 0 50 pair).2.vals 0 = some 50 ∧ (assign numEnv 2 0 50 pair).2.vals 3 = some 1 ∧
    (assign numEnv 2 0 50 pair).2.upd 0 = false :=
  ⟨rfl, by decide, by decide, by decide⟩

/-- Deleting the source of a link hands None to the target's validation: if the
target does not accept None, the deletion raises, the source is deleted and the
target keeps its value. -/
theorem C40_delete_source : (delete numEnv 2 0 pair).1 = .error .invalid ∧
    (delete numEnv 2 0 pair).2.vals 0 = none ∧ (delete numEnv 2 0 pair).2.vals 3 = some 1 :=
  ⟨rfl, by decide, by decide⟩

/-- `relink` does not copy the source's value: the target follows from the next
change of the source. -/
theorem C42_example :
    (doOps numEnv 2 [.unlink 0, .assign 0 7, .relink 0] pair).vals 3 = some 1 ∧
    (doOps numEnv 2 [.unlink 0, .assign 0 7, .relink 0, .assign 0 7] pair).vals 3 = some 1 ∧
    (doOps numEnv 2 [.unlink 0, .assign 0 7, .relink 0, .assign 0 8] pair).vals 3 = some 8 := by
  decide

end Verif.Links
