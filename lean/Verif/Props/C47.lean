import Verif.Spec.Observable

/-!
# C47, C48: observed containers and their aliases
-/

namespace Verif.Obs
open Spec

theorem andThen_ok {α β : Type} {x : HM α} {f : α → HM β} {w w' : W} {a : α} (h : x w = (.ok a, w')) :
    andThen x f w = f a w' := by unfold andThen; rw [h]

theorem andThen_err {α β : Type} {x : HM α} {f : α → HM β} {w w' : W} {e : Err} (h : x w = (.error e, w')) :
    andThen x f w = (.error e, w') := by unfold andThen; rw [h]

/-- Splits a sequence. -/
theorem andThen_cases {α β : Type} {x : HM α} {f : α → HM β} {w : W} {P : Except Err β × W → Prop}
    (he : ∀ e w', x w = (.error e, w') → P (.error e, w'))
    (ho : ∀ a w', x w = (.ok a, w') → P (f a w')) : P (andThen x f w) := by
  cases h : x w with
  | mk r w' =>
    cases r with
    | error e => rw [andThen_err h]; exact he e w' h
    | ok a => rw [andThen_ok h]; exact ho a w' h

theorem Spec.OnlyCreates.refl (w : W) : OnlyCreates w w := ⟨rfl, rfl, [], by simp⟩

theorem Spec.OnlyCreates.trans {a b c : W} (h : OnlyCreates a b) (h2 : OnlyCreates b c) : OnlyCreates a c := by
  obtain ⟨x, hx⟩ := h.cells
  obtain ⟨y, hy⟩ := h2.cells
  exact ⟨h2.slots.trans h.slots, h2.log.trans h.log, x ++ y, by rw [hy, hx, List.append_assoc]⟩

theorem onlyCreates_alloc (c : Cell) (w : W) : OnlyCreates w (alloc c w).2 := ⟨rfl, rfl, [c], rfl⟩

theorem Spec.OnlyCreates.length {w w' : W} (h : OnlyCreates w w') : w.cells.length ≤ w'.cells.length := by
  obtain ⟨x, hx⟩ := h.cells
  rw [hx, List.length_append]
  omega

theorem Spec.OnlyCreates.cell {w w' : W} (h : OnlyCreates w w') {r : Nat} {c : Cell} (hc : w.cells[r]? = some c) :
    w'.cells[r]? = some c := by
  obtain ⟨x, hx⟩ := h.cells
  rw [hx, List.getElem?_append_left (List.getElem?_eq_some_iff.1 hc).1]
  exact hc

/-! ## What validation does -/

/-- The list of items that `plain` validation gives. -/
theorem mapHM_plain {check : Item → Except Err Item} {i n : Nat} : ∀ (xs : List Item) (w : W),
    (mapHM (validItem (.plain check) i n) xs w).2 = w ∧
    ∀ ys, (mapHM (validItem (.plain check) i n) xs w).1 = .ok ys → List.Forall₂ (fun y z => check y = .ok z) xs ys
  | [], w => ⟨rfl, fun ys h => by cases h; exact .nil⟩
  | x :: xs, w => by
    obtain ⟨h1, h2⟩ := mapHM_plain (check := check) (i := i) (n := n) xs w
    unfold mapHM
    have hv : validItem (.plain check) i n x w = (check x, w) := by unfold validItem; rfl
    cases hx : check x with
    | error e =>
      rw [hx] at hv
      rw [andThen_err hv]
      exact ⟨rfl, fun ys h => by cases h⟩
    | ok y =>
      rw [hx] at hv
      rw [andThen_ok hv]
      refine andThen_cases (P := fun p => p.2 = w ∧ ∀ ys, p.1 = .ok ys → List.Forall₂ _ (x :: xs) ys) ?_ ?_
      · intro e w' h
        rw [h] at h1
        exact ⟨h1, fun ys h => by cases h⟩
      · intro a w' h
        rw [h] at h1 h2
        exact ⟨h1, fun ys h => by cases h; exact .cons hx (h2 a rfl)⟩

theorem mapHM_creates {f : Item → HM Item} (hf : ∀ x w, OnlyCreates w (f x w).2) : ∀ (xs : List Item) (w : W),
    OnlyCreates w (mapHM f xs w).2
  | [], w => .refl w
  | x :: xs, w => by
    have h0 := hf x w
    refine andThen_cases (P := fun p => OnlyCreates w p.2) ?_ ?_
    · intro e w' h; rw [h] at h0; exact h0
    · intro y w1 h
      rw [h] at h0
      have h1 := mapHM_creates hf xs w1
      refine andThen_cases (P := fun p => OnlyCreates w p.2) ?_ ?_
      · intro e w' h; rw [h] at h1; exact h0.trans h1
      · intro ys w' h; rw [h] at h1; exact h0.trans h1

theorem rebuild_creates {f : Item → HM Item} (hf : ∀ x w, OnlyCreates w (f x w).2) {k : Nat} {ob : Bool}
    {build : List Item → List Item} {i n : Nat} (xs : List Item) (w : W) :
    OnlyCreates w (rebuild f k ob build i n xs w).2 := by
  have h0 := mapHM_creates hf xs w
  refine andThen_cases (P := fun p => OnlyCreates w p.2) ?_ ?_
  · intro e w' h; rw [h] at h0; exact h0
  · intro a w' h; rw [h] at h0; exact h0.trans (onlyCreates_alloc _ _)

mutual
theorem validate_creates : ∀ (sp : CSpec) (i n : Nat) (v : Item) (w : W), OnlyCreates w (validate sp i n v w).2
  | .mk k co ob it build, i, n, v, w => by
    have hf := validItem_creates it i n
    unfold validate
    cases v with
    | val v =>
      simp only []
      split
      · exact rebuild_creates hf _ _
      · exact .refl w
    | ref r =>
      simp only []
      split
      · exact .refl w
      · split
        · exact .refl w
        · exact rebuild_creates hf _ _
theorem validItem_creates : ∀ (it : ISpec) (i n : Nat) (x : Item) (w : W), OnlyCreates w (validItem it i n x w).2
  | .plain check, i, n, x, w => by unfold validItem; exact .refl w
  | .nested sp, i, n, x, w => by
    unfold validItem
    have h0 := validate_creates sp i n x w
    refine andThen_cases (P := fun p => OnlyCreates w p.2) ?_ ?_
    · intro e w' h; rw [h] at h0; exact h0
    · intro r w1 h; rw [h] at h0; exact h0
end

/-- A validated value is a new container with allowed items, bound if mutations
are observed. -/
theorem validate_ok {sp : CSpec} {i n : Nat} {v : Item} {w w' : W} {r : Nat} (h : validate sp i n v w = (.ok r, w')) :
    OnlyCreates w w' ∧ w.cells.length ≤ r ∧ r < w'.cells.length ∧
    ∃ c, w'.cells[r]? = some c ∧ c.kind = sp.kind ∧ c.bound = (if sp.observed then some (i, n) else none) ∧
      Allowed sp c.items := by
  have hc := validate_creates sp i n v w
  rw [h] at hc
  refine ⟨hc, ?_⟩
  cases sp with
  | mk k co ob it build =>
    have key : ∀ xs, rebuild (validItem it i n) k ob build i n xs w = (.ok r, w') →
        w.cells.length ≤ r ∧ r < w'.cells.length ∧
        ∃ c, w'.cells[r]? = some c ∧ c.kind = k ∧ c.bound = (if ob then some (i, n) else none) ∧
          Allowed (.mk k co ob it build) c.items := by
      intro xs hh
      unfold rebuild at hh
      cases hv : mapHM (validItem it i n) xs w with
      | mk res w1 =>
        cases res with
        | error e => rw [andThen_err hv] at hh; cases hh
        | ok out =>
          rw [andThen_ok hv] at hh
          cases hh
          have h0 := mapHM_creates (validItem_creates it i n) xs w
          rw [hv] at h0
          refine ⟨h0.length, by simp, { kind := k, items := build out, bound := if ob then some (i, n) else none },
            by simp, rfl, rfl, ?_⟩
          unfold Allowed
          cases it with
          | nested sp => trivial
          | plain check =>
            have := (mapHM_plain xs w (check := check) (i := i) (n := n)).2
            rw [hv] at this
            exact ⟨xs, out, this out rfl, rfl⟩
    unfold validate at h
    cases v with
    | val v =>
      simp only [] at h
      split at h
      · exact key _ h
      · cases h
    | ref s =>
      simp only [] at h
      split at h
      · cases h
      · split at h
        · cases h
        · exact key _ h

/-! ## No container is held twice, and none comes back -/

/-- Each held container exists and is held once. -/
structure Good (w : W) : Prop where
  lt : ∀ i n r, w.slots i n = some r → r < w.cells.length
  once : ∀ i n j m r, w.slots i n = some r → w.slots j m = some r → i = j ∧ n = m

/-- Containers only become more, and a slot holds what it held or a new one. -/
structure Grows (w w' : W) : Prop where
  length : w.cells.length ≤ w'.cells.length
  slot : ∀ i n r, w'.slots i n = some r → w.slots i n = some r ∨ w.cells.length ≤ r

theorem Grows.refl (w : W) : Grows w w := ⟨Nat.le_refl _, fun _ _ _ h => .inl h⟩

theorem Grows.trans {a b c : W} (h : Grows a b) (h2 : Grows b c) : Grows a c :=
  ⟨Nat.le_trans h.length h2.length, fun i n r hr => (h2.slot i n r hr).elim (h.slot i n r)
    fun hl => .inr (Nat.le_trans h.length hl)⟩

theorem Grows.stale {w w' : W} (h : Grows w w') {r : Nat} (hs : Stale w r) : Stale w' r :=
  ⟨Nat.lt_of_lt_of_le hs.1 h.length, fun i n hh => (h.slot i n r hh).elim (hs.2 i n)
    fun hl => absurd hs.1 (by omega)⟩

/-- A result that keeps `Good` and grows. -/
def Fine (w w' : W) : Prop := Good w → Good w' ∧ Grows w w'

theorem Fine.refl (w : W) : Fine w w := fun h => ⟨h, .refl w⟩

theorem Fine.trans {a b c : W} (h : Fine a b) (h2 : Fine b c) : Fine a c := fun hg =>
  have h1 := h hg
  have h3 := h2 h1.1
  ⟨h3.1, h1.2.trans h3.2⟩

theorem fine_creates {w w' : W} (h : OnlyCreates w w') : Fine w w' := fun hg =>
  ⟨⟨fun i n r hr => Nat.lt_of_lt_of_le (hg.lt i n r (h.slots ▸ hr)) h.length,
    fun i n j m r h1 h2 => hg.once i n j m r (h.slots ▸ h1) (h.slots ▸ h2)⟩,
   ⟨h.length, fun i n r hr => .inl (h.slots ▸ hr)⟩⟩

theorem fine_same {w w' : W} (hs : w'.slots = w.slots) (hl : w'.cells.length = w.cells.length) : Fine w w' := fun hg =>
  ⟨⟨fun i n r hr => hl ▸ hg.lt i n r (hs ▸ hr), fun i n j m r h1 h2 => hg.once i n j m r (hs ▸ h1) (hs ▸ h2)⟩,
   ⟨Nat.le_of_eq hl.symm, fun i n r hr => .inl (hs ▸ hr)⟩⟩

theorem setItems_length (r : Nat) (xs : List Item) (w : W) : (setItems r xs w).cells.length = w.cells.length := by
  unfold setItems; simp

theorem unbind_length (r : Nat) (w : W) : (unbind r w).cells.length = w.cells.length := by
  unfold unbind; simp

theorem plainMut_same (r : Nat) (f : Mut) (w : W) : (plainMut r f w).2.slots = w.slots ∧
    (plainMut r f w).2.cells.length = w.cells.length ∧ (plainMut r f w).2.log = w.log :=
  ⟨rfl, setItems_length _ _ _, rfl⟩

theorem fine_plainMut (r : Nat) (f : Mut) (w : W) : Fine w (plainMut r f w).2 :=
  fine_same (plainMut_same r f w).1 (plainMut_same r f w).2.1

theorem fine_unbind (r : Nat) (w : W) : Fine w (unbind r w) := fine_same rfl (unbind_length r w)

/-- Sequencing of `Fine`. -/
theorem fine_andThen {α β : Type} {x : HM α} {f : α → HM β} {w : W} (hx : Fine w (x w).2)
    (hf : ∀ a w', x w = (.ok a, w') → Fine w' (f a w').2) : Fine w (andThen x f w).2 := by
  refine andThen_cases (P := fun p => Fine w p.2) ?_ ?_
  · intro e w' h; rw [h] at hx; exact hx
  · intro a w' h
    have := hf a w' h
    rw [h] at hx
    exact hx.trans this

/-- Operations whose execution is fine. -/
def AllFine (rec : Op → HM Item) : Prop := ∀ o w, Fine w (rec o w).2

theorem fine_execAll {rec : Op → HM Item} (hr : AllFine rec) : ∀ (os : List Op) (w : W), Fine w (execAll rec os w).2
  | [], w => .refl w
  | o :: os, w => fine_andThen (hr o w) fun _ w' _ => fine_execAll hr os w'

theorem fine_notify {E : Env} {rec : Op → HM Item} (hr : AllFine rec) (m : Mode) (i n : Nat) (p v : Option Nat) (w : W) :
    Fine w (notify E rec m i n p v w).2 :=
  Fine.trans (b := { w with log := w.log ++ [⟨m, i, n, p, v⟩] }) (fine_same rfl rfl) (fine_execAll hr _ _)

/-- The state in which `_set` has just stored the value. -/
def stored (i n : Nat) (v : Option Nat) (w : W) : W :=
  { w with slots := fun a b => if a = i ∧ b = n then v else w.slots a b }

/-- What `_set` does after storing. -/
def afterStore (E : Env) (rec : Op → HM Item) (i n : Nat) (prev value : Option Nat) : HM Unit := fun w =>
  andThen (if (match prev, value with
      | none, none => false
      | some p, some v => !E.equal i n (itemsOf w p) (itemsOf w v)
      | _, _ => true) then notify E rec .change i n prev value else fun w => (.ok (), w))
      (fun _ => notify E rec .set i n prev value) w

theorem setSlot_eq (E : Env) (rec : Op → HM Item) (i n : Nat) (v : Option Nat) (w : W) :
    setSlot E rec i n v w = andThen (notify E rec .validate i n (w.slots i n) v)
      (fun _ w1 => afterStore E rec i n (w.slots i n) v (stored i n v w1)) w := rfl

theorem fine_afterStore {E : Env} {rec : Op → HM Item} (hr : AllFine rec) (i n : Nat) (p v : Option Nat) (w : W) :
    Fine w (afterStore E rec i n p v w).2 := by
  refine fine_andThen ?_ fun _ w' _ => fine_notify hr _ _ _ _ _ _
  by_cases h : (match p, v with
      | none, none => false
      | some p, some v => !E.equal i n (itemsOf w p) (itemsOf w v)
      | _, _ => true) = true
  · rw [if_pos h]; exact fine_notify hr _ _ _ _ _ _
  · rw [if_neg h]; exact .refl w

theorem good_stored {i n r : Nat} {w : W} (hg : Good w) (hs : Stale w r) : Good (stored i n (some r) w) := by
  refine ⟨fun a b s h => ?_, fun a b a' b' s h h' => ?_⟩
  · unfold stored at h ⊢
    simp only at h
    split at h
    · cases h; exact hs.1
    · exact hg.lt a b s h
  · unfold stored at h h'
    simp only at h h'
    split at h
    · cases h
      split at h'
      · rename_i h1 h2; exact ⟨h1.1.trans h2.1.symm, h1.2.trans h2.2.symm⟩
      · exact absurd h' (hs.2 a' b')
    · split at h'
      · cases h'; exact absurd h (hs.2 a b)
      · exact hg.once _ _ _ _ _ h h'

/-- `_set` of a container that nobody holds. -/
theorem fine_setSlot {E : Env} {rec : Op → HM Item} (hr : AllFine rec) {i n r : Nat} {w w0 : W} (hg : Good w)
    (h0 : Grows w0 w) (hl : w0.cells.length ≤ r) (hs : Stale w r) :
    Good (setSlot E rec i n (some r) w).2 ∧ Grows w0 (setSlot E rec i n (some r) w).2 := by
  rw [setSlot_eq]
  have h1 := fine_notify (E := E) hr .validate i n (w.slots i n) (some r) w hg
  refine andThen_cases (P := fun p => Good p.2 ∧ Grows w0 p.2) ?_ ?_
  · intro e w' h; rw [h] at h1; exact ⟨h1.1, h0.trans h1.2⟩
  · intro a w1 h
    rw [h] at h1
    have hs1 := h1.2.stale hs
    have hg2 := good_stored (i := i) (n := n) h1.1 hs1
    have hgr : Grows w0 (stored i n (some r) w1) := by
      refine ⟨(h0.trans h1.2).length, fun a b s hh => ?_⟩
      unfold stored at hh
      simp only at hh
      split at hh
      · cases hh; exact .inr hl
      · exact (h0.trans h1.2).slot a b s hh
    have h3 := fine_afterStore (E := E) hr i n (w.slots i n) (some r) (stored i n (some r) w1) hg2
    exact ⟨h3.1, hgr.trans h3.2⟩

theorem fine_setNone {E : Env} {rec : Op → HM Item} (hr : AllFine rec) (i n : Nat) (w : W) :
    Fine w (setSlot E rec i n none w).2 := by
  rw [setSlot_eq]
  refine fine_andThen (fine_notify hr _ _ _ _ _ _) fun _ w1 _ => Fine.trans ?_ (fine_afterStore hr _ _ _ _ _)
  intro hg
  refine ⟨⟨fun a b s h => ?_, fun a b a' b' s h h' => ?_⟩, Nat.le_refl _, fun a b s h => ?_⟩
  · unfold stored at h; simp only at h; split at h
    · cases h
    · exact hg.lt a b s h
  · unfold stored at h h'; simp only at h h'; split at h
    · cases h
    · split at h'
      · cases h'
      · exact hg.once _ _ _ _ _ h h'
  · unfold stored at h; simp only at h; split at h
    · cases h
    · exact .inl h

theorem stale_new {w w' : W} (hg : Good w) (hc : OnlyCreates w w') {r : Nat} (h1 : w.cells.length ≤ r)
    (h2 : r < w'.cells.length) : Stale w' r :=
  ⟨h2, fun i n h => by have h : w'.slots i n = some r := h; rw [hc.slots] at h; exact absurd (hg.lt i n r h) (by omega)⟩

theorem fine_assign {E : Env} {rec : Op → HM Item} (hr : AllFine rec) (i n : Nat) (v : Item) (w : W) :
    Fine w (assign E rec i n v w).2 := by
  intro hg
  unfold assign
  have h0 := validate_creates (E.spec i n) i n v w
  refine andThen_cases (P := fun p => Good p.2 ∧ Grows w p.2) ?_ ?_
  · intro e w' h; rw [h] at h0; exact fine_creates h0 hg
  · intro r w1 h
    obtain ⟨h1, h2, h3, _⟩ := validate_ok h
    have h4 := fine_creates h1 hg
    exact fine_setSlot hr h4.1 h4.2 h2 (stale_new hg h1 h2 h3)

theorem fine_mutate {E : Env} {rec : Op → HM Item} (hr : AllFine rec) (r : Nat) (f : Mut) (w : W) :
    Fine w (mutate E rec r f w).2 := by
  unfold mutate
  split
  · exact fine_plainMut r f w
  · refine fine_andThen (fine_creates (onlyCreates_alloc _ w)) fun c w1 _ => ?_
    refine fine_andThen (fine_plainMut c f w1) fun v w2 _ => ?_
    exact fine_andThen (fine_assign hr _ _ _ w2) fun _ w3 _ => fine_unbind r w3

theorem fine_imutate (r : Nat) (f : Mut) (w : W) : Fine w (imutate r f w).2 := by
  unfold imutate
  split
  · exact fine_andThen (fine_plainMut r f w) fun _ w1 _ => .refl w1
  · refine fine_andThen (fine_creates (onlyCreates_alloc _ w)) fun c w1 _ => ?_
    exact fine_andThen (fine_plainMut c f w1) fun v w2 _ => fine_unbind r w2

theorem fine_exec (E : Env) : ∀ k, AllFine (exec E k)
  | 0, o, w => .refl w
  | k + 1, o, w => by
    have hr := fine_exec E k
    show Fine w (step E (exec E k) o w).2
    cases o with
    | fail e => exact .refl w
    | new kd xs => exact fine_andThen (fine_creates (onlyCreates_alloc _ w)) fun _ w1 _ => .refl w1
    | assign i n v => exact fine_andThen (fine_assign hr i n v w) fun _ w1 _ => .refl w1
    | delete i n => exact fine_andThen (fine_setNone hr i n w) fun _ w1 _ => .refl w1
    | mutate r f => exact fine_mutate hr r f w
    | imutate r f => exact fine_andThen (fine_imutate r f w) fun _ w1 _ => .refl w1
    | iassign i n f =>
      show Fine w (match w.slots i n with
        | none => (.error (.other 0), w)
        | some r => andThen (imutate r f) (fun c =>
          andThen (assign E (exec E k) i n (.ref c)) fun _ w => (.ok (.val .none), w)) w : Except Err Item × W).2
      split
      · exact .refl w
      · exact fine_andThen (fine_imutate _ f w) fun c w1 _ =>
          fine_andThen (fine_assign hr i n _ w1) fun _ w2 _ => .refl w2

theorem fine_history (E : Env) (k : Nat) : ∀ (os : List Op) (w : W), Fine w (history E k os w)
  | [], w => .refl w
  | o :: os, w => (fine_exec E k o w).trans (fine_history E k os _)

theorem good_start : Good start := ⟨fun _ _ _ h => (by cases h), fun _ _ _ _ _ h => (by cases h)⟩

/-- A container that is not held by its instance is changed in place. -/
theorem attached_stale {w : W} {r : Nat} (h : Stale w r) : attachedTo w r = none := by
  unfold attachedTo
  split
  · split
    · exact if_neg (h.2 _ _)
    · rfl
  · rfl

/-- C48: a container that a property held and holds no longer is held by no
property ever after, whatever operations, in-place operators and listeners
follow, and mutating it changes only its own items: no property, no other
container, and no notification. -/
theorem C48_stale {E : Env} {k : Nat} {os os' os'' : List Op} {i n r : Nat}
    (hh : Holds (history E k os start) i n r)
    (hn : ¬ Holds (history E k os' (history E k os start)) i n r) (f : Mut) (j : Nat) :
    let w := history E k os'' (history E k os' (history E k os start))
    Stale w r ∧ OnlyItemsOf r w (exec E (j + 1) (.mutate r f) w).2 ∧
    OnlyItemsOf r w (exec E (j + 1) (.imutate r f) w).2 := by
  intro w
  have hg := (fine_history E k os start good_start).1
  have h1 := fine_history E k os' _ hg
  have h2 := fine_history E k os'' _ h1.1
  have hs1 : Stale (history E k os' (history E k os start)) r := by
    refine ⟨Nat.lt_of_lt_of_le (hg.lt i n r hh) h1.2.length, fun a b hab => ?_⟩
    rcases h1.2.slot a b r hab with h | h
    · obtain ⟨rfl, rfl⟩ := hg.once _ _ _ _ _ h hh
      exact hn hab
    · exact absurd (hg.lt i n r hh) (by omega)
  have hs : Stale w r := h2.2.stale hs1
  have honly : ∀ xs, OnlyItemsOf r w (setItems r xs w) := fun xs =>
    ⟨rfl, rfl, setItems_length _ _ _, fun s hne => by
      show (w.cells.modify r _)[s]? = _
      rw [List.getElem?_modify]
      simp only [if_neg (Ne.symm hne)]
      cases w.cells[s]? <;> rfl⟩
  refine ⟨hs, ?_, ?_⟩
  · show OnlyItemsOf r w (mutate E (exec E j) r f w).2
    unfold mutate
    rw [attached_stale hs]
    exact honly _
  · show OnlyItemsOf r w (andThen (imutate r f) _ w).2
    have : OnlyItemsOf r w (imutate r f w).2 := by
      unfold imutate
      rw [attached_stale hs]
      show OnlyItemsOf r w (andThen (plainMut r f) _ w).2
      exact andThen_cases (P := fun p => OnlyItemsOf r w p.2)
        (fun e w' h => by have := honly (f (itemsOf w r)).2; rw [show w' = (plainMut r f w).2 by rw [h]]; exact this)
        (fun a w' h => by have := honly (f (itemsOf w r)).2; rw [show w' = (plainMut r f w).2 by rw [h]]; exact this)
    exact andThen_cases (P := fun p => OnlyItemsOf r w p.2)
      (fun e w' h => by rw [h] at this; exact this) (fun a w' h => by rw [h] at this; exact this)

/-! ## What is held has been validated -/

/-- Every observed property holds a container that is bound to it and has
allowed items. -/
structure Full (E : Env) (w : W) : Prop where
  good : Good w
  held : ∀ i n r, w.slots i n = some r → (E.spec i n).observed = true →
    ∃ c, w.cells[r]? = some c ∧ c.bound = some (i, n) ∧ Allowed (E.spec i n) c.items

/-- Keeps `Full`. -/
def Keeps (E : Env) (w w' : W) : Prop := Full E w → Full E w'

/-- Properties hold the same, and what they hold is the same. -/
theorem full_of {E : Env} {w w' : W} (h : Full E w) (hg : Good w') (hs : w'.slots = w.slots)
    (hc : ∀ i n r, w.slots i n = some r → (E.spec i n).observed = true → w'.cells[r]? = w.cells[r]?) : Full E w' := by
  refine ⟨hg, fun i n r hr ho => ?_⟩
  rw [hs] at hr
  obtain ⟨c, h1, h2⟩ := h.held i n r hr ho
  exact ⟨c, by rw [hc i n r hr ho]; exact h1, h2⟩

theorem full_creates {E : Env} {w w' : W} (hc : OnlyCreates w w') : Keeps E w w' := fun h =>
  full_of h (fine_creates hc h.good).1 hc.slots fun i n r hr ho => by
    obtain ⟨c, h1, _⟩ := h.held i n r hr ho
    rw [hc.cell h1, h1]

theorem full_andThen {E : Env} {α β : Type} {x : HM α} {f : α → HM β} {w : W} (hx : Keeps E w (x w).2)
    (hf : ∀ a w', x w = (.ok a, w') → Keeps E w' (f a w').2) : Keeps E w (andThen x f w).2 := by
  refine andThen_cases (P := fun p => Keeps E w p.2) ?_ ?_
  · intro e w' h; rw [h] at hx; exact hx
  · intro a w' h
    have := hf a w' h
    rw [h] at hx
    exact fun hw => this (hx hw)

def AllKeep (E : Env) (rec : Op → HM Item) : Prop := ∀ o, Op.notInPlace o → ∀ w, Keeps E w (rec o w).2

theorem full_execAll {E : Env} {rec : Op → HM Item} (hr : AllKeep E rec) : ∀ (os : List Op),
    (∀ o ∈ os, Op.notInPlace o) → ∀ w, Keeps E w (execAll rec os w).2
  | [], _, w => fun h => h
  | o :: os, ho, w => full_andThen (hr o (ho o (by simp)) w) fun _ w' _ =>
      full_execAll hr os (fun o h => ho o (by simp [h])) w'

theorem full_log {E : Env} {w : W} {l : List Note} (h : Full E w) : Full E { w with log := l } :=
  full_of h ⟨h.good.lt, h.good.once⟩ rfl fun _ _ _ _ _ => rfl

theorem full_notify {E : Env} (hl : FairListeners E) {rec : Op → HM Item} (hr : AllKeep E rec) (m : Mode) (i n : Nat)
    (p v : Option Nat) (w : W) : Keeps E w (notify E rec m i n p v w).2 := fun h =>
  full_execAll hr _ (hl.plain m i n _) _ (full_log h)

theorem full_afterStore {E : Env} (hl : FairListeners E) {rec : Op → HM Item} (hr : AllKeep E rec) (i n : Nat)
    (p v : Option Nat) (w : W) : Keeps E w (afterStore E rec i n p v w).2 := by
  refine full_andThen ?_ fun _ w' _ => full_notify hl hr _ _ _ _ _ _
  by_cases h : (match p, v with
      | none, none => false
      | some p, some v => !E.equal i n (itemsOf w p) (itemsOf w v)
      | _, _ => true) = true
  · rw [if_pos h]; exact full_notify hl hr _ _ _ _ _ _
  · rw [if_neg h]; exact fun h => h

/-- Operations that only look change nothing but create containers. -/
theorem looks_creates (E : Env) (k : Nat) : ∀ (os : List Op), (∀ o ∈ os, Op.onlyLooks o) → ∀ w,
    OnlyCreates w (execAll (exec E k) os w).2
  | [], _, w => .refl w
  | o :: os, ho, w => by
    have h0 : OnlyCreates w (exec E k o w).2 := by
      cases k with
      | zero => exact .refl w
      | succ k =>
        have := ho o (by simp)
        cases o <;> first | exact .refl w | exact onlyCreates_alloc _ w | exact this.elim
    refine andThen_cases (P := fun p => OnlyCreates w p.2) ?_ ?_
    · intro e w' h; rw [h] at h0; exact h0
    · intro a w' h
      rw [h] at h0
      exact h0.trans (looks_creates E k os (fun o h => ho o (by simp [h])) w')

theorem validators_look {E : Env} (hl : FairListeners E) (k : Nat) (i n : Nat) (p v : Option Nat) (w : W) :
    (notify E (exec E k) .validate i n p v w).2.slots = w.slots ∧
    ∃ new, (notify E (exec E k) .validate i n p v w).2.cells = w.cells ++ new := by
  have := looks_creates E k _ (hl.looks i n { w with log := w.log ++ [⟨.validate, i, n, p, v⟩] })
    { w with log := w.log ++ [⟨.validate, i, n, p, v⟩] }
  exact ⟨this.slots, this.cells⟩

theorem full_setSlot {E : Env} (hl : FairListeners E) {k : Nat} (hr : AllKeep E (exec E k)) {i n r : Nat} {w : W}
    (hw : Full E w) (hs : Stale w r) {c : Cell} (hc : w.cells[r]? = some c)
    (hb : c.bound = if (E.spec i n).observed then some (i, n) else none) (ha : Allowed (E.spec i n) c.items) :
    Full E (setSlot E (exec E k) i n (some r) w).2 := by
  rw [setSlot_eq]
  have h1 := full_notify hl hr .validate i n (w.slots i n) (some r) w hw
  obtain ⟨h2, new, h3⟩ := validators_look hl k i n (w.slots i n) (some r) w
  refine andThen_cases (P := fun p => Full E p.2) ?_ ?_
  · intro e w' h; rw [h] at h1; exact h1
  · intro a w1 h
    rw [h] at h1 h2 h3
    have hlt := (List.getElem?_eq_some_iff.1 hc).1
    have hc1 : w1.cells[r]? = some c := by
      have h3 : w1.cells = w.cells ++ new := h3
      rw [h3, List.getElem?_append_left hlt, hc]
    have hs1 : Stale w1 r := by
      refine ⟨(List.getElem?_eq_some_iff.1 hc1).1, fun a b hh => hs.2 a b ?_⟩
      have hh : w1.slots a b = some r := hh
      have h2 : w1.slots = w.slots := h2
      rw [h2] at hh
      exact hh
    refine full_afterStore hl hr _ _ _ _ _ ⟨good_stored h1.good hs1, fun a b s hh ho => ?_⟩
    unfold stored at hh ⊢
    simp only at hh ⊢
    split at hh
    · rename_i hab
      obtain ⟨rfl, rfl⟩ := hab
      cases hh
      rw [if_pos ho] at hb
      exact ⟨c, hc1, hb, ha⟩
    · exact h1.held a b s hh ho

theorem full_setNone {E : Env} (hl : FairListeners E) {k : Nat} (hr : AllKeep E (exec E k)) (i n : Nat) (w : W) :
    Keeps E w (setSlot E (exec E k) i n none w).2 := by
  rw [setSlot_eq]
  refine full_andThen (full_notify hl hr _ _ _ _ _ _) fun _ w1 _ h1 => full_afterStore hl hr _ _ _ _ _ ?_
  have hsub : ∀ a b s, (stored i n none w1).slots a b = some s → w1.slots a b = some s := by
    intro a b s h
    unfold stored at h
    simp only at h
    split at h
    · cases h
    · exact h
  exact ⟨⟨fun a b s h => h1.good.lt a b s (hsub a b s h),
    fun a b a' b' s h h' => h1.good.once a b a' b' s (hsub _ _ _ h) (hsub _ _ _ h')⟩,
    fun a b s h ho => h1.held a b s (hsub _ _ _ h) ho⟩

theorem full_assign {E : Env} (hl : FairListeners E) {k : Nat} (hr : AllKeep E (exec E k)) (i n : Nat) (v : Item)
    (w : W) : Keeps E w (assign E (exec E k) i n v w).2 := by
  intro hw
  unfold assign
  have h0 := validate_creates (E.spec i n) i n v w
  refine andThen_cases (P := fun p => Full E p.2) ?_ ?_
  · intro e w' h; rw [h] at h0; exact full_creates h0 hw
  · intro r w1 h
    obtain ⟨h1, h2, h3, c, h4, _, h5, h6⟩ := validate_ok h
    exact full_setSlot hl hr (full_creates h1 hw) (stale_new hw.good h1 h2 h3) h4 h5 h6

/-- A property that has been assigned no longer holds what it held. -/
theorem assign_stale {E : Env} {rec : Op → HM Item} (hr : AllFine rec) {i n r : Nat} {v : Item} {w w' : W}
    (hg : Good w) (hh : Holds w i n r) (h : assign E rec i n v w = (.ok (), w')) : Stale w' r := by
  unfold assign at h
  cases hv : validate (E.spec i n) i n v w with
  | mk res w1 =>
    cases res with
    | error e => rw [andThen_err hv] at h; cases h
    | ok s =>
      rw [andThen_ok hv, setSlot_eq] at h
      obtain ⟨h1, h2, h3, _⟩ := validate_ok hv
      have hg1 := fine_creates h1 hg
      have hn := fine_notify (E := E) hr .validate i n (w1.slots i n) (some s) w1 hg1.1
      cases hnn : notify E rec .validate i n (w1.slots i n) (some s) w1 with
      | mk res w2 =>
        cases res with
        | error e => rw [andThen_err hnn] at h; cases h
        | ok u =>
          rw [andThen_ok hnn] at h
          rw [hnn] at hn
          have hlt := hg.lt i n r hh
          have hs : Stale (stored i n (some s) w2) r := by
            refine ⟨Nat.lt_of_lt_of_le hlt (hg1.2.trans hn.2).length, fun a b hab => ?_⟩
            have hab : (if a = i ∧ b = n then some s else w2.slots a b) = some r := hab
            split at hab
            · cases hab; omega
            · rename_i hne
              rcases (hg1.2.trans hn.2).slot a b r hab with h' | h'
              · exact hne (hg.once _ _ _ _ _ h' hh)
              · omega
          have hsn : Stale w2 s := hn.2.stale (stale_new hg h1 h2 h3)
          have := (fine_afterStore (E := E) hr i n (w1.slots i n) (some s) _ (good_stored (i := i) (n := n) hn.1 hsn)).2.stale hs
          rw [h] at this
          exact this

theorem setItems_other {r s : Nat} (hne : s ≠ r) (xs : List Item) (w : W) : (setItems r xs w).cells[s]? = w.cells[s]? := by
  show (w.cells.modify r _)[s]? = _
  rw [List.getElem?_modify]
  simp only [if_neg (Ne.symm hne)]
  cases w.cells[s]? <;> rfl

theorem unbind_other {r s : Nat} (hne : s ≠ r) (w : W) : (unbind r w).cells[s]? = w.cells[s]? := by
  show (w.cells.modify r _)[s]? = _
  rw [List.getElem?_modify]
  simp only [if_neg (Ne.symm hne)]
  cases w.cells[s]? <;> rfl

theorem attached_some {w : W} {r i n : Nat} (h : attachedTo w r = some (i, n)) : w.slots i n = some r := by
  unfold attachedTo at h
  split at h
  · split at h
    · split at h
      · cases h; assumption
      · cases h
    · cases h
  · cases h

theorem full_mutate {E : Env} (hl : FairListeners E) {k : Nat} (hr : AllKeep E (exec E k)) (r : Nat) (f : Mut)
    (w : W) : Keeps E w (mutate E (exec E k) r f w).2 := by
  intro hw
  unfold mutate
  split
  · rename_i hat
    refine full_of hw (fine_plainMut r f w hw.good).1 rfl fun i n s hs ho => setItems_other ?_ _ _
    rintro rfl
    obtain ⟨c, h1, h2, _⟩ := hw.held i n s hs ho
    unfold attachedTo at hat
    rw [h1] at hat
    simp only [h2] at hat
    rw [if_pos hs] at hat
    cases hat
  · rename_i i n hat
    have hsl := attached_some hat
    have h1 := full_creates (E := E) (onlyCreates_alloc { kind := ((w.cells[r]?).map (·.kind)).getD 0, items := itemsOf w r } w) hw
    have h2 : Full E (plainMut w.cells.length f (alloc { kind := ((w.cells[r]?).map (·.kind)).getD 0, items := itemsOf w r } w).2).2 :=
      full_of h1 (fine_plainMut _ f _ h1.good).1 rfl fun a b s hs _ => setItems_other
        (Nat.ne_of_lt (hw.good.lt a b s hs)) _ _
    show Full E (andThen (plainMut w.cells.length f) _ (alloc _ w).2).2
    refine andThen_cases (P := fun p => Full E p.2) ?_ ?_
    · intro e w' h; rw [h] at h2; exact h2
    · intro val w2 h
      have hsl2 : w2.slots = w.slots := by
        have := (plainMut_same w.cells.length f (alloc { kind := ((w.cells[r]?).map (·.kind)).getD 0, items := itemsOf w r } w).2).1
        rw [h] at this
        exact this
      rw [h] at h2
      have h3 := full_assign hl hr i n (.ref w.cells.length) w2 h2
      refine andThen_cases (P := fun p => Full E p.2) ?_ ?_
      · intro e w' h; rw [h] at h3; exact h3
      · intro u w3 h'
        have hst : Stale w3 r := assign_stale (fine_exec E k) h2.good (by show w2.slots i n = _; rw [hsl2]; exact hsl) h'
        rw [h'] at h3
        exact full_of h3 (fine_unbind r w3 h3.good).1 rfl fun a b s hs _ => unbind_other
          (fun he => hst.2 a b (by rw [he] at hs; exact hs)) _

theorem full_exec {E : Env} (hl : FairListeners E) : ∀ k, AllKeep E (exec E k)
  | 0, o, _, w => fun h => h
  | k + 1, o, ho, w => by
    have hr := full_exec hl k
    show Keeps E w (step E (exec E k) o w).2
    cases o with
    | fail e => exact fun h => h
    | new kd xs => exact full_andThen (full_creates (onlyCreates_alloc _ w)) fun _ w1 _ h => h
    | assign i n v => exact full_andThen (full_assign hl hr i n v w) fun _ w1 _ h => h
    | delete i n => exact full_andThen (full_setNone hl hr i n w) fun _ w1 _ h => h
    | mutate r f => exact full_mutate hl hr r f w
    | imutate r f => exact ho.elim
    | iassign i n f => exact ho.elim

/-- C47: after any history without in-place operators, each observed property
holds a container that is bound to it and whose items have passed validation;
so the next mutation of it is observed again.  Listeners may do anything but use
in-place operators, and validators look, create and raise. -/
theorem C47_always_valid {E : Env} (hl : FairListeners E) {k : Nat} : ∀ {os : List Op}, (∀ o ∈ os, Op.notInPlace o) →
    ∀ {i n r : Nat}, Holds (history E k os start) i n r → (E.spec i n).observed = true →
    ∃ c, (history E k os start).cells[r]? = some c ∧ c.bound = some (i, n) ∧ Allowed (E.spec i n) c.items := by
  have key : ∀ (os : List Op) (w : W), (∀ o ∈ os, Op.notInPlace o) → Full E w → Full E (history E k os w) := by
    intro os
    induction os with
    | nil => intro w _ h; exact h
    | cons o os ih =>
      intro w ho h
      exact ih _ (fun o h => ho o (by simp [h])) (full_exec hl k o (ho o (by simp)) w h)
  intro os ho i n r hh hob
  exact (key os start ho ⟨good_start, fun _ _ _ h => by cases h⟩).held i n r hh hob

/-! ## One mutation -/

/-- The state in which the copy has been made and changed. -/
def withCopy (w : W) (c : Cell) (xs : List Item) : W :=
  { w with cells := w.cells ++ [{ kind := c.kind, items := xs }] }

theorem plain_copy (w : W) (c : Cell) (f : Mut) :
    plainMut w.cells.length f (alloc { kind := c.kind, items := c.items } w).2 =
      ((f c.items).1, withCopy w c (f c.items).2) := by
  have : itemsOf (alloc { kind := c.kind, items := c.items } w).2 w.cells.length = c.items := by
    simp [itemsOf, alloc]
  unfold plainMut
  rw [this]
  refine Prod.ext rfl ?_
  show ({ w with cells := _ } : W) = { w with cells := _ }
  congr 1
  apply List.ext_getElem?
  intro s
  show ((w.cells ++ [({ kind := c.kind, items := c.items } : Cell)]).modify w.cells.length _)[s]? = _
  rw [List.getElem?_modify]
  rcases Nat.lt_trichotomy s w.cells.length with h | h | h
  · rw [List.getElem?_append_left h, List.getElem?_append_left h]
    simp only [if_neg (Nat.ne_of_gt h)]
    cases w.cells[s]? <;> rfl
  · subst h
    simp
  · rw [List.getElem?_eq_none (by simp; omega), List.getElem?_eq_none (by simp; omega)]
    rfl

/-- C47: a mutating method of a held container is the assignment of a changed
copy, with the result of the method; if the method or the assignment raises, the
mutation raises.  This holds for arbitrary listeners. -/
theorem C47_as_assignment {E : Env} {k : Nat} {w : W} {i n r : Nat} {c : Cell} (hc : w.cells[r]? = some c)
    (hb : c.bound = some (i, n)) (hh : Holds w i n r) (f : Mut) :
    exec E (k + 1) (.mutate r f) w =
      match (f c.items).1 with
      | .error e => (.error e, withCopy w c (f c.items).2)
      | .ok val => match exec E (k + 1) (.assign i n (.ref w.cells.length)) (withCopy w c (f c.items).2) with
          | (.ok _, w') => (.ok val, unbind r w')
          | (.error e, w') => (.error e, w') := by
  have hat : attachedTo w r = some (i, n) := by
    unfold attachedTo
    rw [hc]
    simp only [hb]
    exact if_pos hh
  have hit : itemsOf w r = c.items := by unfold itemsOf; rw [hc]; rfl
  show mutate E (exec E k) r f w = _
  unfold mutate
  rw [hat]
  simp only [hc, hit, Option.map_some, Option.getD_some]
  show andThen (plainMut w.cells.length f) _ (alloc _ w).2 = _
  unfold andThen
  rw [plain_copy]
  cases (f c.items).1 with
  | error e => rfl
  | ok val =>
    simp only []
    have hx : exec E (k + 1) (.assign i n (.ref w.cells.length)) (withCopy w c (f c.items).2) =
      andThen (assign E (exec E k) i n (.ref w.cells.length)) (fun _ w => (.ok (.val .none), w)) (withCopy w c (f c.items).2) := rfl
    rw [hx]
    unfold andThen
    cases assign E (exec E k) i n (.ref w.cells.length) (withCopy w c (f c.items).2) with
    | mk res w' => cases res <;> rfl

/-- Which items are rejected. -/
theorem mapHM_error {check : Item → Except Err Item} {i n : Nat} {e : Err} : ∀ (xs : List Item) (w : W),
    (mapHM (validItem (.plain check) i n) xs w).1 = .error e → ∃ x ∈ xs, check x = .error e
  | [], w, h => by cases h
  | x :: xs, w, h => by
    unfold mapHM at h
    have hv : validItem (.plain check) i n x w = (check x, w) := by unfold validItem; rfl
    cases hx : check x with
    | error e' =>
      rw [hx] at hv
      rw [andThen_err hv] at h
      cases h
      exact ⟨x, by simp, hx⟩
    | ok y =>
      rw [hx] at hv
      rw [andThen_ok hv] at h
      have hi := mapHM_error (check := check) (i := i) (n := n) (e := e) xs w
      revert h
      refine andThen_cases (P := fun p => p.1 = .error e → _) ?_ ?_
      · intro e' w' h he
        cases he
        rw [h] at hi
        obtain ⟨y, h1, h2⟩ := hi rfl
        exact ⟨y, by simp [h1], h2⟩
      · intro a w' h he; cases he

/-- C47: one mutation, when no listener acts.  Either it raises, because the
method raises or an item of the changed copy is not valid; then no property and
no container has changed and nobody has been notified.  Or it returns what the
method returns; the property then holds a new container with the validated items
of the changed copy, bound to the property; the old container has its items and is
no longer bound; nothing else has changed; and the notifications are those of an
assignment. -/
theorem C47_outcome {E : Env} {k : Nat} {w : W} {i n r : Nat} {c : Cell} {kd : Nat} {co : Bool}
    {check : Item → Except Err Item} {build : List Item → List Item} (hq : ∀ m i n w, E.listener m i n w = [])
    (hg : Good w) (hsp : E.spec i n = .mk kd co true (.plain check) build) (hk : c.kind = kd)
    (hc : w.cells[r]? = some c) (hb : c.bound = some (i, n)) (hh : Holds w i n r) (f : Mut) :
    (∃ e w', exec E (k + 1) (.mutate r f) w = (.error e, w') ∧ OnlyCreates w w' ∧
      ((f c.items).1 = .error e ∨ ∃ x ∈ (f c.items).2, check x = .error e)) ∨
    (∃ val w' zs, exec E (k + 1) (.mutate r f) w = (.ok val, w') ∧ (f c.items).1 = .ok val ∧
      List.Forall₂ (fun x z => check x = .ok z) (f c.items).2 zs ∧
      ∃ r', w.cells.length ≤ r' ∧ w'.cells[r']? = some ⟨kd, build zs, some (i, n)⟩ ∧
        (∀ a b, w'.slots a b = if a = i ∧ b = n then some r' else w.slots a b) ∧
        w'.cells[r]? = some { c with bound := none } ∧ (∀ s, s < w.cells.length → s ≠ r → w'.cells[s]? = w.cells[s]?) ∧
        w'.log = w.log ++ (⟨.validate, i, n, some r, some r'⟩ ::
          ((if E.equal i n c.items (build zs) then [] else [⟨.change, i, n, some r, some r'⟩]) ++
            [⟨.set, i, n, some r, some r'⟩]))) := by
  rw [C47_as_assignment hc hb hh f]
  have hrl := hg.lt i n r hh
  cases hf : (f c.items).1 with
  | error e => exact .inl ⟨e, _, rfl, ⟨rfl, rfl, _, rfl⟩, .inl rfl⟩
  | ok val =>
    simp only []
    have hex : exec E (k + 1) (.assign i n (.ref w.cells.length)) (withCopy w c (f c.items).2) =
      andThen (assign E (exec E k) i n (.ref w.cells.length)) (fun _ w => (.ok (.val .none), w)) (withCopy w c (f c.items).2) := rfl
    have hcopy : (withCopy w c (f c.items).2).cells[w.cells.length]? = some { kind := c.kind, items := (f c.items).2 } := by
      simp [withCopy]
    have hval : validate (E.spec i n) i n (.ref w.cells.length) (withCopy w c (f c.items).2) =
        andThen (mapHM (validItem (.plain check) i n) (f c.items).2) (fun out =>
          alloc { kind := kd, items := build out, bound := some (i, n) }) (withCopy w c (f c.items).2) := by
      rw [hsp]
      unfold validate
      simp only [hcopy]
      rw [if_neg (by simp [hk])]
      rfl
    have hsame := (mapHM_plain (check := check) (i := i) (n := n) (f c.items).2 (withCopy w c (f c.items).2))
    cases hvi : mapHM (validItem (.plain check) i n) (f c.items).2 (withCopy w c (f c.items).2) with
    | mk res w1 =>
      rw [hvi] at hsame
      have hw1 : w1 = withCopy w c (f c.items).2 := hsame.1
      subst hw1
      cases res with
      | error e =>
        left
        have ha : assign E (exec E k) i n (.ref w.cells.length) (withCopy w c (f c.items).2) =
            (.error e, withCopy w c (f c.items).2) := by
          unfold assign
          rw [andThen_err]
          rw [hval, andThen_err hvi]
        rw [hex, andThen_err ha]
        refine ⟨e, _, rfl, ⟨rfl, rfl, _, rfl⟩, .inr (mapHM_error (i := i) (n := n) _ (withCopy w c (f c.items).2) ?_)⟩
        rw [hvi]
      | ok zs =>
        right
        have hnot : ∀ m p v (w : W), notify E (exec E k) m i n p v w =
            (.ok (), { w with log := w.log ++ [⟨m, i, n, p, v⟩] }) := by
          intro m p v w
          unfold notify
          simp only [hq]
          rfl
        have hlen : (withCopy w c (f c.items).2).cells.length = w.cells.length + 1 := by simp [withCopy]
        have hv : validate (E.spec i n) i n (.ref w.cells.length) (withCopy w c (f c.items).2) =
            (.ok (w.cells.length + 1), { w with cells := (w.cells ++ [{ kind := c.kind, items := (f c.items).2 }]) ++
              [⟨kd, build zs, some (i, n)⟩] }) := by
          rw [hval, andThen_ok hvi]
          show (Except.ok (withCopy w c (f c.items).2).cells.length, _) = _
          rw [hlen]
          rfl
        have hold : ∀ s : Nat, s < w.cells.length → ((w.cells ++ [{ kind := c.kind, items := (f c.items).2 }]) ++
              [⟨kd, build zs, some (i, n)⟩])[s]? = w.cells[s]? := by
          intro s hs
          rw [List.append_assoc, List.getElem?_append_left hs]
        have hnew : ((w.cells ++ [{ kind := c.kind, items := (f c.items).2 }]) ++
              [(⟨kd, build zs, some (i, n)⟩ : Cell)])[w.cells.length + 1]? = some ⟨kd, build zs, some (i, n)⟩ := by
          rw [List.getElem?_append_right (by simp)]
          simp
        have has : ∃ w1, assign E (exec E k) i n (.ref w.cells.length) (withCopy w c (f c.items).2) = (.ok (), w1) ∧
            w1.cells = (w.cells ++ [{ kind := c.kind, items := (f c.items).2 }]) ++ [⟨kd, build zs, some (i, n)⟩] ∧
            (∀ a b, w1.slots a b = if a = i ∧ b = n then some (w.cells.length + 1) else w.slots a b) ∧
            w1.log = w.log ++ (⟨.validate, i, n, some r, some (w.cells.length + 1)⟩ ::
              ((if E.equal i n c.items (build zs) then [] else [⟨.change, i, n, some r, some (w.cells.length + 1)⟩]) ++
                [⟨.set, i, n, some r, some (w.cells.length + 1)⟩])) := by
          unfold assign
          rw [andThen_ok hv, setSlot_eq, andThen_ok (hnot _ _ _ _)]
          have hpr : w.slots i n = some r := hh
          simp only [hpr]
          unfold afterStore
          simp only []
          have hi1 : itemsOf (stored i n (some (w.cells.length + 1)) { w with
              cells := w.cells ++ [{ kind := c.kind, items := (f c.items).2 }] ++ [⟨kd, build zs, some (i, n)⟩]
              log := w.log ++ [⟨.validate, i, n, some r, some (w.cells.length + 1)⟩] }) r = c.items := by
            unfold itemsOf stored
            simp only []
            rw [hold r hrl, hc]
            rfl
          have hi2 : itemsOf (stored i n (some (w.cells.length + 1)) { w with
              cells := w.cells ++ [{ kind := c.kind, items := (f c.items).2 }] ++ [⟨kd, build zs, some (i, n)⟩]
              log := w.log ++ [⟨.validate, i, n, some r, some (w.cells.length + 1)⟩] }) (w.cells.length + 1) = build zs := by
            unfold itemsOf stored
            simp only []
            rw [hnew]
            rfl
          simp only [hi1, hi2]
          cases E.equal i n c.items (build zs) with
          | true =>
            simp only [Bool.not_true, Bool.false_eq_true, if_false, if_true]
            rw [andThen_ok (w' := stored i n (some (w.cells.length + 1)) _) (a := ()) rfl, hnot]
            exact ⟨_, rfl, rfl, fun a b => rfl, by simp [stored]⟩
          | false =>
            simp only [Bool.not_false, if_true, Bool.false_eq_true, if_false]
            rw [andThen_ok (hnot _ _ _ _), hnot]
            exact ⟨_, rfl, rfl, fun a b => rfl, by simp [stored]⟩
        obtain ⟨w1, ha, h1, h2, h3⟩ := has
        rw [hex, andThen_ok ha]
        refine ⟨val, unbind r w1, zs, rfl, rfl, hsame.2 zs rfl, w.cells.length + 1, by omega, ?_, h2, ?_, ?_, h3⟩
        · rw [unbind_other (by omega), h1, hnew]
        · show (w1.cells.modify r _)[r]? = _
          rw [List.getElem?_modify, h1, hold r hrl, hc]
          simp
        · intro s hs hne
          rw [unbind_other hne, h1, hold s hs]

/-! ## Examples -/

/-- Integers are accepted. -/
def onlyInts : Item → Except Err Item
  | .val (.int i) => .ok (.val (.int i))
  | _ => .error .invalid

/-- `append`. -/
def appendM (x : Item) : Mut := fun xs => (.ok (.val .none), xs ++ [x])

/-- Property 0 is an observed list of integers; property 1 an observed list of
such lists. -/
def c47Env : Env :=
  { spec := fun _ n => if n = 0 then .mk 0 false true (.plain onlyInts) id
      else .mk 0 false true (.nested (.mk 0 false true (.plain onlyInts) id)) id
    equal := fun _ _ a b => a.length == b.length
    listener := fun _ _ _ _ => [] }

/-- What a program sees: for each notification its mode, whether the last call
raised, and for each property of instance 0 the numbers in its container (`none`
for something that is not a number). -/
def numbersOf (w : W) (n : Nat) : Option (List (Option Int)) :=
  (w.slots 0 n).map fun r => (itemsOf w r).map fun
    | .val (.int i) => some i
    | _ => none

def raised {α : Type} : Except Err α → Bool
  | .ok _ => false
  | .error _ => true

def one : Item := .val (.int 1)
def two : Item := .val (.int 2)
def bad : Item := .val (.str (s% "bad"))

/-- `a.x = [1]; a.x.append(2)`: the second container created is held first. -/
def c47Ops : List Op := [.new 0 [one], .assign 0 0 (.ref 0), .mutate 1 (appendM two)]

/-- Mutations are validated and notified; a bad item raises and changes
nothing; the container replaced by `append(2)` can be changed without effect. -/
theorem C47_example : FairListeners c47Env ∧ (∀ o ∈ c47Ops, Op.notInPlace o) ∧
    Holds (history c47Env 3 c47Ops start) 0 0 3 ∧
    numbersOf (history c47Env 3 c47Ops start) 0 = some [some 1, some 2] ∧
    (history c47Env 3 c47Ops start).log.map (·.mode) = [.validate, .change, .set, .validate, .change, .set] ∧
    raised (exec c47Env 3 (.mutate 3 (appendM bad)) (history c47Env 3 c47Ops start)).1 = true ∧
    numbersOf (exec c47Env 3 (.mutate 3 (appendM bad)) (history c47Env 3 c47Ops start)).2 0 = some [some 1, some 2] ∧
    raised (exec c47Env 3 (.mutate 1 (appendM bad)) (history c47Env 3 c47Ops start)).1 = false ∧
    numbersOf (exec c47Env 3 (.mutate 1 (appendM bad)) (history c47Env 3 c47Ops start)).2 0 = some [some 1, some 2] := by
  refine ⟨⟨fun _ _ _ _ o h => (by cases h), fun _ _ _ o h => (by cases h)⟩, ?_, by unfold Holds; decide +kernel, by decide +kernel,
    by decide +kernel, by decide +kernel, by decide +kernel, by decide +kernel, by decide +kernel⟩
  intro o ho
  simp only [c47Ops, List.mem_cons, List.not_mem_nil, or_false] at ho
  rcases ho with rfl | rfl | rfl <;> trivial

/-- C48 has instances: the container held before `append(2)`. -/
theorem C48_example : Holds (history c47Env 3 [.new 0 [one], .assign 0 0 (.ref 0)] start) 0 0 1 ∧
    ¬ Holds (history c47Env 3 [.mutate 1 (appendM two)]
      (history c47Env 3 [.new 0 [one], .assign 0 0 (.ref 0)] start)) 0 0 1 := by
  unfold Holds
  decide +kernel

/-! ## Where the claim is false -/

/-- `a.x += ['bad']` raises, and `a.x` is what it was; but its container has lost
its binding: a later `a.x.append('bad')` is neither validated nor notified. -/
theorem C47_rejected_operator :
    let w := history c47Env 3 [.new 0 [one], .assign 0 0 (.ref 0)] start
    let (res, w1) := exec c47Env 3 (.iassign 0 0 (appendM bad)) w
    let (res2, w2) := exec c47Env 3 (.mutate 1 (appendM bad)) w1
    raised res = true ∧ numbersOf w1 0 = some [some 1] ∧
    raised res2 = false ∧ numbersOf w2 0 = some [some 1, none] ∧ w2.log.length = w.log.length := by
  decide +kernel

/-- `y = a.x; y += [2]` raises nothing and leaves `a.x` as it was, but unbound:
a later `a.x.append('bad')` is neither validated nor notified. -/
theorem C47_alias_operator :
    let w := history c47Env 3 [.new 0 [one], .assign 0 0 (.ref 0)] start
    let (res, w1) := exec c47Env 3 (.imutate 1 (appendM two)) w
    let (res2, w2) := exec c47Env 3 (.mutate 1 (appendM bad)) w1
    raised res = false ∧ numbersOf w1 0 = some [some 1] ∧
    raised res2 = false ∧ numbersOf w2 0 = some [some 1, none] ∧ w2.log.length = w.log.length := by
  decide +kernel

/-- The numbers in the first list of a list of lists. -/
def innerNumbers (w : W) : Option (List (Option Int)) :=
  (w.slots 0 1).bind fun r => match itemsOf w r with
    | .ref s :: _ => some ((itemsOf w s).map fun
        | .val (.int i) => some i
        | _ => none)
    | _ => none

/-- `a.y[0].append('bad')` on a list of lists: the inner list is an observable
container of the same property but not its value, so nothing is validated and
nobody is notified, although both properties observe mutations. -/
theorem C47_inner_container :
    let w := history c47Env 4 [.new 0 [one], .new 0 [.ref 0], .assign 0 1 (.ref 1)] start
    let (res, w1) := exec c47Env 4 (.mutate 2 (appendM bad)) w
    innerNumbers w = some [some 1] ∧ raised res = false ∧
    innerNumbers w1 = some [some 1, none] ∧ w1.log.length = w.log.length := by
  decide +kernel

end Verif.Obs
