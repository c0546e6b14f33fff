import Verif.Spec.LinkArgs
import Verif.Props.C40
import Mathlib.Data.List.Forall2
import Mathlib.Data.List.Nodup

/-!
# C86: what `directional_link` and `link` take and what a failed call leaves behind
-/

namespace Verif.LinkArgs

open Verif.Links Verif.Spec.LinkArgs Verif.Links.Spec

variable {V : Type} {E : LEnv V} {A : Attrs}

/-! ## The checks -/

theorem check_iff (x : Arg) (n : Nat) : check A x = some n ↔ Names A x n := by
  constructor
  · intro h
    unfold check at h
    split at h
    · split at h
      · exact ⟨_, _, rfl, h⟩
      · cases h
    · cases h
  · rintro ⟨r, s, rfl, h⟩
    exact h

theorem names_unique {x : Arg} {n m : Nat} (h : Names A x n) (h' : Names A x m) : n = m := by
  have h1 := (check_iff x n).2 h
  rw [(check_iff x m).2 h'] at h1
  exact (Option.some.inj h1).symm

theorem same_iff {x y : Arg} {a b : Nat} (hx : Names A x a) (hy : Names A y b) : same x y = true ↔ x = y := by
  obtain ⟨r, s, rfl, _⟩ := hx
  obtain ⟨r', s', rfl, _⟩ := hy
  simp [same]

theorem transform_iff (t : TArg V) (f : V → Option V) : transformOf t = some f ↔ Stands t f := by
  constructor
  · intro h
    unfold transformOf at h
    split at h
    · cases h; exact .none
    · cases h
    · split at h
      · cases h
      · rename_i n g hn
        have hn : n = 1 := by omega
        cases h
        subst hn
        exact .unary _
    · cases h; exact .opaque _
  · rintro (_ | f | f) <;> rfl

/-! ## `directional_link` -/

theorem dlink_good (k id : Nat) {src tgt : Arg} {kw : Kw V} {a b : Nat} {f : V → Option V} (hx : kw.extra = false)
    (h : Good A src tgt kw a b f) (w : LW V) : dlink E A k id src tgt kw w =
      match (if kw.now then update E (assign E k) ⟨id, a, b, f, kw.changeOnly⟩ w else (.ok (), w)) with
        | (.ok _, w) => (.ok (), { w with links := w.links ++ [⟨id, a, b, f, kw.changeOnly⟩] })
        | (.error e, w) => (.error (.update e), w) := by
  obtain ⟨h1, h2, h3, h4⟩ := h
  have hs : same src tgt = false := by
    cases hh : same src tgt with
    | false => rfl
    | true => exact absurd ((same_iff h1 h2).1 hh) h3
  unfold dlink
  simp only [hx, (check_iff _ _).2 h1, (check_iff _ _).2 h2, (transform_iff _ _).2 h4, hs, Bool.false_eq_true, if_false]
  rfl

/-- Arguments that are not those of a link: ValueError, and nothing has changed. -/
theorem C86_refused (k id : Nat) {src tgt : Arg} {kw : Kw V} (hx : kw.extra = false)
    (h : ¬ ∃ a b f, Good A src tgt kw a b f) (w : LW V) : dlink E A k id src tgt kw w = (.error .value, w) := by
  unfold dlink
  rw [if_neg (by rw [hx]; exact Bool.false_ne_true)]
  split
  · rfl
  rename_i a ha
  split
  · rfl
  rename_i b hb
  split
  · rfl
  rename_i hs
  split
  · rfl
  rename_i f hf
  refine absurd ⟨a, b, f, (check_iff _ _).1 ha, (check_iff _ _).1 hb, ?_, (transform_iff _ _).1 hf⟩ h
  rintro rfl
  exact hs ((same_iff ((check_iff _ _).1 ha) ((check_iff _ _).1 ha)).2 rfl)

/-- Arguments of a link: the call returns, values and other links are as before, and one link
has been added. -/
theorem C86_accepted (k id : Nat) {src tgt : Arg} {kw : Kw V} {a b : Nat} {f : V → Option V} (hx : kw.extra = false)
    (hn : kw.now = false) (h : Good A src tgt kw a b f) (w : LW V) :
    dlink E A k id src tgt kw w = (.ok (), { w with links := w.links ++ [⟨id, a, b, f, kw.changeOnly⟩] }) := by
  rw [dlink_good k id hx h, hn]
  rfl

/-- With `update_now` the value is transformed and assigned to the target first: the call
succeeds if that does, with the values it gives, and otherwise makes no link. -/
theorem C86_update_now (k id : Nat) {src tgt : Arg} {kw : Kw V} {a b : Nat} {f : V → Option V} (hx : kw.extra = false)
    (hn : kw.now = true) (h : Good A src tgt kw a b f) {w : LW V} (hi : Idle w) (hu : w.unl id = false)
    (hk : w.links.length < k) :
    (f ((w.vals a).getD E.noneV) = none → (dlink E A k id src tgt kw w).1 = .error (.update .invalid) ∧
      (dlink E A k id src tgt kw w).2.vals = w.vals ∧ (dlink E A k id src tgt kw w).2.links = w.links) ∧
    ∀ v, f ((w.vals a).getD E.noneV) = some v → ∀ r w1, assign E k b v { w with upd := put w.upd id true } = (r, w1) →
      (dlink E A k id src tgt kw w).2.vals = w1.vals ∧
      (r = .ok () → (dlink E A k id src tgt kw w).1 = .ok () ∧
        (dlink E A k id src tgt kw w).2.links = w.links ++ [⟨id, a, b, f, kw.changeOnly⟩]) ∧
      ∀ e, r = .error e → (dlink E A k id src tgt kw w).1 = .error (.update e) ∧
        (dlink E A k id src tgt kw w).2.links = w.links := by
  rw [dlink_good k id hx h, hn, if_pos rfl]
  unfold update
  simp only [hu, hi id, Bool.false_eq_true, if_false]
  refine ⟨fun hf => by rw [hf]; exact ⟨rfl, rfl, rfl⟩, fun v hf r w1 ha => ?_⟩
  rw [hf]
  simp only []
  have hl := (C41_terminates E b v { w with upd := put w.upd id true } hk).2.2.2.1
  rw [ha] at hl ⊢
  refine ⟨?_, ?_, ?_⟩
  · cases r <;> rfl
  · rintro rfl; exact ⟨rfl, by show w1.links ++ _ = _; rw [hl]⟩
  · rintro e rfl; exact ⟨rfl, hl⟩

/-- How a call ends. -/
theorem dlink_ends (k id : Nat) {src tgt : Arg} {kw : Kw V} (hx : kw.extra = false) {w : LW V} (hi : Idle w)
    (hk : w.links.length < k) : Idle (dlink E A k id src tgt kw w).2 ∧
    match (dlink E A k id src tgt kw w).1 with
    | .ok _ => ∃ a b f, Good A src tgt kw a b f ∧
        (dlink E A k id src tgt kw w).2.links = w.links ++ [⟨id, a, b, f, kw.changeOnly⟩] ∧
        (kw.now = false → dlink E A k id src tgt kw w =
          (.ok (), { w with links := w.links ++ [⟨id, a, b, f, kw.changeOnly⟩] }))
    | .error .value => (¬ ∃ a b f, Good A src tgt kw a b f) ∧ dlink E A k id src tgt kw w = (.error .value, w)
    | .error .type => False
    | .error (.update _) => kw.now = true ∧ (dlink E A k id src tgt kw w).2.links = w.links := by
  by_cases hg : ∃ a b f, Good A src tgt kw a b f
  · obtain ⟨a, b, f, hg⟩ := hg
    cases hn : kw.now with
    | false =>
      rw [C86_accepted k id hx hn hg]
      exact ⟨hi, a, b, f, hg, rfl, fun _ => rfl⟩
    | true =>
      rw [dlink_good k id hx hg, hn, if_pos rfl]
      obtain ⟨j, rfl⟩ : ∃ j, k = j + 1 := ⟨k - 1, by omega⟩
      obtain ⟨h1, h2⟩ := update_keeps (E := E) j ⟨id, a, b, f, kw.changeOnly⟩ hi (by omega)
      cases hr : update E (assign E (j + 1)) ⟨id, a, b, f, kw.changeOnly⟩ w with
      | mk r w1 =>
        rw [hr] at h1 h2
        cases r with
        | ok u =>
          refine ⟨h2, a, b, f, hg, ?_, fun h => by cases h⟩
          show w1.links ++ _ = _
          rw [h1]
        | error e => exact ⟨h2, rfl, h1⟩
  · rw [C86_refused k id hx hg]
    exact ⟨hi, hg, rfl⟩

/-! ## `link` -/

/-- A row and all rows of the loops. -/
def rowFrom (i : Nat) (x : Arg) : Nat → List Arg → List ((Nat × Nat) × Arg × Arg)
  | _, [] => []
  | j, y :: ys => if i = j then rowFrom i x (j + 1) ys else ((i, j), x, y) :: rowFrom i x (j + 1) ys

def allFrom (items : List Arg) : Nat → List Arg → List ((Nat × Nat) × Arg × Arg)
  | _, [] => []
  | i, x :: xs => rowFrom i x 0 items ++ allFrom items (i + 1) xs

/-- One link after the other. -/
def runAll (E : LEnv V) (A : Attrs) (k id n : Nat) (kw : Kw V) : List ((Nat × Nat) × Arg × Arg) → AM V
  | [] => fun w => (.ok (), w)
  | q :: qs => fun w => match dlink E A k (id + q.1.1 * n + q.1.2) q.2.1 q.2.2 kw w with
      | (.ok _, w) => runAll E A k id n kw qs w
      | (.error e, w) => (.error e, w)

theorem runAll_append (k id n : Nat) (kw : Kw V) : ∀ (ps qs : List ((Nat × Nat) × Arg × Arg)) (w : LW V),
    runAll E A k id n kw (ps ++ qs) w = match runAll E A k id n kw ps w with
      | (.ok _, w) => runAll E A k id n kw qs w
      | (.error e, w) => (.error e, w)
  | [], qs, w => rfl
  | p :: ps, qs, w => by
    simp only [List.cons_append, runAll]
    cases dlink E A k (id + p.1.1 * n + p.1.2) p.2.1 p.2.2 kw w with
    | mk r w1 => cases r with
      | ok u => exact runAll_append k id n kw ps qs w1
      | error e => rfl

theorem inner_run (k id n : Nat) (kw : Kw V) (i : Nat) (x : Arg) : ∀ (ys : List Arg) (j : Nat) (w : LW V),
    inner E A k (id + i * n) kw i x j ys w = runAll E A k id n kw (rowFrom i x j ys) w
  | [], j, w => rfl
  | y :: ys, j, w => by
    unfold inner rowFrom
    by_cases h : i = j
    · rw [if_pos h, if_pos h]; exact inner_run k id n kw i x ys (j + 1) w
    · rw [if_neg h, if_neg h]
      simp only [runAll]
      cases dlink E A k (id + i * n + j) x y kw w with
      | mk r w1 => cases r with
        | ok u => exact inner_run k id n kw i x ys (j + 1) w1
        | error e => rfl

theorem outer_run (k id : Nat) (kw : Kw V) (items : List Arg) : ∀ (xs : List Arg) (i : Nat) (w : LW V),
    outer E A k id kw items i xs w = runAll E A k id items.length kw (allFrom items i xs) w
  | [], i, w => rfl
  | x :: xs, i, w => by
    unfold outer allFrom
    rw [inner_run, runAll_append]
    cases runAll E A k id items.length kw (rowFrom i x 0 items) w with
    | mk r w1 => cases r with
      | ok u => exact outer_run k id kw items xs (i + 1) w1
      | error e => rfl

theorem rowFrom_positions (i : Nat) (x : Arg) : ∀ (ys : List Arg) (j : Nat),
    (rowFrom i x j ys).map (·.1) = ((List.range' j ys.length).map fun j => (i, j)).filter fun p => p.1 != p.2
  | [], j => rfl
  | y :: ys, j => by
    simp only [rowFrom, List.length_cons, List.range'_succ, List.map_cons, List.filter_cons]
    by_cases h : i = j
    · rw [if_pos h, rowFrom_positions i x ys (j + 1)]; simp [h]
    · rw [if_neg h, List.map_cons, rowFrom_positions i x ys (j + 1)]; simp [h]

theorem allFrom_positions (items : List Arg) : ∀ (xs : List Arg) (i : Nat),
    (allFrom items i xs).map (·.1) = ((List.range' i xs.length).flatMap fun i =>
      (List.range items.length).map fun j => (i, j)).filter fun p => p.1 != p.2
  | [], i => rfl
  | x :: xs, i => by
    simp only [allFrom, List.length_cons, List.range'_succ, List.map_append, List.flatMap_cons, List.filter_append]
    rw [rowFrom_positions, allFrom_positions items xs (i + 1), List.range_eq_range']

theorem rowFrom_items (i : Nat) (x : Arg) (items : List Arg) : ∀ (ys : List Arg) (j : Nat), items.drop j = ys →
    ∀ q ∈ rowFrom i x j ys, q.1.1 = i ∧ q.2.1 = x ∧ items[q.1.2]? = some q.2.2
  | [], j, _, q, hq => by cases hq
  | y :: ys, j, hd, q, hq => by
    have h1 : items[j]? = some y := by
      have := congrArg (fun l => l[0]?) hd
      simpa using this
    have h2 : items.drop (j + 1) = ys := by
      rw [← List.tail_drop, hd]; rfl
    unfold rowFrom at hq
    split at hq
    · exact rowFrom_items i x items ys (j + 1) h2 q hq
    · rcases List.mem_cons.1 hq with rfl | hq
      · exact ⟨rfl, rfl, h1⟩
      · exact rowFrom_items i x items ys (j + 1) h2 q hq

theorem allFrom_items (items : List Arg) : ∀ (xs : List Arg) (i : Nat), items.drop i = xs →
    ∀ q ∈ allFrom items i xs, items[q.1.1]? = some q.2.1 ∧ items[q.1.2]? = some q.2.2
  | [], i, _, q, hq => by cases hq
  | x :: xs, i, hd, q, hq => by
    have h1 : items[i]? = some x := by
      have := congrArg (fun l => l[0]?) hd
      simpa using this
    have h2 : items.drop (i + 1) = xs := by
      rw [← List.tail_drop, hd]; rfl
    unfold allFrom at hq
    rcases List.mem_append.1 hq with hq | hq
    · obtain ⟨a, b, c⟩ := rowFrom_items i x items items 0 rfl q hq
      exact ⟨by rw [a, b]; exact h1, c⟩
    · exact allFrom_items items xs (i + 1) h2 q hq

theorem positions_all (items : List Arg) : (allFrom items 0 items).map (·.1) = positions items.length := by
  rw [allFrom_positions, positions, List.range_eq_range']

theorem fits_good {items : List Arg} {q : (Nat × Nat) × Arg × Arg} (h1 : items[q.1.1]? = some q.2.1)
    (h2 : items[q.1.2]? = some q.2.2) {kw : Kw V} (ht : kw.transform = .none) :
    (∃ a b f, Good A q.2.1 q.2.2 kw a b f) ↔ Fits A items q.1 := by
  constructor
  · rintro ⟨a, b, f, g1, g2, g3, _⟩
    exact ⟨_, _, a, b, h1, h2, g1, g2, g3⟩
  · rintro ⟨x, y, a, b, e1, e2, g1, g2, g3⟩
    rw [h1] at e1; rw [h2] at e2
    cases e1; cases e2
    exact ⟨a, b, some, g1, g2, g3, by rw [ht]; exact .none⟩

theorem runAll_ends (k id n : Nat) {kw : Kw V} (hx : kw.extra = false) (ht : kw.transform = .none) (items : List Arg) :
    ∀ (qs : List ((Nat × Nat) × Arg × Arg)) (w : LW V), Idle w → w.links.length + qs.length < k →
    (∀ q ∈ qs, items[q.1.1]? = some q.2.1 ∧ items[q.1.2]? = some q.2.2) →
    ∃ (made : List (Lnk V)) (ps rest : List (Nat × Nat)), qs.map (·.1) = ps ++ rest ∧
      List.Forall₂ (Joins A items kw.changeOnly) made ps ∧ (∀ p ∈ ps, Fits A items p) ∧
      (runAll E A k id n kw qs w).2.links = w.links ++ made ∧
      (kw.now = false → (runAll E A k id n kw qs w).2 = { w with links := w.links ++ made }) ∧
      match (runAll E A k id n kw qs w).1 with
      | .ok _ => rest = []
      | .error .value => ∃ p rest', rest = p :: rest' ∧ ¬ Fits A items p
      | .error .type => False
      | .error (.update _) => kw.now = true
  | [], w, hi, hk, hq => ⟨[], [], [], rfl, .nil, (by simp), (by simp [runAll]), (by simp [runAll]), rfl⟩
  | q :: qs, w, hi, hk, hq => by
    simp only [List.length_cons] at hk
    obtain ⟨q1, q2⟩ := hq q (by simp)
    have hg := fits_good (A := A) q1 q2 ht
    obtain ⟨d1, d2⟩ := dlink_ends (E := E) (A := A) k (id + q.1.1 * n + q.1.2) (src := q.2.1) (tgt := q.2.2) hx hi
      (by omega)
    simp only [runAll]
    cases hr : dlink E A k (id + q.1.1 * n + q.1.2) q.2.1 q.2.2 kw w with
    | mk r w1 =>
      rw [hr] at d1 d2
      cases r with
      | ok u =>
        obtain ⟨a, b, f, g, h1, h2⟩ := d2
        obtain ⟨made, ps, rest, i1, i2, i3, i4, i5, i6⟩ := runAll_ends k id n hx ht items qs w1 d1
          (by rw [h1]; simp only [List.length_append, List.length_cons, List.length_nil]; omega)
          (fun p hp => hq p (by simp [hp]))
        refine ⟨⟨id + q.1.1 * n + q.1.2, a, b, f, kw.changeOnly⟩ :: made, q.1 :: ps, rest, ?_, ?_, ?_, ?_, ?_, i6⟩
        · rw [List.map_cons, i1]; rfl
        · refine .cons ⟨_, _, q1, q2, g.1, g.2.1, ?_, rfl⟩ i2
          have := g.2.2.2
          rw [ht] at this
          cases this
          rfl
        · intro p hp
          rcases List.mem_cons.1 hp with rfl | hp
          · exact hg.1 ⟨a, b, f, g⟩
          · exact i3 p hp
        · rw [i4, h1, List.append_assoc]; rfl
        · intro hn
          rw [i5 hn]
          cases h2 hn
          simp
      | error e =>
        cases e with
        | value =>
          obtain ⟨g, h⟩ := d2
          cases h
          exact ⟨[], [], (q :: qs).map (·.1), rfl, .nil, (by simp), (by simp), (by simp),
            q.1, qs.map (·.1), rfl, fun h => g (hg.2 h)⟩
        | type => exact d2.elim
        | update e =>
          obtain ⟨g, h⟩ := d2
          exact ⟨[], [], (q :: qs).map (·.1), rfl, .nil, (by simp), by simpa using h,
            (fun hn => by rw [g] at hn; cases hn), g⟩

/-- A call with fewer than two items or with a transform: ValueError, and nothing has changed. -/
theorem C86_link_refused (k id : Nat) {items : List Arg} {kw : Kw V} (h : items.length < 2 ∨ kw.transform ≠ .none)
    (w : LW V) : link E A k id items kw w = (.error .value, w) := by
  unfold link
  by_cases hl : items.length < 2
  · rw [if_pos hl]
  · rw [if_neg hl]
    split
    · rename_i ht
      exact absurd ht (h.resolve_left hl)
    · rfl

/-- Any other call goes through the ordered pairs of items.  The links made are those of the
pairs in front of the first pair that cannot be linked, and they stay when the call fails. -/
theorem C86_link (k id : Nat) {items : List Arg} {kw : Kw V} (hx : kw.extra = false) (ht : kw.transform = .none)
    (hl : 2 ≤ items.length) {w : LW V} (hi : Idle w) (hk : w.links.length + items.length * items.length < k) :
    ∃ (made : List (Lnk V)) (ps rest : List (Nat × Nat)), positions items.length = ps ++ rest ∧
      List.Forall₂ (Joins A items kw.changeOnly) made ps ∧ (∀ p ∈ ps, Fits A items p) ∧
      (link E A k id items kw w).2.links = w.links ++ made ∧
      (kw.now = false → (link E A k id items kw w).2 = { w with links := w.links ++ made }) ∧
      match (link E A k id items kw w).1 with
      | .ok _ => rest = []
      | .error .value => ∃ p rest', rest = p :: rest' ∧ ¬ Fits A items p
      | .error .type => False
      | .error (.update _) => kw.now = true := by
  have he : link E A k id items kw w = runAll E A k id items.length kw (allFrom items 0 items) w := by
    unfold link
    rw [if_neg (by omega), ht]
    exact outer_run k id kw items items 0 w
  have hlen : (allFrom items 0 items).length ≤ items.length * items.length := by
    have h1 : (allFrom items 0 items).length = (positions items.length).length := by
      rw [← positions_all]; simp
    rw [h1, positions]
    refine Nat.le_trans (List.length_filter_le _ _) ?_
    rw [List.length_flatMap]
    simp
  rw [he, ← positions_all]
  exact runAll_ends k id items.length hx ht items _ w hi (by omega) (allFrom_items items items 0 rfl)

/-- The link of a pair of positions. -/
def linkAt (changeOnly : Bool) (id : Nat) (nodes : List Nat) (p : Nat × Nat) : Option (Lnk V) :=
  match nodes[p.1]?, nodes[p.2]? with
  | some a, some b => some ⟨id + p.1 * nodes.length + p.2, a, b, some, changeOnly⟩
  | _, _ => none

theorem group_positions (changeOnly : Bool) (id : Nat) (nodes : List Nat) :
    groupLinks (V := V) changeOnly id nodes = (positions nodes.length).filterMap (linkAt changeOnly id nodes) := by
  unfold groupLinks positions
  rw [List.filterMap_filter, List.filterMap_flatMap]
  congr 1
  funext i
  rw [List.filterMap_map]
  congr 1
  funext j
  by_cases h : i = j
  · simp [h]
  · simp only [h, if_false, Function.comp, linkAt, bne_iff_ne, ne_eq, not_false_eq_true, if_true]
    rfl

theorem names_get {items : List Arg} {nodes : List Nat} (hn : List.Forall₂ (Names A) items nodes) :
    ∀ (i : Nat) {x : Arg}, items[i]? = some x → ∃ a, nodes[i]? = some a ∧ Names A x a := by
  induction hn with
  | nil => intro i x h; simp at h
  | cons h _ ih =>
    intro i x hx
    cases i with
    | zero => simp only [List.getElem?_cons_zero, Option.some.injEq] at hx ⊢; subst hx; exact ⟨_, rfl, h⟩
    | succ i => simp only [List.getElem?_cons_succ] at hx ⊢; exact ih i hx

theorem runAll_good (k id : Nat) {kw : Kw V} (hx : kw.extra = false) (ht : kw.transform = .none) (hw : kw.now = false)
    {items : List Arg} {nodes : List Nat} (hn : List.Forall₂ (Names A) items nodes) (hd : items.Nodup) :
    ∀ (qs : List ((Nat × Nat) × Arg × Arg)) (w : LW V),
    (∀ q ∈ qs, q.1.1 ≠ q.1.2 ∧ items[q.1.1]? = some q.2.1 ∧ items[q.1.2]? = some q.2.2) →
    runAll E A k id items.length kw qs w =
      (.ok (), { w with links := w.links ++ (qs.map (·.1)).filterMap (linkAt kw.changeOnly id nodes) })
  | [], w, _ => by simp [runAll]
  | q :: qs, w, hq => by
    obtain ⟨q0, q1, q2⟩ := hq q (by simp)
    obtain ⟨a, a1, a2⟩ := names_get hn _ q1
    obtain ⟨b, b1, b2⟩ := names_get hn _ q2
    have hne : q.2.1 ≠ q.2.2 := by
      intro he
      obtain ⟨l1, e1⟩ := List.getElem?_eq_some_iff.1 q1
      obtain ⟨l2, e2⟩ := List.getElem?_eq_some_iff.1 q2
      exact q0 ((List.Nodup.getElem_inj_iff hd).1 (e1.trans (he.trans e2.symm)))
    have hl : linkAt (V := V) kw.changeOnly id nodes q.1 =
        some ⟨id + q.1.1 * items.length + q.1.2, a, b, some, kw.changeOnly⟩ := by
      simp only [linkAt, a1, b1, hn.length_eq]
    simp only [runAll]
    rw [C86_accepted k (id + q.1.1 * items.length + q.1.2) hx hw (a := a) (b := b) (f := some)
      ⟨a2, b2, hne, by rw [ht]; exact .none⟩ w]
    simp only []
    rw [runAll_good k id hx ht hw hn hd qs _ (fun p hp => hq p (by simp [hp]))]
    simp only [List.map_cons, List.filterMap_cons, hl, List.append_assoc, List.singleton_append]

theorem allFrom_apart (items xs : List Arg) (i : Nat) : ∀ q ∈ allFrom items i xs, q.1.1 ≠ q.1.2 := by
  intro q hq
  have h : q.1 ∈ (allFrom items i xs).map (·.1) := List.mem_map.2 ⟨q, hq, rfl⟩
  rw [allFrom_positions] at h
  simpa using (List.mem_filter.1 h).2

/-- `link` of different properties, not updated now: returns, and has made the links of the
group (C40_link). -/
theorem C86_link_made (k id : Nat) {kw : Kw V} (hx : kw.extra = false) (ht : kw.transform = .none) (hw : kw.now = false)
    {items : List Arg} {nodes : List Nat} (hl : 2 ≤ items.length) (hn : List.Forall₂ (Names A) items nodes)
    (hd : items.Nodup) (w : LW V) :
    link E A k id items kw w = (.ok (), { w with links := w.links ++ groupLinks kw.changeOnly id nodes }) := by
  have he : link E A k id items kw w = runAll E A k id items.length kw (allFrom items 0 items) w := by
    unfold link
    rw [if_neg (by omega), ht]
    exact outer_run k id kw items items 0 w
  rw [he, runAll_good k id hx ht hw hn hd _ w fun q hq => ⟨allFrom_apart items items 0 q hq, allFrom_items items items 0 rfl q hq⟩,
    positions_all, group_positions, hn.length_eq]

/-- A call without `update_now` returns exactly if the items are different properties. -/
theorem C86_link_returns (k id : Nat) {kw : Kw V} (hx : kw.extra = false) (ht : kw.transform = .none)
    (hw : kw.now = false) {items : List Arg} (hl : 2 ≤ items.length) {w : LW V} (hi : Idle w)
    (hk : w.links.length + items.length * items.length < k) :
    (link E A k id items kw w).1 = .ok () ↔ (∀ x ∈ items, ∃ n, Names A x n) ∧ items.Nodup := by
  constructor
  · intro h
    obtain ⟨made, ps, rest, h1, _, h3, _, _, h6⟩ := C86_link (E := E) (A := A) k id hx ht hl hi hk
    rw [h] at h6
    simp only at h6
    subst h6
    rw [List.append_nil] at h1
    have hall : ∀ i j, i < items.length → j < items.length → i ≠ j → Fits A items (i, j) := by
      intro i j hi hj hij
      refine h3 _ ?_
      rw [← h1, positions, List.mem_filter]
      refine ⟨?_, by simpa using hij⟩
      rw [List.mem_flatMap]
      exact ⟨i, List.mem_range.2 hi, List.mem_map.2 ⟨j, List.mem_range.2 hj, rfl⟩⟩
    constructor
    · intro x hx
      obtain ⟨i, hi', he⟩ := List.mem_iff_getElem.1 hx
      obtain ⟨y, z, a, b, e1, e2, g1, _, _⟩ := hall i (if i = 0 then 1 else 0) hi' (by split <;> omega)
        (by split <;> omega)
      rw [show ((i, if i = 0 then 1 else 0) : Nat × Nat).1 = i from rfl, List.getElem?_eq_getElem hi', he] at e1
      cases e1
      exact ⟨a, g1⟩
    · rw [List.nodup_iff_injective_get]
      intro i j hij
      by_cases hne : i = j
      · exact hne
      · obtain ⟨y, z, a, b, e1, e2, _, _, g⟩ := hall i j i.2 j.2 (fun h => hne (Fin.ext h))
        rw [List.getElem?_eq_getElem i.2] at e1
        rw [List.getElem?_eq_getElem j.2] at e2
        cases e1; cases e2
        exact absurd hij g
  · rintro ⟨h, hd⟩
    have : ∃ nodes, List.Forall₂ (Names A) items nodes := by
      clear hd hl hk
      induction items with
      | nil => exact ⟨[], .nil⟩
      | cons x xs ih =>
        obtain ⟨ns, hns⟩ := ih fun y hy => h y (by simp [hy])
        obtain ⟨n, hn⟩ := h x (by simp)
        exact ⟨n :: ns, .cons hn hns⟩
    obtain ⟨nodes, hn⟩ := this
    rw [C86_link_made k id hx ht hw hl hn hd]

/-- Finding: if the first two items can be linked, the link from the first to the second stays
even if the call fails because of a later item. -/
theorem C86_left_behind (k id : Nat) {kw : Kw V} (hx : kw.extra = false) (ht : kw.transform = .none)
    (hw : kw.now = false) {x y : Arg} {more : List Arg} {a b : Nat} (ha : Names A x a) (hb : Names A y b) (hxy : x ≠ y)
    (hbad : (∃ z ∈ more, ¬ ∃ n, Names A z n) ∨ ¬ (x :: y :: more).Nodup) {w : LW V} (hi : Idle w)
    (hk : w.links.length + (more.length + 2) * (more.length + 2) < k) :
    (link E A k id (x :: y :: more) kw w).1 = .error .value ∧ (link E A k id (x :: y :: more) kw w).2.vals = w.vals ∧
    ∃ l rest, (link E A k id (x :: y :: more) kw w).2.links = w.links ++ l :: rest ∧
      l.src = a ∧ l.tgt = b ∧ l.transform = some ∧ l.changeOnly = kw.changeOnly := by
  obtain ⟨made, ps, rest, h1, h2, h3, h4, h5, h6⟩ := C86_link (E := E) (A := A) k id hx ht
    (items := x :: y :: more) (by simp) hi (by simpa using hk)
  have hr : (link E A k id (x :: y :: more) kw w).1 ≠ .ok () := by
    intro h
    obtain ⟨g1, g2⟩ := (C86_link_returns k id hx ht hw (by simp) hi (by simpa using hk)).1 h
    rcases hbad with ⟨z, hz, hn⟩ | hn
    · exact hn (g1 z (by simp [hz]))
    · exact hn g2
  have hp : ∃ t, positions (x :: y :: more).length = (0, 1) :: t := by
    rw [← positions_all]
    simp only [allFrom, rowFrom, if_true]
    exact ⟨_, rfl⟩
  obtain ⟨t, hp⟩ := hp
  have hps : ∃ ps', ps = (0, 1) :: ps' := by
    cases ps with
    | nil =>
      exfalso
      rw [hp, List.nil_append] at h1
      revert h6
      cases hh : (link E A k id (x :: y :: more) kw w).1 with
      | ok u => exact absurd hh hr
      | error e =>
        cases e with
        | value =>
          rintro ⟨p, rest', g1, g2⟩
          rw [g1] at h1
          cases h1
          exact g2 ⟨x, y, a, b, rfl, rfl, ha, hb, hxy⟩
        | type => exact fun h => h
        | update e => intro g; rw [hw] at g; cases g
    | cons q qs =>
      rw [hp, List.cons_append] at h1
      cases h1
      exact ⟨qs, rfl⟩
  obtain ⟨ps', rfl⟩ := hps
  refine ⟨?_, by rw [h5 hw], ?_⟩
  · revert h6
    cases hh : (link E A k id (x :: y :: more) kw w).1 with
    | ok u => exact absurd hh hr
    | error e =>
      cases e with
      | value => exact fun _ => rfl
      | type => exact fun h => h.elim
      | update e => intro g; rw [hw] at g; cases g
  · cases h2 with
    | @cons l _ made' _ hj _ =>
      refine ⟨l, made', h4, ?_⟩
      obtain ⟨x', y', e1, e2, n1, n2, n3, n4⟩ := hj
      cases e1; cases e2
      exact ⟨names_unique n1 ha, names_unique n2 hb, n3, n4⟩

/-- After `link` of different properties returned, in a state without other links, an
assignment to one of them is read from all, and no other property changes. -/
theorem C86_in_step (k id : Nat) {kw : Kw V} (hx : kw.extra = false) (ht : kw.transform = .none) (hw : kw.now = false)
    {items : List Arg} {nodes : List Nat} (hl : 2 ≤ items.length) (hn : List.Forall₂ (Names A) items nodes)
    (hA : Apart A) {w w1 : LW V} (hwl : w.links = []) (hi : Idle w) (hu : ∀ d, w.unl d = false)
    (hk : items.length * items.length < k)
    (h : link E A k id items kw w = (.ok (), w1)) (hex : ExactEqual E (· ∈ nodes)) {a : Nat} {v x : V} (ha : a ∈ nodes)
    (hv : E.coerce a v = some x) (hfix : ∀ b ∈ nodes, E.coerce b x = some x) (hch : w.vals a ≠ some x) {m : Nat}
    (hm : items.length * items.length < m) :
    ∃ w', assign E m a v w1 = (.ok (), w') ∧ (∀ b ∈ nodes, w'.vals b = some x) ∧
      ∀ c, c ∉ nodes → w'.vals c = w.vals c := by
  have hd : items.Nodup := ((C86_link_returns (E := E) (A := A) k id hx ht hw hl hi
    (by rw [hwl]; simpa using hk)).1 (by rw [h])).2
  rw [C86_link_made k id hx ht hw hl hn hd] at h
  have h1 : w1 = { w with links := w.links ++ groupLinks kw.changeOnly id nodes } := ((Prod.mk.injEq _ _ _ _).mp h).2.symm
  have hnd : nodes.Nodup := by
    clear hl hk hm h h1 ha hex hfix
    induction hn with
    | nil => exact List.nodup_nil
    | @cons y n ys ns hy hys ih =>
      rw [List.nodup_cons] at hd ⊢
      refine ⟨fun hmem => ?_, ih hd.2⟩
      obtain ⟨z, hz, hzn⟩ : ∃ z ∈ ys, Names A z n := by
        clear ih hd
        induction hys with
        | nil => cases hmem
        | @cons z n' zs ns' hz _ ih' =>
          rcases List.mem_cons.1 hmem with rfl | hmem
          · exact ⟨z, by simp, hz⟩
          · obtain ⟨u, hu1, hu2⟩ := ih' hmem
            exact ⟨u, by simp [hu1], hu2⟩
      obtain ⟨r, s, rfl, hr⟩ := hy
      obtain ⟨r', s', rfl, hr'⟩ := hzn
      obtain ⟨rfl, rfl⟩ := hA r s r' s' n hr hr'
      exact hd.1 hz
  have hg : (groupLinks (V := V) kw.changeOnly id nodes).length ≤ items.length * items.length := by
    rw [group_positions, ← hn.length_eq]
    refine Nat.le_trans (List.length_filterMap_le _ _) ?_
    rw [positions]
    refine Nat.le_trans (List.length_filter_le _ _) ?_
    rw [List.length_flatMap]
    simp
  subst h1
  refine C40_link (w := { w with links := w.links ++ groupLinks kw.changeOnly id nodes }) kw.changeOnly id hnd hex hi (by simp [hwl]) hu ha hv hfix hch ?_
  simp only [hwl, List.nil_append]
  omega

/-! ## Examples -/

/-- Two instances with a property each, and a third place. -/
def twoAttrs : Attrs := fun r s =>
  if s = s% "x" then (if r = 0 then some 0 else if r = 1 then some 1 else none)
  else if s = s% "y" then (if r = 0 then some 2 else none) else none

def pairOf (r : Nat) (s : PyStr) : Arg := .tuple [.inst r, .str s]

def noLinks : LW Nat := ⟨fun _ => none, [], fun _ => false, fun _ => false⟩

theorem twoAttrs_places {r : Nat} {s : PyStr} {n : Nat} (h : twoAttrs r s = some n) :
    (r = 0 ∧ s = s% "x" ∧ n = 0) ∨ (r = 1 ∧ s = s% "x" ∧ n = 1) ∨ (r = 0 ∧ s = s% "y" ∧ n = 2) := by
  unfold twoAttrs at h
  by_cases h1 : s = s% "x"
  · rw [if_pos h1] at h
    by_cases h2 : r = 0
    · rw [if_pos h2] at h; cases h; exact .inl ⟨h2, h1, rfl⟩
    · rw [if_neg h2] at h
      by_cases h3 : r = 1
      · rw [if_pos h3] at h; cases h; exact .inr (.inl ⟨h3, h1, rfl⟩)
      · rw [if_neg h3] at h; cases h
  · rw [if_neg h1] at h
    by_cases h2 : s = s% "y"
    · rw [if_pos h2] at h
      by_cases h3 : r = 0
      · rw [if_pos h3] at h; cases h; exact .inr (.inr ⟨h3, h2, rfl⟩)
      · rw [if_neg h3] at h; cases h
    · rw [if_neg h2] at h; cases h

theorem twoAttrs_apart : Apart twoAttrs := by
  intro r s r' s' n h h'
  rcases twoAttrs_places h with ⟨a, b, c⟩ | ⟨a, b, c⟩ | ⟨a, b, c⟩ <;>
  rcases twoAttrs_places h' with ⟨a', b', c'⟩ | ⟨a', b', c'⟩ | ⟨a', b', c'⟩ <;>
  first | (exfalso; omega) | exact ⟨a.trans a'.symm, b.trans b'.symm⟩

/-- Three properties linked: six links, and an assignment to one is read from the others. -/
theorem C86_example : ∃ w1, link numEnv twoAttrs 20 0 [pairOf 0 (s% "x"), pairOf 1 (s% "x"), pairOf 0 (s% "y")] {} noLinks =
      (.ok (), w1) ∧ w1.links.length = 6 ∧
    ∃ w', assign numEnv 20 2 5 w1 = (.ok (), w') ∧ (∀ b ∈ [0, 1, 2], w'.vals b = some 5) ∧
      ∀ c, c ∉ [0, 1, 2] → w'.vals c = noLinks.vals c := by
  have hn : List.Forall₂ (Names twoAttrs) [pairOf 0 (s% "x"), pairOf 1 (s% "x"), pairOf 0 (s% "y")] [0, 1, 2] :=
    .cons ⟨0, s% "x", rfl, by decide⟩ (.cons ⟨1, s% "x", rfl, by decide⟩ (.cons ⟨0, s% "y", rfl, by decide⟩ .nil))
  have h := C86_link_made (E := numEnv) (A := twoAttrs) (kw := {}) 20 0 rfl rfl rfl (by decide) hn
    (by simp [pairOf]) noLinks
  refine ⟨_, h, by decide, ?_⟩
  exact C86_in_step 20 0 rfl rfl rfl (by decide) hn twoAttrs_apart rfl (fun _ => rfl) (fun _ => rfl) (by decide) h
    (numEnv_exact _) (a := 2) (v := 5) (x := 5) (by decide) (by decide) (by decide) (by decide) (by decide)

/-- The third item has no such property: ValueError, but the first two are linked one way, from
the first to the second. -/
theorem C86_left_behind_example :
    (link numEnv twoAttrs 20 0 [pairOf 0 (s% "x"), pairOf 1 (s% "x"), pairOf 1 (s% "y")] {} noLinks).1 = .error .value ∧
    (∃ w', assign numEnv 20 0 5 (link numEnv twoAttrs 20 0 [pairOf 0 (s% "x"), pairOf 1 (s% "x"), pairOf 1 (s% "y")] {} noLinks).2
      = (.ok (), w') ∧ w'.vals 1 = some 5) ∧
    ∃ w', assign numEnv 20 1 5 (link numEnv twoAttrs 20 0 [pairOf 0 (s% "x"), pairOf 1 (s% "x"), pairOf 1 (s% "y")] {} noLinks).2
      = (.ok (), w') ∧ w'.vals 0 = none :=
  ⟨rfl, ⟨_, rfl, rfl⟩, _, rfl, rfl⟩

/-- Refused arguments: no tuple, a name that is no text, a property linked with itself, a
function of two arguments (so also a bound method of one), and no function. -/
theorem C86_refused_example :
    (dlink numEnv twoAttrs 20 0 .other (pairOf 1 (s% "x")) {} noLinks).1 = .error .value ∧
    (dlink numEnv twoAttrs 20 0 (.tuple [.inst 0, .inst 1]) (pairOf 1 (s% "x")) {} noLinks).1 = .error .value ∧
    (dlink numEnv twoAttrs 20 0 (pairOf 1 (s% "x")) (pairOf 1 (s% "x")) {} noLinks).1 = .error .value ∧
    (dlink numEnv twoAttrs 20 0 (pairOf 0 (s% "x")) (pairOf 1 (s% "x")) { transform := .callable (some 2) some } noLinks).1 =
      .error .value ∧
    (dlink numEnv twoAttrs 20 0 (pairOf 0 (s% "x")) (pairOf 1 (s% "x")) { transform := .notCallable } noLinks).1 =
      .error .value ∧
    (link numEnv twoAttrs 20 0 [pairOf 0 (s% "x"), pairOf 1 (s% "x")] { transform := .callable (some 1) some } noLinks).1 =
      .error .value ∧
    (dlink numEnv twoAttrs 20 0 (pairOf 0 (s% "x")) (pairOf 1 (s% "x")) { transform := .callable (some 1) some } noLinks).1 =
      .ok () :=
  ⟨rfl, rfl, rfl, rfl, rfl, rfl, rfl⟩

end Verif.LinkArgs
