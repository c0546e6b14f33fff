import Verif.Spec.ArrayDecl
import Verif.Props.C53

/-!
# C79: declarations of Array and vector properties

Which settings are accepted, and which arrays the property accepts after any sequence of
accepted and refused settings.
-/

namespace Verif.ArrDecl
open Verif.Arr Verif.ArrDecl.Spec

/-! ## Reading shapes -/

theorem dimOf_ok (v : Val) : (∃ d, dimOf v = .ok d) ↔ IsDim v := by
  constructor
  · rintro ⟨d, h⟩
    cases v <;> simp only [dimOf] at h <;> first | cases h; done | skip
    · exact .bool _
    · exact .int _
    · split at h
      · next hs => rw [hs]; exact .star
      · cases h
  · rintro (_ | _ | _)
    · exact ⟨.any, rfl⟩
    · exact ⟨_, rfl⟩
    · exact ⟨_, rfl⟩

theorem dimOf_match {v : Val} {d : Dim} (h : dimOf v = .ok d) (n : Nat) : Arr.Spec.Fits d n ↔ DimMatch v n := by
  have hv := (dimOf_ok v).1 ⟨d, h⟩
  cases hv with
  | star => cases h; exact ⟨fun _ => .star n, fun _ => .any n⟩
  | int i =>
    cases h
    constructor
    · intro hf; cases hf; exact .int n
    · intro hf; cases hf; exact .exactly n
  | bool b =>
    cases h
    cases b with
    | true => constructor <;> intro hf
              · generalize hx : (Dim.exactly (if true then 1 else 0)) = x at hf
                cases hf with
                | any => cases hx
                | exactly n => have : n = 1 := by
                                 injection hx with hx; simp at hx; omega
                               subst this; exact .yes
              · cases hf; exact .exactly 1
    | false => constructor <;> intro hf
               · generalize hx : (Dim.exactly (if false then 1 else 0)) = x at hf
                 cases hf with
                 | any => cases hx
                 | exactly n => have : n = 0 := by
                                  injection hx with hx; simp at hx; omega
                                subst this; exact .no
               · cases hf; exact .exactly 0

theorem bind_ok' {α β ε : Type} {x : Except ε α} {f : α → Except ε β} {b : β} :
    (x >>= f) = .ok b ↔ ∃ a, x = .ok a ∧ f a = .ok b := by
  cases x with
  | error e => exact ⟨nofun, fun ⟨_, h, _⟩ => by cases h⟩
  | ok a => exact ⟨fun h => ⟨a, rfl, h⟩, fun ⟨_, h, h'⟩ => by cases h; exact h'⟩

theorem dimsOf_iff : ∀ {vs : List Val} {ds : List Dim}, dimsOf vs = .ok ds ↔ List.Forall₂ (fun v d => dimOf v = .ok d) vs ds
  | [], ds => by
      constructor
      · intro h; cases h; exact .nil
      · intro h; cases h; rfl
  | v :: vs, ds => by
      unfold dimsOf
      rw [bind_ok']
      constructor
      · rintro ⟨d, h1, h2⟩
        rw [bind_ok'] at h2
        obtain ⟨ds', h3, h4⟩ := h2
        cases h4
        exact .cons h1 (dimsOf_iff.1 h3)
      · intro h
        cases h with
        | cons h1 h2 => exact ⟨_, h1, bind_ok'.2 ⟨_, dimsOf_iff.2 h2, rfl⟩⟩

theorem tuplesOf_iff : ∀ {vs : List Val} {ds : List (List Dim)},
    tuplesOf vs = .ok ds ↔ List.Forall₂ (fun v d => tupleOf v = .ok d) vs ds
  | [], ds => by
      constructor
      · intro h; cases h; exact .nil
      · intro h; cases h; rfl
  | v :: vs, ds => by
      unfold tuplesOf
      rw [bind_ok']
      constructor
      · rintro ⟨d, h1, h2⟩
        rw [bind_ok'] at h2
        obtain ⟨ds', h3, h4⟩ := h2
        cases h4
        exact .cons h1 (tuplesOf_iff.1 h3)
      · intro h
        cases h with
        | cons h1 h2 => exact ⟨_, h1, bind_ok'.2 ⟨_, tuplesOf_iff.2 h2, rfl⟩⟩

theorem forall₂_exists {α β : Type} {R : α → β → Prop} : ∀ {l : List α}, (∃ m, List.Forall₂ R l m) ↔ ∀ x ∈ l, ∃ y, R x y
  | [] => ⟨fun _ x hx => (List.not_mem_nil hx).elim, fun _ => ⟨[], .nil⟩⟩
  | x :: l => by
      constructor
      · rintro ⟨m, h⟩ y hy
        cases h with
        | cons h1 h2 =>
          rcases List.mem_cons.1 hy with rfl | hy
          · exact ⟨_, h1⟩
          · exact forall₂_exists.1 ⟨_, h2⟩ y hy
      · intro h
        obtain ⟨y, hy⟩ := h x List.mem_cons_self
        obtain ⟨m, hm⟩ := forall₂_exists.2 fun z hz => h z (List.mem_cons_of_mem _ hz)
        exact ⟨y :: m, .cons hy hm⟩

theorem tupleOf_ok (v : Val) : (∃ d, tupleOf v = .ok d) ↔ IsShape v := by
  constructor
  · rintro ⟨d, h⟩
    cases v <;> first | (cases h; done) | skip
    next vs => exact ⟨vs, rfl, fun x hx => (dimOf_ok x).1 (forall₂_exists.1 ⟨d, dimsOf_iff.1 h⟩ x hx)⟩
  · rintro ⟨vs, rfl, h⟩
    obtain ⟨d, hd⟩ := forall₂_exists.2 fun x hx => (dimOf_ok x).2 (h x hx)
    exact ⟨d, dimsOf_iff.2 hd⟩

theorem dims_match {vs : List Val} {ds : List Dim} (h : List.Forall₂ (fun v d => dimOf v = .ok d) vs ds) :
    ∀ ns : List Nat, List.Forall₂ Arr.Spec.Fits ds ns ↔ List.Forall₂ DimMatch vs ns := by
  induction h with
  | nil => intro ns; constructor <;> intro h <;> cases h <;> exact .nil
  | cons h1 _ ih =>
    intro ns
    constructor
    · intro h; cases h with
      | cons a b => exact .cons ((dimOf_match h1 _).1 a) ((ih _).1 b)
    · intro h; cases h with
      | cons a b => exact .cons ((dimOf_match h1 _).2 a) ((ih _).2 b)

theorem tuple_match {v : Val} {d : List Dim} (h : tupleOf v = .ok d) (ns : List Nat) :
    List.Forall₂ Arr.Spec.Fits d ns ↔ TupleMatch v ns := by
  cases v <;> first | (cases h; done) | skip
  next vs =>
    rw [dims_match (dimsOf_iff.1 h)]
    constructor
    · intro h; exact ⟨vs, rfl, h⟩
    · rintro ⟨_, h, h'⟩; cases h; exact h'

theorem tuples_match {vs : List Val} {ds : List (List Dim)} (h : List.Forall₂ (fun v d => tupleOf v = .ok d) vs ds) (ns : List Nat) :
    (∃ d ∈ ds, List.Forall₂ Arr.Spec.Fits d ns) ↔ ∃ t ∈ vs, TupleMatch t ns := by
  induction h with
  | nil => simp
  | cons h1 _ ih => simp only [List.mem_cons, exists_eq_or_imp, ih, tuple_match h1]

theorem validateShape_single {v : Val} (h : ∀ vs, v ≠ .set vs) : validateShape v = tuplesOf [v] := by
  cases v <;> first | rfl | exact (h _ rfl).elim

theorem validateShape_ok (v : Val) : (∃ ds, validateShape v = .ok ds) ↔ IsShapes v := by
  by_cases hs : ∃ vs, v = .set vs
  · obtain ⟨vs, rfl⟩ := hs
    constructor
    · rintro ⟨ds, h⟩
      exact .inr ⟨vs, rfl, fun t ht => (tupleOf_ok t).1 (forall₂_exists.1 ⟨ds, tuplesOf_iff.1 h⟩ t ht)⟩
    · rintro (⟨_, h, _⟩ | ⟨_, h, h'⟩)
      · cases h
      · cases h
        obtain ⟨ds, hd⟩ := forall₂_exists.2 fun t ht => (tupleOf_ok t).2 (h' t ht)
        exact ⟨ds, tuplesOf_iff.2 hd⟩
  · rw [validateShape_single fun vs h => hs ⟨vs, h⟩]
    constructor
    · rintro ⟨ds, h⟩
      exact .inl ((tupleOf_ok v).1 (forall₂_exists.1 ⟨ds, tuplesOf_iff.1 h⟩ v List.mem_cons_self))
    · rintro (h | ⟨vs, h, _⟩)
      · obtain ⟨d, hd⟩ := (tupleOf_ok v).2 h
        exact ⟨[d], tuplesOf_iff.2 (.cons hd .nil)⟩
      · exact (hs ⟨vs, h⟩).elim

theorem validateShape_match {v : Val} {ds : List (List Dim)} (h : validateShape v = .ok ds) (ns : List Nat) :
    (∃ d ∈ ds, List.Forall₂ Arr.Spec.Fits d ns) ↔ ShapeMatch v ns := by
  unfold ShapeMatch
  by_cases hs : ∃ vs, v = .set vs
  · obtain ⟨vs, rfl⟩ := hs
    rw [tuples_match (tuplesOf_iff.1 h)]
    constructor
    · intro h; exact .inr (.inr ⟨vs, rfl, h⟩)
    · rintro (h | ⟨_, h, _⟩ | ⟨_, h, h'⟩)
      · cases h
      · cases h
      · cases h; exact h'
  · rw [validateShape_single fun vs h => hs ⟨vs, h⟩] at h
    rw [tuples_match (tuplesOf_iff.1 h)]
    constructor
    · rintro ⟨t, ht, h'⟩
      rw [List.mem_singleton] at ht
      subst ht
      exact .inr (.inl h')
    · rintro (rfl | h' | ⟨vs, h', _⟩)
      · cases h
      · exact ⟨v, List.mem_cons_self, h'⟩
      · exact (hs ⟨vs, h'⟩).elim

theorem twoDims_iff (n : Int) : ∀ ds : List (List Dim), twoDims n ds = true ↔ ∀ d ∈ ds, ∃ x, d = [x, .exactly n]
  | [] => by simp [twoDims]
  | [] :: _ => by simp [twoDims]
  | [_] :: _ => by simp [twoDims]
  | [x, d] :: rest => by
      have ih := twoDims_iff n rest
      simp only [twoDims, Bool.and_eq_true, decide_eq_true_eq, ih, List.mem_cons, forall_eq_or_imp]
      constructor
      · rintro ⟨rfl, h⟩; exact ⟨⟨x, rfl⟩, h⟩
      · rintro ⟨⟨y, h'⟩, h⟩; cases h'; exact ⟨rfl, h⟩
  | (_ :: _ :: _ :: _) :: _ => by simp [twoDims]

theorem dimOf_exactly {n : Int} (hn : 1 < n) {v : Val} (h : dimOf v = .ok (.exactly n)) : v = .int n := by
  have hv := (dimOf_ok v).1 ⟨_, h⟩
  cases hv with
  | star => cases h
  | int i => cases h; rfl
  | bool b =>
    injection h with h
    injection h with h
    cases b <;> simp at h <;> omega

theorem rows_tuple {n : Int} (hn : 1 < n) {v : Val} {d : List Dim} (h : tupleOf v = .ok d) :
    (∃ x, d = [x, .exactly n]) ↔ Rows n v := by
  cases v <;> first | (cases h; done) | skip
  next vs =>
    have hd := dimsOf_iff.1 h
    constructor
    · rintro ⟨x, rfl⟩
      cases hd with
      | cons h1 h2 => cases h2 with
        | cons h2 h3 =>
          cases h3
          next a b => exact ⟨a, by rw [dimOf_exactly hn h2]⟩
    · rintro ⟨x, h⟩
      cases h
      cases hd with
      | cons h1 h2 => cases h2 with
        | cons h2 h3 =>
          cases h3
          cases h2
          exact ⟨_, rfl⟩

theorem rows_tuples {n : Int} (hn : 1 < n) {vs : List Val} {ds : List (List Dim)}
    (h : List.Forall₂ (fun v d => tupleOf v = .ok d) vs ds) :
    (∀ d ∈ ds, ∃ x, d = [x, .exactly n]) ↔ ∀ t ∈ vs, Rows n t := by
  induction h with
  | nil => simp
  | cons h1 _ ih => simp only [List.mem_cons, forall_eq_or_imp, ih, rows_tuple hn h1]

theorem rows_shapes {n : Int} (hn : 1 < n) {v : Val} {ds : List (List Dim)} (h : validateShape v = .ok ds) :
    twoDims n ds = true ↔ Rows n v ∨ ∃ vs, v = .set vs ∧ ∀ t ∈ vs, Rows n t := by
  rw [twoDims_iff]
  by_cases hs : ∃ vs, v = .set vs
  · obtain ⟨vs, rfl⟩ := hs
    rw [rows_tuples hn (tuplesOf_iff.1 h)]
    constructor
    · intro h; exact .inr ⟨vs, rfl, h⟩
    · rintro (⟨_, h⟩ | ⟨_, h, h'⟩) <;> cases h
      exact h'
  · rw [validateShape_single fun vs h => hs ⟨vs, h⟩] at h
    rw [rows_tuples hn (tuplesOf_iff.1 h)]
    constructor
    · intro h; exact .inl (h v List.mem_cons_self)
    · rintro (h | ⟨vs, h, _⟩)
      · intro t ht
        rw [List.mem_singleton] at ht
        subst ht
        exact h
      · exact (hs ⟨vs, h⟩).elim

/-! ## Single settings -/

/-- What the program has after trying a setting. -/
def attempt (rnd : Rat → PyFloat) (s : Setting) (c : Cfg) : Cfg := match assign rnd s c with
  | .ok c' => c'
  | .error _ => c

variable {rnd : Rat → PyFloat} {k : Cls}

theorem typesOf_iff : ∀ {l : List TItem} {ts : List DType}, typesOf l = .ok ts ↔ l = ts.map .ty
  | [], ts => by
      constructor
      · intro h; cases h; rfl
      · intro h; cases ts with
        | nil => rfl
        | cons => cases h
  | .ty t :: l, ts => by
      unfold typesOf
      rw [bind_ok']
      constructor
      · rintro ⟨ts', h1, h2⟩; cases h2; rw [typesOf_iff.1 h1]; rfl
      · intro h
        cases ts with
        | nil => cases h
        | cons t' ts => cases h; exact ⟨ts, typesOf_iff.2 rfl, rfl⟩
  | .other :: l, ts => by
      constructor
      · intro h; cases h
      · intro h; cases ts <;> cases h

theorem types_ok (l : List TItem) : (∀ x ∈ l, ∃ t, x = .ty t) ↔ ∃ ts, typesOf l = .ok ts := by
  constructor
  · intro h
    induction l with
    | nil => exact ⟨[], rfl⟩
    | cons x l ih =>
      obtain ⟨t, rfl⟩ := h x List.mem_cons_self
      obtain ⟨ts, hts⟩ := ih fun y hy => h y (List.mem_cons_of_mem _ hy)
      exact ⟨t :: ts, bind_ok'.2 ⟨ts, hts, rfl⟩⟩
  · rintro ⟨ts, h⟩ x hx
    rw [typesOf_iff.1 h] at hx
    obtain ⟨t, _, rfl⟩ := List.mem_map.1 hx
    exact ⟨t, rfl⟩

/-- Setting `shape` on an Array. -/
theorem shape_array {c : Cfg} (hc : c.cls = .array) (v : Val) :
    (v = .none ∧ setShape v c = .ok { c with shape := some none }) ∨
    (v ≠ .none ∧ ∃ ds, validateShape v = .ok ds ∧ setShape v c = .ok { c with shape := some (some ds) }) ∨
    (v ≠ .none ∧ (∀ ds, validateShape v ≠ .ok ds) ∧ ∃ e, setShape v c = .error e) := by
  by_cases hv : v = .none
  · subst hv
    refine .inl ⟨rfl, ?_⟩
    unfold setShape
    rw [hc]
  · have h1 : setShape v c = (validateShape v >>= fun s => pure { c with shape := some (some s) }) := by
      unfold setShape
      rw [hc]
      cases v <;> first | rfl | exact (hv rfl).elim
    rw [h1]
    cases hs : validateShape v with
    | error e => exact .inr (.inr ⟨hv, nofun, e, rfl⟩)
    | ok ds => exact .inr (.inl ⟨hv, ds, rfl, rfl⟩)

/-- Setting `shape` on an array of vectors of `n` elements. -/
theorem shape_rows {c : Cfg} {n : Int} (hc : c.cls = .vec3Array ∧ n = 3 ∨ c.cls = .vec2Array ∧ n = 2) (v : Val) :
    (∃ ds, validateShape v = .ok ds ∧ twoDims n ds = true ∧ setShape v c = .ok { c with shape := some (some ds) }) ∨
    ((∀ ds, validateShape v = .ok ds → twoDims n ds = false) ∧ ∃ e, setShape v c = .error e) := by
  have h1 : setShape v c = (validateShape v >>= fun s =>
      if twoDims n s then pure { c with shape := some (some s) } else .error .type) := by
    unfold setShape
    rcases hc with ⟨hc, rfl⟩ | ⟨hc, rfl⟩ <;> rw [hc]
  rw [h1]
  cases hs : validateShape v with
  | error e => exact .inr ⟨nofun, e, rfl⟩
  | ok ds =>
    cases ht : twoDims n ds with
    | true => exact .inl ⟨ds, rfl, ht, by show (if twoDims n ds then _ else _) = _; rw [ht]; rfl⟩
    | false => exact .inr ⟨fun ds' h => by cases h; exact ht, .type, by
        show (if twoDims n ds then _ else _) = _; rw [ht]; rfl⟩

theorem allowed_shape (c : Cfg) (v : Val) :
    (∃ c', setShape v c = .ok c') ↔ Allowed rnd c.cls (.shape v) := by
  cases hc : c.cls with
  | array =>
    show _ ↔ v = .none ∨ IsShapes v
    rw [← validateShape_ok]
    rcases shape_array hc v with ⟨h1, h2⟩ | ⟨h1, ds, h2, h3⟩ | ⟨h1, h2, e, h3⟩
    · exact ⟨fun _ => .inl h1, fun _ => ⟨_, h2⟩⟩
    · exact ⟨fun _ => .inr ⟨ds, h2⟩, fun _ => ⟨_, h3⟩⟩
    · rw [h3]
      exact ⟨fun ⟨_, h⟩ => (by cases h), fun h => h.elim (fun h => (h1 h).elim) fun ⟨ds, h⟩ => (h2 ds h).elim⟩
  | vec3 => exact ⟨fun ⟨_, h⟩ => (by unfold setShape at h; rw [hc] at h; cases h), False.elim⟩
  | vec2 => exact ⟨fun ⟨_, h⟩ => (by unfold setShape at h; rw [hc] at h; cases h), False.elim⟩
  | vec3Array =>
    show _ ↔ IsShapes v ∧ _
    rcases shape_rows (.inl ⟨hc, rfl⟩) v with ⟨ds, h1, h2, h3⟩ | ⟨h1, e, h2⟩
    · exact ⟨fun _ => ⟨(validateShape_ok v).1 ⟨ds, h1⟩, (rows_shapes (by decide) h1).1 h2⟩, fun _ => ⟨_, h3⟩⟩
    · rw [h2]
      refine ⟨fun ⟨_, h⟩ => (by cases h), fun ⟨h3, h4⟩ => ?_⟩
      obtain ⟨ds, h5⟩ := (validateShape_ok v).2 h3
      have := (rows_shapes (n := 3) (by decide) h5).2 h4
      rw [h1 ds h5] at this
      cases this
  | vec2Array =>
    show _ ↔ IsShapes v ∧ _
    rcases shape_rows (.inr ⟨hc, rfl⟩) v with ⟨ds, h1, h2, h3⟩ | ⟨h1, e, h2⟩
    · exact ⟨fun _ => ⟨(validateShape_ok v).1 ⟨ds, h1⟩, (rows_shapes (by decide) h1).1 h2⟩, fun _ => ⟨_, h3⟩⟩
    · rw [h2]
      refine ⟨fun ⟨_, h⟩ => (by cases h), fun ⟨h3, h4⟩ => ?_⟩
      obtain ⟨ds, h5⟩ := (validateShape_ok v).2 h3
      have := (rows_shapes (n := 2) (by decide) h5).2 h4
      rw [h1 ds h5] at this
      cases this

/-- Setting `dtype`. -/
theorem dtype_cases (c : Cfg) (v : TVal) :
    (Allowed rnd c.cls (.dtype v) ∧ ∃ ts, v.items = ts.map .ty ∧ setDtype v c = .ok { c with dtype := some ts }) ∨
    (¬ Allowed rnd c.cls (.dtype v) ∧ ∃ e, setDtype v c = .error e) := by
  by_cases hc : c.cls = .array
  · have h1 : setDtype v c = (if v.items.isEmpty then .error .type
        else typesOf v.items >>= fun ts => pure { c with dtype := some ts }) := by
      unfold setDtype; rw [hc]
    rw [h1]
    cases hi : v.items with
    | nil => exact .inr ⟨fun h => h.2.1 hi, _, rfl⟩
    | cons x l =>
      rw [if_neg (by simp)]
      cases ht : typesOf (x :: l) with
      | error e =>
        refine .inr ⟨fun h => ?_, e, rfl⟩
        obtain ⟨ts, h'⟩ := (types_ok _).1 h.2.2
        rw [hi, ht] at h'
        cases h'
      | ok ts =>
        refine .inl ⟨⟨hc, by simp [hi], (types_ok _).2 ⟨ts, hi ▸ ht⟩⟩, ts, typesOf_iff.1 ht, rfl⟩
  · refine .inr ⟨fun h => hc h.1, .attribute, ?_⟩
    unfold setDtype
    cases h : c.cls <;> first | rfl | exact (hc h).elim

/-- Setting `coerce`. -/
theorem coerce_cases (c : Cfg) (v : Val) :
    (∃ b, v = .bool b ∧ setCoerce v c = .ok { c with coerce := some b }) ∨
    ((∀ b, v ≠ .bool b) ∧ ∃ e, setCoerce v c = .error e) := by
  cases v <;> first | exact .inr ⟨nofun, _, rfl⟩ | exact .inl ⟨_, rfl, rfl⟩

/-- The length that is set. -/
def lengthOf (rnd : Rat → PyFloat) : Val → Option PyFloat
  | .int i => some (rnd i)
  | .bool b => some (rnd (if b then 1 else 0 : Int))
  | .float x => some x
  | _ => none

/-- Setting `length`. -/
theorem length_cases (c : Cfg) (v : Val) :
    (Allowed rnd c.cls (.length v) ∧ ∃ x, ArrDecl.setLength rnd v c = .ok { c with length := x } ∧
      (c.cls = .array ∧ x = c.length ∨ c.cls ≠ .array ∧ x = lengthOf rnd v)) ∨
    (¬ Allowed rnd c.cls (.length v) ∧ ∃ e, ArrDecl.setLength rnd v c = .error e) := by
  by_cases hc : c.cls = .array
  · refine .inl ⟨.inl hc, c.length, ?_, .inl ⟨hc, rfl⟩⟩
    unfold ArrDecl.setLength
    split
    · rfl
    · next h => exact (h hc).elim
  · have num : ∀ i : Int, (0 < i ∧ (∃ q, rnd i = .fin q ∧ (if i ≤ 0 then .error .type
          else floatOf rnd i >>= fun x => pure { c with length := some x } : Except Err Cfg) = .ok { c with length := some (.fin q) })) ∨
        ((¬ 0 < i ∨ ∀ q, rnd i ≠ .fin q) ∧ ∃ e, (if i ≤ 0 then .error .type
          else floatOf rnd i >>= fun x => pure { c with length := some x } : Except Err Cfg) = .error e) := by
      intro i
      by_cases hi : i ≤ 0
      · exact .inr ⟨.inl (by omega), _, if_pos hi⟩
      · rw [if_neg hi]
        unfold floatOf
        cases hr : rnd i with
        | fin q => exact .inl ⟨by omega, q, rfl, rfl⟩
        | _ => exact .inr ⟨.inr nofun, _, rfl⟩
    have hset : ArrDecl.setLength rnd v c = (match v with
        | .int i => (if i ≤ 0 then .error .type else floatOf rnd i >>= fun x => pure { c with length := some x })
        | .bool b => (if (if b then 1 else 0 : Int) ≤ 0 then .error .type
            else floatOf rnd (if b then 1 else 0 : Int) >>= fun x => pure { c with length := some x })
        | .float x => if notPositive x then .error .type else .ok { c with length := some x }
        | _ => .error .type : Except Err Cfg) := by
      unfold ArrDecl.setLength
      cases hk : c.cls <;> first | exact (hc hk).elim | (cases v <;> rfl)
    have hall : Allowed rnd c.cls (.length v) ↔ (∃ i : Int, 0 < i ∧ v = .int i ∧ ∃ q, rnd i = .fin q) ∨
      (v = .bool true ∧ ∃ q, rnd 1 = .fin q) ∨ (∃ q : Rat, 0 < q ∧ v = .float (.fin q)) ∨
      v = .float .pinf ∨ v = .float .nan := ⟨fun h => h.resolve_left hc, .inr⟩
    rw [hset, hall]
    cases v with
    | int i =>
      rcases num i with ⟨h1, q, h2, h3⟩ | ⟨h1, e, h2⟩
      · exact .inl ⟨.inl ⟨i, h1, rfl, q, h2⟩, some (.fin q), h3, .inr ⟨hc, by rw [← h2]; rfl⟩⟩
      · refine .inr ⟨?_, e, h2⟩
        rintro (⟨j, hj, h, q, hq⟩ | ⟨h, _⟩ | ⟨_, _, h⟩ | h | h) <;> cases h
        exact h1.elim (fun h => h hj) fun h => h q hq
    | bool b =>
      cases b with
      | true =>
        rcases num 1 with ⟨h1, q, h2, h3⟩ | ⟨h1, e, h2⟩
        · exact .inl ⟨.inr (.inl ⟨rfl, q, h2⟩), some (.fin q), h3, .inr ⟨hc, by rw [← h2]; rfl⟩⟩
        · refine .inr ⟨?_, e, h2⟩
          rintro (⟨j, hj, h, q, hq⟩ | ⟨h, q, hq⟩ | ⟨_, _, h⟩ | h | h) <;> cases h
          exact h1.elim (fun h => h (by decide)) fun h => h q hq
      | false =>
        refine .inr ⟨?_, .type, rfl⟩
        rintro (⟨j, hj, h, q, hq⟩ | ⟨h, q, hq⟩ | ⟨_, _, h⟩ | h | h) <;> cases h
    | float x =>
      cases x with
      | fin q =>
        by_cases hq : q ≤ 0
        · refine .inr ⟨?_, .type, by dsimp only; rw [show notPositive (.fin q) = true from decide_eq_true hq]; rfl⟩
          rintro (⟨j, hj, h, q, hq⟩ | ⟨h, q, hq⟩ | ⟨_, hp, h⟩ | h | h) <;> cases h
          exact absurd hp (not_lt.2 hq)
        · exact .inl ⟨.inr (.inr (.inl ⟨q, not_le.1 hq, rfl⟩)), _, by
            dsimp only; rw [show notPositive (.fin q) = false from decide_eq_false hq]; rfl, .inr ⟨hc, rfl⟩⟩
      | pinf => exact .inl ⟨.inr (.inr (.inr (.inl rfl))), _, rfl, .inr ⟨hc, rfl⟩⟩
      | nan => exact .inl ⟨.inr (.inr (.inr (.inr rfl))), _, rfl, .inr ⟨hc, rfl⟩⟩
      | ninf =>
        refine .inr ⟨?_, .type, rfl⟩
        rintro (⟨j, hj, h, q, hq⟩ | ⟨h, q, hq⟩ | ⟨_, hp, h⟩ | h | h) <;> cases h
    | _ =>
      refine .inr ⟨?_, .type, rfl⟩
      rintro (⟨j, hj, h, q, hq⟩ | ⟨h, q, hq⟩ | ⟨_, hp, h⟩ | h | h) <;> cases h

/-- C79: a setting succeeds exactly if it is allowed for the class. -/
theorem C79_allowed (rnd : Rat → PyFloat) (s : Setting) (c : Cfg) :
    ((∃ c', assign rnd s c = .ok c') ↔ Allowed rnd c.cls s) ∧
    ∀ e, assign rnd s c = .error e → attempt rnd s c = c := by
  refine ⟨?_, fun e h => by unfold attempt; rw [h]⟩
  cases s with
  | shape v => exact allowed_shape c v
  | dtype v =>
    show (∃ c', setDtype v c = .ok c') ↔ _
    rcases dtype_cases (rnd := rnd) c v with ⟨h1, _, _, h2⟩ | ⟨h1, e, h2⟩
    · exact ⟨fun _ => h1, fun _ => ⟨_, h2⟩⟩
    · rw [h2]; exact ⟨fun ⟨_, h⟩ => (by cases h), fun h => (h1 h).elim⟩
  | coerce v =>
    show (∃ c', setCoerce v c = .ok c') ↔ ∃ b, v = .bool b
    rcases coerce_cases c v with ⟨b, h1, h2⟩ | ⟨h1, e, h2⟩
    · exact ⟨fun _ => ⟨b, h1⟩, fun _ => ⟨_, h2⟩⟩
    · rw [h2]; exact ⟨fun ⟨_, h⟩ => (by cases h), fun ⟨b, h⟩ => (h1 b h).elim⟩
  | length v =>
    show (∃ c', ArrDecl.setLength rnd v c = .ok c') ↔ _
    rcases length_cases (rnd := rnd) c v with ⟨h1, _, h2, _⟩ | ⟨h1, e, h2⟩
    · exact ⟨fun _ => h1, fun _ => ⟨_, h2⟩⟩
    · rw [h2]; exact ⟨fun ⟨_, h⟩ => (by cases h), fun h => (h1 h).elim⟩

/-! ## Sequences of settings -/

theorem last_unique {ok : Setting → Prop} {l : List Setting} {s t : Setting} (h1 : Last ok l s) (h2 : Last ok l t) : s = t := by
  obtain ⟨b, a, e, hs, ha⟩ := h1
  obtain ⟨b', a', e', ht, ha'⟩ := h2
  rw [e] at e'
  rcases List.append_eq_append_iff.1 e' with ⟨m, h, h'⟩ | ⟨m, h, h'⟩
  · cases m with
    | nil => simp at h'; exact h'.1
    | cons x m =>
      have hx : t ∈ a := by
        rw [List.cons_append] at h'
        injection h' with _ h'
        rw [h']; simp
      exact (ha t hx ht).elim
  · cases m with
    | nil => simp at h'; exact h'.1.symm
    | cons x m =>
      have hx : s ∈ a' := by
        rw [List.cons_append] at h'
        injection h' with _ h'
        rw [h']; simp
      exact (ha' s hx hs).elim

theorem last_mem {ok : Setting → Prop} {l : List Setting} {s : Setting} (h : Last ok l s) : s ∈ l ∧ ok s := by
  obtain ⟨b, a, rfl, hs, _⟩ := h
  exact ⟨by simp, hs⟩

theorem attempt_cls (rnd : Rat → PyFloat) (s : Setting) (c : Cfg) : (attempt rnd s c).cls = c.cls := by
  unfold attempt
  cases h : assign rnd s c with
  | error e => rfl
  | ok c' =>
    show c'.cls = c.cls
    cases s with
    | shape v =>
      change setShape v c = _ at h
      cases hc : c.cls with
      | array =>
        rcases shape_array hc v with ⟨_, h2⟩ | ⟨_, _, _, h2⟩ | ⟨_, _, _, h2⟩ <;> rw [h2] at h <;> cases h <;> exact hc
      | vec3 => unfold setShape at h; rw [hc] at h; cases h
      | vec2 => unfold setShape at h; rw [hc] at h; cases h
      | vec3Array =>
        rcases shape_rows (.inl ⟨hc, rfl⟩) v with ⟨_, _, _, h2⟩ | ⟨_, _, h2⟩ <;> rw [h2] at h <;> cases h <;> exact hc
      | vec2Array =>
        rcases shape_rows (.inr ⟨hc, rfl⟩) v with ⟨_, _, _, h2⟩ | ⟨_, _, h2⟩ <;> rw [h2] at h <;> cases h <;> exact hc
    | dtype v =>
      change setDtype v c = _ at h
      rcases dtype_cases (rnd := rnd) c v with ⟨_, _, _, h2⟩ | ⟨_, _, h2⟩ <;> rw [h2] at h <;> cases h <;> rfl
    | coerce v =>
      change setCoerce v c = _ at h
      rcases coerce_cases c v with ⟨_, _, h2⟩ | ⟨_, _, h2⟩ <;> rw [h2] at h <;> cases h <;> rfl
    | length v =>
      change ArrDecl.setLength rnd v c = _ at h
      rcases length_cases (rnd := rnd) c v with ⟨_, _, h2, _⟩ | ⟨_, _, h2⟩ <;> rw [h2] at h <;> cases h <;> rfl

theorem assignAll_cls (rnd : Rat → PyFloat) (l : List Setting) (c : Cfg) : (assignAll rnd l c).cls = c.cls := by
  induction l generalizing c with
  | nil => rfl
  | cons s l ih => exact (ih (attempt rnd s c)).trans (attempt_cls rnd s c)

/-- A part of the property which only settings of one kind change. -/
structure Part {α : Type} (rnd : Rat → PyFloat) (kind : Setting → Prop) (field : Cfg → α)
    (means : Cls → Setting → α → Prop) : Prop where
  hit : ∀ s c, kind s → Allowed rnd c.cls s → means c.cls s (field (attempt rnd s c))
  miss : ∀ s c, ¬ kind s → field (attempt rnd s c) = field c

theorem Part.after {α : Type} {kind : Setting → Prop} {field : Cfg → α} {means : Cls → Setting → α → Prop}
    (hp : Part rnd kind field means) : ∀ (l : List Setting) (c : Cfg),
    (∃ s, Last (fun s => kind s ∧ Allowed rnd c.cls s) l s ∧ means c.cls s (field (assignAll rnd l c))) ∨
    ((∀ s ∈ l, kind s → ¬ Allowed rnd c.cls s) ∧ field (assignAll rnd l c) = field c)
  | [], c => .inr ⟨fun s hs => (List.not_mem_nil hs).elim, rfl⟩
  | s :: l, c => by
      have ih := hp.after l (attempt rnd s c)
      rw [attempt_cls] at ih
      rcases ih with ⟨t, ⟨b, a, e, h1, h2⟩, h3⟩ | ⟨h1, h2⟩
      · exact .inl ⟨t, ⟨s :: b, a, by rw [e]; rfl, h1, h2⟩, h3⟩
      · by_cases hk : kind s ∧ Allowed rnd c.cls s
        · refine .inl ⟨s, ⟨[], l, rfl, hk, fun x hx ⟨h3, h4⟩ => h1 x hx h3 h4⟩, ?_⟩
          show means c.cls s (field (assignAll rnd l (attempt rnd s c)))
          rw [h2]
          exact hp.hit s c hk.1 hk.2
        · refine .inr ⟨fun t ht h3 h4 => ?_, ?_⟩
          · rcases List.mem_cons.1 ht with rfl | ht
            · exact hk ⟨h3, h4⟩
            · exact h1 t ht h3 h4
          · refine h2.trans ?_
            by_cases hs : kind s
            · have hn : ¬ ∃ c', assign rnd s c = .ok c' := fun h => hk ⟨hs, (C79_allowed rnd s c).1.1 h⟩
              cases ha : assign rnd s c with
              | ok c' => exact (hn ⟨c', ha⟩).elim
              | error e => rw [(C79_allowed rnd s c).2 e ha]
            · exact hp.miss s c hs

theorem attempt_ok {s : Setting} {c c' : Cfg} (h : assign rnd s c = .ok c') : attempt rnd s c = c' := by
  unfold attempt; rw [h]

theorem attempt_error {s : Setting} {c : Cfg} {e : Err} (h : assign rnd s c = .error e) : attempt rnd s c = c := by
  unfold attempt; rw [h]

/-- What trying a setting leaves: of the four parts, only its own changes. -/
theorem attempt_shape (v : Val) (c : Cfg) : ∃ x, attempt rnd (.shape v) c = { c with shape := x } ∧
    (Allowed rnd c.cls (.shape v) → v = .none ∧ x = some none ∨ ∃ ds, validateShape v = .ok ds ∧ x = some (some ds)) := by
  have refused : ∀ e, setShape v c = .error e → Allowed rnd c.cls (.shape v) → False := by
    intro e h2 h
    obtain ⟨c', h4⟩ := (allowed_shape c v).2 h
    rw [h2] at h4; cases h4
  have hcases : c.cls = .array ∨ (c.cls = .vec3 ∨ c.cls = .vec2) ∨ c.cls = .vec3Array ∨ c.cls = .vec2Array := by
    cases c.cls <;> simp
  have rows : ∀ n : Int, c.cls = .vec3Array ∧ n = 3 ∨ c.cls = .vec2Array ∧ n = 2 →
      ∃ x, attempt rnd (.shape v) c = { c with shape := x } ∧
    (Allowed rnd c.cls (.shape v) → v = .none ∧ x = some none ∨ ∃ ds, validateShape v = .ok ds ∧ x = some (some ds)) := by
    intro n hc
    rcases shape_rows hc v with ⟨ds, h1, _, h2⟩ | ⟨_, e, h2⟩
    · exact ⟨_, attempt_ok (rnd := rnd) (s := .shape v) h2, fun _ => .inr ⟨ds, h1, rfl⟩⟩
    · exact ⟨c.shape, attempt_error (rnd := rnd) (s := .shape v) h2, fun h => (refused e h2 h).elim⟩
  rcases hcases with hc | hc | hc | hc
  · rcases shape_array hc v with ⟨h1, h2⟩ | ⟨h1, ds, h3, h2⟩ | ⟨h1, h3, e, h2⟩
    · exact ⟨_, attempt_ok (rnd := rnd) (s := .shape v) h2, fun _ => .inl ⟨h1, rfl⟩⟩
    · exact ⟨_, attempt_ok (rnd := rnd) (s := .shape v) h2, fun _ => .inr ⟨ds, h3, rfl⟩⟩
    · exact ⟨c.shape, attempt_error (rnd := rnd) (s := .shape v) h2, fun h => (refused e h2 h).elim⟩
  · have h2 : setShape v c = .error .attribute := by
      unfold setShape
      rcases hc with hc | hc <;> rw [hc]
    exact ⟨c.shape, attempt_error (rnd := rnd) (s := .shape v) h2, fun h => (refused _ h2 h).elim⟩
  · exact rows 3 (.inl ⟨hc, rfl⟩)
  · exact rows 2 (.inr ⟨hc, rfl⟩)

theorem attempt_dtype (v : TVal) (c : Cfg) : ∃ x, attempt rnd (.dtype v) c = { c with dtype := x } ∧
    (Allowed rnd c.cls (.dtype v) → ∃ ts, v.items = ts.map .ty ∧ x = some ts) := by
  rcases dtype_cases (rnd := rnd) c v with ⟨_, ts, h1, h2⟩ | ⟨h1, e, h2⟩
  · exact ⟨_, attempt_ok h2, fun _ => ⟨ts, h1, rfl⟩⟩
  · exact ⟨c.dtype, attempt_error h2, fun h => (h1 h).elim⟩

theorem attempt_coerce (v : Val) (c : Cfg) : ∃ x, attempt rnd (.coerce v) c = { c with coerce := x } ∧
    (Allowed rnd c.cls (.coerce v) → ∃ b, v = .bool b ∧ x = some b) := by
  rcases coerce_cases c v with ⟨b, h1, h2⟩ | ⟨h1, e, h2⟩
  · exact ⟨_, attempt_ok h2, fun _ => ⟨b, h1, rfl⟩⟩
  · exact ⟨c.coerce, attempt_error h2, fun ⟨b, h⟩ => (h1 b h).elim⟩

theorem attempt_length (v : Val) (c : Cfg) : ∃ x, attempt rnd (.length v) c = { c with length := x } ∧
    (c.cls ≠ .array → Allowed rnd c.cls (.length v) → x = lengthOf rnd v) := by
  rcases length_cases (rnd := rnd) c v with ⟨_, x, h2, h3⟩ | ⟨h1, e, h2⟩
  · exact ⟨x, attempt_ok h2, fun hc _ => h3.elim (fun h => (hc h.1).elim) fun h => h.2⟩
  · exact ⟨c.length, attempt_error h2, fun _ h => (h1 h).elim⟩

theorem part_shape : Part rnd isShape (fun c => c.shape) (fun _ s x => ∃ v, s = .shape v ∧
    (v = .none ∧ x = some none ∨ ∃ ds, validateShape v = .ok ds ∧ x = some (some ds))) where
  hit s c hk ha := by
    cases s <;> first | exact hk.elim | skip
    next v =>
      obtain ⟨x, h1, h2⟩ := attempt_shape (rnd := rnd) v c
      exact ⟨v, rfl, by rw [h1]; exact h2 ha⟩
  miss s c hk := by
    cases s with
    | shape v => exact (hk trivial).elim
    | dtype v => obtain ⟨x, h, _⟩ := attempt_dtype (rnd := rnd) v c; rw [h]
    | coerce v => obtain ⟨x, h, _⟩ := attempt_coerce (rnd := rnd) v c; rw [h]
    | length v => obtain ⟨x, h, _⟩ := attempt_length (rnd := rnd) v c; rw [h]

theorem part_dtype : Part rnd isDtype (fun c => c.dtype) (fun _ s x => ∃ v, s = .dtype v ∧
    ∃ ts, v.items = ts.map .ty ∧ x = some ts) where
  hit s c hk ha := by
    cases s <;> first | exact hk.elim | skip
    next v =>
      obtain ⟨x, h1, h2⟩ := attempt_dtype (rnd := rnd) v c
      exact ⟨v, rfl, by rw [h1]; exact h2 ha⟩
  miss s c hk := by
    cases s with
    | dtype v => exact (hk trivial).elim
    | shape v => obtain ⟨x, h, _⟩ := attempt_shape (rnd := rnd) v c; rw [h]
    | coerce v => obtain ⟨x, h, _⟩ := attempt_coerce (rnd := rnd) v c; rw [h]
    | length v => obtain ⟨x, h, _⟩ := attempt_length (rnd := rnd) v c; rw [h]

theorem part_coerce : Part rnd isCoerce (fun c => c.coerce) (fun _ s x => ∃ b, s = .coerce (.bool b) ∧ x = some b) where
  hit s c hk ha := by
    cases s <;> first | exact hk.elim | skip
    next v =>
      obtain ⟨x, h1, h2⟩ := attempt_coerce (rnd := rnd) v c
      obtain ⟨b, rfl, h3⟩ := h2 ha
      exact ⟨b, rfl, by rw [h1]; exact h3⟩
  miss s c hk := by
    cases s with
    | coerce v => exact (hk trivial).elim
    | shape v => obtain ⟨x, h, _⟩ := attempt_shape (rnd := rnd) v c; rw [h]
    | dtype v => obtain ⟨x, h, _⟩ := attempt_dtype (rnd := rnd) v c; rw [h]
    | length v => obtain ⟨x, h, _⟩ := attempt_length (rnd := rnd) v c; rw [h]

theorem part_length : Part rnd isLength (fun c => c.length) (fun k s x => ∃ v, s = .length v ∧ (k ≠ .array → x = lengthOf rnd v)) where
  hit s c hk ha := by
    cases s <;> first | exact hk.elim | skip
    next v =>
      obtain ⟨x, h1, h2⟩ := attempt_length (rnd := rnd) v c
      exact ⟨v, rfl, fun hc => by rw [h1]; exact h2 hc ha⟩
  miss s c hk := by
    cases s with
    | length v => exact (hk trivial).elim
    | shape v => obtain ⟨x, h, _⟩ := attempt_shape (rnd := rnd) v c; rw [h]
    | dtype v => obtain ⟨x, h, _⟩ := attempt_dtype (rnd := rnd) v c; rw [h]
    | coerce v => obtain ⟨x, h, _⟩ := attempt_coerce (rnd := rnd) v c; rw [h]

/-! ## What the settings mean -/

variable (rnd : Rat → PyFloat) (k : Cls) (l : List Setting)

theorem not_none {ok : Setting → Prop} {t : Setting} (h : Last (fun s => ok s ∧ Allowed rnd k s) l t)
    (hn : ∀ s ∈ l, ok s → ¬ Allowed rnd k s) : False :=
  hn t (last_mem h).1 (last_mem h).2.1 (last_mem h).2.2

theorem fits_any (ns : List Nat) : List.Forall₂ Arr.Spec.Fits [.any] ns ↔ ∃ n, ns = [n] := by
  constructor
  · intro h; cases h with | cons _ h => cases h; exact ⟨_, rfl⟩
  · rintro ⟨n, rfl⟩; exact .cons (.any n) .nil

theorem fits_one (m : Nat) (ns : List Nat) : List.Forall₂ Arr.Spec.Fits [.exactly m] ns ↔ ns = [m] := by
  constructor
  · intro h; cases h with | cons h1 h => cases h; cases h1; rfl
  · rintro rfl; exact .cons (.exactly m) .nil

theorem fits_two (m : Nat) (ns : List Nat) : List.Forall₂ Arr.Spec.Fits [.any, .exactly m] ns ↔ ∃ n, ns = [n, m] := by
  constructor
  · intro h
    cases h with
    | cons h1 h => cases h with | cons h2 h => cases h; cases h2; exact ⟨_, rfl⟩
  · rintro ⟨n, rfl⟩; exact .cons (.any n) (.cons (.exactly m) .nil)

theorem shapes_set {c : Cfg} (h3 : c.cls ≠ .vec3) (h2 : c.cls ≠ .vec2) {x : Option (List (List Dim))} (h : c.shape = some x) :
    c.shapes = x := by
  unfold Cfg.shapes
  cases hc : c.cls <;> first | exact (h3 hc).elim | exact (h2 hc).elim | (rw [h]; rfl)

/-- The shapes that are accepted. -/
theorem C79_shape (ns : List Nat) :
    ((assignAll rnd l { cls := k }).shapes = none ∨
      ∃ s, (assignAll rnd l { cls := k }).shapes = some s ∧ ∃ d ∈ s, List.Forall₂ Arr.Spec.Fits d ns) ↔
    ShapeOk rnd k l ns := by
  have hcls : (assignAll rnd l { cls := k }).cls = k := assignAll_cls rnd l _
  rcases (part_shape (rnd := rnd)).after l { cls := k } with ⟨s, h1, v, rfl, h2⟩ | ⟨h1, h2⟩
  · have ha : Allowed rnd k (.shape v) := (last_mem h1).2.2
    have n3 : k ≠ .vec3 := by rintro rfl; exact ha
    have n2 : k ≠ .vec2 := by rintro rfl; exact ha
    have hok : ShapeOk rnd k l ns ↔ ShapeMatch v ns := by
      constructor
      · rintro (⟨v', h3, h4⟩ | ⟨h3, _⟩)
        · cases last_unique h1 h3; exact h4
        · exact (not_none rnd k l h1 h3).elim
      · exact fun h => .inl ⟨v, h1, h⟩
    rw [hok]
    rcases h2 with ⟨h3, h4⟩ | ⟨ds, h3, h4⟩
    · rw [shapes_set (by rw [hcls]; exact n3) (by rw [hcls]; exact n2) h4]
      exact ⟨fun _ => .inl h3, fun _ => .inl rfl⟩
    · rw [shapes_set (by rw [hcls]; exact n3) (by rw [hcls]; exact n2) h4, ← validateShape_match h3]
      exact ⟨fun h => by
        rcases h with h | ⟨s, h, h'⟩
        · cases h
        · cases h; exact h', fun h => .inr ⟨ds, rfl, h⟩⟩
  · have h2' : (assignAll rnd l { cls := k }).shape = none := h2
    have hok : ∀ P : Prop, ((∃ v, Last (fun s => isShape s ∧ Allowed rnd k s) l (.shape v) ∧ ShapeMatch v ns) ∨
        ((∀ s ∈ l, isShape s → ¬ Allowed rnd k s) ∧ P)) ↔ P := fun P =>
      ⟨fun h => h.elim (fun ⟨v, h3, _⟩ => (not_none rnd k l h3 h1).elim) fun h => h.2, fun h => .inr ⟨h1, h⟩⟩
    have hone : ∀ (d : List Dim), (assignAll rnd l { cls := k }).shapes = some [d] →
        (((assignAll rnd l { cls := k }).shapes = none ∨
          ∃ s, (assignAll rnd l { cls := k }).shapes = some s ∧ ∃ d ∈ s, List.Forall₂ Arr.Spec.Fits d ns) ↔
        List.Forall₂ Arr.Spec.Fits d ns) := by
      intro d hd
      rw [hd]
      constructor
      · rintro (h | ⟨s, h, d', h', h''⟩)
        · cases h
        · cases h; rw [List.mem_singleton.1 h'] at h''; exact h''
      · exact fun h => .inr ⟨_, rfl, d, List.mem_singleton.2 rfl, h⟩
    unfold ShapeOk
    rw [hok]
    cases k with
    | array => rw [hone [.any] (by unfold Cfg.shapes; rw [hcls, h2']; rfl)]; exact fits_any ns
    | vec3 => rw [hone [.exactly 3] (by unfold Cfg.shapes; rw [hcls])]; exact fits_one 3 ns
    | vec2 => rw [hone [.exactly 2] (by unfold Cfg.shapes; rw [hcls])]; exact fits_one 2 ns
    | vec3Array => rw [hone [.any, .exactly 3] (by unfold Cfg.shapes; rw [hcls, h2']; rfl)]; exact fits_two 3 ns
    | vec2Array => rw [hone [.any, .exactly 2] (by unfold Cfg.shapes; rw [hcls, h2']; rfl)]; exact fits_two 2 ns

/-- The kinds of elements that are accepted. -/
theorem C79_dtype (e : Kind) :
    (∃ t ∈ (assignAll rnd l { cls := k }).dtypes, Arr.Spec.KindFor t e) ↔ KindOk rnd k l e := by
  have hcls : (assignAll rnd l { cls := k }).cls = k := assignAll_cls rnd l _
  by_cases hk : k = .array
  · subst hk
    unfold Cfg.dtypes
    rw [hcls]
    dsimp only
    unfold KindOk
    dsimp only
    rcases (part_dtype (rnd := rnd)).after l { cls := .array } with ⟨s, h1, v, rfl, ts, h2, h3⟩ | ⟨h1, h2⟩
    · dsimp only at h1 h3
      rw [h3]
      constructor
      · rintro ⟨t, ht, h⟩
        exact .inl ⟨v, h1, t, by rw [h2]; exact List.mem_map.2 ⟨t, ht, rfl⟩, h⟩
      · rintro (⟨v', h4, t, ht, h⟩ | ⟨h4, _⟩)
        · cases last_unique h1 h4
          rw [h2] at ht
          obtain ⟨t', ht', he⟩ := List.mem_map.1 ht
          cases he
          exact ⟨t, ht', h⟩
        · exact (not_none rnd _ l h1 h4).elim
    · dsimp only at h1 h2
      rw [h2]
      constructor
      · rintro ⟨t, ht, h⟩
        rcases List.mem_cons.1 ht with rfl | ht
        · exact .inr ⟨h1, .inl h⟩
        · rw [List.mem_singleton.1 ht] at h
          exact .inr ⟨h1, .inr h⟩
      · rintro (⟨v', h4, _⟩ | ⟨_, h | h⟩)
        · exact (not_none rnd _ l h4 h1).elim
        · exact ⟨.float, List.mem_cons_self, h⟩
        · exact ⟨.int, List.mem_cons_of_mem _ (List.mem_singleton.2 rfl), h⟩
  · have h1 : (assignAll rnd l { cls := k }).dtypes = [.float] := by
      unfold Cfg.dtypes
      rw [hcls]
      cases k <;> first | rfl | exact (hk rfl).elim
    have h2 : KindOk rnd k l e ↔ Arr.Spec.KindFor .float e := by
      unfold KindOk
      cases k <;> first | exact Iff.rfl | exact (hk rfl).elim
    rw [h1, h2]
    simp

/-- Whether values are converted. -/
theorem C79_coerce (b : Bool) : (assignAll rnd l { cls := k }).coerce.getD true = b ↔ Coerces rnd k l b := by
  unfold Coerces
  rcases (part_coerce (rnd := rnd)).after l { cls := k } with ⟨s, h1, b', rfl, h2⟩ | ⟨h1, h2⟩
  · dsimp only at h1 h2
    rw [h2]
    constructor
    · rintro rfl; exact .inl h1
    · rintro (h | ⟨h, _⟩)
      · cases last_unique h1 h; rfl
      · exact (not_none rnd k l h1 h).elim
  · dsimp only at h1 h2
    rw [h2]
    constructor
    · rintro rfl; exact .inr ⟨h1, rfl⟩
    · rintro (h | ⟨_, rfl⟩)
      · exact (not_none rnd k l h h1).elim
      · rfl

theorem lengthOf_is (v : Val) (hk : k ≠ .array) (h : Allowed rnd k (.length v)) :
    ∃ f, lengthOf rnd v = some f ∧ ∀ g, LengthIs rnd v g ↔ g = f := by
  rcases h.resolve_left hk with ⟨i, _, rfl, _⟩ | ⟨rfl, _⟩ | ⟨q, _, rfl⟩ | rfl | rfl
  · exact ⟨_, rfl, fun g => ⟨fun h => by cases h; rfl, fun h => by rw [h]; exact .int i⟩⟩
  · refine ⟨rnd 1, by simp [lengthOf], fun g => ⟨fun h => by cases h; rfl, fun h => by rw [h]; exact .yes⟩⟩
  · exact ⟨_, rfl, fun g => ⟨fun h => by cases h; rfl, fun h => by rw [h]; exact .float _⟩⟩
  · exact ⟨_, rfl, fun g => ⟨fun h => by cases h; rfl, fun h => by rw [h]; exact .float _⟩⟩
  · exact ⟨_, rfl, fun g => ⟨fun h => by cases h; rfl, fun h => by rw [h]; exact .float _⟩⟩

/-- The length vectors are scaled to: the one last accepted, and none otherwise. -/
theorem C79_length (hk : k ≠ .array) (x : Option PyFloat) :
    (assignAll rnd l { cls := k }).length = x ↔ Scales rnd k l x := by
  unfold Scales
  rcases (part_length (rnd := rnd)).after l { cls := k } with ⟨s, h1, v, rfl, h2⟩ | ⟨h1, h2⟩
  · dsimp only at h1 h2
    obtain ⟨f, h3, h4⟩ := lengthOf_is rnd k v hk (last_mem h1).2.2
    rw [h2 hk, h3]
    constructor
    · rintro rfl; exact .inl ⟨v, f, h1, (h4 f).2 rfl, rfl⟩
    · rintro (⟨v', g, h, h5, rfl⟩ | ⟨h, _⟩)
      · cases last_unique h1 h; rw [(h4 g).1 h5]
      · exact (not_none rnd k l h1 h).elim
  · dsimp only at h1 h2
    rw [h2]
    constructor
    · rintro rfl; exact .inr ⟨h1, rfl⟩
    · rintro (⟨_, _, h, _⟩ | ⟨_, rfl⟩)
      · exact (not_none rnd k l h h1).elim
      · rfl

theorem wrapper_holds {k : Cls} {c : Nat} : Holds k c ↔ c = k.wrapper := by
  constructor
  · intro h; cases h <;> rfl
  · rintro rfl; cases k <;> constructor

theorem accepts_wrapper (E : AEnv) (v : Input) (a : NArr) :
    validateArray E (assignAll rnd l { cls := k }).prop v = .ok a ↔
    (∃ b, Coerces rnd k l b ∧ Arr.Spec.Made E ⟨k.wrapper, b, [], none⟩ v a) ∧ E.sub a.cls k.wrapper = true ∧
      KindOk rnd k l a.kind ∧ ShapeOk rnd k l a.shape := by
  have hcls : (assignAll rnd l { cls := k }).cls = k := assignAll_cls rnd l _
  rw [Arr.C53_accepts]
  have h1 : (assignAll rnd l { cls := k }).prop.cls = k.wrapper := by
    show (assignAll rnd l { cls := k }).cls.wrapper = _
    rw [hcls]
  have h2 : Arr.Spec.Made E (assignAll rnd l { cls := k }).prop v a ↔
      ∃ b, Coerces rnd k l b ∧ Arr.Spec.Made E ⟨k.wrapper, b, [], none⟩ v a := by
    have hm : ∀ (p q : AProp), p.cls = q.cls → p.coerce = q.coerce → Arr.Spec.Made E p v a → Arr.Spec.Made E q v a := by
      intro p q e1 e2 h
      cases h with
      | list h3 h4 => exact .list (e2 ▸ h3) (e1 ▸ h4)
      | tuple h3 h4 => exact .tuple (e2 ▸ h3) (e1 ▸ h4)
      | array h3 h4 => exact .array (e2 ▸ h3) (e1 ▸ h4)
      | same h3 => exact .same (e2 ▸ h3)
    constructor
    · exact fun h => ⟨_, (C79_coerce rnd k l _).1 rfl, hm _ _ h1 rfl h⟩
    · rintro ⟨b, h3, h4⟩
      exact hm ⟨k.wrapper, b, [], none⟩ _ h1.symm ((C79_coerce rnd k l b).2 h3).symm h4
  rw [h1, h2, ← C79_dtype rnd k l, ← C79_shape rnd k l]
  exact Iff.rfl

/-- C79: the arrays a property accepts, after any settings, accepted and refused: those the
constructor makes that are of the class of vectormath for the property, with the element kinds and shapes last
declared. -/
theorem C79_accepts (E : AEnv) (v : Input) (a : NArr) :
    validateArray E (assignAll rnd l { cls := k }).prop v = .ok a ↔
    ∃ c, Holds k c ∧ (∃ b, Coerces rnd k l b ∧ Arr.Spec.Made E ⟨c, b, [], none⟩ v a) ∧ E.sub a.cls c = true ∧
      KindOk rnd k l a.kind ∧ ShapeOk rnd k l a.shape := by
  rw [accepts_wrapper]
  constructor
  · exact fun h => ⟨_, wrapper_holds.2 rfl, h⟩
  · rintro ⟨c, hc, h⟩
    cases wrapper_holds.1 hc
    exact h

/-- A list of vectors stays one: whatever is set, Vector3Array and Vector2Array accept only rows of
three or two numbers, Vector3 and Vector2 only three or two numbers, all of them floats. -/
theorem C79_vectors (E : AEnv) (v : Input) (a : NArr) (h : validateArray E (assignAll rnd l { cls := k }).prop v = .ok a) :
    (k ≠ .array → a.kind = .f) ∧ (k = .vec3 → a.shape = [3]) ∧ (k = .vec2 → a.shape = [2]) ∧
    (k = .vec3Array → ∃ n, a.shape = [n, 3]) ∧ (k = .vec2Array → ∃ n, a.shape = [n, 2]) := by
  obtain ⟨_, _, h1, h2⟩ := (accepts_wrapper rnd k l E v a).1 h
  have rows : ∀ (m : Nat) (v : Val), Rows m v → TupleMatch v a.shape → ∃ n, a.shape = [n, m] := by
    rintro m v ⟨x, rfl⟩ ⟨vs, h3, h4⟩
    cases h3
    generalize a.shape = ns at h4
    cases h4 with
    | cons _ h4 => cases h4 with
      | cons h5 h6 =>
        cases h6
        generalize hx : Val.int m = y at h5
        cases h5 <;> cases hx
        exact ⟨_, rfl⟩
  have any : ∀ (m : Nat) (v : Val), (Rows m v ∨ ∃ vs, v = .set vs ∧ ∀ t ∈ vs, Rows m t) → v ≠ .none →
      ShapeMatch v a.shape → ∃ n, a.shape = [n, m] := by
    rintro m v (h3 | ⟨vs, rfl, h3⟩) hv (h4 | h4 | ⟨ws, h4, t, h5, h6⟩)
    · exact (hv h4).elim
    · exact rows m v h3 h4
    · subst h4; obtain ⟨x, h3⟩ := h3; cases h3
    · cases h4
    · obtain ⟨_, h4, _⟩ := h4; cases h4
    · cases h4; exact rows m t (h3 t h5) h6
  refine ⟨fun hk => ?_, fun hk => ?_, fun hk => ?_, fun hk => ?_, fun hk => ?_⟩
  · have : Arr.Spec.KindFor .float a.kind := by
      unfold KindOk at h1
      cases k <;> first | exact h1 | exact (hk rfl).elim
    generalize a.kind = e at this
    cases this
    rfl
  · subst hk
    rcases h2 with ⟨v, h3, _⟩ | ⟨_, h3⟩
    · exact (last_mem h3).2.2.elim
    · exact h3
  · subst hk
    rcases h2 with ⟨v, h3, _⟩ | ⟨_, h3⟩
    · exact (last_mem h3).2.2.elim
    · exact h3
  · subst hk
    rcases h2 with ⟨v, h3, h4⟩ | ⟨_, h3⟩
    · obtain ⟨h5, h6⟩ := (last_mem h3).2.2
      refine any 3 v h6 ?_ h4
      rintro rfl
      rcases h5 with ⟨_, h, _⟩ | ⟨_, h, _⟩ <;> cases h
    · exact h3
  · subst hk
    rcases h2 with ⟨v, h3, h4⟩ | ⟨_, h3⟩
    · obtain ⟨h5, h6⟩ := (last_mem h3).2.2
      refine any 2 v h6 ?_ h4
      rintro rfl
      rcases h5 with ⟨_, h, _⟩ | ⟨_, h, _⟩ <;> cases h
    · exact h3

/-- The length vectors are scaled to is positive, infinite or NaN, and once set it is never unset:
`length=None`, which the documentation describes as the default, is refused. -/
theorem C79_length_positive (hk : k ≠ .array) :
    (∀ x, (assignAll rnd l { cls := k }).length = some x →
      (∃ v, Last (fun s => isLength s ∧ Allowed rnd k s) l (.length v) ∧ LengthIs rnd v x) ∧
      ((∃ i : Int, 0 < i ∧ x = rnd i ∧ ∃ q, x = .fin q) ∨ (∃ q : Rat, 0 < q ∧ x = .fin q) ∨ x = .pinf ∨ x = .nan)) ∧
    ¬ Allowed rnd k (.length .none) ∧ Allowed rnd k (.length (.float .nan)) := by
  refine ⟨fun x hx => ?_, ?_, .inr (.inr (.inr (.inr (.inr rfl))))⟩
  · rcases (C79_length rnd k l hk _).1 hx with ⟨v, f, h1, h2, h3⟩ | ⟨_, h⟩
    · cases h3
      refine ⟨⟨v, h1, h2⟩, ?_⟩
      rcases (last_mem h1).2.2.resolve_left hk with ⟨i, hi, rfl, q, hq⟩ | ⟨rfl, q, hq⟩ | ⟨q, hq, rfl⟩ | rfl | rfl
      · cases h2; exact .inl ⟨i, hi, rfl, q, hq⟩
      · cases h2; exact .inl ⟨1, by decide, by simp, q, hq⟩
      · cases h2; exact .inr (.inl ⟨q, hq, rfl⟩)
      · cases h2; exact .inr (.inr (.inl rfl))
      · cases h2; exact .inr (.inr (.inr rfl))
    · cases h
  · rintro (h | ⟨_, _, h, _⟩ | ⟨h, _⟩ | ⟨_, _, h⟩ | h | h)
    · exact hk h
    all_goals cases h

/-- A set without shapes is accepted, after which no array is. -/
theorem C79_no_shape (E : AEnv) (v : Input) (a : NArr) :
    Allowed rnd .array (.shape (.set [])) ∧
    validateArray E (assignAll rnd [.shape (.set [])] { cls := .array }).prop v ≠ .ok a := by
  refine ⟨.inr (.inr ⟨[], rfl, nofun⟩), fun h => ?_⟩
  obtain ⟨_, _, _, h⟩ := (accepts_wrapper rnd .array _ E v a).1 h
  rcases h with ⟨v, h1, h2⟩ | ⟨h1, _⟩
  · have := (last_mem h1).1
    cases List.mem_singleton.1 this
    rcases h2 with h2 | ⟨_, h2, _⟩ | ⟨vs, h2, t, h3, _⟩
    · cases h2
    · cases h2
    · cases h2; cases h3
  · exact h1 _ List.mem_cons_self trivial (.inr (.inr ⟨[], rfl, nofun⟩))

/-! ## A concrete case -/

/-- Floats that keep small integers. -/
def exactRound (q : Rat) : PyFloat := if q ≤ 1000 then .fin q else .pinf

/-- Settings of a Vector3Array, some of them refused. -/
def exampleSettings : List Setting :=
  [.shape (.tup [.str (s% "*"), .int 4]), .shape (.set [.tup [.int 2, .int 3], .tup [.int 4, .int 3]]),
   .shape (.tup [.int 3]), .length (.int 5), .length (.int (-1)), .length .none, .dtype (.one (.ty .int)),
   .coerce (.int 0), .coerce (.bool false)]

/-- What is left of them. -/
theorem C79_example :
    (assignAll exactRound exampleSettings { cls := .vec3Array }).prop =
      ⟨3, false, [.float], some [[.exactly 2, .exactly 3], [.exactly 4, .exactly 3]]⟩ ∧
    (assignAll exactRound exampleSettings { cls := .vec3Array }).length = some (.fin 5) ∧
    assign exactRound (.shape (.tup [.str (s% "*"), .int 4])) { cls := .vec3Array } = .error .type ∧
    assign exactRound (.dtype (.one (.ty .int))) { cls := .vec3Array } = .error .attribute ∧
    assign exactRound (.length (.int 2000)) { cls := .vec3 } = .error .overflow := by
  have h5 : exactRound 5 = .fin 5 := by unfold exactRound; rw [if_pos (by norm_num)]
  refine ⟨rfl, ?_, rfl, rfl, ?_⟩
  · rw [C79_length _ _ _ (by decide)]
    refine .inl ⟨.int 5, .fin 5, ⟨exampleSettings.take 3, [.length (.int (-1)), .length .none, .dtype (.one (.ty .int)),
      .coerce (.int 0), .coerce (.bool false)], rfl, ⟨trivial, .inr (.inl ⟨5, by decide, rfl, 5, h5⟩)⟩, ?_⟩, ?_, rfl⟩
    · rintro x hx ⟨h1, h2⟩
      simp only [List.mem_cons, List.not_mem_nil, or_false] at hx
      rcases hx with rfl | rfl | rfl | rfl | rfl <;> first | exact h1.elim | skip
      · rcases h2 with h | ⟨i, hi, h, _⟩ | ⟨h, _⟩ | ⟨_, _, h⟩ | h | h <;> cases h
        exact absurd hi (by decide)
      · rcases h2 with h | ⟨i, hi, h, _⟩ | ⟨h, _⟩ | ⟨_, _, h⟩ | h | h <;> cases h
    · have := LengthIs.int (rnd := exactRound) 5
      rw [show ((5 : Int) : Rat) = 5 by norm_num, h5] at this
      exact this
  · show (if (2000 : Int) ≤ 0 then .error .type
        else floatOf exactRound (2000 : Int) >>= fun x => pure { cls := .vec3, length := some x } : Except Err Cfg) = _
    rw [if_neg (by decide)]
    have : exactRound ((2000 : Int) : Rat) = .pinf := by unfold exactRound; rw [if_neg (by norm_num)]
    unfold floatOf
    rw [this]
    rfl

end Verif.ArrDecl
