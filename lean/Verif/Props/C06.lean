import Verif.Lemmas.Scalar

/-!
# C06: Color
-/

namespace Verif
open Spec

theorem isChannel_iff (v : Val) : isChannel v = true ↔ IsByte v := by
  unfold isChannel IsByte
  cases v <;> simp

theorem colorOfItems_iff (xs : List Val) (x : Val) :
    colorOfItems xs = .ok x ↔ x = .tup xs ∧ IsRGB (.tup xs) := by
  unfold colorOfItems IsRGB
  constructor
  · intro h
    split at h
    · rename_i hl
      split at h
      · rename_i ha
        cases h
        match xs, hl with
        | [a, b, c], _ =>
          simp only [List.all_cons, List.all_nil, Bool.and_true, Bool.and_eq_true,
            isChannel_iff] at ha
          exact ⟨rfl, a, b, c, rfl, ha.1, ha.2.1, ha.2.2⟩
      · cases h
    · cases h
  · rintro ⟨rfl, a, b, c, hx, ha, hb, hc⟩
    cases hx
    simp [isChannel_iff, ha, hb, hc]

/-- Validation of anything but text. -/
theorem validated_color_items (E : Env) (n : Nat) (inst : Option Nat) (v x : Val) (w : World)
    (hv : v.isStr = false) :
    validated E n .color inst v w = .ok x ↔
      ∃ xs, (v = .list xs ∨ v = .tup xs) ∧ x = .tup xs ∧ IsRGB (.tup xs) := by
  have e : validated E n .color inst v w
      = (liftScalar E (run E n) (s% "p") inst (colorValidate E 0 v) w).1 := by
    unfold validated
    cases v <;> first | rfl | (simp [Val.isStr] at hv)
  rw [e, liftScalar_ok]
  unfold colorValidate
  cases v
  case str => simp [Val.isStr] at hv
  case list xs => simp [colorOfItems_iff]
  case tup xs => simp [colorOfItems_iff]
  all_goals simp

/-- Validation of text: for some number drawn. -/
theorem validated_color_text (E : Env) (n : Nat) (inst : Option Nat) (s : PyStr) (x : Val)
    (w : World) :
    validated E n .color inst (.str s) w = .ok x ↔
      colorValidate E (if colorIsRandom E s then E.random w.tick else 0) (.str s) = .ok x := by
  have e : validated E n .color inst (.str s) w
      = ((do
          let k ← (if colorIsRandom E s then draw E else pure 0)
          liftScalar E (run E n) (s% "p") inst (colorValidate E k (.str s)) : M Val) w).1 := rfl
  rw [e]
  by_cases h : colorIsRandom E s = true
  · simp only [h, if_true]
    rw [bind_ok (show draw E w = (.ok (E.random w.tick), { w with tick := w.tick + 1 }) from rfl),
      liftScalar_ok]
  · simp only [h]
    exact liftScalar_ok ..

/-- C06: every accepted colour becomes a tuple of three integers from 0 to 255. -/
theorem C06_result_is_rgb (E : Env) (n : Nat) (inst : Option Nat) (v x : Val) (w : World)
    (h : validated E n .color inst v w = .ok x) : IsRGB x := by
  cases hv : v.isStr with
  | false =>
    obtain ⟨xs, _, rfl, h'⟩ := (validated_color_items E n inst v x w hv).1 h
    exact h'
  | true =>
    cases v <;> simp [Val.isStr] at hv
    rename_i s
    rw [validated_color_text] at h
    unfold colorValidate at h
    dsimp only at h
    split at h
    · rename_i xs _
      obtain ⟨rfl, h'⟩ := (colorOfItems_iff xs x).1 h
      exact h'
    · cases h

/-- C06: a list or tuple is accepted iff it has three integer items from 0 to
255; it becomes the tuple of its items. -/
theorem C06_triples (E : Env) (n : Nat) (inst : Option Nat) (xs : List Val) (x : Val) (w : World) :
    (validated E n .color inst (.list xs) w = .ok x ↔ x = .tup xs ∧ IsRGB (.tup xs)) ∧
    (validated E n .color inst (.tup xs) w = .ok x ↔ x = .tup xs ∧ IsRGB (.tup xs)) := by
  rw [validated_color_items E n inst _ x w rfl, validated_color_items E n inst _ x w rfl]
  simp

/-- C06: the result of a validation is accepted again and unchanged. -/
theorem C06_idempotent (E : Env) (n n' : Nat) (inst inst' : Option Nat) (v x : Val) (w w' : World)
    (h : validated E n .color inst v w = .ok x) :
    validated E n' .color inst' x w' = .ok x := by
  have hx := C06_result_is_rgb E n inst v x w h
  obtain ⟨a, b, c, rfl, h1, h2, h3⟩ := hx
  exact ((C06_triples E n' inst' _ _ w').2).2 ⟨rfl, a, b, c, rfl, h1, h2, h3⟩

/-! ## Hexadecimal text -/

theorem hexPair_digits : ∀ a ∈ hexTable, ∀ b ∈ hexTable,
    hexPair (asciiUpper a.1) (asciiUpper b.1) = some ((a.2 * 16 + b.2 : Nat) : Int) := by
  decide +kernel

theorem hexTable_small : ∀ a ∈ hexTable, a.2 < 16 ∧ a.1.toNat < 128 ∧ asciiUpper a.1 ≠ '#' ∧
    asciiUpper a.1 ≠ 'N' ∧ a.1 ≠ '#' := by
  decide +kernel

/-- The channel two digits stand for. -/
def hexChannel (a b : Nat) : Val := .int ((a * 16 + b : Nat) : Int)

theorem hexChannel_byte {a b : Nat} (ha : a < 16) (hb : b < 16) : IsByte (hexChannel a b) :=
  .inl ⟨_, rfl, by omega, by omega⟩

/-- No name of the table is made of an optional `#` and three or six
hexadecimal digits. -/
theorem names_not_hex : ∀ kv ∈ colorsNamed, ¬ (kv.1.head? = some '#' ∨
    (kv.1.all (fun c => hexTable.any (fun t => t.1 == c)) = true ∧
      (kv.1.length = 3 ∨ kv.1.length = 6))) := by
  decide +kernel

theorem lookupS_none {α : Type} (k : PyStr) (l : List (PyStr × α)) (h : ∀ kv ∈ l, kv.1 ≠ k) :
    lookupS k l = none := by
  induction l with
  | nil => rfl
  | cons kv l ih =>
    obtain ⟨k', v⟩ := kv
    unfold lookupS
    rw [if_neg (h (k', v) (List.mem_cons_self ..))]
    exact ih fun kv hkv => h kv (List.mem_cons_of_mem _ hkv)

theorem colorName_hash (t : PyStr) : colorName ('#' :: t) = '#' :: t := by
  unfold colorName
  rw [lookupS_none]
  · rfl
  · rintro kv hkv rfl'
    exact names_not_hex kv hkv (.inl (by rw [rfl']; rfl))

theorem colorName_digits (t : PyStr) (ht : ∀ c ∈ t, ∃ d, HexDigit c d)
    (hl : t.length = 3 ∨ t.length = 6) : colorName t = t := by
  unfold colorName
  rw [lookupS_none]
  · rfl
  · rintro kv hkv rfl'
    refine names_not_hex kv hkv (.inr ⟨?_, by rw [rfl']; exact hl⟩)
    rw [rfl', List.all_eq_true]
    intro c hc
    obtain ⟨d, hd⟩ := ht c hc
    exact List.any_eq_true.2 ⟨(c, d), hd, by simp⟩

theorem upper_digits (E : Env) (hE : AsciiUpper E) (t : PyStr) (hash : Bool)
    (ht : ∀ c ∈ t, ∃ d, HexDigit c d) :
    E.upper ((if hash then ['#'] else []) ++ t) =
      (if hash then ['#'] else []) ++ t.map asciiUpper := by
  rw [hE]
  · cases hash
    · simp
    · simp only [if_true, List.map_append, List.cons_append, List.nil_append, List.map_cons,
        List.map_nil]
      rfl
  · intro c hc
    rcases List.mem_append.1 hc with hc | hc
    · cases hash
      · cases hc
      · simp only [if_true, List.mem_singleton] at hc; subst hc; decide
    · obtain ⟨d, hd⟩ := ht c hc
      exact (hexTable_small (c, d) hd).2.1

theorem lstrip_digits (t : PyStr) (hash : Bool) (ht : ∀ c ∈ t, ∃ d, HexDigit c d) :
    lstrip (s% "#") ((if hash then ['#'] else []) ++ t.map asciiUpper) = t.map asciiUpper := by
  have base : lstrip (s% "#") (t.map asciiUpper) = t.map asciiUpper := by
    cases t with
    | nil => rfl
    | cons c t =>
      obtain ⟨d, hd⟩ := ht c (List.mem_cons_self ..)
      have := (hexTable_small (c, d) hd).2.2.1
      unfold lstrip
      simp only [List.map_cons, List.dropWhile]
      have h2 : (List.contains ['#'] (asciiUpper c)) = false := by
        simp only [List.contains_cons, List.contains_nil, Bool.or_false]
        simpa using this
      simp only [h2]
  cases hash
  · exact base
  · unfold lstrip at *
    simpa using base

theorem not_random (t : PyStr) (hash : Bool) (ht : ∀ c ∈ t, ∃ d, HexDigit c d) :
    ((if hash then ['#'] else []) ++ t.map asciiUpper) ≠ s% "RANDOM" := by
  cases hash
  · intro h
    simp only [Bool.false_eq_true, if_false, List.nil_append] at h
    have : 'N' ∈ t.map asciiUpper := by rw [h]; decide
    obtain ⟨c, hc, he⟩ := List.mem_map.1 this
    obtain ⟨d, hd⟩ := ht c hc
    exact (hexTable_small (c, d) hd).2.2.2.1 he
  · intro h; cases h

/-- Both hexadecimal forms at once: `t` has three or six digits. -/
theorem colorValidate_hex (E : Env) (hE : AsciiUpper E) (k : Nat) (hash : Bool) (t : PyStr)
    (ht : ∀ c ∈ t, ∃ d, HexDigit c d) (hl : t.length = 3 ∨ t.length = 6) :
    colorName ((if hash then ['#'] else []) ++ t) = (if hash then ['#'] else []) ++ t ∧
    colorIsRandom E ((if hash then ['#'] else []) ++ t) = false ∧
    colorValidate E k (.str ((if hash then ['#'] else []) ++ t)) =
      match hexPairs (doubled (t.map asciiUpper)) with
      | .ok xs => colorOfItems xs
      | .error e => .error e := by
  have h1 : colorName ((if hash then ['#'] else []) ++ t) = (if hash then ['#'] else []) ++ t := by
    cases hash
    · exact colorName_digits t ht hl
    · exact colorName_hash t
  have h2 : (E.upper ((if hash then ['#'] else []) ++ t) == s% "RANDOM") = false := by
    rw [upper_digits E hE t hash ht]
    exact beq_eq_false_iff_ne.2 (not_random t hash ht)
  refine ⟨h1, ?_, ?_⟩
  · unfold colorIsRandom; rw [h1]; exact h2
  · unfold colorValidate
    dsimp only
    rw [h1, h2]
    simp only [Bool.false_eq_true, if_false]
    unfold colorOfText
    rw [upper_digits E hE t hash ht, lstrip_digits t hash ht]
    rfl

/-- C06: six hexadecimal digits, with or without a leading `#` and in either
case, decode to the values of their digit pairs. -/
theorem C06_six_digits (E : Env) (hE : AsciiUpper E) (n : Nat) (inst : Option Nat) (w : World)
    (hash : Bool) (c1 c2 c3 c4 c5 c6 : Char) (d1 d2 d3 d4 d5 d6 : Nat)
    (h1 : HexDigit c1 d1) (h2 : HexDigit c2 d2) (h3 : HexDigit c3 d3) (h4 : HexDigit c4 d4)
    (h5 : HexDigit c5 d5) (h6 : HexDigit c6 d6) :
    validated E n .color inst
        (.str ((if hash then ['#'] else []) ++ [c1, c2, c3, c4, c5, c6])) w
      = .ok (.tup [hexChannel d1 d2, hexChannel d3 d4, hexChannel d5 d6]) := by
  have ht : ∀ c ∈ [c1, c2, c3, c4, c5, c6], ∃ d, HexDigit c d := by
    intro c hc
    simp only [List.mem_cons, List.not_mem_nil, or_false] at hc
    rcases hc with rfl | rfl | rfl | rfl | rfl | rfl
    exacts [⟨_, h1⟩, ⟨_, h2⟩, ⟨_, h3⟩, ⟨_, h4⟩, ⟨_, h5⟩, ⟨_, h6⟩]
  obtain ⟨_, hr, hc⟩ := colorValidate_hex E hE 0 hash _ ht (.inr rfl)
  rw [validated_color_text, hr]
  simp only [Bool.false_eq_true, if_false]
  rw [hc]
  simp only [doubled, hexPairs, List.map_cons, List.map_nil, List.length_cons, List.length_nil,
    show ¬ (0 + 1 + 1 + 1 + 1 + 1 + 1 = 3) by decide, if_false, hexPair_digits _ h1 _ h2, hexPair_digits _ h3 _ h4, hexPair_digits _ h5 _ h6]
  rw [colorOfItems_iff]
  have s := fun (c : Char) (d : Nat) (h : HexDigit c d) => (hexTable_small (c, d) h).1
  exact ⟨rfl, _, _, _, rfl, hexChannel_byte (s _ _ h1) (s _ _ h2),
    hexChannel_byte (s _ _ h3) (s _ _ h4), hexChannel_byte (s _ _ h5) (s _ _ h6)⟩

/-- C06: three hexadecimal digits mean the six digits with each one doubled. -/
theorem C06_three_digits (E : Env) (hE : AsciiUpper E) (n : Nat) (inst : Option Nat) (w : World)
    (hash : Bool) (c1 c2 c3 : Char) (d1 d2 d3 : Nat)
    (h1 : HexDigit c1 d1) (h2 : HexDigit c2 d2) (h3 : HexDigit c3 d3) :
    validated E n .color inst (.str ((if hash then ['#'] else []) ++ [c1, c2, c3])) w
      = .ok (.tup [hexChannel d1 d1, hexChannel d2 d2, hexChannel d3 d3]) := by
  have ht : ∀ c ∈ [c1, c2, c3], ∃ d, HexDigit c d := by
    intro c hc
    simp only [List.mem_cons, List.not_mem_nil, or_false] at hc
    rcases hc with rfl | rfl | rfl
    exacts [⟨_, h1⟩, ⟨_, h2⟩, ⟨_, h3⟩]
  obtain ⟨_, hr, hc⟩ := colorValidate_hex E hE 0 hash _ ht (.inl rfl)
  rw [validated_color_text, hr]
  simp only [Bool.false_eq_true, if_false]
  rw [hc]
  simp only [doubled, hexPairs, List.map_cons, List.map_nil, List.length_cons, List.length_nil,
    if_true, List.flatMap_cons, List.flatMap_nil, List.append_nil, List.cons_append,
    List.nil_append, hexPair_digits _ h1 _ h1, hexPair_digits _ h2 _ h2, hexPair_digits _ h3 _ h3]
  rw [colorOfItems_iff]
  have s := fun (c : Char) (d : Nat) (h : HexDigit c d) => (hexTable_small (c, d) h).1
  exact ⟨rfl, _, _, _, rfl, hexChannel_byte (s _ _ h1) (s _ _ h1),
    hexChannel_byte (s _ _ h2) (s _ _ h2), hexChannel_byte (s _ _ h3) (s _ _ h3)⟩

/-! ## Named colours -/

/-- Every entry of the table is six hexadecimal digits, and the names are
distinct. -/
theorem named_table : (∀ kv ∈ colorsNamed, kv.2.length = 6 ∧
      kv.2.all (fun c => hexTable.any (fun t => t.1 == c)) = true ∧
      lookupS kv.1 colorsNamed = some kv.2) := by
  decide +kernel

/-- C06: every named colour is accepted and means the six digits of its table
entry. -/
theorem C06_named (E : Env) (hE : AsciiUpper E) (n : Nat) (inst : Option Nat) (w : World)
    (name hex : PyStr) (h : (name, hex) ∈ colorsNamed) :
    ∃ x, validated E n .color inst (.str name) w = .ok x ∧
      validated E n .color inst (.str hex) w = .ok x := by
  obtain ⟨hl, hd, hlook⟩ := named_table _ h
  simp only at hl hd hlook
  have ht : ∀ c ∈ hex, ∃ d, HexDigit c d := by
    intro c hc
    obtain ⟨⟨c', d⟩, hm, he⟩ := List.any_eq_true.1 (List.all_eq_true.1 hd c hc)
    simp only [beq_iff_eq] at he
    subst he
    exact ⟨d, hm⟩
  have hname : colorName name = hex := by unfold colorName; rw [hlook]; rfl
  have hhex := colorName_digits hex ht (.inr hl)
  have e : ∀ x, validated E n .color inst (.str name) w = .ok x ↔
      validated E n .color inst (.str hex) w = .ok x := by
    intro x
    rw [validated_color_text, validated_color_text]
    unfold colorIsRandom colorValidate
    dsimp only
    rw [hname, hhex]
  match hex, hl with
  | [c1, c2, c3, c4, c5, c6], _ =>
    obtain ⟨d1, h1⟩ := ht c1 (by simp)
    obtain ⟨d2, h2⟩ := ht c2 (by simp)
    obtain ⟨d3, h3⟩ := ht c3 (by simp)
    obtain ⟨d4, h4⟩ := ht c4 (by simp)
    obtain ⟨d5, h5⟩ := ht c5 (by simp)
    obtain ⟨d6, h6⟩ := ht c6 (by simp)
    have := C06_six_digits E hE n inst w false c1 c2 c3 c4 c5 c6 d1 d2 d3 d4 d5 d6 h1 h2 h3 h4 h5 h6
    exact ⟨_, (e _).2 this, this⟩

/-- The standard web colour `firebrick` is misspelt in the table: it is not
accepted, `irebrick` is. -/
theorem C06_firebrick_missing (E : Env) (hE : AsciiUpper E) (n : Nat) (inst : Option Nat)
    (w : World) (x : Val) : validated E n .color inst (.str (s% "firebrick")) w ≠ .ok x := by
  intro h
  rw [validated_color_text] at h
  have e : colorName (s% "firebrick") = s% "firebrick" := by decide +kernel
  have hu : E.upper (s% "firebrick") = s% "FIREBRICK" := by
    rw [hE _ (by decide)]; decide
  unfold colorIsRandom colorValidate at h
  dsimp only at h
  rw [e, hu] at h
  simp only [show ((s% "FIREBRICK") == s% "RANDOM") = false by decide, Bool.false_eq_true,
    if_false] at h
  unfold colorOfText at h
  rw [hu] at h
  rw [show lstrip (s% "#") (s% "FIREBRICK") = s% "FIREBRICK" by decide] at h
  simp [doubled, hexPairs] at h

/-- `random` gives the colour of one of the twenty entries. -/
theorem C06_random (E : Env) (hE : AsciiUpper E) (n : Nat) (inst : Option Nat) (w : World) :
    ∃ t ∈ colors20, ∃ x, validated E n .color inst (.str (s% "random")) w = .ok x ∧
      validated E n .color inst (.str t) w = .ok x := by
  have hr : colorIsRandom E (s% "random") = true := by
    unfold colorIsRandom
    rw [show colorName (s% "random") = s% "random" by decide +kernel, hE _ (by decide)]
    decide
  let t := (colors20[E.random w.tick % colors20.length]?).getD []
  have hlt : E.random w.tick % colors20.length < colors20.length :=
    Nat.mod_lt _ (by decide)
  have htm : t ∈ colors20 := by
    show (colors20[E.random w.tick % colors20.length]?).getD [] ∈ colors20
    rw [List.getElem?_eq_getElem hlt]
    exact List.getElem_mem hlt
  have hshape : ∀ t ∈ colors20, ∃ u, t = '#' :: u ∧ u.length = 6 ∧
      u.all (fun c => hexTable.any (fun t => t.1 == c)) = true := by
    have : ∀ t ∈ colors20, t = '#' :: t.tail ∧ t.tail.length = 6 ∧
      t.tail.all (fun c => hexTable.any (fun t => t.1 == c)) = true := by decide +kernel
    intro t ht
    exact ⟨t.tail, this t ht⟩
  obtain ⟨u, hu, hl, hd⟩ := hshape t htm
  have ht : ∀ c ∈ u, ∃ d, HexDigit c d := by
    intro c hc
    obtain ⟨⟨c', d⟩, hm, he⟩ := List.any_eq_true.1 (List.all_eq_true.1 hd c hc)
    simp only [beq_iff_eq] at he
    subst he
    exact ⟨d, hm⟩
  match u, hl with
  | [c1, c2, c3, c4, c5, c6], _ =>
    obtain ⟨d1, h1⟩ := ht c1 (by simp)
    obtain ⟨d2, h2⟩ := ht c2 (by simp)
    obtain ⟨d3, h3⟩ := ht c3 (by simp)
    obtain ⟨d4, h4⟩ := ht c4 (by simp)
    obtain ⟨d5, h5⟩ := ht c5 (by simp)
    obtain ⟨d6, h6⟩ := ht c6 (by simp)
    have hv := C06_six_digits E hE n inst w true c1 c2 c3 c4 c5 c6 d1 d2 d3 d4 d5 d6 h1 h2 h3 h4 h5 h6
    simp only [if_true, List.cons_append, List.nil_append] at hv
    refine ⟨t, htm, _, ?_, by rw [hu]; exact hv⟩
    rw [validated_color_text, hr]
    rw [validated_color_text] at hv
    unfold colorValidate at hv ⊢
    dsimp only at hv ⊢
    have e : (E.upper (colorName (s% "random")) == s% "RANDOM") = true := hr
    have hn := colorName_hash [c1, c2, c3, c4, c5, c6]
    have hnr : (E.upper ('#' :: [c1, c2, c3, c4, c5, c6]) == s% "RANDOM") = false := by
      have := (colorValidate_hex E hE 0 true _ ht (.inr rfl)).2.1
      unfold colorIsRandom at this
      simp only [if_true, List.cons_append, List.nil_append] at this
      rw [hn] at this
      exact this
    rw [hn, hnr] at hv
    simp only [Bool.false_eq_true, if_false] at hv
    simp only [e, if_true]
    rw [show (colors20[E.random w.tick % colors20.length]?).getD [] = t from rfl, hu]
    exact hv

/-! Non-vacuity: `#F0a` and a table entry. -/

example : HexDigit 'F' 15 ∧ HexDigit '0' 0 ∧ HexDigit 'a' 10 := by unfold HexDigit; decide

example : (s% "red", s% "FF0000") ∈ colorsNamed := by decide +kernel

/-- The law about `upper` has an instance. -/
example (E : Env) : AsciiUpper { E with upper := List.map asciiUpper } := fun _ _ => rfl

end Verif
