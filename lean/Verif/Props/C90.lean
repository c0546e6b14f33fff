import Verif.Spec.Messages
import Verif.Spec.Scalar

/-!
# C90: what descriptions and error messages say
-/

namespace Verif.Msg
open Verif.Spec Verif.Spec.Msg

/-! ## Cutting texts -/

theorem split_first {c : Char} : ∀ {a b x y : PyStr}, (∀ d ∈ a, d ≠ c) → (∀ d ∈ b, d ≠ c) →
    a ++ c :: x = b ++ c :: y → a = b ∧ x = y
  | [], [], _, _, _, _, h => ⟨rfl, by injection h⟩
  | [], d :: b, _, _, _, hb, h => by
      injection h with h1 _
      exact absurd h1.symm (hb d (by simp))
  | d :: a, [], _, _, ha, _, h => by
      injection h with h1 _
      exact absurd h1 (ha d (by simp))
  | d :: a, e :: b, _, _, ha, hb, h => by
      injection h with h1 h2
      obtain ⟨h3, h4⟩ := split_first (fun d hd => ha d (by simp [hd])) (fun d hd => hb d (by simp [hd])) h2
      exact ⟨by rw [h1, h3], h4⟩

theorem split_last {c : Char} {a b x y : PyStr} (ha : ∀ d ∈ a, d ≠ c) (hb : ∀ d ∈ b, d ≠ c)
    (h : x ++ c :: a = y ++ c :: b) : x = y ∧ a = b := by
  have h' := congrArg List.reverse h
  simp only [List.reverse_append, List.reverse_cons, List.append_assoc, List.singleton_append] at h'
  obtain ⟨h1, h2⟩ := split_first (fun d hd => ha d (List.mem_reverse.1 hd))
    (fun d hd => hb d (List.mem_reverse.1 hd)) h'
  exact ⟨List.reverse_inj.1 h2, List.reverse_inj.1 h1⟩

/-! ## Values in messages -/

/-- **C90**.  A value is shown in at most 107 characters. -/
theorem C90_shown_length (r : PyStr) : (shown r).length ≤ 107 := by
  unfold shown
  split
  · simp; omega
  · omega

/-- **C90**.  A representation of at most 107 characters is shown as it is; of a longer one the first and the
last 50 characters are shown. -/
theorem C90_shown (r : PyStr) : (shown r = r ↔ r.length ≤ 107) ∧
    (107 < r.length → ∃ a m b, r = a ++ m ++ b ∧ a.length = 50 ∧ b.length = 50 ∧ shown r = a ++ s% "  ...  " ++ b) := by
  refine ⟨⟨fun h => ?_, fun h => ?_⟩, fun h => ?_⟩
  · rw [← h]; exact C90_shown_length r
  · unfold shown; exact if_neg (by omega)
  · refine ⟨r.take 50, (r.drop 50).take (r.length - 100), r.drop (r.length - 50), ?_, by simp; omega, by simp; omega, ?_⟩
    · have h1 : r.drop (r.length - 50) = (r.drop 50).drop (r.length - 100) := by
        rw [List.drop_drop]; congr 1; omega
      rw [h1, List.append_assoc, List.take_append_drop, List.take_append_drop]
    · unfold shown; exact if_pos h

/-- **C90**.  However large the value, a message is at most 107 characters longer than its other parts. -/
theorem C90_message_length (cls name : PyStr) (inst : Option PyStr) (desc repr vtype extra : PyStr) :
    (message cls name inst desc repr vtype extra).length ≤
      (message cls name inst desc [] vtype extra).length + 107 := by
  have h := C90_shown_length repr
  have h0 : shown [] = [] := rfl
  simp only [message, List.length_append, h0, List.length_nil]
  omega

/-! ## What a message is about -/

theorem of_cut {inst inst' : Option PyStr} {x y : PyStr}
    (hi : ∀ k, inst = some k → Name k) (hi' : ∀ k, inst' = some k → Name k)
    (h : ofText inst ++ (s% " must be " ++ x) = ofText inst' ++ (s% " must be " ++ y)) : inst = inst' := by
  cases inst with
  | none =>
    cases inst' with
    | none => rfl
    | some k => simp [ofText] at h
  | some k =>
    cases inst' with
    | none => simp [ofText] at h
    | some k' =>
      simp only [ofText, List.append_assoc] at h
      have h := List.append_cancel_left h
      have := (split_first (c := ' ') (fun d hd => (hi k rfl d hd).1) (fun d hd => (hi' k' rfl d hd).1) h).1
      rw [this]

theorem of_head (inst : Option PyStr) (x : PyStr) : ∃ c r, c ≠ '\'' ∧ ofText inst ++ (s% " must be " ++ x) = ' ' :: c :: r := by
  cases inst with
  | none => exact ⟨'m', _, by decide, rfl⟩
  | some k => exact ⟨'o', _, by decide, rfl⟩

/-- The rest of the subject determines the name and the class of the instance. -/
theorem rest_cut {name name' : PyStr} {inst inst' : Option PyStr} {x y : PyStr} (hn : Name name) (hn' : Name name')
    (hi : ∀ k, inst = some k → Name k) (hi' : ∀ k, inst' = some k → Name k)
    (h : nameText name ++ (ofText inst ++ (s% " must be " ++ x)) =
      nameText name' ++ (ofText inst' ++ (s% " must be " ++ y))) :
    name = name' ∧ inst = inst' := by
  cases name with
  | nil =>
    cases name' with
    | nil => exact ⟨rfl, of_cut hi hi' h⟩
    | cons d name' =>
      obtain ⟨c, r, hc, hr⟩ := of_head inst x
      rw [show nameText [] = [] from rfl, List.nil_append, hr] at h
      injection h with _ h
      injection h with h _
      exact absurd h hc
  | cons c name =>
    cases name' with
    | nil =>
      obtain ⟨c, r, hc, hr⟩ := of_head inst' y
      rw [show nameText [] = [] from rfl, List.nil_append, hr] at h
      injection h with _ h
      injection h with h _
      exact absurd h.symm hc
    | cons d name' =>
      have e : ∀ (c : Char) (l : PyStr), nameText (c :: l) = s% " '" ++ (c :: l) ++ s% "'" := fun _ _ => rfl
      rw [e, e] at h
      simp only [List.append_assoc] at h
      have h := List.append_cancel_left h
      obtain ⟨h1, h2⟩ := split_first (c := '\'') (fun d hd => (hn d hd).2) (fun d hd => (hn' d hd).2) h
      exact ⟨h1, of_cut hi hi' h2⟩

/-- **C90**.  A message tells which property it is about: two messages that are the same are about the same class
of property, the same name and the same class of instance, whatever the values and descriptions. -/
theorem C90_message_subject {cls cls' name name' : PyStr} {inst inst' : Option PyStr}
    {desc desc' repr repr' vtype vtype' extra extra' : PyStr}
    (hc : Name cls) (hc' : Name cls') (hn : Name name) (hn' : Name name')
    (hi : ∀ k, inst = some k → Name k) (hi' : ∀ k, inst' = some k → Name k)
    (h : message cls name inst desc repr vtype extra = message cls' name' inst' desc' repr' vtype' extra') :
    cls = cls' ∧ name = name' ∧ inst = inst' := by
  unfold message subject at h
  simp only [List.append_assoc] at h
  have h := List.append_cancel_left h
  obtain ⟨h1, h2⟩ := split_first (c := ' ') (fun d hd => (hc d hd).1) (fun d hd => (hc' d hd).1) h
  have h2 : s% "property" ++ _ = s% "property" ++ _ := h2
  have h2 := List.append_cancel_left h2
  obtain ⟨h3, h4⟩ := rest_cut hn hn' hi hi' h2
  exact ⟨h1, h3, h4⟩

/-! ## Bounds -/

theorem text_lo {T : Texts} (hT : Plain T) {mn mn' : Option Rat}
    (h : loText T mn = loText T mn') :
    mn = mn' := by
  cases mn <;> cases mn'
  · rfl
  · exact absurd h.symm (hT.numInf _).2
  · exact absurd h (hT.numInf _).2
  · rw [hT.numInj _ _ h]

theorem text_hi {T : Texts} (hT : Plain T) {mn mn' : Option Rat}
    (h : hiText T mn = hiText T mn') :
    mn = mn' := by
  cases mn <;> cases mn'
  · rfl
  · exact absurd h.symm (hT.numInf _).1
  · exact absurd h (hT.numInf _).1
  · rw [hT.numInj _ _ h]

theorem lo_comma {T : Texts} (hT : Plain T) (mn : Option Rat) :
    ∀ d ∈ loText T mn, d ≠ ',' := by
  cases mn with
  | none => simp only [loText]; decide
  | some q => exact fun d hd => (hT.numChars q d hd).1

/-- **C90**.  Different bounds have different descriptions. -/
theorem C90_bounds {T : Texts} (hT : Plain T) {txt : PyStr} {mn mx mn' mx' : Option Rat}
    (h : boundsText T txt mn mx = boundsText T txt mn' mx') : mn = mn' ∧ mx = mx' := by
  unfold boundsText at h
  split at h
  · rename_i h1
    split at h
    · rename_i h2
      simp only [Bool.and_eq_true, Option.isNone_iff_eq_none] at h1 h2
      exact ⟨h1.1.trans h2.1.symm, h1.2.trans h2.2.symm⟩
    · have := congrArg List.length h
      simp at this
  · split at h
    · have := congrArg List.length h
      simp at this
    · simp only [List.append_assoc] at h
      have h := List.append_cancel_left (List.append_cancel_left h)
      obtain ⟨h1, h2⟩ := split_first (c := ',') (lo_comma hT mn) (lo_comma hT mn') h
      injection h2 with _ h2
      exact ⟨text_lo hT h1, text_hi hT (List.append_cancel_right h2)⟩

/-! ## Lengths -/

theorem nat_nospace {T : Texts} (hT : Plain T) (a : Nat) : ∀ d ∈ T.nat a, d ≠ ' ' := fun d hd => (hT.natChars a d hd).1

/-- The same description of lengths allows the same lengths. -/
theorem lengths {T : Texts} (hT : Plain T) {mn mx mn' mx' : Option Nat} (h : lengthText T mn mx = lengthText T mn' mx')
    (n : Nat) : Allows mn mx n ↔ Allows mn' mx' n := by
  have btw : ∀ {a b a' b' : Nat}, s% " with length between " ++ T.nat a ++ s% " and " ++ T.nat b =
      s% " with length between " ++ T.nat a' ++ s% " and " ++ T.nat b' → a = a' ∧ b = b' := by
    intro a b a' b' h
    simp only [List.append_assoc] at h
    have h := List.append_cancel_left h
    obtain ⟨h1, h2⟩ := split_first (c := ' ') (nat_nospace hT a) (nat_nospace hT a') h
    have h2 : s% "and " ++ _ = s% "and " ++ _ := h2
    exact ⟨hT.natInj _ _ h1, hT.natInj _ _ (List.append_cancel_left h2)⟩
  have zero : ∀ b, s% " with length between " ++ s% "0" ++ s% " and " ++ T.nat b =
      s% " with length between " ++ T.nat 0 ++ s% " and " ++ T.nat b := by intro b; rw [hT.natZero]
  cases mn with
  | none =>
    cases mx with
    | none =>
      cases mn' with
      | none =>
        cases mx' with
        | none => exact Iff.rfl
        | some b' => simp [lengthText] at h
      | some a' =>
        cases mx' with
        | none => simp [lengthText] at h
        | some b' => simp only [lengthText] at h; split at h <;> simp at h
    | some b =>
      have hb : lengthText T none (some b) = s% " with length between " ++ T.nat 0 ++ s% " and " ++ T.nat b := zero b
      rw [hb] at h
      cases mn' with
      | none =>
        cases mx' with
        | none => simp [lengthText] at h
        | some b' =>
          have hb' : lengthText T none (some b') = _ := zero b'
          rw [hb'] at h
          obtain ⟨-, rfl⟩ := btw h
          exact Iff.rfl
      | some a' =>
        cases mx' with
        | none => simp [lengthText] at h
        | some b' =>
          simp only [lengthText] at h
          split at h
          · simp at h
          · obtain ⟨h1, h2⟩ := btw h
            subst h1 h2
            simp [Allows]
  | some a =>
    cases mx with
    | none =>
      cases mn' with
      | none =>
        cases mx' with
        | none => simp [lengthText] at h
        | some b' => simp [lengthText] at h
      | some a' =>
        cases mx' with
        | none =>
          rw [hT.natInj a a' (List.append_cancel_left h)]
        | some b' => simp only [lengthText] at h; split at h <;> simp at h
    | some b =>
      simp only [lengthText] at h
      split at h
      · rename_i hab
        subst hab
        cases mn' with
        | none => cases mx' <;> simp at h
        | some a' =>
          cases mx' with
          | none => simp at h
          | some b' =>
            simp only at h
            split at h
            · rename_i hab
              subst hab
              rw [hT.natInj _ _ (List.append_cancel_left h)]
            · simp at h
      · cases mn' with
        | none =>
          cases mx' with
          | none => simp at h
          | some b' =>
            simp only at h
            rw [zero] at h
            obtain ⟨h1, h2⟩ := btw h
            subst h1 h2
            simp [Allows]
        | some a' =>
          cases mx' with
          | none => simp at h
          | some b' =>
            simp only at h
            split at h
            · simp at h
            · obtain ⟨h1, h2⟩ := btw h
              subst h1 h2
              exact Iff.rfl

theorem length_chars {T : Texts} (hT : Plain T) (mn mx : Option Nat) : ∀ d ∈ lengthText T mn mx, d ≠ ')' := by
  have hn : ∀ a, ∀ d ∈ T.nat a, d ≠ ')' := fun a d hd => (hT.natChars a d hd).2
  intro d hd
  unfold lengthText at hd
  split at hd
  · cases hd
  · rcases List.mem_append.1 hd with h | h
    · (intro e; subst e; exact absurd h (by decide))
    · exact hn _ d h
  · rcases List.mem_append.1 hd with h | h
    · (intro e; subst e; exact absurd h (by decide))
    · exact hn _ d h
  · split at hd
    · rcases List.mem_append.1 hd with h | h
      · (intro e; subst e; exact absurd h (by decide))
      · exact hn _ d h
    · rcases List.mem_append.1 hd with h | h
      · rcases List.mem_append.1 h with h | h
        · rcases List.mem_append.1 h with h | h
          · (intro e; subst e; exact absurd h (by decide))
          · exact hn _ d h
        · (intro e; subst e; exact absurd h (by decide))
      · exact hn _ d h

theorem length_head {T : Texts} (mn mx : Option Nat) : lengthText T mn mx = [] ∨ ∃ r, lengthText T mn mx = ' ' :: 'w' :: r := by
  unfold lengthText
  split
  · exact .inl rfl
  · exact .inr ⟨_, rfl⟩
  · exact .inr ⟨_, rfl⟩
  · split <;> exact .inr ⟨_, rfl⟩

/-- **C90**.  Two sequences with the same description are of the same kind, describe their items alike and allow
the same lengths. -/
theorem C90_sequence {T : Texts} (hT : Plain T) {k k' : SeqKind} {item item' : PyStr} {mn mx mn' mx' : Option Nat}
    (h : seqText T k item mn mx = seqText T k' item' mn' mx') :
    k = k' ∧ item = item' ∧ ∀ n, Allows mn mx n ↔ Allows mn' mx' n := by
  have hk : k = k' := by
    cases k <;> cases k' <;> first | rfl | (simp [seqText, kindText] at h)
  subst hk
  unfold seqText at h
  simp only [List.append_assoc] at h
  have h := List.append_cancel_left h
  have mixed : ∀ {it : PyStr} {a b c d : Option Nat}, lengthText T a b ≠ s% " (each item is " ++ (it ++ (s% ")" ++ lengthText T c d)) := by
    intro it a b c d h
    rcases length_head (T := T) a b with h' | ⟨r, h'⟩ <;> rw [h'] at h <;> simp at h
  refine ⟨rfl, ?_⟩
  cases item with
  | nil =>
    cases item' with
    | nil => exact ⟨rfl, lengths hT (by simpa using h)⟩
    | cons c item' => exact absurd (by simpa using h) (mixed (it := c :: item') (a := mn) (b := mx) (c := mn') (d := mx'))
  | cons c item =>
    cases item' with
    | nil => exact absurd (by simpa using h.symm) (mixed (it := c :: item) (a := mn') (b := mx') (c := mn) (d := mx))
    | cons c' item' =>
      have e1 : (c :: item).isEmpty = false := rfl
      have e2 : (c' :: item').isEmpty = false := rfl
      rw [e1, e2] at h
      simp only [Bool.false_eq_true, if_false, List.append_assoc] at h
      have h := List.append_cancel_left h
      obtain ⟨h1, h2⟩ := split_last (c := ')') (length_chars hT mn mx) (length_chars hT mn' mx') h
      exact ⟨h1, lengths hT h2⟩

/-! ## Choices -/

theorem quoted {xs ys : List PyStr} (hx : ∀ x ∈ xs, ∀ d ∈ x, d ≠ '"') (hy : ∀ y ∈ ys, ∀ d ∈ y, d ≠ '"')
    (h : join (s% ", ") (xs.map quote) = join (s% ", ") (ys.map quote)) : xs = ys := by
  induction xs generalizing ys with
  | nil =>
    cases ys with
    | nil => rfl
    | cons y ys => cases ys <;> simp [join, quote] at h
  | cons x xs ih =>
    cases ys with
    | nil => cases xs <;> simp [join, quote] at h
    | cons y ys =>
      have hx0 := hx x (by simp)
      have hy0 := hy y (by simp)
      cases xs with
      | nil =>
        cases ys with
        | nil =>
          simp only [List.map, join, quote, List.append_assoc] at h
          rw [(split_first hx0 hy0 (List.append_cancel_left h)).1]
        | cons y' ys =>
          simp only [List.map, join, quote, List.append_assoc] at h
          have := (split_first hx0 hy0 (List.append_cancel_left h)).2
          simp at this
      | cons x' xs =>
        cases ys with
        | nil =>
          simp only [List.map, join, quote, List.append_assoc] at h
          have := (split_first hx0 hy0 (List.append_cancel_left h)).2
          simp at this
        | cons y' ys =>
          have h' : s% "\"" ++ (x ++ '"' :: (s% ", " ++ join (s% ", ") ((x' :: xs).map quote))) =
              s% "\"" ++ (y ++ '"' :: (s% ", " ++ join (s% ", ") ((y' :: ys).map quote))) := by
            simpa only [List.map, join, quote, List.append_assoc, List.cons_append, List.nil_append] using h
          obtain ⟨h1, h2⟩ := split_first hx0 hy0 (List.append_cancel_left h')
          rw [h1, ih (fun a ha => hx a (by simp only [List.mem_cons] at ha ⊢; exact .inr ha))
            (fun a ha => hy a (by simp only [List.mem_cons] at ha ⊢; exact .inr ha)) (List.append_cancel_left h2)]

theorem choice_two (a b : PyStr) : choiceText [a, b] = s% "either " ++ quote a ++ s% " or " ++ quote b := rfl

theorem choice_any {cs : List PyStr} (h : ∀ a b, cs ≠ [a, b]) :
    choiceText cs = s% "any of " ++ join (s% ", ") (cs.map quote) := by
  unfold choiceText
  split
  · exact absurd rfl (h _ _)
  · rfl

/-- **C90**.  Two StringChoices with the same description have the same choices in the same order, if no choice
contains a quotation mark. -/
theorem C90_choices {xs ys : List PyStr} (hx : ∀ x ∈ xs, ∀ d ∈ x, d ≠ '"') (hy : ∀ y ∈ ys, ∀ d ∈ y, d ≠ '"')
    (h : choiceText xs = choiceText ys) : xs = ys := by
  by_cases hx2 : ∃ a b, xs = [a, b]
  · obtain ⟨a, b, rfl⟩ := hx2
    by_cases hy2 : ∃ a b, ys = [a, b]
    · obtain ⟨c, d, rfl⟩ := hy2
      rw [choice_two, choice_two] at h
      simp only [quote, List.append_assoc] at h
      have h := List.append_cancel_left (List.append_cancel_left h)
      obtain ⟨h1, h2⟩ := split_first (hx a (by simp)) (hy c (by simp)) h
      have h2 : s% " or " ++ (s% "\"" ++ (b ++ '"' :: [])) = s% " or " ++ (s% "\"" ++ (d ++ '"' :: [])) := h2
      have h3 := (split_first (hx b (by simp)) (hy d (by simp)) (List.append_cancel_left (List.append_cancel_left h2))).1
      rw [h1, h3]
    · rw [choice_two, choice_any (fun c d e => hy2 ⟨c, d, e⟩)] at h
      simp at h
  · rw [choice_any (fun c d e => hx2 ⟨c, d, e⟩)] at h
    by_cases hy2 : ∃ a b, ys = [a, b]
    · obtain ⟨c, d, rfl⟩ := hy2
      rw [choice_two] at h
      simp at h
    · rw [choice_any (fun c d e => hy2 ⟨c, d, e⟩)] at h
      exact quoted hx hy (List.append_cancel_left h)

/-! ## Kinds -/

/-- How descriptions of a kind begin. -/
def keys : PropTy → List PyStr
  | .any => [[]]
  | .boolean _ => [s% "a bool"]
  | .integer .. => [s% "an int"]
  | .float .. => [s% "a floa"]
  | .complex _ => [s% "a comp"]
  | .string .. => [s% "a unic"]
  | .choice .. => [s% "either", s% "any of"]
  | .color => [s% "a colo"]
  | .datetime => [s% "a date"]
  | .uuid => [s% "a uniq"]
  | .seq .tup .. => [s% "a tupl"]
  | .seq .list .. => [s% "a list"]
  | .seq .set .. => [s% "a set", s% "a set "]
  | .dict .. => [s% "a dict"]
  | .inst _ => [s% "an ins"]
  | .union .. => []

theorem info_key (T : Texts) (E : Env) (ty : PropTy) (hu : ∀ ps s, ty ≠ .union ps s) :
    (infoTy T E ty).take 6 ∈ keys ty := by
  cases ty with
  | any => simp [infoTy, keys]
  | integer c mn mx => simp only [infoTy, boundsText]; split <;> simp [keys]
  | float c mn mx => simp only [infoTy, boundsText]; split <;> simp [keys]
  | string a b r =>
    simp only [infoTy, stringText]
    split
    · simp [keys]
    · split <;> simp [keys]
  | choice cs b => simp only [infoTy, choiceText]; split <;> simp [keys]
  | seq k i a b c =>
    simp only [infoTy, seqText]
    cases k with
    | tup => simp [kindText, keys]
    | list => simp [kindText, keys]
    | set =>
      split
      · rcases length_head (T := T) a b with h | ⟨r, h⟩ <;> rw [h] <;> simp [kindText, keys]
      · simp [kindText, keys]
  | union ps s => exact absurd rfl (hu ps s)
  | _ => simp [infoTy, dictText, keys]

def tag : PropTy → Nat
  | .any => 1
  | .boolean _ => 2
  | .integer .. => 3
  | .float .. => 4
  | .complex _ => 5
  | .string .. => 6
  | .choice .. => 7
  | .color => 8
  | .datetime => 9
  | .uuid => 10
  | .seq .. => 11
  | .dict .. => 12
  | .inst _ => 13
  | .union .. => 14

/-- The kind a description belongs to. -/
def tagOf (x : PyStr) : Option Nat :=
  [([], 1), (s% "a bool", 2), (s% "an int", 3), (s% "a floa", 4), (s% "a comp", 5), (s% "a unic", 6), (s% "either", 7),
   (s% "any of", 7), (s% "a colo", 8), (s% "a date", 9), (s% "a uniq", 10), (s% "a tupl", 11), (s% "a list", 11),
   (s% "a set", 11), (s% "a set ", 11), (s% "a dict", 12), (s% "an ins", 13)].lookup x

theorem keys_tag {ty : PropTy} {x : PyStr} (h : x ∈ keys ty) : tagOf x = some (tag ty) := by
  cases ty with
  | seq k =>
    cases k <;> simp only [keys, List.mem_cons, List.not_mem_nil, or_false] at h
    · subst h; rfl
    · subst h; rfl
    · rcases h with h | h <;> subst h <;> rfl
  | union => cases h
  | choice =>
    simp only [keys, List.mem_cons, List.not_mem_nil, or_false] at h
    rcases h with h | h <;> subst h <;> rfl
  | _ =>
    simp only [keys, List.mem_cons, List.not_mem_nil, or_false] at h
    subst h
    rfl

/-- **C90**.  Two types, not Unions, with the same description are of the same kind, with the same bounds if they
are numbers and the same lengths if they are sequences. -/
theorem C90_kind {T : Texts} (hT : Plain T) {E : Env} {ty ty' : PropTy} (hu : ∀ ps s, ty ≠ .union ps s)
    (hu' : ∀ ps s, ty' ≠ .union ps s) (h : infoTy T E ty = infoTy T E ty') : SameKind ty ty' := by
  have hk := keys_tag (info_key T E ty hu)
  have hk' := keys_tag (info_key T E ty' hu')
  rw [← h, hk, Option.some.injEq] at hk'
  clear hk
  cases ty <;> cases ty' <;> first | (exfalso; revert hk'; simp only [tag]; decide) | skip
  case integer =>
    simp only [infoTy] at h
    obtain ⟨rfl, rfl⟩ := C90_bounds hT h
    exact .integer
  case float =>
    simp only [infoTy] at h
    obtain ⟨rfl, rfl⟩ := C90_bounds hT h
    exact .float
  case seq =>
    simp only [infoTy] at h
    obtain ⟨rfl, -, hl⟩ := C90_sequence hT h
    exact .seq hl
  case union => exact absurd rfl (hu _ _)
  all_goals constructor

/-- **C90**.  Two Integers, or two Floats, with the same description and the same `cast` accept and coerce the same
values. -/
theorem C90_numbers {T : Texts} (hT : Plain T) {E E' : Env} {c : Bool} {mn mx mn' mx' : Option Rat} (n : Nat)
    (inst : Option Nat) (v : Val) (w : World) :
    (infoTy T E (.integer c mn mx) = infoTy T E (.integer c mn' mx') →
      validated E' n (.integer c mn mx) inst v w = validated E' n (.integer c mn' mx') inst v w) ∧
    (infoTy T E (.float c mn mx) = infoTy T E (.float c mn' mx') →
      validated E' n (.float c mn mx) inst v w = validated E' n (.float c mn' mx') inst v w) := by
  constructor <;> intro h <;> simp only [infoTy] at h <;> obtain ⟨rfl, rfl⟩ := C90_bounds hT h <;> rfl

/-! ## Nothing is left out -/

theorem infix_mid (a b c : PyStr) : b <:+: a ++ b ++ c := ⟨a, c, rfl⟩

/-- **C90**.  The description of a container contains those of its items, keys and values. -/
theorem C90_mentions (T : Texts) (E : Env) :
    (∀ k item mn mx c, info T E item <:+: infoTy T E (.seq k item mn mx c)) ∧
    (∀ kp vp c, info T E kp <:+: infoTy T E (.dict kp vp c) ∧ info T E vp <:+: infoTy T E (.dict kp vp c)) := by
  refine ⟨fun k item mn mx c => ?_, fun kp vp c => ?_⟩
  · simp only [infoTy, seqText]
    split
    · rename_i h
      rw [List.isEmpty_iff.1 h]
      exact List.nil_infix
    · exact ⟨kindText k ++ s% " (each item is ", s% ")" ++ lengthText T mn mx, by simp only [List.append_assoc]⟩
  · simp only [infoTy, dictText]
    generalize info T E kp = a
    generalize info T E vp = b
    cases a with
    | nil =>
      refine ⟨List.nil_infix, ?_⟩
      cases b with
      | nil => exact List.nil_infix
      | cons d b =>
        exact ⟨s% "a dictionary" ++ s% " (values: ", s% ")", by simp⟩
    | cons d a =>
      cases b with
      | nil => exact ⟨⟨s% "a dictionary" ++ s% " (keys: ", s% ")", by simp⟩, List.nil_infix⟩
      | cons e b =>
        exact ⟨⟨s% "a dictionary" ++ s% " (keys: ", s% "; values: " ++ (e :: b) ++ s% ")", by simp⟩,
          ⟨s% "a dictionary" ++ s% " (keys: " ++ (d :: a) ++ s% "; values: ", s% ")", by simp⟩⟩

theorem join_mem {sep x : PyStr} : ∀ {xs : List PyStr}, x ∈ xs → x <:+: join sep xs
  | [y], h => by
      simp only [List.mem_singleton] at h
      subst h
      exact List.infix_refl _
  | y :: z :: xs, h => by
      rcases List.mem_cons.1 h with h | h
      · subst h
        exact ⟨[], sep ++ join sep (z :: xs), by simp [join]⟩
      · obtain ⟨a, b, hab⟩ := join_mem (sep := sep) h
        exact ⟨y ++ sep ++ a, b, by simp only [join, ← hab, List.append_assoc]⟩

theorem infoAll_mem {T : Texts} {E : Env} {p : PropSpec} : ∀ {ps : List PropSpec}, p ∈ ps →
    (if (info T E p).isEmpty then s% "any value" else info T E p) ∈ infoAll T E ps
  | q :: ps, h => by
      simp only [infoAll]
      rcases List.mem_cons.1 h with h | h
      · subst h; exact List.mem_cons_self ..
      · exact List.mem_cons_of_mem _ (infoAll_mem h)

/-- **C90**.  The description of a Union names every alternative. -/
theorem C90_alternatives (T : Texts) (E : Env) {p : PropSpec} {ps : List PropSpec} (s : Bool) (h : p ∈ ps) :
    (if (info T E p).isEmpty then s% "any value" else info T E p) <:+: infoTy T E (.union ps s) :=
  join_mem (infoAll_mem h)

theorem join_nonempty {sep x : PyStr} {xs : List PyStr} (hx : x ≠ []) : join sep (x :: xs) ≠ [] := by
  cases xs with
  | nil => exact hx
  | cons y xs =>
    intro h
    simp only [join, List.append_assoc] at h
    exact hx (List.append_eq_nil_iff.1 h).1

/-- **C90**.  Only a plain Property (and a Union without alternatives) has no description; a message always says
what the value must be. -/
theorem C90_described (T : Texts) (E : Env) (ty : PropTy) :
    infoTy T E ty = [] ↔ ty = .any ∨ ∃ s, ty = .union [] s := by
  constructor
  · intro h
    by_cases hu : ∃ ps s, ty = .union ps s
    · obtain ⟨ps, s, rfl⟩ := hu
      cases ps with
      | nil => exact .inr ⟨s, rfl⟩
      | cons p ps =>
        simp only [infoTy, infoAll] at h
        refine absurd h (join_nonempty ?_)
        split
        · simp
        · rename_i hp
          intro e
          exact hp (List.isEmpty_iff.2 e)
    · have hk := info_key T E ty (fun ps s e => hu ⟨ps, s, e⟩)
      rw [h] at hk
      cases ty with
      | any => exact .inl rfl
      | seq k => cases k <;> simp [keys] at hk
      | union ps s => exact absurd ⟨ps, s, rfl⟩ hu
      | _ => simp [keys] at hk
  · rintro (rfl | ⟨s, rfl⟩) <;> rfl

/-! ## Examples -/

/-- Texts of natural numbers by repetition, of rationals by numerator and denominator: any injective choice does. -/
def ticks (n : Nat) : PyStr := if n = 0 then s% "0" else List.replicate n '1'

theorem ticks_inj {a b : Nat} (h : ticks a = ticks b) : a = b := by
  unfold ticks at h
  split at h <;> split at h
  · omega
  · rename_i ha hb
    cases b with
    | zero => exact absurd rfl hb
    | succ b => simp [List.replicate_succ] at h
  · rename_i ha hb
    cases a with
    | zero => exact absurd rfl ha
    | succ a => simp [List.replicate_succ] at h
  · have := congrArg List.length h
    simpa using this

theorem ticks_chars {n : Nat} : ∀ c ∈ ticks n, c = '0' ∨ c = '1' := by
  intro c hc
  unfold ticks at hc
  split at hc
  · simp at hc; exact .inl hc
  · exact .inr (List.mem_replicate.1 hc).2

def exTexts : Texts where
  num q := (if q.num < 0 then s% "-" else []) ++ ticks q.num.natAbs ++ s% "/" ++ ticks q.den
  nat := ticks
  pattern := fun _ => some (s% "[a-z]")

theorem ex_plain : Plain exTexts where
  natInj := fun _ _ => ticks_inj
  natZero := rfl
  natChars := by
    intro a c hc
    rcases ticks_chars c hc with rfl | rfl <;> decide
  numInj := by
    intro a b h
    have chars : ∀ (q : Rat), ∀ d ∈ (if q.num < 0 then s% "-" else []) ++ ticks q.num.natAbs, d ≠ '/' := by
      intro q d hd
      rcases List.mem_append.1 hd with hd | hd
      · split at hd
        · simp at hd; subst hd; decide
        · cases hd
      · rcases ticks_chars d hd with rfl | rfl <;> decide
    simp only [exTexts] at h
    rw [List.append_assoc (_ ++ _), List.append_assoc (_ ++ _)] at h
    obtain ⟨h1, h2⟩ := split_first (c := '/') (chars a) (chars b) h
    have hden := ticks_inj h2
    have hsign : (a.num < 0 ↔ b.num < 0) ∧ ticks a.num.natAbs = ticks b.num.natAbs := by
      have head : ∀ n r, ticks n ≠ '-' :: r := by
        intro n r e
        have := ticks_chars '-' (by rw [e]; simp) 
        revert this
        decide
      split at h1 <;> split at h1
      · rename_i ha hb
        exact ⟨iff_of_true ha hb, List.append_cancel_left h1⟩
      · exact absurd h1.symm (head _ _)
      · exact absurd h1 (head _ _)
      · rename_i ha hb
        exact ⟨iff_of_false ha hb, h1⟩
    have hn := ticks_inj hsign.2
    have : a.num = b.num := by
      by_cases h0 : a.num < 0
      · have h2 := hsign.1.1 h0
        omega
      · have h2 : ¬ b.num < 0 := fun h => h0 (hsign.1.2 h)
        omega
    exact Rat.ext this hden
  numChars := by
    intro a c hc
    simp only [exTexts] at hc
    simp only [List.mem_append] at hc
    rcases hc with ((hc | hc) | hc) | hc
    · split at hc
      · simp at hc; subst hc; decide
      · cases hc
    · rcases ticks_chars c hc with rfl | rfl <;> decide
    · simp at hc; subst hc; decide
    · rcases ticks_chars c hc with rfl | rfl <;> decide
  numInf := by
    intro a
    have hm : '/' ∈ exTexts.num a := by simp [exTexts]
    exact ⟨fun e => by rw [e] at hm; revert hm; decide, fun e => by rw [e] at hm; revert hm; decide⟩

/-- Number texts of this kind exist, and descriptions and messages read as documented. -/
theorem C90_example (E : Env) : Plain exTexts ∧
    infoTy exTexts E (.seq .list (.mk true none none .undef (.integer false (some 0) none)) (some 2) (some 2) false) =
      s% "a list (each item is an integer in range [0/1, inf]) with length of 11" ∧
    infoTy exTexts E (.union [.mk true none none .undef .any, .mk true none none .undef (.string [] .keep (some 0))] false) =
      s% "any value or a unicode string that matches pattern \"[a-z]\"" ∧
    message (s% "Integer") (s% "age") (some (s% "Person")) (s% "an integer") (s% "'x'") (s% "<class 'str'>") [] =
      s% "The Integer property 'age' of a Person instance must be an integer. An invalid value of 'x' <class 'str'> was specified." :=
  ⟨ex_plain, by with_unfolding_all rfl, by with_unfolding_all rfl, by decide +kernel⟩

/-- `cast` is not part of a description: two Integers may have the same description and accept different values. -/
theorem C90_cast (T : Texts) (E : Env) (mn mx : Option Rat) :
    infoTy T E (.integer false mn mx) = infoTy T E (.integer true mn mx) := by simp only [infoTy]

end Verif.Msg
