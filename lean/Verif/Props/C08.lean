import Verif.Props.C07

/-!
# C07, C08: exactly which text is read
-/

namespace Verif
open Spec

/-! ## The directives -/

theorem digitOf_iff {c : Char} {n : Nat} : DigitOf c n ↔ decDigit? c = some n := by
  unfold DigitOf decDigit?
  have h0 : '0'.toNat = 48 := rfl
  rw [h0]
  constructor
  · rintro ⟨h1, h2⟩
    rw [if_pos (by omega), h2]
    simp
  · intro h
    split at h
    · simp only [Option.some.injEq] at h
      omega
    · cases h

theorem two_mem {ok : Nat → Nat → Bool} {s rest : PyStr} {n : Nat} :
    (n, rest) ∈ twoDigits ok s ↔ ∃ c d a b, DigitOf c a ∧ DigitOf d b ∧ ok a b = true ∧ n = 10 * a + b ∧
      s = c :: d :: rest := by
  unfold twoDigits
  constructor
  · intro h
    split at h
    · rename_i c d r
      split at h
      · rename_i a b h1 h2
        split at h
        · simp only [List.mem_singleton, Prod.mk.injEq] at h
          obtain ⟨rfl, rfl⟩ := h
          exact ⟨c, d, a, b, digitOf_iff.2 h1, digitOf_iff.2 h2, by assumption, by omega, rfl⟩
        · cases h
      · cases h
    · cases h
  · rintro ⟨c, d, a, b, h1, h2, h3, rfl, rfl⟩
    simp only [digitOf_iff.1 h1, digitOf_iff.1 h2]
    rw [if_pos h3, Nat.mul_comm]
    simp

theorem one_mem {ok : Nat → Bool} {s rest : PyStr} {n : Nat} :
    (n, rest) ∈ oneDigit ok s ↔ ∃ c, DigitOf c n ∧ ok n = true ∧ s = c :: rest := by
  unfold oneDigit
  constructor
  · intro h
    split at h
    · rename_i c r
      split at h
      · rename_i a h1
        split at h
        · simp only [List.mem_singleton, Prod.mk.injEq] at h
          obtain ⟨rfl, rfl⟩ := h
          exact ⟨c, digitOf_iff.2 h1, by assumption, rfl⟩
        · cases h
      · cases h
    · cases h
  · rintro ⟨c, h1, h2, rfl⟩
    simp only [digitOf_iff.1 h1]
    rw [if_pos h2]
    simp

theorem year_mem {s rest : PyStr} {n : Nat} : (n, rest) ∈ readYear s ↔ ∃ y, YearText y n ∧ s = y ++ rest := by
  unfold readYear
  constructor
  · intro h
    split at h
    · rename_i a b c d _
      split at h
      · rename_i i j k l h1 h2 h3 h4
        simp only [List.mem_singleton, Prod.mk.injEq] at h
        obtain ⟨rfl, rfl⟩ := h
        refine ⟨[a, b, c, d], ?_, rfl⟩
        rw [Nat.mul_comm i, Nat.mul_comm j, Nat.mul_comm k]
        exact .mk (digitOf_iff.2 h1) (digitOf_iff.2 h2) (digitOf_iff.2 h3) (digitOf_iff.2 h4)
      · cases h
    · cases h
  · rintro ⟨y, ⟨h1, h2, h3, h4⟩, rfl⟩
    simp only [List.cons_append, List.nil_append, digitOf_iff.1 h1, digitOf_iff.1 h2, digitOf_iff.1 h3,
      digitOf_iff.1 h4, List.mem_singleton, Prod.mk.injEq, and_true]
    omega

theorem month_mem {s rest : PyStr} {n : Nat} :
    (n, rest) ∈ readMonth s ↔ ∃ m, Numeral m n ∧ 1 ≤ n ∧ n ≤ 12 ∧ s = m ++ rest := by
  unfold readMonth
  simp only [List.mem_append, two_mem, one_mem, Bool.and_eq_true, beq_iff_eq, decide_eq_true_eq]
  constructor
  · rintro (⟨c, d, a, b, h1, h2, h3, rfl, rfl⟩ | ⟨c, d, a, b, h1, h2, h3, rfl, rfl⟩ | ⟨c, h1, h2, rfl⟩)
    · have := h2.1; exact ⟨_, .two h1 h2, by omega, by omega, rfl⟩
    · have := h2.1; exact ⟨_, .two h1 h2, by omega, by omega, rfl⟩
    · have := h1.1; exact ⟨_, .one h1, by omega, by omega, rfl⟩
  · rintro ⟨m, h | ⟨h1, h2⟩, h3, h4, rfl⟩
    · exact .inr (.inr ⟨_, h, h3, rfl⟩)
    · rename_i c d a b
      have := h2.1
      by_cases ha : a = 1
      · exact .inl ⟨c, d, a, b, h1, h2, ⟨ha, by omega⟩, rfl, rfl⟩
      · exact .inr (.inl ⟨c, d, a, b, h1, h2, ⟨by omega, by omega⟩, rfl, rfl⟩)

theorem blank_mem {s rest : PyStr} {n : Nat} :
    (n, rest) ∈ blankDigit s ↔ ∃ c, DigitOf c n ∧ 1 ≤ n ∧ s = ' ' :: c :: rest := by
  unfold blankDigit
  constructor
  · intro h
    split at h
    · obtain ⟨c, h1, h2, rfl⟩ := one_mem.1 h
      exact ⟨c, h1, by simpa using h2, rfl⟩
    · cases h
  · rintro ⟨c, h1, h2, rfl⟩
    exact one_mem.2 ⟨c, h1, by simpa using h2, rfl⟩

theorem day_mem {s rest : PyStr} {n : Nat} :
    (n, rest) ∈ readDay s ↔ ∃ d, DayText d n ∧ 1 ≤ n ∧ n ≤ 31 ∧ s = d ++ rest := by
  unfold readDay
  simp only [List.mem_append, two_mem, one_mem, blank_mem, Bool.and_eq_true, Bool.or_eq_true, beq_iff_eq,
    decide_eq_true_eq]
  constructor
  · rintro (⟨c, d, a, b, h1, h2, h3, rfl, rfl⟩ | ⟨c, d, a, b, h1, h2, h3, rfl, rfl⟩ |
      ⟨c, d, a, b, h1, h2, h3, rfl, rfl⟩ | ⟨c, h1, h2, rfl⟩ | ⟨c, h1, h2, rfl⟩)
    · have := h2.1; exact ⟨_, .num (.two h1 h2), by omega, by omega, rfl⟩
    · have := h2.1; exact ⟨_, .num (.two h1 h2), by omega, by omega, rfl⟩
    · have := h2.1; exact ⟨_, .num (.two h1 h2), by omega, by omega, rfl⟩
    · have := h1.1; exact ⟨_, .num (.one h1), by omega, by omega, rfl⟩
    · have := h1.1; exact ⟨_, .blank h1, by omega, by omega, rfl⟩
  · rintro ⟨m, ⟨h⟩ | h, h3, h4, rfl⟩
    · cases h with
      | one h => exact .inr (.inr (.inr (.inl ⟨_, h, h3, rfl⟩)))
      | @two c d a b h1 h2 =>
        have := h2.1
        by_cases ha : a = 3
        · exact .inl ⟨c, d, a, b, h1, h2, ⟨ha, by omega⟩, rfl, rfl⟩
        · by_cases hb : a = 0
          · exact .inr (.inr (.inl ⟨c, d, a, b, h1, h2, ⟨hb, by omega⟩, rfl, rfl⟩))
          · exact .inr (.inl ⟨c, d, a, b, h1, h2, by omega, rfl, rfl⟩)
    · exact .inr (.inr (.inr (.inr ⟨_, h, h3, rfl⟩)))

theorem hour_mem {s rest : PyStr} {n : Nat} :
    (n, rest) ∈ readHour s ↔ ∃ h, Numeral h n ∧ n ≤ 23 ∧ s = h ++ rest := by
  unfold readHour
  simp only [List.mem_append, two_mem, one_mem, Bool.and_eq_true, beq_iff_eq, decide_eq_true_eq, true_and]
  constructor
  · rintro (⟨c, d, a, b, h1, h2, h3, rfl, rfl⟩ | ⟨c, d, a, b, h1, h2, h3, rfl, rfl⟩ | ⟨c, h1, rfl⟩)
    · have := h2.1; exact ⟨_, .two h1 h2, by omega, rfl⟩
    · have := h2.1; exact ⟨_, .two h1 h2, by omega, rfl⟩
    · have := h1.1; exact ⟨_, .one h1, by omega, rfl⟩
  · rintro ⟨m, h | ⟨h1, h2⟩, h4, rfl⟩
    · exact .inr (.inr ⟨_, h, rfl⟩)
    · rename_i c d a b
      have := h2.1
      by_cases ha : a = 2
      · exact .inl ⟨c, d, a, b, h1, h2, ⟨ha, by omega⟩, rfl, rfl⟩
      · exact .inr (.inl ⟨c, d, a, b, h1, h2, by omega, rfl, rfl⟩)

theorem minute_mem {s rest : PyStr} {n : Nat} :
    (n, rest) ∈ readMinute s ↔ ∃ h, Numeral h n ∧ n ≤ 59 ∧ s = h ++ rest := by
  unfold readMinute
  simp only [List.mem_append, two_mem, one_mem, decide_eq_true_eq, true_and]
  constructor
  · rintro (⟨c, d, a, b, h1, h2, h3, rfl, rfl⟩ | ⟨c, h1, rfl⟩)
    · have := h2.1; exact ⟨_, .two h1 h2, by omega, rfl⟩
    · have := h1.1; exact ⟨_, .one h1, by omega, rfl⟩
  · rintro ⟨m, h | ⟨h1, h2⟩, h4, rfl⟩
    · exact .inr ⟨_, h, rfl⟩
    · rename_i c d a b
      exact .inl ⟨c, d, a, b, h1, h2, by omega, rfl, rfl⟩

theorem second_mem {s rest : PyStr} {n : Nat} :
    (n, rest) ∈ readSecond s ↔ ∃ h, Numeral h n ∧ n ≤ 61 ∧ s = h ++ rest := by
  unfold readSecond
  simp only [List.mem_append, two_mem, one_mem, Bool.and_eq_true, beq_iff_eq, decide_eq_true_eq, true_and]
  constructor
  · rintro (⟨c, d, a, b, h1, h2, h3, rfl, rfl⟩ | ⟨c, d, a, b, h1, h2, h3, rfl, rfl⟩ | ⟨c, h1, rfl⟩)
    · have := h2.1; exact ⟨_, .two h1 h2, by omega, rfl⟩
    · have := h2.1; exact ⟨_, .two h1 h2, by omega, rfl⟩
    · have := h1.1; exact ⟨_, .one h1, by omega, rfl⟩
  · rintro ⟨m, h | ⟨h1, h2⟩, h4, rfl⟩
    · exact .inr (.inr ⟨_, h, rfl⟩)
    · rename_i c d a b
      have := h2.1
      by_cases ha : a = 6
      · exact .inl ⟨c, d, a, b, h1, h2, ⟨ha, by omega⟩, rfl, rfl⟩
      · exact .inr (.inl ⟨c, d, a, b, h1, h2, by omega, rfl, rfl⟩)

theorem char_mem {u l : Char} {s rest : PyStr} :
    rest ∈ readChar u l s ↔ ∃ c, (c = u ∨ c = l) ∧ s = c :: rest := by
  unfold readChar
  constructor
  · intro h
    split at h
    · split at h
      · simp only [List.mem_singleton] at h
        subst h
        exact ⟨_, by assumption, rfl⟩
      · cases h
    · cases h
  · rintro ⟨c, h, rfl⟩
    simp only [if_pos h, List.mem_singleton]

/-! ## A text is split in one way -/

abbrev NoDigit (c : Char) : Prop := decDigit? c = none

theorem Spec.DigitOf.ne {c : Char} {n : Nat} (h : DigitOf c n) {d : Char} (hd : NoDigit d) : c ≠ d := by
  rintro rfl
  rw [digitOf_iff, hd] at h
  cases h

theorem digitOf_inj {c : Char} {m n : Nat} (h : DigitOf c m) (k : DigitOf c n) : m = n := by
  have h1 := h.2
  have h2 := k.2
  omega

theorem year_split {a b r r' : PyStr} {m n : Nat} (h : YearText a m) (k : YearText b n)
    (he : a ++ r = b ++ r') : m = n ∧ r = r' := by
  cases h with | mk h1 h2 h3 h4 =>
  cases k with | mk k1 k2 k3 k4 =>
  simp only [List.cons_append, List.nil_append, List.cons.injEq] at he
  obtain ⟨rfl, rfl, rfl, rfl, rfl⟩ := he
  rw [digitOf_inj h1 k1, digitOf_inj h2 k2, digitOf_inj h3 k3, digitOf_inj h4 k4]
  exact ⟨rfl, rfl⟩

theorem num_split {a b r r' : PyStr} {m n : Nat} {c c' : Char} (h : Numeral a m) (k : Numeral b n)
    (hc : NoDigit c) (hc' : NoDigit c') (he : a ++ c :: r = b ++ c' :: r') : m = n ∧ r = r' := by
  cases h with
  | one h1 => cases k with
    | one k1 =>
      simp only [List.cons_append, List.nil_append, List.cons.injEq] at he
      obtain ⟨rfl, rfl, rfl⟩ := he
      exact ⟨digitOf_inj h1 k1, rfl⟩
    | two k1 k2 =>
      simp only [List.cons_append, List.nil_append, List.cons.injEq] at he
      exact absurd he.2.1.symm (DigitOf.ne k2 hc)
  | two h1 h2 => cases k with
    | one k1 =>
      simp only [List.cons_append, List.nil_append, List.cons.injEq] at he
      exact absurd he.2.1 (DigitOf.ne h2 hc')
    | two k1 k2 =>
      simp only [List.cons_append, List.nil_append, List.cons.injEq] at he
      obtain ⟨rfl, rfl, rfl, rfl⟩ := he
      rw [digitOf_inj h1 k1, digitOf_inj h2 k2]
      exact ⟨rfl, rfl⟩

theorem day_split {a b r r' : PyStr} {m n : Nat} {c c' : Char} (h : DayText a m) (k : DayText b n)
    (hc : NoDigit c) (hc' : NoDigit c') (he : a ++ c :: r = b ++ c' :: r') : m = n ∧ r = r' := by
  have hb : NoDigit ' ' := by decide
  cases h with
  | num h => cases k with
    | num k => exact num_split h k hc hc' he
    | blank k =>
      exfalso
      cases h with
      | one h =>
        simp only [List.cons_append, List.nil_append, List.cons.injEq] at he
        exact DigitOf.ne h hb he.1
      | two h =>
        simp only [List.cons_append, List.nil_append, List.cons.injEq] at he
        exact DigitOf.ne h hb he.1
  | blank h => cases k with
    | num k =>
      exfalso
      cases k with
      | one k =>
        simp only [List.cons_append, List.nil_append, List.cons.injEq] at he
        exact DigitOf.ne k hb he.1.symm
      | two k =>
        simp only [List.cons_append, List.nil_append, List.cons.injEq] at he
        exact DigitOf.ne k hb he.1.symm
    | blank k =>
      simp only [List.cons_append, List.nil_append, List.cons.injEq] at he
      obtain ⟨_, rfl, _, rfl⟩ := he
      exact ⟨digitOf_inj h k, rfl⟩

/-- A match of the long format. -/
def FullMatch (s : PyStr) (y m d h mi sc : Nat) (rest : PyStr) : Prop :=
  ∃ ty tm td ct th tmi tsc cz, YearText ty y ∧ Numeral tm m ∧ DayText td d ∧ (ct = 'T' ∨ ct = 't') ∧
    Numeral th h ∧ Numeral tmi mi ∧ Numeral tsc sc ∧ (cz = 'Z' ∨ cz = 'z') ∧
    (1 ≤ m ∧ m ≤ 12 ∧ 1 ≤ d ∧ d ≤ 31 ∧ h ≤ 23 ∧ mi ≤ 59 ∧ sc ≤ 61) ∧
    s = ty ++ '-' :: (tm ++ '-' :: (td ++ ct :: (th ++ ':' :: (tmi ++ ':' :: (tsc ++ cz :: rest)))))

theorem matchFull_mem {s rest : PyStr} {y m d h mi sc : Nat} :
    ((y, m, d, h, mi, sc), rest) ∈ matchFull s ↔ FullMatch s y m d h mi sc rest := by
  unfold matchFull FullMatch
  simp only [List.mem_flatMap, List.mem_map, Prod.exists, Prod.mk.injEq]
  constructor
  · rintro ⟨y', r1, h1, r2, h2, m', r3, h3, r4, h4, d', r5, h5, r6, h6, hh, r7, h7, r8, h8, mi', r9, h9, r10,
      h10, sc', r11, h11, r12, h12, ⟨rfl, rfl, rfl, rfl, rfl, rfl⟩, rfl⟩
    obtain ⟨ty, a1, rfl⟩ := year_mem.1 h1
    obtain ⟨c1, b1, rfl⟩ := char_mem.1 h2
    obtain ⟨tm, a2, a2', a2'', rfl⟩ := month_mem.1 h3
    obtain ⟨c2, b2, rfl⟩ := char_mem.1 h4
    obtain ⟨td, a3, a3', a3'', rfl⟩ := day_mem.1 h5
    obtain ⟨c3, b3, rfl⟩ := char_mem.1 h6
    obtain ⟨th, a4, a4', rfl⟩ := hour_mem.1 h7
    obtain ⟨c4, b4, rfl⟩ := char_mem.1 h8
    obtain ⟨tmi, a5, a5', rfl⟩ := minute_mem.1 h9
    obtain ⟨c5, b5, rfl⟩ := char_mem.1 h10
    obtain ⟨tsc, a6, a6', rfl⟩ := second_mem.1 h11
    obtain ⟨c6, b6, rfl⟩ := char_mem.1 h12
    rw [or_self] at b1 b2 b4 b5
    subst b1 b2 b4 b5
    exact ⟨ty, tm, td, c3, th, tmi, tsc, c6, a1, a2, a3, b3, a4, a5, a6, b6,
      ⟨a2', a2'', a3', a3'', a4', a5', a6'⟩, rfl⟩
  · rintro ⟨ty, tm, td, c3, th, tmi, tsc, c6, a1, a2, a3, b3, a4, a5, a6, b6,
      ⟨a2', a2'', a3', a3'', a4', a5', a6'⟩, rfl⟩
    exact ⟨y, _, year_mem.2 ⟨_, a1, rfl⟩, _, char_mem.2 ⟨_, .inl rfl, rfl⟩, m, _, month_mem.2 ⟨_, a2, a2', a2'', rfl⟩,
      _, char_mem.2 ⟨_, .inl rfl, rfl⟩, d, _, day_mem.2 ⟨_, a3, a3', a3'', rfl⟩, _, char_mem.2 ⟨_, b3, rfl⟩,
      h, _, hour_mem.2 ⟨_, a4, a4', rfl⟩, _, char_mem.2 ⟨_, .inl rfl, rfl⟩, mi, _, minute_mem.2 ⟨_, a5, a5', rfl⟩,
      _, char_mem.2 ⟨_, .inl rfl, rfl⟩, sc, _, second_mem.2 ⟨_, a6, a6', rfl⟩, _, char_mem.2 ⟨_, b6, rfl⟩,
      ⟨rfl, rfl, rfl, rfl, rfl, rfl⟩, rfl⟩

theorem fullMatch_unique {s r r' : PyStr} {y m d h mi sc y' m' d' h' mi' sc' : Nat}
    (a : FullMatch s y m d h mi sc r) (b : FullMatch s y' m' d' h' mi' sc' r') :
    ((y, m, d, h, mi, sc), r) = ((y', m', d', h', mi', sc'), r') := by
  have n1 : NoDigit '-' := by decide
  have n2 : NoDigit ':' := by decide
  have n3 : ∀ {c}, (c = 'T' ∨ c = 't') → NoDigit c := by rintro c (rfl | rfl) <;> decide
  have n4 : ∀ {c}, (c = 'Z' ∨ c = 'z') → NoDigit c := by rintro c (rfl | rfl) <;> decide
  obtain ⟨ty, tm, td, c3, th, tmi, tsc, c6, a1, a2, a3, b3, a4, a5, a6, b6, _, rfl⟩ := a
  obtain ⟨ty', tm', td', c3', th', tmi', tsc', c6', a1', a2', a3', b3', a4', a5', a6', b6', _, he⟩ := b
  obtain ⟨rfl, he⟩ := year_split a1 a1' he
  obtain ⟨rfl, he⟩ := num_split a2 a2' n1 n1 (List.cons.inj he).2
  obtain ⟨rfl, he⟩ := day_split a3 a3' (n3 b3) (n3 b3') he
  obtain ⟨rfl, he⟩ := num_split a4 a4' n2 n2 he
  obtain ⟨rfl, he⟩ := num_split a5 a5' n2 n2 he
  obtain ⟨rfl, he⟩ := num_split a6 a6' (n4 b6) (n4 b6') he
  rw [he]

theorem head_of_unique {α : Type} {l : List α} {a : α} (h : a ∈ l) (hu : ∀ b ∈ l, b = a) : l.head? = some a := by
  cases l with
  | nil => cases h
  | cons b l => rw [List.head?_cons, hu b (by simp)]

theorem strptimeFull_iff {s : PyStr} {t : DateTime} :
    strptimeFull s = some t ↔ LongForm s t ∧ Moment t ∧ t.micro = 0 := by
  unfold strptimeFull
  constructor
  · intro h
    split at h
    · rename_i y m d hh mi sc heq
      obtain ⟨rfl, hm⟩ := mkDateTime_iff.1 h
      obtain ⟨ty, tm, td, c3, th, tmi, tsc, c6, a1, a2, a3, b3, a4, a5, a6, b6, _, rfl⟩ :=
        matchFull_mem.1 (List.mem_of_mem_head? heq)
      exact ⟨⟨ty, tm, td, c3, th, tmi, tsc, c6, a1, a2, a3, b3, a4, a5, a6, b6, rfl⟩, hm, rfl⟩
    · cases h
  · rintro ⟨⟨ty, tm, td, c3, th, tmi, tsc, c6, a1, a2, a3, b3, a4, a5, a6, b6, rfl⟩, hm, h0⟩
    have hm' := hm
    obtain ⟨⟨_, _, h3, l, hl, h4⟩, h5, h6, h7⟩ := hm
    obtain ⟨rfl, h8, h9, h10⟩ := lastDay_daysInMonth hl
    have hf : FullMatch (ty ++ '-' :: (tm ++ '-' :: (td ++ c3 :: (th ++ ':' :: (tmi ++ ':' :: (tsc ++ [c6]))))))
        t.year t.month t.day t.hour t.minute t.second [] :=
      ⟨ty, tm, td, c3, th, tmi, tsc, c6, a1, a2, a3, b3, a4, a5, a6, b6,
        ⟨h8, h9, h3, by omega, by omega, by omega, by omega⟩, rfl⟩
    have := head_of_unique (matchFull_mem.2 hf) (by
      rintro ⟨⟨y', m', d', h', mi', sc'⟩, r'⟩ hb
      exact fullMatch_unique (matchFull_mem.1 hb) hf)
    rw [this]
    refine mkDateTime_iff.2 ⟨?_, hm'⟩
    cases t
    simp only at h0
    rw [h0]

/-! ## The short form -/

/-- Characters after the replacement of `-` by `/`. -/
def slash (c : Char) : Char := if c = '-' then '/' else c

theorem slash_sep {c : Char} : slash c = '/' ↔ c = '-' ∨ c = '/' := by
  unfold slash
  split
  · rename_i h; simp [h]
  · rename_i h; simp [h]

theorem slash_other {c d : Char} (hd : d ≠ '/') (h : slash c = d) : c = d := by
  unfold slash at h
  split at h
  · exact absurd h.symm hd
  · exact h

theorem digit_slash {c : Char} {n : Nat} : DigitOf (slash c) n ↔ DigitOf c n := by
  unfold slash
  split
  · rename_i h
    subst h
    rw [digitOf_iff, digitOf_iff]
    have h1 : decDigit? '/' = none := by decide
    have h2 : decDigit? '-' = none := by decide
    rw [h1, h2]
  · rfl

theorem numeral_slash {s : PyStr} {n : Nat} : Numeral (s.map slash) n ↔ Numeral s n := by
  constructor
  · intro h
    generalize hs : s.map slash = u at h
    cases h with
    | one h =>
      match s, hs with
      | [c], hs => cases hs; exact .one (digit_slash.1 h)
    | two h k =>
      match s, hs with
      | [c, d], hs => cases hs; exact .two (digit_slash.1 h) (digit_slash.1 k)
  · rintro (h | ⟨h, k⟩)
    · exact .one (digit_slash.2 h)
    · exact .two (digit_slash.2 h) (digit_slash.2 k)

theorem dayText_slash {s : PyStr} {n : Nat} : DayText (s.map slash) n ↔ DayText s n := by
  constructor
  · intro h
    generalize hs : s.map slash = u at h
    cases h with
    | num h => subst hs; exact .num (numeral_slash.1 h)
    | blank h =>
      obtain ⟨c, s1, rfl, h1, hs⟩ := List.map_eq_cons_iff.1 hs
      obtain ⟨d, s2, rfl, rfl, hs2⟩ := List.map_eq_cons_iff.1 hs
      rw [List.map_eq_nil_iff.1 hs2, slash_other (by decide) h1]
      exact .blank (digit_slash.1 h)
  · rintro (h | h)
    · exact .num (numeral_slash.2 h)
    · exact .blank (digit_slash.2 h)

theorem yearText_slash {s : PyStr} {n : Nat} : YearText (s.map slash) n ↔ YearText s n := by
  constructor
  · intro h
    generalize hs : s.map slash = u at h
    cases h with
    | mk h1 h2 h3 h4 =>
      match s, hs with
      | [a, b, c, d], hs =>
        cases hs
        exact .mk (digit_slash.1 h1) (digit_slash.1 h2) (digit_slash.1 h3) (digit_slash.1 h4)
  · rintro ⟨h1, h2, h3, h4⟩
    exact .mk (digit_slash.2 h1) (digit_slash.2 h2) (digit_slash.2 h3) (digit_slash.2 h4)

theorem year_length {s : PyStr} {n : Nat} (h : YearText s n) : s.length = 4 := by cases h; rfl
theorem num_length {s : PyStr} {n : Nat} (h : Numeral s n) : s.length ≤ 2 := by cases h <;> simp
theorem day_length {s : PyStr} {n : Nat} (h : DayText s n) : s.length ≤ 2 := by
  cases h with
  | num h => exact num_length h
  | blank h => simp

theorem day_inj {s : PyStr} {m n : Nat} (h : DayText s m) (k : DayText s n) : m = n :=
  (day_split (c := '/') (c' := '/') (r := []) (r' := []) h k (by decide) (by decide) rfl).1

/-- A match of the short format. -/
def DateMatch (s : PyStr) (y m d : Nat) (rest : PyStr) : Prop :=
  ∃ ty tm td, YearText ty y ∧ Numeral tm m ∧ DayText td d ∧ (1 ≤ m ∧ m ≤ 12 ∧ 1 ≤ d ∧ d ≤ 31) ∧
    s = ty ++ '/' :: (tm ++ '/' :: (td ++ rest))

theorem matchDate_mem {s rest : PyStr} {y m d : Nat} :
    ((y, m, d), rest) ∈ matchDate s ↔ DateMatch s y m d rest := by
  unfold matchDate DateMatch
  simp only [List.mem_flatMap, List.mem_map, Prod.exists, Prod.mk.injEq]
  constructor
  · rintro ⟨y', r1, h1, r2, h2, m', r3, h3, r4, h4, d', r5, h5, ⟨rfl, rfl, rfl⟩, rfl⟩
    obtain ⟨ty, a1, rfl⟩ := year_mem.1 h1
    obtain ⟨c1, b1, rfl⟩ := char_mem.1 h2
    obtain ⟨tm, a2, a2', a2'', rfl⟩ := month_mem.1 h3
    obtain ⟨c2, b2, rfl⟩ := char_mem.1 h4
    obtain ⟨td, a3, a3', a3'', rfl⟩ := day_mem.1 h5
    rw [or_self] at b1 b2
    subst b1 b2
    exact ⟨ty, tm, td, a1, a2, a3, ⟨a2', a2'', a3', a3''⟩, rfl⟩
  · rintro ⟨ty, tm, td, a1, a2, a3, ⟨a2', a2'', a3', a3''⟩, rfl⟩
    exact ⟨y, _, year_mem.2 ⟨_, a1, rfl⟩, _, char_mem.2 ⟨_, .inl rfl, rfl⟩, m, _, month_mem.2 ⟨_, a2, a2', a2'', rfl⟩,
      _, char_mem.2 ⟨_, .inl rfl, rfl⟩, d, _, day_mem.2 ⟨_, a3, a3', a3'', rfl⟩, ⟨rfl, rfl, rfl⟩, rfl⟩

/-- In ten characters the first match of the day takes both characters. -/
theorem day_first {td : PyStr} {n : Nat} (h : DayText td n) (hl : td.length = 2) (h1 : 1 ≤ n) (h2 : n ≤ 31) :
    (readDay td).head? = some (n, []) := by
  cases h with
  | num h => cases h with
    | one h => cases hl
    | @two c d a b k1 k2 =>
      have e : [c, d] = pad2 (10 * a + b) := by
        have hc : ∀ {c a}, DigitOf c a → c = decChar a := by
          intro c a h
          have ha := h.1
          have h0 : '0'.toNat = 48 := rfl
          have hv : (48 + a).isValidChar := by left; omega
          refine Char.ext (UInt32.toNat_inj.1 ?_)
          have h2 := h.2
          rw [h0] at h2
          have h3 : (decChar a).toNat = 48 + a := by
            have := h.1
            interval_cases a <;> rfl
          exact h2.trans h3.symm
        have := k2.1
        rw [hc k1, hc k2]
        unfold pad2
        rw [show (10 * a + b) / 10 = a by omega, show (10 * a + b) % 10 = b by omega]
      have := day_head h1 h2 []
      rw [List.append_nil, ← e] at this
      exact this
  | @blank c a k =>
    refine head_of_unique (day_mem.2 ⟨[' ', c], .blank k, h1, h2, rfl⟩) ?_
    rintro ⟨m, r⟩ hb
    obtain ⟨td, g, _, _, he⟩ := day_mem.1 hb
    have hd : NoDigit ' ' := by decide
    cases g with
    | num g => cases g with
      | one g => cases he; exact absurd rfl (DigitOf.ne g hd)
      | two g _ => cases he; exact absurd rfl (DigitOf.ne g hd)
    | blank g =>
      simp only [List.cons_append, List.nil_append, List.cons.injEq] at he
      obtain ⟨_, rfl, rfl⟩ := he
      rw [digitOf_inj k g]

theorem strptimeDate_iff {s : PyStr} {t : DateTime} (hs : s.length = 10) :
    strptimeDate s = some t ↔ Moment t ∧ t.micro = 0 ∧ t.hour = 0 ∧ t.minute = 0 ∧ t.second = 0 ∧
      ∃ y m d, YearText y t.year ∧ Numeral m t.month ∧ DayText d t.day ∧ s = y ++ '/' :: (m ++ '/' :: d) := by
  unfold strptimeDate
  constructor
  · intro h
    split at h
    · rename_i y m d heq
      obtain ⟨rfl, hm⟩ := mkDateTime_iff.1 h
      obtain ⟨ty, tm, td, a1, a2, a3, _, rfl⟩ := matchDate_mem.1 (List.mem_of_mem_head? heq)
      exact ⟨hm, rfl, rfl, rfl, rfl, ty, tm, td, a1, a2, a3, by rw [List.append_nil]⟩
    · cases h
  · rintro ⟨hm, h0, h1, h2, h3, ty, tm, td, a1, a2, a3, rfl⟩
    have hm' := hm
    obtain ⟨⟨_, _, k3, l, hl, k4⟩, _⟩ := hm
    obtain ⟨rfl, k8, k9, k10⟩ := lastDay_daysInMonth hl
    have l1 := year_length a1
    have l2 := num_length a2
    have l3 := day_length a3
    simp only [List.length_append, List.length_cons] at hs
    have hd := day_first a3 (by omega) k3 (by omega)
    have hy : (readYear (ty ++ '/' :: (tm ++ '/' :: td))).head? = some (t.year, '/' :: (tm ++ '/' :: td)) := by
      refine head_of_unique (year_mem.2 ⟨_, a1, rfl⟩) ?_
      rintro ⟨m, r⟩ hb
      obtain ⟨y', g, he⟩ := year_mem.1 hb
      obtain ⟨rfl, rfl⟩ := year_split g a1 he.symm
      rfl
    have hmo : (matchDate (ty ++ '/' :: (tm ++ '/' :: td))).head? = some ((t.year, t.month, t.day), []) := by
      unfold matchDate
      refine head_flatMap hy (head_flatMap (char_head _ _ _) ?_)
      have hfirst : ∀ l : List (Nat × PyStr), (∀ x ∈ l, x ∈ readMonth (tm ++ '/' :: td)) →
          (t.month, '/' :: td) ∈ l →
          (l.flatMap fun m => (readChar '/' '/' m.2).flatMap fun s =>
            (readDay s).map fun d => ((t.year, m.1, d.1), d.2)).head? = some ((t.year, t.month, t.day), []) := by
        intro l
        induction l with
        | nil => intro _ h; cases h
        | cons x l ih =>
          intro hx hmem
          by_cases hxe : x = (t.month, '/' :: td)
          · subst hxe
            rw [List.flatMap_cons]
            exact head_append (head_flatMap (char_head _ _ _) (head_map hd))
          · rw [List.flatMap_cons]
            have hno : readChar '/' '/' x.2 = [] := by
              cases hr : readChar '/' '/' x.2 with
              | nil => rfl
              | cons r rs =>
                exfalso
                have hr' : r ∈ readChar '/' '/' x.2 := by rw [hr]; simp
                obtain ⟨c, hc, he⟩ := char_mem.1 hr'
                rw [or_self] at hc
                subst hc
                obtain ⟨x1, x2⟩ := x
                obtain ⟨tm', g, _, _, ge⟩ := month_mem.1 (hx (x1, x2) (by simp))
                simp only at he
                subst he
                obtain ⟨rfl, rfl⟩ := num_split g a2 (by decide) (by decide) ge.symm
                exact hxe rfl
            rw [hno, List.flatMap_nil, List.nil_append]
            refine ih (fun y hy => hx y (by simp [hy])) ?_
            rcases List.mem_cons.1 hmem with h | h
            · exact absurd h.symm hxe
            · exact h
      exact hfirst _ (fun _ h => h) (month_mem.2 ⟨_, a2, k8, k9, rfl⟩)
    rw [hmo]
    refine mkDateTime_iff.2 ⟨?_, hm'⟩
    cases t
    simp only at h0 h1 h2 h3
    rw [h0, h1, h2, h3]

/-- C07: exactly which text `from_json` and `validate` read, and as what: the whole text is one of
the two forms, and the fields give a moment of the calendar. -/
theorem C07_accepts {s : PyStr} {t : DateTime} :
    dtRead s = some t ↔ (LongForm s t ∨ ShortForm s t) ∧ Moment t ∧ t.micro = 0 := by
  unfold dtRead
  split
  · rename_i hl
    have hl' : (s.map fun c => if c = '-' then '/' else c).length = 10 := by rw [List.length_map, hl]
    rw [strptimeDate_iff hl']
    constructor
    · rintro ⟨hm, h0, h1, h2, h3, y, m, d, a1, a2, a3, he⟩
      refine ⟨.inr ?_, hm, h0⟩
      obtain ⟨sy, sr, rfl, rfl, hr⟩ := List.map_eq_append_iff.1 he
      obtain ⟨c1, sr1, rfl, hc1, hr1⟩ := List.map_eq_cons_iff.1 hr
      obtain ⟨sm, sr2, rfl, rfl, hr2⟩ := List.map_eq_append_iff.1 hr1
      obtain ⟨c2, sr, rfl, hc2, rfl⟩ := List.map_eq_cons_iff.1 hr2
      exact ⟨sy, sm, sr, c1, c2, yearText_slash.1 a1, numeral_slash.1 a2, dayText_slash.1 a3, slash_sep.1 hc1,
        slash_sep.1 hc2, h1, h2, h3, hl, rfl⟩
    · rintro ⟨hf | ⟨y, m, d, c1, c2, a1, a2, a3, hc1, hc2, h1, h2, h3, _, rfl⟩, hm, h0⟩
      · exfalso
        obtain ⟨y, m, d, c3, h, mi, sc, c6, a1, a2, a3, b3, a4, a5, a6, b6, rfl⟩ := hf
        have l1 := year_length a1
        have pos : ∀ {s n}, Numeral s n → 1 ≤ s.length := by intro s n h; cases h <;> simp
        have l2 := pos a2
        have l4 := pos a4
        have l5 := pos a5
        have l6 := pos a6
        simp only [List.length_append, List.length_cons, List.length_nil] at hl
        omega
      · refine ⟨hm, h0, h1, h2, h3, y.map slash, m.map slash, d.map slash, yearText_slash.2 a1,
          numeral_slash.2 a2, dayText_slash.2 a3, ?_⟩
        rw [List.map_append, List.map_cons, List.map_append, List.map_cons]
        show _ ++ slash c1 :: (_ ++ slash c2 :: _) = _
        rw [slash_sep.2 hc1, slash_sep.2 hc2]
        rfl
  · rename_i hl
    rw [strptimeFull_iff]
    constructor
    · rintro ⟨h1, h2⟩
      exact ⟨.inl h1, h2⟩
    · rintro ⟨h1 | ⟨y, m, d, c1, c2, _, _, _, _, _, _, _, _, h, _⟩, h2⟩
      · exact ⟨h1, h2⟩
      · exact absurd h hl

/-- C07 in terms of the property: text is accepted by `validate` exactly if it is of one of the
forms; anything else is refused. -/
theorem C07_text {padded : Bool} {E : Env} (hE : TextEnv padded E) {k : Nat} {s : PyStr} {v : Val} :
    scalarValidate E k .datetime (.str s) = some (.ok v) ↔
      ∃ t, v = .dt t ∧ (LongForm s t ∨ ShortForm s t) ∧ Moment t ∧ t.micro = 0 := by
  have h : ∀ t, E.dtOfStr s = some t ↔ (LongForm s t ∨ ShortForm s t) ∧ Moment t ∧ t.micro = 0 := fun t => by
    rw [hE.dtOf]; exact C07_accepts
  unfold scalarValidate dtValidate
  cases hr : E.dtOfStr s with
  | none =>
    simp only [hr]
    constructor
    · intro h; cases h
    · rintro ⟨t, _, ht⟩
      rw [(h t).2 ht] at hr; cases hr
  | some t =>
    simp only [hr]
    constructor
    · intro hh
      cases hh
      exact ⟨t, rfl, (h t).1 hr⟩
    · rintro ⟨u, rfl, hu⟩
      rw [(h u).2 hu] at hr
      cases hr
      rfl

/-- Text of both forms, with unpadded fields; trailing text and month 13 are refused. -/
theorem C07_text_example : dtRead (s% "2024-2-9t3:59:5z") = some ⟨2024, 2, 9, 3, 59, 5, 0⟩ ∧
    dtRead (s% "2024/02- 9") = some ⟨2024, 2, 9, 0, 0, 0, 0⟩ ∧
    dtRead (s% "2024-02-09T03:59:05Zulu") = none ∧ dtRead (s% "2024-13-09T03:59:05Z") = none ∧
    scalarValidate textEnv 0 .datetime (.str (s% "2024/02/09")) =
      some (.ok (.dt ⟨2024, 2, 9, 0, 0, 0, 0⟩)) := by
  refine ⟨by decide, by decide, by decide, by decide, rfl⟩

/-! ## Spellings of a UUID -/

theorem removeAll_missing {pat : PyStr} {p : Char} (hp : p ∈ pat) : ∀ (k : Nat) (s : PyStr), p ∉ s → removeAll pat k s = s
  | 0, _, _ => rfl
  | _ + 1, [], _ => rfl
  | k + 1, c :: s, h => by
    unfold removeAll
    rw [if_neg fun hpre => h ((List.isPrefixOf_iff_prefix.1 hpre).subset hp),
      removeAll_missing hp k s fun hs => h (by simp [hs])]

theorem removeAll_copies {c : Char} {pat : PyStr} : ∀ (a k : Nat) (s : PyStr), a ≤ k →
    removeAll (c :: pat) k ((List.replicate a (c :: pat)).flatten ++ s) = removeAll (c :: pat) (k - a) s
  | 0, k, s, _ => by simp
  | a + 1, 0, _, h => by omega
  | a + 1, k + 1, s, h => by
    have e : (List.replicate (a + 1) (c :: pat)).flatten ++ s =
        c :: (pat ++ ((List.replicate a (c :: pat)).flatten ++ s)) := by
      simp [List.replicate_succ]
    rw [e]
    have hd : (c :: (pat ++ ((List.replicate a (c :: pat)).flatten ++ s))).drop (c :: pat).length =
        (List.replicate a (c :: pat)).flatten ++ s := by simp
    have hpre : (c :: pat).isPrefixOf (c :: (pat ++ ((List.replicate a (c :: pat)).flatten ++ s))) = true :=
      List.isPrefixOf_iff_prefix.2 ⟨(List.replicate a (c :: pat)).flatten ++ s, rfl⟩
    have h1 : removeAll (c :: pat) (k + 1) (c :: (pat ++ ((List.replicate a (c :: pat)).flatten ++ s))) =
        removeAll (c :: pat) k ((List.replicate a (c :: pat)).flatten ++ s) := by
      show (if (c :: pat).isPrefixOf _ = true then removeAll (c :: pat) k (List.drop (c :: pat).length _) else _) = _
      rw [if_pos hpre, hd]
    rw [h1, removeAll_copies a k s (by omega), Nat.add_sub_add_right]

theorem copies_length {c : Char} {pat : PyStr} : ∀ a : Nat, a ≤ ((List.replicate a (c :: pat)).flatten).length
  | 0 => Nat.zero_le _
  | a + 1 => by
    have := copies_length (c := c) (pat := pat) a
    rw [List.replicate_succ, List.flatten_cons, List.length_append, List.length_cons]
    omega

theorem removeAll_front {c p : Char} {pat : PyStr} (hp : p ∈ c :: pat) (a : Nat) {s : PyStr} (h : p ∉ s) :
    removeAll (c :: pat) ((List.replicate a (c :: pat)).flatten ++ s).length
      ((List.replicate a (c :: pat)).flatten ++ s) = s := by
  rw [removeAll_copies _ _ _ (by
    rw [List.length_append]
    exact Nat.le_trans (copies_length a) (Nat.le_add_right _ _)),
    removeAll_missing hp _ _ h]

theorem strip_around {chars s : PyStr} (h : ∀ c ∈ s, c ∉ chars) (hs : s ≠ []) {l r : PyStr} (hl : ∀ c ∈ l, c ∈ chars)
    (hr : ∀ c ∈ r, c ∈ chars) : strip chars (l ++ s ++ r) = s := by
  have hdrop : ∀ (l t : PyStr), (∀ c ∈ l, c ∈ chars) → (∀ c, t.head? = some c → c ∉ chars) →
      lstrip chars (l ++ t) = t := by
    intro l t h1 h2
    show List.dropWhile _ _ = _
    rw [List.dropWhile_append_of_pos (by intro c hc; simpa using h1 c hc)]
    cases t with
    | nil => rfl
    | cons c t =>
      rw [List.dropWhile_cons_of_neg (by simpa using h2 c rfl)]
  unfold strip rstrip
  rw [List.append_assoc, hdrop l (s ++ r) hl (by
    intro c hc
    cases s with
    | nil => exact absurd rfl hs
    | cons d s => cases hc; exact h _ (by simp)), List.reverse_append, hdrop r.reverse s.reverse (by
    intro c hc; exact hr c (List.mem_reverse.1 hc)) (by
    intro c hc
    exact h c (List.mem_reverse.1 (List.mem_of_mem_head? hc))), List.reverse_reverse]

theorem uuid_parse {s : PyStr} {n : Nat} (h : n < 2 ^ 128)
    (hs : (strip (s% "{}") (removeAll (s% "uuid:") (removeAll (s% "urn:") s.length s).length
      (removeAll (s% "urn:") s.length s))).filter (· != '-') = hexText 32 n) : uuidRead s = some n := by
  unfold uuidRead
  simp only []
  rw [hs, hexText_length]
  rw [intBase16_all (hexText_all _ _) (fun h => by have := hexText_length 32 n; rw [h] at this; cases this),
    hexDigits_text 32 n 0 (by rw [show (16 : Nat) ^ 32 = 2 ^ 128 by norm_num]; exact h)]
  simp only [Nat.zero_mul, Nat.zero_add, Option.map_some]
  rw [if_neg (by simp), if_pos ⟨Int.natCast_nonneg n, by show (n : Int) < _; exact_mod_cast h⟩]
  rfl

theorem brace_mem (x : Char) (h : x ∈ s% "{}") : x ∈ s% "_+{}uxX \t\n" := by
  simp only [List.mem_cons, List.not_mem_nil, or_false] at h
  rcases h with rfl | rfl <;> decide

theorem marks_mem (x : Char) (h : x ∈ s% "_+{}uxX \t\n") : x ∈ s% "_-+{}uxX \t\n" := by
  rw [List.mem_cons] at h ⊢
  rcases h with h | h
  · exact .inl h
  · exact .inr (List.mem_cons_of_mem _ h)

/-- C08: the other spellings of a UUID: with or without dashes, in any number of braces, and with any
number of `uuid:` and `urn:` in front. -/
theorem C08_spellings {n : Nat} (h : n < 2 ^ 128) (a b c d : Nat) {s : PyStr}
    (hs : s = uuidText n ∨ s = hexText 32 n) :
    uuidRead ((List.replicate a (s% "urn:")).flatten ++ ((List.replicate b (s% "uuid:")).flatten ++
      (List.replicate c '{' ++ s ++ List.replicate d '}'))) = some n := by
  have hch : ∀ x ∈ s, x = '-' ∨ ∃ m, m < 16 ∧ x = hexCharLower m := by
    intro x hx
    rcases hs with hs | hs
    · rw [hs] at hx; exact uuidText_chars hx
    · rw [hs] at hx; exact .inr (hexText_all 32 n x hx)
  have hno : ∀ p, p ∈ s% "_+{}uxX \t\n" → p ∉ s := by
    intro p hp hc
    rcases hch p hc with rfl | ⟨m, hm, rfl⟩
    · revert hp; decide
    · exact hexLower_ne hm (marks_mem _ hp) rfl
  have hr : 'r' ∉ s := by
    intro hc
    rcases hch _ hc with h | ⟨m, hm, h⟩
    · cases h
    · interval_cases m <;> cases h
  have hne : s ≠ [] := by
    intro h0
    rw [h0] at hs
    rcases hs with hs | hs
    · have := uuidText_filter n
      rw [← hs] at this
      have h2 := hexText_length 32 n
      rw [← this] at h2
      cases h2
    · have h2 := hexText_length 32 n
      rw [← hs] at h2
      cases h2
  have hf : s.filter (· != '-') = hexText 32 n := by
    rcases hs with hs | hs
    · rw [hs]; exact uuidText_filter n
    · rw [hs, List.filter_eq_self]
      intro x hx
      obtain ⟨m, hm, rfl⟩ := hexText_all 32 n x hx
      simpa using hexLower_ne hm (c := '-') (by decide)
  refine uuid_parse h ?_
  have h1 : 'u' ∉ List.replicate c '{' ++ s ++ List.replicate d '}' := by
    simp only [List.mem_append, List.mem_replicate, not_or]
    exact ⟨⟨by simp, hno 'u' (by decide)⟩, by simp⟩
  have h2 : 'r' ∉ (List.replicate b (s% "uuid:")).flatten ++ (List.replicate c '{' ++ s ++ List.replicate d '}') := by
    simp only [List.mem_append, List.mem_replicate, List.mem_flatten, not_or]
    exact ⟨by rintro ⟨l, ⟨_, rfl⟩, hl⟩; revert hl; decide, ⟨by simp, hr⟩, by simp⟩
  rw [removeAll_front (p := 'r') (by decide) a h2, removeAll_front (p := 'u') (by decide) b h1,
    strip_around (fun x hx hx' => hno x (brace_mem x hx') hx)
      hne (by simp) (by simp), hf]

/-- Two prefixes, braces, no dashes. -/
theorem C08_spellings_example :
    uuidRead (s% "urn:urn:uuid:{{12345678123456781234567812345678}") = some 0x12345678123456781234567812345678 := by
  decide +kernel

end Verif
