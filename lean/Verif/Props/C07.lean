import Verif.Models.Text
import Verif.Spec.Text
import Verif.Models.Demo
import Mathlib.Tactic.IntervalCases

/-!
# C07, C08: DateTime and Uuid survive JSON
-/

namespace Verif
open Spec

/-! ## Reading what was written -/

theorem decDigit_decChar {n : Nat} (h : n < 10) : decDigit? (decChar n) = some n := by
  interval_cases n <;> decide

theorem two_pad {ok : Nat → Nat → Bool} {n : Nat} (h : n < 100) (rest : PyStr) :
    twoDigits ok (pad2 n ++ rest) = if ok (n / 10) (n % 10) then [(n, rest)] else [] := by
  show twoDigits ok (decChar (n / 10) :: decChar (n % 10) :: rest) = _
  unfold twoDigits
  simp only [decDigit_decChar (show n / 10 < 10 by omega), decDigit_decChar (show n % 10 < 10 by omega)]
  rw [show n / 10 * 10 + n % 10 = n by omega]

theorem head_flatMap {α β : Type} {l : List α} {f : α → List β} {a : α} {b : β} (h : l.head? = some a)
    (h2 : (f a).head? = some b) : (l.flatMap f).head? = some b := by
  cases l with
  | nil => cases h
  | cons x l =>
    cases h
    rw [List.flatMap_cons]
    cases hf : f a with
    | nil => rw [hf] at h2; cases h2
    | cons y ys => rw [hf] at h2; exact h2

theorem head_map {α β : Type} {l : List α} {f : α → β} {a : α} (h : l.head? = some a) :
    (l.map f).head? = some (f a) := by
  rw [List.head?_map, h]; rfl

theorem head_append {α : Type} {l m : List α} {a : α} (h : l.head? = some a) : (l ++ m).head? = some a := by
  cases l with
  | nil => cases h
  | cons x l => exact h

theorem head_right {α : Type} {l m : List α} (h : l = []) : (l ++ m).head? = m.head? := by rw [h]; rfl

theorem head_two {ok : Nat → Nat → Bool} {n : Nat} {rest : PyStr} (h : n < 100) (hok : ok (n / 10) (n % 10) = true) :
    (twoDigits ok (pad2 n ++ rest)).head? = some (n, rest) := by
  rw [two_pad h, if_pos hok]; rfl

theorem none_two {ok : Nat → Nat → Bool} {n : Nat} {rest : PyStr} (h : n < 100) (hok : ok (n / 10) (n % 10) = false) :
    twoDigits ok (pad2 n ++ rest) = [] := by
  rw [two_pad h, if_neg (by rw [hok]; simp)]

theorem month_head {n : Nat} (h1 : 1 ≤ n) (h2 : n ≤ 12) (rest : PyStr) :
    (readMonth (pad2 n ++ rest)).head? = some (n, rest) := by
  unfold readMonth
  by_cases h : 10 ≤ n
  · exact head_append (head_two (by omega) (by simp; omega))
  · rw [head_right (none_two (by omega) (by simp; omega))]
    exact head_append (head_two (by omega) (by simp; omega))

theorem day_head {n : Nat} (h1 : 1 ≤ n) (h2 : n ≤ 31) (rest : PyStr) :
    (readDay (pad2 n ++ rest)).head? = some (n, rest) := by
  unfold readDay
  by_cases h : 30 ≤ n
  · exact head_append (head_two (by omega) (by simp; omega))
  · rw [head_right (none_two (by omega) (by simp; omega))]
    by_cases h : 10 ≤ n
    · exact head_append (head_two (by omega) (by simp; omega))
    · rw [head_right (none_two (by omega) (by simp; omega))]
      exact head_append (head_two (by omega) (by simp; omega))

theorem hour_head {n : Nat} (h2 : n < 24) (rest : PyStr) :
    (readHour (pad2 n ++ rest)).head? = some (n, rest) := by
  unfold readHour
  by_cases h : 20 ≤ n
  · exact head_append (head_two (by omega) (by simp; omega))
  · rw [head_right (none_two (by omega) (by simp; omega))]
    exact head_append (head_two (by omega) (by simp; omega))

theorem minute_head {n : Nat} (h2 : n < 60) (rest : PyStr) :
    (readMinute (pad2 n ++ rest)).head? = some (n, rest) :=
  head_append (head_two (by omega) (by simp; omega))

theorem second_head {n : Nat} (h2 : n < 60) (rest : PyStr) :
    (readSecond (pad2 n ++ rest)).head? = some (n, rest) := by
  unfold readSecond
  rw [head_right (none_two (by omega) (by simp; omega))]
  exact head_append (head_two (by omega) (by simp; omega))

theorem year_head {n : Nat} (h : n < 10000) (rest : PyStr) :
    (readYear (pad4 n ++ rest)).head? = some (n, rest) := by
  show (readYear (decChar (n / 1000) :: decChar (n / 100 % 10) :: decChar (n / 10 % 10) :: decChar (n % 10) :: rest)).head? = _
  unfold readYear
  simp only [decDigit_decChar (show n / 1000 < 10 by omega), decDigit_decChar (show n / 100 % 10 < 10 by omega),
    decDigit_decChar (show n / 10 % 10 < 10 by omega), decDigit_decChar (show n % 10 < 10 by omega)]
  simp only [List.head?_cons, Option.some.injEq, Prod.mk.injEq, and_true]
  omega

theorem char_head (u l : Char) (rest : PyStr) : (readChar u l (u :: rest)).head? = some rest := by
  unfold readChar; simp only [true_or, if_true]; rfl

/-! ## The calendar -/

theorem leap_iff (y : Nat) : Leap y ↔ (y % 4 = 0 ∧ (y % 100 ≠ 0 ∨ y % 400 = 0)) := by
  unfold Leap
  omega

theorem lastDay_daysInMonth {y m l : Nat} (h : LastDay y m l) : daysInMonth y m = l ∧ 1 ≤ m ∧ m ≤ 12 ∧ l ≤ 31 := by
  unfold daysInMonth
  rcases h with ⟨hm, rfl⟩ | ⟨hm, rfl⟩ | ⟨rfl, hl, rfl⟩ | ⟨rfl, hl, rfl⟩
  · simp at hm
    rcases hm with rfl | rfl | rfl | rfl | rfl | rfl | rfl <;> simp
  · simp at hm
    rcases hm with rfl | rfl | rfl | rfl <;> simp
  · rw [leap_iff] at hl
    rw [if_pos ⟨rfl, hl⟩]; simp
  · rw [leap_iff] at hl
    rw [if_neg (fun h => hl h.2)]; simp

theorem daysInMonth_lastDay {y m : Nat} (h1 : 1 ≤ m) (h2 : m ≤ 12) : LastDay y m (daysInMonth y m) := by
  unfold daysInMonth
  split
  · rename_i h
    exact .inr (.inr (.inl ⟨h.1, (leap_iff y).2 h.2, rfl⟩))
  · rename_i h
    by_cases hm : m = 2
    · subst hm
      exact .inr (.inr (.inr ⟨rfl, fun hl => h ⟨rfl, (leap_iff y).1 hl⟩, rfl⟩))
    · interval_cases m <;> simp [LastDay] at hm ⊢

/-- A moment is what the `datetime` constructor accepts. -/
theorem mkDateTime_iff {y m d h mi s : Nat} {t : DateTime} :
    mkDateTime y m d h mi s = some t ↔ t = ⟨y, m, d, h, mi, s, 0⟩ ∧ Moment t := by
  unfold mkDateTime
  constructor
  · intro hh
    split at hh
    · cases hh
      rename_i hc
      obtain ⟨h1, h2, h3, h4, h5, h6, h7, h8, h9⟩ := hc
      exact ⟨rfl, ⟨h1, h2, h5, _, daysInMonth_lastDay h3 h4, h6⟩, by show h < 24; omega, by show mi < 60; omega,
        by show s < 60; omega⟩
    · cases hh
  · rintro ⟨rfl, ⟨h1, h2, h3, l, hl, h4⟩, h5, h6, h7⟩
    obtain ⟨rfl, h8, h9, _⟩ := lastDay_daysInMonth hl
    simp only at h5 h6 h7 h4 h3 h2 h1 h8 h9
    rw [if_pos ⟨h1, h2, h8, h9, h3, h4, by omega, by omega, by omega⟩]

theorem matchFull_text {t : DateTime} (hm : Moment t) {yt : PyStr} (hy : yt = pad4 t.year) :
    (matchFull (yt ++ '-' :: (pad2 t.month ++ '-' :: (pad2 t.day ++ 'T' :: (pad2 t.hour ++ ':' ::
    (pad2 t.minute ++ ':' :: (pad2 t.second ++ ['Z']))))))).head? =
      some ((t.year, t.month, t.day, t.hour, t.minute, t.second), []) := by
  obtain ⟨⟨h1, h2, h3, l, hl, h4⟩, h5, h6, h7⟩ := hm
  obtain ⟨rfl, h8, h9, h10⟩ := lastDay_daysInMonth hl
  subst hy
  unfold matchFull
  refine head_flatMap (year_head (by omega) _) (head_flatMap (char_head _ _ _) ?_)
  refine head_flatMap (month_head h8 h9 _) (head_flatMap (char_head _ _ _) ?_)
  refine head_flatMap (day_head h3 (by omega) _) (head_flatMap (char_head _ _ _) ?_)
  refine head_flatMap (hour_head h5 _) (head_flatMap (char_head _ _ _) ?_)
  refine head_flatMap (minute_head h6 _) (head_flatMap (char_head _ _ _) ?_)
  refine head_flatMap (second_head h7 _) ?_
  exact head_map (char_head _ _ _)

theorem matchDate_text {y m d : Nat} (hd : CalendarDay y m d) :
    (matchDate (pad4 y ++ '/' :: (pad2 m ++ '/' :: pad2 d))).head? = some ((y, m, d), []) := by
  obtain ⟨h1, h2, h3, l, hl, h4⟩ := hd
  obtain ⟨rfl, h8, h9, h10⟩ := lastDay_daysInMonth hl
  unfold matchDate
  refine head_flatMap (year_head (by omega) _) (head_flatMap (char_head _ _ _) ?_)
  refine head_flatMap (month_head h8 h9 _) (head_flatMap (char_head _ _ _) ?_)
  have := day_head h3 (show d ≤ 31 by omega) []
  rw [List.append_nil] at this
  exact head_map this

/-- C07: a moment written by `to_json` and read by `from_json` is the moment in
whole seconds, for the years 1000 to 9999, and for all years where `strftime`
pads the year. -/
theorem C07_reads_back {padded : Bool} {t : DateTime} (hm : Moment t) (hy : padded = true ∨ 1000 ≤ t.year) :
    ∃ u, dtRead (dtText padded t) = some u ∧ WholeSeconds t u := by
  refine ⟨⟨t.year, t.month, t.day, t.hour, t.minute, t.second, 0⟩, ?_, ⟨rfl, rfl, rfl, rfl, rfl, rfl, rfl⟩⟩
  have hyt : yearText padded t.year = pad4 t.year := by
    unfold yearText
    rw [if_pos (by simpa using hy)]
  have hlen : (dtText padded t).length = 20 := by
    unfold dtText
    rw [hyt]
    rfl
  unfold dtRead
  rw [if_neg (by rw [hlen]; decide)]
  unfold strptimeFull dtText
  rw [matchFull_text hm hyt]
  simp only []
  exact mkDateTime_iff.2 ⟨rfl, hm⟩

theorem decChar_ne {n : Nat} (h : n < 10) (c : Char) (hc : decDigit? c = none) : decChar n ≠ c := by
  intro he
  have := decDigit_decChar h
  rw [he, hc] at this
  cases this

/-- C07: the short form, with either separator, is midnight of that day. -/
theorem C07_short {y m d : Nat} (hd : CalendarDay y m d) (sep : Char) (hs : sep = '-' ∨ sep = '/') :
    dtRead (pad4 y ++ sep :: (pad2 m ++ sep :: pad2 d)) = some ⟨y, m, d, 0, 0, 0, 0⟩ := by
  have hd' := hd
  obtain ⟨h1, h2, h3, l, hl, h4⟩ := hd
  obtain ⟨rfl, h8, h9, h10⟩ := lastDay_daysInMonth hl
  unfold dtRead
  rw [if_pos (by rfl)]
  have hn : ∀ n, n < 10 → (if decChar n = '-' then '/' else decChar n) = decChar n := fun n hn =>
    if_neg (decChar_ne hn '-' (by decide))
  have hsep : (if sep = '-' then '/' else sep) = '/' := by
    rcases hs with rfl | rfl <;> rfl
  have : (pad4 y ++ sep :: (pad2 m ++ sep :: pad2 d)).map (fun c => if c = '-' then '/' else c) =
      pad4 y ++ '/' :: (pad2 m ++ '/' :: pad2 d) := by
    simp only [pad4, pad2, List.map_cons, List.map_nil, List.cons_append, List.nil_append, hsep]
    rw [hn _ (by omega), hn _ (by omega), hn _ (by omega), hn _ (by omega), hn _ (by omega), hn _ (by omega),
      hn _ (by omega), hn _ (by omega)]
  rw [this]
  unfold strptimeDate
  rw [matchDate_text hd']
  exact mkDateTime_iff.2 ⟨rfl, hd', by simp, by simp, by simp⟩

/-- C07: whatever text is read, the result is a moment in whole seconds. -/
theorem C07_only_moments {s : PyStr} {t : DateTime} (h : dtRead s = some t) : Moment t ∧ t.micro = 0 := by
  have key : ∀ {y m d h mi s}, mkDateTime y m d h mi s = some t → Moment t ∧ t.micro = 0 := by
    intro y m d h mi s hh
    obtain ⟨rfl, hh⟩ := mkDateTime_iff.1 hh
    exact ⟨hh, rfl⟩
  unfold dtRead at h
  split at h
  · unfold strptimeDate at h
    split at h
    · exact key h
    · cases h
  · unfold strptimeFull at h
    split at h
    · exact key h
    · cases h

/-- C07: two moments with the same text agree to the second. -/
theorem C07_injective {padded : Bool} {t u : DateTime} (ht : Moment t) (hu : Moment u)
    (h1 : padded = true ∨ 1000 ≤ t.year) (h2 : padded = true ∨ 1000 ≤ u.year) (h : dtText padded t = dtText padded u) :
    { t with micro := 0 } = { u with micro := 0 } := by
  obtain ⟨t', h3, a1, a2, a3, a4, a5, a6, a7⟩ := C07_reads_back ht h1
  obtain ⟨u', h4, b1, b2, b3, b4, b5, b6, b7⟩ := C07_reads_back hu h2
  rw [h, h4] at h3
  cases h3
  rw [← a1, ← a2, ← a3, ← a4, ← a5, ← a6, b1, b2, b3, b4, b5, b6]

/-- C07 in terms of the property: serialized text is accepted by `from_json`
and by `validate`, and both give the moment in whole seconds. -/
theorem C07_property {padded : Bool} {E : Env} (hE : TextEnv padded E) {t : DateTime} (hm : Moment t)
    (hy : padded = true ∨ 1000 ≤ t.year) :
    ∃ j u, scalarToJson E .datetime (.dt t) = some (.ok j) ∧ WholeSeconds t u ∧
      scalarFromJson E .datetime j = some (.ok (.dt u)) ∧
      ∀ k, scalarValidate E k .datetime j = some (.ok (.dt u)) := by
  obtain ⟨u, h1, h2⟩ := C07_reads_back hm hy
  rw [← hE.dtTo, ← hE.dtOf] at h1
  refine ⟨.str (E.dtToStr t), u, rfl, h2, ?_, fun k => ?_⟩
  · unfold scalarFromJson; simp only [h1]
  · unfold scalarValidate
    simp only [dtValidate, h1]

/-- Moments with fractions of a second exist, and text for them; the last
moment of a leap year February. -/
theorem C07_example : Moment ⟨2024, 2, 29, 23, 59, 59, 123456⟩ ∧
    dtText false ⟨2024, 2, 29, 23, 59, 59, 123456⟩ = s% "2024-02-29T23:59:59Z" ∧
    dtRead (s% "2024-02-29T23:59:59Z") = some ⟨2024, 2, 29, 23, 59, 59, 0⟩ ∧
    dtRead (s% "1995-08-12") = some ⟨1995, 8, 12, 0, 0, 0, 0⟩ ∧
    dtRead (s% "2023-02-29T00:00:00Z") = none := by
  refine ⟨(mkDateTime_iff (y := 2024) (m := 2) (d := 29) (h := 23) (mi := 59) (s := 59)
      (t := ⟨2024, 2, 29, 23, 59, 59, 0⟩).1 (by decide)).2, by decide, by decide,
    by decide, by decide⟩

/-- Where the claim is false: if the year is not padded, no moment before the
year 1000 is read back; `from_json` raises. -/
theorem C07_early_years {t : DateTime} (h1 : 1 ≤ t.year) (h2 : t.year < 1000) :
    dtRead (dtText false t) = none := by
  have hd : ∀ a b c rest, '-' ∈ [a, b, c] → readYear (a :: b :: c :: rest) = [] := by
    intro a b c rest h
    have hm : decDigit? '-' = none := by decide
    cases rest with
    | nil => rfl
    | cons d rest =>
      unfold readYear
      simp only [List.mem_cons, List.not_mem_nil, or_false] at h
      rcases h with rfl | rfl | rfl <;> simp only [hm] <;> (repeat' split) <;> simp_all
  have hd4 : ∀ a b c rest, readYear (a :: b :: c :: '-' :: rest) = [] := by
    intro a b c rest
    have hm : decDigit? '-' = none := by decide
    unfold readYear
    simp only [hm]
    (repeat' split) <;> simp_all
  have hno : ∀ s : PyStr, readYear s = [] → strptimeFull s = none := by
    intro s hs
    unfold strptimeFull matchFull
    rw [hs]
    rfl
  have hl : ∀ yt : PyStr, (yt ++ '-' :: (pad2 t.month ++ '-' :: (pad2 t.day ++ 'T' :: (pad2 t.hour ++ ':' ::
    (pad2 t.minute ++ ':' :: (pad2 t.second ++ ['Z'])))))).length ≠ 10 := by
    intro yt
    rw [List.length_append]
    show yt.length + 16 ≠ 10
    omega
  unfold dtRead dtText
  rw [if_neg (hl _)]
  refine hno _ ?_
  unfold yearText
  rw [if_neg (by simp; omega)]
  split
  · exact hd4 _ _ _ _
  · split
    · exact hd _ _ _ _ (by simp)
    · exact hd _ _ _ _ (by simp)

/-! ## Uuid -/

/-- Text of lower case hexadecimal digits. -/
def AllHex (s : PyStr) : Prop := ∀ c ∈ s, ∃ n, n < 16 ∧ c = hexCharLower n

theorem hexDigit_lower {n : Nat} (h : n < 16) : hexDigit? (hexCharLower n) = some n := by
  interval_cases n <;> decide

theorem hexLower_ne {n : Nat} (h : n < 16) {c : Char} (hc : c ∈ s% "_-+{}uxX \t\n") : hexCharLower n ≠ c := by
  intro he
  subst he
  interval_cases n <;> revert hc <;> decide

theorem hexText_all : ∀ (k n : Nat), AllHex (hexText k n)
  | 0, n => by intro c h; cases h
  | k + 1, n => by
    intro c h
    rcases List.mem_append.1 h with h | h
    · exact hexText_all k _ c h
    · cases List.mem_singleton.1 h
      exact ⟨_, Nat.mod_lt _ (by decide), rfl⟩

theorem hexText_length : ∀ (k n : Nat), (hexText k n).length = k
  | 0, _ => rfl
  | k + 1, n => by
    show (hexText k (n / 16) ++ [_]).length = _
    rw [List.length_append, hexText_length k]; rfl

theorem hexDigits_cons {acc : Nat} {n : Nat} (h : n < 16) (s : PyStr) :
    hexDigits? acc (hexCharLower n :: s) = hexDigits? (acc * 16 + n) s := by
  have h1 : hexCharLower n ≠ '_' := hexLower_ne h (by decide)
  rw [hexDigits?.eq_3 _ _ _ (by intro c rest h _; exact h1 h)]
  simp only [hexDigit_lower h]

theorem hexDigits_append : ∀ (s : PyStr) (acc : Nat) (t : PyStr), AllHex s →
    hexDigits? acc (s ++ t) = (hexDigits? acc s).bind (hexDigits? · t)
  | [], acc, t, _ => by
    show _ = (hexDigits? acc []).bind _
    unfold hexDigits?
    rfl
  | c :: s, acc, t, h => by
    obtain ⟨n, hn, rfl⟩ := h c (by simp)
    rw [List.cons_append, hexDigits_cons hn, hexDigits_cons hn]
    exact hexDigits_append s _ t fun d hd => h d (by simp [hd])

theorem hexDigits_text : ∀ (k n acc : Nat), n < 16 ^ k → hexDigits? acc (hexText k n) = some (acc * 16 ^ k + n)
  | 0, n, acc, h => by
    have : n = 0 := by simpa using h
    subst this
    unfold hexText hexDigits?
    simp
  | k + 1, n, acc, h => by
    unfold hexText
    rw [hexDigits_append _ _ _ (hexText_all _ _), hexDigits_text k _ _ (by rw [pow_succ] at h; omega)]
    show hexDigits? _ [_] = _
    rw [hexDigits_cons (Nat.mod_lt _ (by decide))]
    unfold hexDigits?
    rw [pow_succ]
    congr 1
    rw [Nat.add_mul, Nat.add_assoc, Nat.div_add_mod', Nat.mul_assoc]

theorem hexBody_all {s : PyStr} (h : AllHex s) (hne : s ≠ []) : hexBody? s = hexDigits? 0 s := by
  cases s with
  | nil => exact absurd rfl hne
  | cons c s =>
    obtain ⟨n, hn, rfl⟩ := h c (by simp)
    have hx : ∀ d t, s = d :: t → d ≠ 'x' ∧ d ≠ 'X' := by
      rintro d t rfl
      obtain ⟨m, hm, rfl⟩ := h d (by simp)
      exact ⟨hexLower_ne hm (by decide), hexLower_ne hm (by decide)⟩
    rw [hexDigits_cons hn]
    unfold hexBody?
    split
    · rename_i heq; exact absurd rfl (hx _ _ (List.cons.inj heq).2).1
    · rename_i heq; exact absurd rfl (hx _ _ (List.cons.inj heq).2).2
    · rename_i heq; exact absurd rfl (hx _ _ (List.cons.inj heq).2).1
    · rename_i heq; exact absurd rfl (hx _ _ (List.cons.inj heq).2).2
    · rename_i heq
      cases heq
      rw [hexDigit_lower hn, Nat.zero_mul, Nat.zero_add]
      rfl
    · rename_i heq; cases heq

theorem hexLower_space {n : Nat} (h : n < 16) : isAsciiSpace (hexCharLower n) = false := by
  interval_cases n <;> decide

theorem dropSpace_all {s : PyStr} (h : AllHex s) : s.dropWhile isAsciiSpace = s := by
  cases s with
  | nil => rfl
  | cons c s =>
    obtain ⟨n, hn, rfl⟩ := h c (by simp)
    rw [List.dropWhile_cons_of_neg (by rw [hexLower_space hn]; simp)]

theorem intBase16_all {s : PyStr} (h : AllHex s) (hne : s ≠ []) :
    intBase16? s = (hexDigits? 0 s).map Int.ofNat := by
  unfold intBase16?
  have hr : AllHex s.reverse := fun c hc => h c (List.mem_reverse.1 hc)
  rw [dropSpace_all h, dropSpace_all hr, List.reverse_reverse]
  simp only []
  split
  · rename_i u heq
    obtain ⟨m, hm, he⟩ := h '+' (by simp)
    exact absurd he.symm (hexLower_ne hm (by decide))
  · rename_i u heq
    obtain ⟨m, hm, he⟩ := h '-' (by simp)
    exact absurd he.symm (hexLower_ne hm (by decide))
  · rw [hexBody_all h hne]

theorem removeAll_absent {p : Char} {pat : PyStr} : ∀ (k : Nat) (s : PyStr), p ∉ s → removeAll (p :: pat) k s = s
  | 0, _, _ => rfl
  | _ + 1, [], _ => rfl
  | k + 1, c :: s, h => by
    have hc : c ≠ p := fun he => h (by simp [he])
    unfold removeAll
    rw [if_neg (by simp [List.isPrefixOf, Ne.symm hc]), removeAll_absent k s fun hs => h (by simp [hs])]

theorem strip_absent {chars s : PyStr} (h : ∀ c ∈ s, c ∉ chars) : strip chars s = s := by
  have hl : ∀ t : PyStr, (∀ c ∈ t, c ∉ chars) → lstrip chars t = t := by
    intro t ht
    cases t with
    | nil => rfl
    | cons c t =>
      have := ht c (by simp)
      show List.dropWhile _ _ = _
      rw [List.dropWhile_cons_of_neg (by simpa using this)]
  unfold strip rstrip
  rw [hl s h, hl _ fun c hc => h c (List.mem_reverse.1 hc), List.reverse_reverse]

theorem uuidText_chars {n : Nat} {c : Char} (h : c ∈ uuidText n) : c = '-' ∨ ∃ m, m < 16 ∧ c = hexCharLower m := by
  have ha := hexText_all 32 n
  unfold uuidText at h
  simp only [List.mem_append, List.mem_cons] at h
  rcases h with h | h | h | h | h | h | h | h | h
  · exact .inr (ha c (List.mem_of_mem_take h))
  · exact .inl h
  · exact .inr (ha c (List.mem_of_mem_drop (List.mem_of_mem_take h)))
  · exact .inl h
  · exact .inr (ha c (List.mem_of_mem_drop (List.mem_of_mem_take h)))
  · exact .inl h
  · exact .inr (ha c (List.mem_of_mem_drop (List.mem_of_mem_take h)))
  · exact .inl h
  · exact .inr (ha c (List.mem_of_mem_drop h))

theorem uuidText_filter (n : Nat) : (uuidText n).filter (· != '-') = hexText 32 n := by
  have ha := hexText_all 32 n
  have hf : ∀ t : PyStr, AllHex t → t.filter (· != '-') = t := by
    intro t ht
    rw [List.filter_eq_self]
    intro c hc
    obtain ⟨m, hm, rfl⟩ := ht c hc
    simpa using hexLower_ne hm (c := '-') (by decide)
  have hd : ∀ k, AllHex ((hexText 32 n).drop k) := fun k c hc => ha c (List.mem_of_mem_drop hc)
  have ht : ∀ j k, AllHex (((hexText 32 n).drop k).take j) := fun j k c hc => hd k c (List.mem_of_mem_take hc)
  have ht0 : AllHex ((hexText 32 n).take 8) := fun c hc => ha c (List.mem_of_mem_take hc)
  have hcons : ∀ t : PyStr, ('-' :: t).filter (· != '-') = t.filter (· != '-') := fun t => rfl
  unfold uuidText
  simp only [List.filter_append, hcons, hf _ (ht _ _), hf _ ht0, hf _ (hd _)]
  generalize hexText 32 n = h
  have e : ∀ k j, (h.drop k).take j ++ h.drop (k + j) = h.drop k := by
    intro k j
    rw [← List.drop_drop, List.take_append_drop]
  rw [e 16 4, e 12 4, e 8 4, List.take_append_drop]

/-- C08: `UUID(str(u))` is `u`, for every 128 bit identifier. -/
theorem C08_reads_back {n : Nat} (h : n < 2 ^ 128) : uuidRead (uuidText n) = some n := by
  have hu : 'u' ∉ uuidText n := by
    intro hc
    rcases uuidText_chars hc with h | ⟨m, hm, h⟩
    · cases h
    · exact hexLower_ne hm (by decide) h.symm
  have hb : ∀ c ∈ uuidText n, c ∉ s% "{}" := by
    intro c hc hmem
    rcases uuidText_chars hc with rfl | ⟨m, hm, rfl⟩
    · revert hmem; decide
    · simp at hmem
      rcases hmem with h | h
      · exact hexLower_ne hm (by decide) h
      · exact hexLower_ne hm (by decide) h
  unfold uuidRead
  simp only []
  rw [removeAll_absent _ _ hu, removeAll_absent _ _ hu, strip_absent hb, uuidText_filter, hexText_length]
  rw [intBase16_all (hexText_all _ _) (fun h => by have := hexText_length 32 n; rw [h] at this; cases this),
    hexDigits_text 32 n 0 (by rw [show (16 : Nat) ^ 32 = 2 ^ 128 by norm_num]; exact h)]
  simp only [Nat.zero_mul, Nat.zero_add, Option.map_some]
  rw [if_neg (by simp), if_pos ⟨Int.natCast_nonneg n, by show (n : Int) < _; exact_mod_cast h⟩]
  rfl

/-- C08: different identifiers have different text. -/
theorem C08_injective {m n : Nat} (hm : m < 2 ^ 128) (hn : n < 2 ^ 128) (h : uuidText m = uuidText n) : m = n := by
  have := C08_reads_back hm
  rw [h, C08_reads_back hn] at this
  exact (Option.some.inj this).symm

/-- C08: whatever text is read, the result is a 128 bit identifier. -/
theorem C08_range {s : PyStr} {n : Nat} (h : uuidRead s = some n) : n < 2 ^ 128 := by
  unfold uuidRead at h
  simp only [] at h
  split at h
  · cases h
  · split at h
    · split at h
      · cases h
        rename_i i _ hi
        omega
      · cases h
    · cases h

/-- C08 in terms of the property: the JSON form of a UUID is text that
`from_json` reads as that UUID; different UUIDs have different JSON. -/
theorem C08_property {padded : Bool} {E : Env} (hE : TextEnv padded E) {m n : Nat} (hm : m < 2 ^ 128) (hn : n < 2 ^ 128) :
    ∃ s t, scalarToJson E .uuid (.uuid m) = some (.ok (.str s)) ∧ scalarFromJson E .uuid (.str s) = some (.ok (.uuid m)) ∧
      scalarToJson E .uuid (.uuid n) = some (.ok (.str t)) ∧ (s = t → m = n) := by
  refine ⟨uuidText m, uuidText n, ?_, ?_, ?_, C08_injective hm hn⟩
  · unfold scalarToJson; simp only [hE.uuidTo]
  · unfold scalarFromJson; simp only [hE.uuidOf, C08_reads_back hm]
  · unfold scalarToJson; simp only [hE.uuidTo]

/-- The environment with these text functions, used by the examples. -/
def textEnv : Env :=
  { demoEnv with dtToStr := dtText false, dtOfStr := dtRead, uuidToStr := uuidText, uuidOfStr := uuidRead }

theorem textEnv_text : TextEnv false textEnv := ⟨fun _ => rfl, fun _ => rfl, fun _ => rfl, fun _ => rfl⟩

/-- Other spellings of a UUID are read too; text of another length is not. -/
theorem C08_example :
    uuidText 0x12345678123456781234567812345678 = s% "12345678-1234-5678-1234-567812345678" ∧
    uuidRead (s% "{12345678-1234-5678-1234-567812345678}") = some 0x12345678123456781234567812345678 ∧
    uuidRead (s% "urn:uuid:12345678-1234-5678-1234-567812345678") = some 0x12345678123456781234567812345678 ∧
    uuidRead (s% "1234567812345678123456781234567") = none := by
  refine ⟨by decide +kernel, by decide +kernel, by decide +kernel, by decide +kernel⟩

end Verif
