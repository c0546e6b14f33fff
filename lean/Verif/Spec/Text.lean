import Verif.Py.Val

/-!
# What a moment of the calendar is
-/

namespace Verif.Spec

/-- Leap years of the Gregorian calendar. -/
def Leap (y : Nat) : Prop := 4 ∣ y ∧ (100 ∣ y → 400 ∣ y)

/-- The last day of a month: thirty days hath September, ... -/
def LastDay (y m d : Nat) : Prop :=
  (m ∈ [1, 3, 5, 7, 8, 10, 12] ∧ d = 31) ∨ (m ∈ [4, 6, 9, 11] ∧ d = 30) ∨
  (m = 2 ∧ Leap y ∧ d = 29) ∨ (m = 2 ∧ ¬ Leap y ∧ d = 28)

/-- A calendar day of the years 1 to 9999. -/
def CalendarDay (y m d : Nat) : Prop :=
  1 ≤ y ∧ y ≤ 9999 ∧ 1 ≤ d ∧ ∃ l, LastDay y m l ∧ d ≤ l

/-- A moment: a calendar day and a time of day. -/
def Moment (t : DateTime) : Prop :=
  CalendarDay t.year t.month t.day ∧ t.hour < 24 ∧ t.minute < 60 ∧ t.second < 60

/-- The moment without its fraction of a second. -/
def WholeSeconds (t u : DateTime) : Prop :=
  u.year = t.year ∧ u.month = t.month ∧ u.day = t.day ∧ u.hour = t.hour ∧
  u.minute = t.minute ∧ u.second = t.second ∧ u.micro = 0

/-- The digit `c` stands for `n`. -/
def DigitOf (c : Char) (n : Nat) : Prop := n < 10 ∧ c.toNat = '0'.toNat + n

/-- One or two digits that stand for `n`. -/
inductive Numeral : PyStr → Nat → Prop
  | one {c : Char} {a : Nat} : DigitOf c a → Numeral [c] a
  | two {c d : Char} {a b : Nat} : DigitOf c a → DigitOf d b → Numeral [c, d] (10 * a + b)

/-- A day may also be a blank and one digit. -/
inductive DayText : PyStr → Nat → Prop
  | num {s : PyStr} {n : Nat} : Numeral s n → DayText s n
  | blank {c : Char} {a : Nat} : DigitOf c a → DayText [' ', c] a

/-- Four digits that stand for `n`. -/
inductive YearText : PyStr → Nat → Prop
  | mk {c d e f : Char} {i j k l : Nat} : DigitOf c i → DigitOf d j → DigitOf e k → DigitOf f l →
      YearText [c, d, e, f] (1000 * i + 100 * j + 10 * k + l)

/-- Year, month, day, hour, minute and second, as in 2024-02-29T23:59:59Z. -/
def LongForm (s : PyStr) (t : DateTime) : Prop :=
  ∃ y m d ct h mi sc cz, YearText y t.year ∧ Numeral m t.month ∧ DayText d t.day ∧ (ct = 'T' ∨ ct = 't') ∧
    Numeral h t.hour ∧ Numeral mi t.minute ∧ Numeral sc t.second ∧ (cz = 'Z' ∨ cz = 'z') ∧
    s = y ++ '-' :: (m ++ '-' :: (d ++ ct :: (h ++ ':' :: (mi ++ ':' :: (sc ++ [cz])))))

/-- Year, month and day in ten characters, for midnight. -/
def ShortForm (s : PyStr) (t : DateTime) : Prop :=
  ∃ y m d c1 c2, YearText y t.year ∧ Numeral m t.month ∧ DayText d t.day ∧ (c1 = '-' ∨ c1 = '/') ∧
    (c2 = '-' ∨ c2 = '/') ∧ t.hour = 0 ∧ t.minute = 0 ∧ t.second = 0 ∧ s.length = 10 ∧
    s = y ++ c1 :: (m ++ c2 :: d)

end Verif.Spec
