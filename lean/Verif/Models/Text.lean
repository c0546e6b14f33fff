import Verif.Core.Scalar

/-!
# The text forms of DateTime and Uuid

The environment of the main model leaves `strftime`, `strptime`, `str(uuid)`
and `UUID(text)` open.  Here they are functions: the format strings are those of
`DateTime.to_json` and `DateTime.from_json` (basic.py:1257-1266); the regular
expressions are those that `_strptime` compiles for the directives; the UUID
text functions follow `uuid.UUID.__str__` and `uuid.UUID.__init__`, which
`Uuid.to_json` and `Uuid.from_json` call (basic.py:1291-1297).

Digits are ASCII digits; `\d` also matches other Unicode digits, which are not
modelled.
-/

namespace Verif

/-! ## Decimal text -/

/-- The digit `n < 10`. -/
def decChar (n : Nat) : Char := Char.ofNat (48 + n)

/-- `\d`. -/
def decDigit? (c : Char) : Option Nat :=
  if 48 ≤ c.toNat ∧ c.toNat ≤ 57 then some (c.toNat - 48) else none

/-- `'%02d'`. -/
def pad2 (n : Nat) : PyStr := [decChar (n / 10), decChar (n % 10)]

/-- `'%04d'` for `n < 10000`. -/
def pad4 (n : Nat) : PyStr :=
  [decChar (n / 1000), decChar (n / 100 % 10), decChar (n / 10 % 10), decChar (n % 10)]

/-- `%Y` of strftime: glibc does not pad the year; other platforms, and
Python from 3.14 on, write four digits. -/
def yearText (padded : Bool) (y : Nat) : PyStr :=
  if padded || decide (1000 ≤ y) then pad4 y
  else if 100 ≤ y then [decChar (y / 100), decChar (y / 10 % 10), decChar (y % 10)]
  else if 10 ≤ y then [decChar (y / 10), decChar (y % 10)]
  else [decChar y]

/-- `value.strftime('%Y-%m-%dT%H:%M:%SZ')` (basic.py:1259). -/
def dtText (padded : Bool) (t : DateTime) : PyStr :=
  yearText padded t.year ++ '-' :: (pad2 t.month ++ '-' :: (pad2 t.day ++ 'T' :: (pad2 t.hour ++ ':' ::
    (pad2 t.minute ++ ':' :: (pad2 t.second ++ ['Z'])))))

/-! ## strptime

A directive is a function that gives the ways to match a prefix, in the order
in which the regular expression tries them. -/

/-- Two digits. -/
def twoDigits (ok : Nat → Nat → Bool) : PyStr → List (Nat × PyStr)
  | c :: d :: rest => match decDigit? c, decDigit? d with
      | some a, some b => if ok a b then [(a * 10 + b, rest)] else []
      | _, _ => []
  | _ => []

/-- One digit. -/
def oneDigit (ok : Nat → Bool) : PyStr → List (Nat × PyStr)
  | c :: rest => match decDigit? c with
      | some a => if ok a then [(a, rest)] else []
      | none => []
  | _ => []

/-- `%Y`: `\d\d\d\d`. -/
def readYear : PyStr → List (Nat × PyStr)
  | a :: b :: c :: d :: rest => match decDigit? a, decDigit? b, decDigit? c, decDigit? d with
      | some a, some b, some c, some d => [(a * 1000 + b * 100 + c * 10 + d, rest)]
      | _, _, _, _ => []
  | _ => []

/-- `%m`: `1[0-2]|0[1-9]|[1-9]`. -/
def readMonth (s : PyStr) : List (Nat × PyStr) :=
  twoDigits (fun a b => a == 1 && decide (b ≤ 2)) s ++
  (twoDigits (fun a b => a == 0 && decide (1 ≤ b)) s ++ oneDigit (fun a => decide (1 ≤ a)) s)

/-- `[1-9]` after a blank. -/
def blankDigit : PyStr → List (Nat × PyStr)
  | ' ' :: rest => oneDigit (fun a => decide (1 ≤ a)) rest
  | _ => []

/-- `%d`: `3[0-1]|[1-2]\d|0[1-9]|[1-9]| [1-9]`. -/
def readDay (s : PyStr) : List (Nat × PyStr) :=
  twoDigits (fun a b => a == 3 && decide (b ≤ 1)) s ++
  (twoDigits (fun a _ => a == 1 || a == 2) s ++
  (twoDigits (fun a b => a == 0 && decide (1 ≤ b)) s ++
  (oneDigit (fun a => decide (1 ≤ a)) s ++ blankDigit s)))

/-- `%H`: `2[0-3]|[0-1]\d|\d`. -/
def readHour (s : PyStr) : List (Nat × PyStr) :=
  twoDigits (fun a b => a == 2 && decide (b ≤ 3)) s ++
  (twoDigits (fun a _ => decide (a ≤ 1)) s ++ oneDigit (fun _ => true) s)

/-- `%M`: `[0-5]\d|\d`. -/
def readMinute (s : PyStr) : List (Nat × PyStr) :=
  twoDigits (fun a _ => decide (a ≤ 5)) s ++ oneDigit (fun _ => true) s

/-- `%S`: `6[0-1]|[0-5]\d|\d`. -/
def readSecond (s : PyStr) : List (Nat × PyStr) :=
  twoDigits (fun a b => a == 6 && decide (b ≤ 1)) s ++
  (twoDigits (fun a _ => decide (a ≤ 5)) s ++ oneDigit (fun _ => true) s)

/-- A literal character of the format; the expression ignores case. -/
def readChar (upper lower : Char) : PyStr → List PyStr
  | c :: rest => if c = upper ∨ c = lower then [rest] else []
  | [] => []

/-- Days of a month (`datetime._days_in_month`). -/
def daysInMonth (y m : Nat) : Nat :=
  if m = 2 ∧ (y % 4 = 0 ∧ (y % 100 ≠ 0 ∨ y % 400 = 0)) then 29
  else [0, 31, 28, 31, 30, 31, 30, 31, 31, 30, 31, 30, 31].getD m 0

/-- `datetime.datetime(y, m, d, h, mi, s)`, which checks the ranges; `none` is
ValueError. -/
def mkDateTime (y m d h mi s : Nat) : Option DateTime :=
  if 1 ≤ y ∧ y ≤ 9999 ∧ 1 ≤ m ∧ m ≤ 12 ∧ 1 ≤ d ∧ d ≤ daysInMonth y m ∧ h ≤ 23 ∧ mi ≤ 59 ∧ s ≤ 59 then
    some ⟨y, m, d, h, mi, s, 0⟩
  else none

/-- The matches of `'%Y/%m/%d'` in order. -/
def matchDate (s : PyStr) : List ((Nat × Nat × Nat) × PyStr) :=
  (readYear s).flatMap fun y => (readChar '/' '/' y.2).flatMap fun s =>
  (readMonth s).flatMap fun m => (readChar '/' '/' m.2).flatMap fun s =>
  (readDay s).map fun d => ((y.1, m.1, d.1), d.2)

/-- The matches of `'%Y-%m-%dT%H:%M:%SZ'` in order. -/
def matchFull (s : PyStr) : List ((Nat × Nat × Nat × Nat × Nat × Nat) × PyStr) :=
  (readYear s).flatMap fun y => (readChar '-' '-' y.2).flatMap fun s =>
  (readMonth s).flatMap fun m => (readChar '-' '-' m.2).flatMap fun s =>
  (readDay s).flatMap fun d => (readChar 'T' 't' d.2).flatMap fun s =>
  (readHour s).flatMap fun h => (readChar ':' ':' h.2).flatMap fun s =>
  (readMinute s).flatMap fun mi => (readChar ':' ':' mi.2).flatMap fun s =>
  (readSecond s).flatMap fun sc => (readChar 'Z' 'z' sc.2).map fun s =>
    ((y.1, m.1, d.1, h.1, mi.1, sc.1), s)

/-- `datetime.strptime(s, '%Y/%m/%d')`: the first match has to consume the
whole text. -/
def strptimeDate (s : PyStr) : Option DateTime :=
  match (matchDate s).head? with
  | some ((y, m, d), []) => mkDateTime y m d 0 0 0
  | _ => none

/-- `datetime.strptime(s, '%Y-%m-%dT%H:%M:%SZ')`. -/
def strptimeFull (s : PyStr) : Option DateTime :=
  match (matchFull s).head? with
  | some ((y, m, d, h, mi, sc), []) => mkDateTime y m d h mi sc
  | _ => none

/-- `DateTime.from_json` (basic.py:1261-1266) of text; `none` is ValueError. -/
def dtRead (s : PyStr) : Option DateTime :=
  if s.length = 10 then strptimeDate (s.map fun c => if c = '-' then '/' else c)
  else strptimeFull s

/-! ## UUID text -/

/-- `'%0kx' % n` for `n < 16 ^ k`. -/
def hexText : Nat → Nat → PyStr
  | 0, _ => []
  | k + 1, n => hexText k (n / 16) ++ [hexCharLower (n % 16)]

/-- `str(uuid)`: `'%s-%s-%s-%s-%s' % (hex[:8], hex[8:12], hex[12:16],
hex[16:20], hex[20:])` with `hex = '%032x' % self.int`. -/
def uuidText (n : Nat) : PyStr :=
  let h := hexText 32 n
  h.take 8 ++ '-' :: ((h.drop 8).take 4 ++ '-' :: ((h.drop 12).take 4 ++ '-' :: ((h.drop 16).take 4 ++ '-' ::
    h.drop 20)))

/-- `s.replace(pat, '')` for a non empty pattern. -/
def removeAll (pat : PyStr) : Nat → PyStr → PyStr
  | 0, s => s
  | _ + 1, [] => []
  | k + 1, c :: s =>
      if pat.isPrefixOf (c :: s) then removeAll pat k ((c :: s).drop pat.length)
      else c :: removeAll pat k s

/-- `uuid.UUID(text)`: `urn:` and `uuid:` are removed, braces stripped, dashes
removed; 32 characters must remain, and `int(_, 16)` of them lie between 0 and
2^128. -/
def uuidRead (s : PyStr) : Option Nat :=
  let s := removeAll (s% "urn:") s.length s
  let s := removeAll (s% "uuid:") s.length s
  let s := (strip (s% "{}") s).filter (· != '-')
  if s.length ≠ 32 then none
  else match intBase16? s with
    | some i => if 0 ≤ i ∧ i < 2 ^ 128 then some i.toNat else none
    | none => none

/-- The environment whose text functions are those above. -/
structure TextEnv (padded : Bool) (E : Env) : Prop where
  dtTo : ∀ t, E.dtToStr t = dtText padded t
  dtOf : ∀ s, E.dtOfStr s = dtRead s
  uuidTo : ∀ n, E.uuidToStr n = uuidText n
  uuidOf : ∀ s, E.uuidOfStr s = uuidRead s

end Verif
