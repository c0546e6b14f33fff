/-!
# Python strings as lists of code points

Modelled library functions: `str.strip(chars)`, `str.lstrip(chars)`, slicing,
`int(s, 16)` restricted to ASCII.  Case mapping is a parameter of the
environment (`Verif/Py/Env.lean`), not defined here.
-/

namespace Verif

/-- A Python `str`: the list of its code points.  Lone surrogates, which a
Python `str` may contain and a Lean `Char` may not, are dropped. -/
abbrev PyStr := List Char

/-- `s% "abc"` is the literal `['a', 'b', 'c']`, expanded when elaborated so
that the kernel can compute with it. -/
macro "s% " s:str : term => do
  let mut t ← `(([] : List Char))
  for c in s.getString.toList.reverse do
    t ← `(List.cons $(Lean.quote c) $t)
  return t

/-- `s.lstrip(chars)` for a non empty argument; with an empty set nothing is
removed, as in Python. -/
def lstrip (chars s : PyStr) : PyStr := s.dropWhile (fun c => chars.contains c)

/-- `s.rstrip(chars)`. -/
def rstrip (chars s : PyStr) : PyStr := (lstrip chars s.reverse).reverse

/-- `s.strip(chars)`. -/
def strip (chars s : PyStr) : PyStr := rstrip chars (lstrip chars s)

/-- Value of an ASCII hexadecimal digit, either case, as `int(_, 16)` reads it. -/
def hexDigit? (c : Char) : Option Nat :=
  if 48 ≤ c.toNat ∧ c.toNat ≤ 57 then some (c.toNat - 48)
  else if 65 ≤ c.toNat ∧ c.toNat ≤ 70 then some (c.toNat - 55)
  else if 97 ≤ c.toNat ∧ c.toNat ≤ 102 then some (c.toNat - 87)
  else none

/-- ASCII characters removed by `int()` around the number (`str.isspace`);
code points above 127 are not modelled. -/
def isAsciiSpace (c : Char) : Bool :=
  (9 ≤ c.toNat ∧ c.toNat ≤ 13) ∨ (28 ≤ c.toNat ∧ c.toNat ≤ 32)

/-- Digits of an `int(s, 16)` literal after sign and prefix: digits, with
single underscores allowed between two digits.  `acc` is the value so far. -/
def hexDigits? : Nat → PyStr → Option Nat
  | acc, [] => some acc
  | acc, '_' :: c :: rest =>
      match hexDigit? c with
      | some d => hexDigits? (acc * 16 + d) rest
      | none => none
  | acc, c :: rest =>
      match hexDigit? c with
      | some d => hexDigits? (acc * 16 + d) rest
      | none => none

/-- The unsigned part of an `int(s, 16)` literal: at least one digit; an
underscore may also follow the prefix. -/
def hexBody? (s : PyStr) : Option Nat :=
  match s with
  | '0' :: 'x' :: '_' :: c :: rest => (hexDigit? c).bind (hexDigits? · rest)
  | '0' :: 'X' :: '_' :: c :: rest => (hexDigit? c).bind (hexDigits? · rest)
  | '0' :: 'x' :: c :: rest => (hexDigit? c).bind (hexDigits? · rest)
  | '0' :: 'X' :: c :: rest => (hexDigit? c).bind (hexDigits? · rest)
  | c :: rest => (hexDigit? c).bind (hexDigits? · rest)
  | [] => none

/-- Python `int(s, 16)` on ASCII text: surrounding white space, one optional
sign, optional `0x`, digits.  `none` stands for `ValueError`. -/
def intBase16? (s : PyStr) : Option Int :=
  let t := ((s.dropWhile isAsciiSpace).reverse.dropWhile isAsciiSpace).reverse
  match t with
  | '+' :: u => (hexBody? u).map Int.ofNat
  | '-' :: u => (hexBody? u).map (fun n => - Int.ofNat n)
  | u => (hexBody? u).map Int.ofNat

/-- Upper case ASCII hexadecimal digit of `n < 16`. -/
def hexChar (n : Nat) : Char :=
  if n < 10 then Char.ofNat (48 + n) else Char.ofNat (55 + n)

/-- Lower case ASCII hexadecimal digit of `n < 16`. -/
def hexCharLower (n : Nat) : Char :=
  if n < 10 then Char.ofNat (48 + n) else Char.ofNat (87 + n)

end Verif
