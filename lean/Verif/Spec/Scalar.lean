import Verif.Core.Interp

/-!
# Specifications of the scalar property types

Written from the documentation, without the definitions of `Core/Scalar.lean`.
-/

namespace Verif.Spec

/-- The result of `prop.validate(instance, value)` for a property of type `ty`
whose other keywords do not matter here, with recursion limit `n + 1`. -/
def validated (E : Env) (n : Nat) (ty : PropTy) (inst : Option Nat) (v : Val) (w : World) :
    Except PyErr Val :=
  (run E (n + 1) (.validate (s% "p") (.mk true none none .undef ty) inst v) w).1

/-- It raised ValidationError. -/
def IsValidationError {α : Type} (x : Except PyErr α) : Prop :=
  ∃ e, x = .error e ∧ e.kind = .validation

/-- The exact value of a bool, an int or a finite float. -/
def exactly : Val → Option Rat
  | .bool b => some (if b then 1 else 0)
  | .int i => some i
  | .float (.fin q) => some q
  | _ => none

/-- `i` is `q` without its fractional part. -/
def IsTruncation (q : Rat) (i : Int) : Prop :=
  (0 ≤ q → (i : Rat) ≤ q ∧ q < i + 1) ∧ (q ≤ 0 → q ≤ i ∧ (i : Rat) - 1 < q)

/-- `min <= q <= max` with either bound possibly absent. -/
def Within (mn mx : Option Rat) (q : Rat) : Prop :=
  (∀ m, mn = some m → m ≤ q) ∧ (∀ m, mx = some m → q ≤ m)

/-- The distance from `q` to `i` is at most the double written 1e-9. -/
def Near (q : Rat) (i : Int) : Prop :=
  q - i ≤ 4835703278458517 / 4835703278458516698824704 ∧
  (i : Rat) - q ≤ 4835703278458517 / 4835703278458516698824704

/-- `s` without the characters of `cs` at both ends: `s = a ++ t ++ b`, where
`a` and `b` consist of such characters and `t` neither starts nor ends with
one. -/
def IsStripped (cs s t : PyStr) : Prop :=
  ∃ a b, s = a ++ t ++ b ∧ (∀ c ∈ a, c ∈ cs) ∧ (∀ c ∈ b, c ∈ cs) ∧
    (∀ c, t.head? = some c → c ∉ cs) ∧ (∀ c, t.getLast? = some c → c ∉ cs)

/-- An integer from 0 to 255 (`True` and `False` are integers in Python). -/
def IsByte (v : Val) : Prop := (∃ i : Int, v = .int i ∧ 0 ≤ i ∧ i ≤ 255) ∨ ∃ b, v = .bool b

/-- An RGB triple. -/
def IsRGB (v : Val) : Prop :=
  ∃ a b c, v = .tup [a, b, c] ∧ IsByte a ∧ IsByte b ∧ IsByte c

/-- The hexadecimal digits and their values. -/
def hexTable : List (Char × Nat) :=
  [('0', 0), ('1', 1), ('2', 2), ('3', 3), ('4', 4), ('5', 5), ('6', 6), ('7', 7), ('8', 8),
   ('9', 9), ('A', 10), ('B', 11), ('C', 12), ('D', 13), ('E', 14), ('F', 15),
   ('a', 10), ('b', 11), ('c', 12), ('d', 13), ('e', 14), ('f', 15)]

/-- `c` is a hexadecimal digit, of either case, with value `d`. -/
def HexDigit (c : Char) (d : Nat) : Prop := (c, d) ∈ hexTable

/-- The upper case form of an ASCII character. -/
def asciiUpper (c : Char) : Char :=
  if 97 ≤ c.toNat ∧ c.toNat ≤ 122 then Char.ofNat (c.toNat - 32) else c

/-- `str.upper` on ASCII text: a law of the external function. -/
def AsciiUpper (E : Env) : Prop :=
  ∀ s : PyStr, (∀ c ∈ s, c.toNat < 128) → E.upper s = s.map asciiUpper

end Verif.Spec
