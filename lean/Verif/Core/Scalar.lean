import Verif.Core.Types
import Verif.Core.Colors

/-!
# Scalar property types of basic.py

Pure parts of `validate`, `equal`, `to_json` and `from_json`.  A failure is
either a call of `self.error` (which raises ValidationError) or another
exception that escapes.
-/

namespace Verif

/-- How a scalar `validate` fails: `invalid n` means `self.error` is called
`n` times, each call inside the handler of the previous one (Integer.validate
catches its own ValidationError, basic.py:813-822); `raw k` is any other
exception that escapes. -/
inductive SErr where
  | invalid (times : Nat)
  | raw (k : ErrKind)
  deriving DecidableEq, Repr

/-- `TOL = 1e-9` (basic.py:19): the rational value of the double `1e-9`. -/
def TOL : Rat := 4835703278458517 / 4835703278458516698824704

/-- `int(x)` for a finite float: truncation toward zero. -/
def ratTrunc (q : Rat) : Int := Int.tdiv q.num q.den

/-- `abs(q)` on rationals. -/
def ratAbs (q : Rat) : Rat := if q < 0 then -q else q

/-- Python `int(v)`: numbers, numeric text, and UUIDs (which have `__int__`). -/
def pyInt (E : Env) : Val → Except ErrKind Int
  | .bool b => .ok (if b then 1 else 0)
  | .int i => .ok i
  | .float (.fin q) => .ok (ratTrunc q)
  | .float .nan => .error .value
  | .float .pinf => .error .overflow
  | .float .ninf => .error .overflow
  | .str s => match E.intOfStr s with
      | some i => .ok i
      | none => .error .value
  | .uuid n => .ok n
  | _ => .error .type

/-- `float(int)`: rounding, OverflowError when too large. -/
def floatOfInt (E : Env) (i : Int) : Except ErrKind PyFloat :=
  match E.rnd i with
  | .fin q => .ok (.fin q)
  | _ => .error .overflow

/-- Python `float(v)`. -/
def pyFloat (E : Env) : Val → Except ErrKind PyFloat
  | .bool b => .ok (.fin (if b then 1 else 0))
  | .int i => floatOfInt E i
  | .float f => .ok f
  | .str s => match E.floatOfStr s with
      | some f => .ok f
      | none => .error .value
  | _ => .error .type

/-- Python `complex(v)`. -/
def pyComplex (E : Env) : Val → Except ErrKind (PyFloat × PyFloat)
  | .bool b => .ok (.fin (if b then 1 else 0), .fin 0)
  | .int i => (floatOfInt E i).map (fun f => (f, .fin 0))
  | .float f => .ok (f, .fin 0)
  | .cplx a b => .ok (a, b)
  | .str s => match E.cplxOfStr s with
      | some z => .ok z
      | none => .error .value
  | _ => .error .type

/-- `_in_bounds` (basic.py:764-770) for a finite value; bounds are inclusive. -/
def inBounds (mn mx : Option Rat) (q : Rat) : Bool :=
  (match mn with | some m => !(decide (q < m)) | none => true) &&
  (match mx with | some m => !(decide (m < q)) | none => true)

/-- `_in_bounds` on floats: the comparisons `value < min` and `value > max`
are false for NaN, so NaN passes (basic.py:766-769). -/
def inBoundsF (mn mx : Option Rat) (f : PyFloat) : Bool :=
  (match mn with | some m => !(PyFloat.lt f (.fin m)) | none => true) &&
  (match mx with | some m => !(PyFloat.lt (.fin m) f) | none => true)

/-- `Boolean.validate` (basic.py:732-738). -/
def boolValidate (cast : Bool) (v : Val) : Except SErr Val :=
  let v := if cast then .bool v.truthy else v
  match v with
  | .bool b => .ok (.bool b)
  | _ => .error (.invalid 1)

/-- The test `abs(value - intval) > TOL` of basic.py:815 once `int(value)` has
succeeded; `none` for the TypeError of text and UUIDs.  `value - intval` is
exact for a float and its truncation. -/
def intFar (v : Val) (i : Int) : Option Bool :=
  match v with
  | .bool b => some (decide (ratAbs ((if b then 1 else 0) - i) > TOL))
  | .int j => some (decide (ratAbs ((j : Rat) - i) > TOL))
  | .float (.fin q) => some (decide (ratAbs (q - i) > TOL))
  | _ => none

/-- `Integer.validate` (basic.py:811-824). -/
def intValidate (E : Env) (cast : Bool) (mn mx : Option Rat) (v : Val) : Except SErr Val :=
  match pyInt E v with
  | .error .value => .error (.invalid 1)
  | .error .type => .error (.invalid 1)
  | .error k => .error (.raw k)
  | .ok i =>
      let tol : Except SErr Unit :=
        if cast then .ok ()
        else match intFar v i with
          | some true => .error (.invalid 2)
          | some false => .ok ()
          | none => .error (.invalid 1)
      match tol with
      | .error e => .error e
      | .ok () => if inBounds mn mx i then .ok (.int i) else .error (.invalid 1)

/-- Whether the value is text. -/
def Val.isStr : Val → Bool
  | .str _ => true
  | _ => false

/-- `Float.validate` (basic.py:862-878).  For bool, int and float the tolerance
test of line 869 compares the value with its own conversion (an int operand is
converted again by the subtraction), so the difference is zero or NaN and the
branch is never taken; for text the subtraction raises TypeError. -/
def floatValidate (E : Env) (cast : Bool) (mn mx : Option Rat) (v : Val) : Except SErr Val :=
  match pyFloat E v with
  | .error .value => .error (.invalid 1)
  | .error .type => .error (.invalid 1)
  | .error k => .error (.raw k)
  | .ok f =>
      if v.isStr && !cast then .error (.invalid 1)
      else if inBoundsF mn mx f then .ok (.float f) else .error (.invalid 1)

/-- `Complex.validate` (basic.py:909-927); as for Float the tolerance test only
matters for text, which has no `.real`. -/
def complexValidate (E : Env) (cast : Bool) (v : Val) : Except SErr Val :=
  match pyComplex E v with
  | .error .value => .error (.invalid 1)
  | .error .type => .error (.invalid 1)
  | .error k => .error (.raw k)
  | .ok z =>
      if v.isStr && !cast then .error (.invalid 1) else .ok (.cplx z.1 z.2)

/-- `change_case` step of String.validate (basic.py:1031-1034). -/
def changeCase (E : Env) : CaseMode → PyStr → PyStr
  | .keep, s => s
  | .upper, s => E.upper s
  | .lower, s => E.lower s

/-- `self.regex is None or self.regex.search(value) is not None`
(basic.py:1028). -/
def regexOk (E : Env) : Option Nat → PyStr → Bool
  | some r, s => E.search r s
  | none, _ => true

/-- `String.validate` (basic.py:1023-1039): the regex is searched in the input
before stripping.  In Python 3 both branches of `unicode` return the string. -/
def stringValidate (E : Env) (chars : PyStr) (cs : CaseMode) (regex : Option Nat)
    (v : Val) : Except SErr Val :=
  match v with
  | .str s =>
      if regexOk E regex s then
        .ok (.str (changeCase E cs (strip chars s)))
      else .error (.invalid 1)
  | _ => .error (.invalid 1)

/-- Comparison key of StringChoice (basic.py:1165-1167). -/
def choiceKey (E : Env) (caseSensitive : Bool) (s : PyStr) : PyStr :=
  if caseSensitive then s else E.upper s

/-- The loop of `StringChoice.validate` (basic.py:1164-1169). -/
def choiceFind (E : Env) (caseSensitive : Bool) (s : PyStr) :
    List (PyStr × List PyStr) → Option PyStr
  | [] => none
  | (key, vals) :: rest =>
      if choiceKey E caseSensitive s = choiceKey E caseSensitive key ∨
         choiceKey E caseSensitive s ∈ vals.map (choiceKey E caseSensitive)
      then some key
      else choiceFind E caseSensitive s rest

/-- `StringChoice.validate` (basic.py:1160-1170). -/
def choiceValidate (E : Env) (choices : List (PyStr × List PyStr)) (caseSensitive : Bool)
    (v : Val) : Except SErr Val :=
  match v with
  | .str s => match choiceFind E caseSensitive s choices with
      | some k => .ok (.str k)
      | none => .error (.invalid 1)
  | _ => .error (.invalid 1)

/-- The value of one colour channel given as text, `int(value[i:i+2], 16)`. -/
def hexPair (a b : Char) : Option Int := intBase16? [a, b]

/-- `''.join(v*2 for v in value)` if there are three characters
(basic.py:1193-1194). -/
def doubled (u : PyStr) : PyStr := if u.length = 3 then u.flatMap (fun c => [c, c]) else u

/-- Six characters read in pairs (basic.py:1195-1204). -/
def hexPairs (u : PyStr) : Except SErr (List Val) :=
  match u with
  | [a, b, c, d, e, f] =>
      match hexPair a b, hexPair c d, hexPair e f with
      | some x, some y, some z => .ok [.int x, .int y, .int z]
      | _, _, _ => .error (.invalid 1)
  | _ => .error (.invalid 1)

/-- The text path of `Color.validate` after name lookup and random choice
(basic.py:1192-1204): upper case, strip leading `#`, double three digits, six
characters read in pairs. -/
def colorOfText (E : Env) (s : PyStr) : Except SErr (List Val) :=
  hexPairs (doubled (lstrip (s% "#") (E.upper s)))

/-- `isinstance(val, integer_types) and 0 <= val <= 255` (basic.py:1211);
`bool` is a subclass of `int`. -/
def isChannel : Val → Bool
  | .bool _ => true
  | .int i => decide (0 ≤ i ∧ i ≤ 255)
  | _ => false

/-- The final checks of `Color.validate` (basic.py:1205-1214). -/
def colorOfItems (xs : List Val) : Except SErr Val :=
  if xs.length = 3 then
    if xs.all isChannel then .ok (.tup xs) else .error (.invalid 1)
  else .error (.invalid 1)

/-- `COLORS_NAMED.get(value, value)` (basic.py:1189). -/
def colorName (s : PyStr) : PyStr := (lookupS s colorsNamed).getD s

/-- Whether the text asks for a random colour (basic.py:1190). -/
def colorIsRandom (E : Env) (s : PyStr) : Bool := E.upper (colorName s) == s% "RANDOM"

/-- `Color.validate` (basic.py:1186-1214); `pick` is the index drawn by
`random.choice`. -/
def colorValidate (E : Env) (pick : Nat) (v : Val) : Except SErr Val :=
  match v with
  | .str s =>
      let s := colorName s
      let s := if E.upper s == s% "RANDOM" then
          (colors20[pick % colors20.length]?).getD [] else s
      match colorOfText E s with
      | .ok xs => colorOfItems xs
      | .error e => .error e
  | .list xs => colorOfItems xs
  | .tup xs => colorOfItems xs
  | _ => .error (.invalid 1)

/-- `DateTime.validate` (basic.py:1238-1255). -/
def dtValidate (E : Env) (v : Val) : Except SErr Val :=
  match v with
  | .dt t => .ok (.dt t)
  | .str s => match E.dtOfStr s with
      | some t => .ok (.dt t)
      | none => .error (.invalid 1)
  | _ => .error (.invalid 1)

/-- `Uuid.validate` (basic.py:1285-1289). -/
def uuidValidate (v : Val) : Except SErr Val :=
  match v with
  | .uuid n => .ok (.uuid n)
  | _ => .error (.invalid 1)

/-- `validate` of the types that do not call other properties; `none` for the
types that do. -/
def scalarValidate (E : Env) (pick : Nat) (ty : PropTy) (v : Val) : Option (Except SErr Val) :=
  match ty with
  | .any => some (.ok v)
  | .boolean c => some (boolValidate c v)
  | .integer c mn mx => some (intValidate E c mn mx v)
  | .float c mn mx => some (floatValidate E c mn mx v)
  | .complex c => some (complexValidate E c v)
  | .string s c r => some (stringValidate E s c r v)
  | .choice cs b => some (choiceValidate E cs b v)
  | .color => some (colorValidate E pick v)
  | .datetime => some (dtValidate E v)
  | .uuid => some (uuidValidate v)
  | _ => none

/-- `a - b` on floats, the difference of finite floats being rounded. -/
def PyFloat.sub (E : Env) : PyFloat → PyFloat → PyFloat
  | .nan, _ => .nan
  | _, .nan => .nan
  | .pinf, .pinf => .nan
  | .pinf, _ => .pinf
  | .ninf, .ninf => .nan
  | .ninf, _ => .ninf
  | .fin _, .pinf => .ninf
  | .fin _, .ninf => .pinf
  | .fin a, .fin b => E.rnd (a - b)

/-- `abs(f) <= TOL`. -/
def PyFloat.small : PyFloat → Bool
  | .fin q => decide (ratAbs q ≤ TOL)
  | _ => false

/-- The real number a bool, int or float denotes together with whether it is
an int (for exact integer subtraction). -/
inductive RealNum where
  | int (i : Int)
  | flt (f : PyFloat)

def Val.realNum? : Val → Option RealNum
  | .bool b => some (.int (if b then 1 else 0))
  | .int i => some (.int i)
  | .float f => some (.flt f)
  | _ => Option.none

def RealNum.toFloat (E : Env) : RealNum → Except ErrKind PyFloat
  | .int i => floatOfInt E i
  | .flt f => .ok f

/-- `abs(a - b) <= TOL` on real numbers: exact for two ints, otherwise both are
converted to float (OverflowError for a huge int). -/
def realClose (E : Env) (a b : RealNum) : Except ErrKind Bool :=
  match a, b with
  | .int i, .int j => .ok (decide (ratAbs ((i : Rat) - j) ≤ TOL))
  | a, b =>
      match a.toFloat E with
      | .error k => .error k
      | .ok x => match b.toFloat E with
        | .error k => .error k
        | .ok y => .ok (PyFloat.small (PyFloat.sub E x y))

/-- Real and imaginary part, as the attributes `.real`, `.imag`. -/
def Val.realPart? : Val → Option RealNum
  | .cplx a _ => some (.flt a)
  | v => v.realNum?
def Val.imagPart? : Val → Option RealNum
  | .cplx _ b => some (.flt b)
  | .bool _ => some (.int 0)
  | .int _ => some (.int 0)
  | .float _ => some (.flt (.fin 0))
  | _ => Option.none

/-- `Float.equal` (basic.py:880-884); TypeError gives False, OverflowError
escapes.  For a complex operand the modulus is compared exactly. -/
def floatEqual (E : Env) (a b : Val) : Except ErrKind Bool :=
  match a.realNum?, b.realNum? with
  | some x, some y => realClose E x y
  | _, _ =>
      match a.num?, b.num? with
      | some (.fin ar, .fin ai), some (.fin br, .fin bi) =>
          .ok (decide ((ar - br) * (ar - br) + (ai - bi) * (ai - bi) ≤ TOL * TOL))
      | _, _ => .ok false

/-- `Complex.equal` (basic.py:929-935). -/
def complexEqual (E : Env) (a b : Val) : Except ErrKind Bool :=
  match a.realPart?, b.realPart?, a.imagPart?, b.imagPart? with
  | some ar, some br, some ai, some bi =>
      match realClose E ar br with
      | .error k => .error k
      | .ok x => match realClose E ai bi with
        | .error k => .error k
        | .ok y => .ok (x && y)
  | _, _, _, _ => .ok false

/-- `a is b`: decided for singletons and objects, the parameter `same`
otherwise. -/
def isSame (E : Env) : Val → Val → Bool
  | .none, .none => true
  | .undef, .undef => true
  | .bool a, .bool b => a == b
  | .obj a, .obj b => a == b
  | .opq a, .opq b => a == b
  | .int a, .int b => E.same (.int a) (.int b)
  | .float a, .float b => E.same (.float a) (.float b)
  | .cplx a b, .cplx c d => E.same (.cplx a b) (.cplx c d)
  | .str a, .str b => E.same (.str a) (.str b)
  | .dt a, .dt b => E.same (.dt a) (.dt b)
  | .uuid a, .uuid b => E.same (.uuid a) (.uuid b)
  | .list a, .list b => E.same (.list a) (.list b)
  | .tup a, .tup b => E.same (.tup a) (.tup b)
  | .set a, .set b => E.same (.set a) (.set b)
  | .dict a, .dict b => E.same (.dict a) (.dict b)
  | _, _ => false

/-- `equal` of the types that do not call other properties or instances. -/
def scalarEqual (E : Env) (ty : PropTy) (a b : Val) : Option (Except ErrKind Bool) :=
  match ty with
  | .boolean _ => some (.ok (isSame E a b))
  | .float _ _ _ => some (floatEqual E a b)
  | .complex _ => some (complexEqual E a b)
  | .seq .. => none
  | .dict .. => none
  | .inst _ => none
  | .union .. => none
  | _ => some (.ok (pyEq a b))

/-- `to_json` of the scalar types (basic.py:316-319, 886-890, 937-939,
1216-1218, 1257-1259, 1291-1293).  `str()` of values that are not complex
(Complex) or UUID (Uuid) is not modelled: TypeError. -/
def scalarToJson (E : Env) (ty : PropTy) (v : Val) : Option (Except ErrKind Val) :=
  match ty with
  | .float _ _ _ => some (match v with
      | .float .nan => .ok (.str (s% "nan"))
      | .float .pinf => .ok (.str (s% "inf"))
      | .float .ninf => .ok (.str (s% "-inf"))
      | .float f => .ok (.float f)
      | .int i => .ok (.int i)
      | .bool b => .ok (.bool b)
      | _ => .error .type)
  | .complex _ => some (match v with
      | .cplx a b => .ok (.str (E.strOfCplx a b))
      | _ => .error .type)
  | .color => some (match v.iter? with
      | some xs => .ok (.list xs)
      | none => .error .type)
  | .datetime => some (match v with
      | .dt t => .ok (.str (E.dtToStr t))
      | _ => .error .attr)
  | .uuid => some (match v with
      | .uuid n => .ok (.str (E.uuidToStr n))
      | _ => .error .type)
  | .seq .. => none
  | .dict .. => none
  | .inst _ => none
  | .union .. => none
  | _ => some (.ok v)

/-- `Boolean.from_json` (basic.py:743-756): an int that is not a bool is
returned as it is. -/
def boolFromJson (E : Env) (v : Val) : Except ErrKind Val :=
  match v with
  | .str s =>
      if E.upper s ∈ [s% "TRUE", s% "Y", s% "YES", s% "ON"] then .ok (.bool true)
      else if E.upper s ∈ [s% "FALSE", s% "N", s% "NO", s% "OFF"] then .ok (.bool false)
      else .error .value
  | .int i => .ok (.int i)
  | .bool b => .ok (.bool b)
  | _ => .error .value

/-- `from_json` of the scalar types (basic.py:321-324, 841-843, 892-894,
941-943, 1220-1222, 1261-1266, 1295-1297). -/
def scalarFromJson (E : Env) (ty : PropTy) (v : Val) : Option (Except ErrKind Val) :=
  match ty with
  | .boolean _ => some (boolFromJson E v)
  | .integer _ _ _ => some ((pyInt E v).map Val.int)
  | .float _ _ _ => some ((pyFloat E v).map Val.float)
  | .complex _ => some ((pyComplex E v).map (fun z => Val.cplx z.1 z.2))
  | .color => some (match v.iter? with
      | some xs => .ok (.tup xs)
      | none => .error .type)
  | .datetime => some (match v with
      | .str s => match E.dtOfStr s with
          | some t => .ok (.dt t)
          | none => .error .value
      | v => match v.len? with
          | some n => if n = 10 then .error .attr else .error .type
          | none => .error .type)
  | .uuid => some (match v with
      | .str s => match E.uuidOfStr s with
          | some n => .ok (.uuid n)
          | none => .error .value
      | .uuid n => match E.uuidOfStr (E.uuidToStr n) with
          | some m => .ok (.uuid m)
          | none => .error .value
      | _ => .error .value)
  | .seq .. => none
  | .dict .. => none
  | .inst _ => none
  | .union .. => none
  | _ => some (.ok v)

end Verif
