import Verif.Py.Str

/-!
# PNG images

`ImagePNG.validate`, `to_json` and `from_json` (images.py:53-108) on byte
streams, with `base64.b64encode` and `base64.b64decode` of the standard library
(the state machine of `binascii.a2b_base64`) and `png.Reader.validate_signature`
of pypng as functions.  `File.validate` (basic.py:1378-1398) is its outcome: the
file is open and readable, or there is an error.  A stream is its content and
position.
-/

namespace Verif.Png

/-- A byte. -/
abbrev Byte := Fin 256

/-- `BytesIO`, or an open binary file. -/
structure Stream where
  data : List Byte
  pos : Nat
  deriving DecidableEq

/-- `read()`: the rest, and the stream at its end. -/
def Stream.read (s : Stream) : List Byte × Stream := (s.data.drop s.pos, { s with pos := max s.pos s.data.length })

/-- `read(n)`. -/
def Stream.readN (s : Stream) (n : Nat) : List Byte × Stream :=
  ((s.data.drop s.pos).take n, { s with pos := s.pos + ((s.data.drop s.pos).take n).length })

/-- `seek(0)`. -/
def Stream.rewind (s : Stream) : Stream := { s with pos := 0 }

/-! ## Base 64 -/

/-- The symbol of a number below 64. -/
def symbol (n : Nat) : Char :=
  if n < 26 then Char.ofNat (65 + n)
  else if n < 52 then Char.ofNat (97 + (n - 26))
  else if n < 62 then Char.ofNat (48 + (n - 52))
  else if n = 62 then '+'
  else '/'

/-- The number of a symbol. -/
def symbolValue (c : Char) : Option Nat :=
  if 65 ≤ c.toNat ∧ c.toNat ≤ 90 then some (c.toNat - 65)
  else if 97 ≤ c.toNat ∧ c.toNat ≤ 122 then some (c.toNat - 97 + 26)
  else if 48 ≤ c.toNat ∧ c.toNat ≤ 57 then some (c.toNat - 48 + 52)
  else if c = '+' then some 62
  else if c = '/' then some 63
  else none

/-- `base64.b64encode(data).decode()`. -/
def b64encode : List Byte → PyStr
  | [] => []
  | [a] => [symbol (a.val / 4), symbol (a.val % 4 * 16), '=', '=']
  | [a, b] => [symbol (a.val / 4), symbol (a.val % 4 * 16 + b.val / 16), symbol (b.val % 16 * 4), '=']
  | a :: b :: c :: rest =>
      symbol (a.val / 4) :: symbol (a.val % 4 * 16 + b.val / 16) :: symbol (b.val % 16 * 4 + c.val / 64) ::
        symbol (c.val % 64) :: b64encode rest

/-- `a2b_base64`: position in the group of four, bits left over, padding seen.
Other characters are skipped. -/
def b64loop : Nat → Nat → Nat → List Byte → PyStr → Option (List Byte)
  | quad, _, _, out, [] => if quad = 0 then some out.reverse else none
  | quad, left, pads, out, c :: rest =>
      if c = '=' then
        if 2 ≤ quad ∧ 4 ≤ quad + (pads + 1) then some out.reverse
        else b64loop quad left (if 2 ≤ quad then pads + 1 else pads) out rest
      else match symbolValue c with
        | none => b64loop quad left pads out rest
        | some v => match quad with
            | 0 => b64loop 1 v 0 out rest
            | 1 => b64loop 2 (v % 16) 0 (Fin.ofNat 256 (left * 4 + v / 16) :: out) rest
            | 2 => b64loop 3 (v % 4) 0 (Fin.ofNat 256 (left * 16 + v / 4) :: out) rest
            | _ => b64loop 0 0 0 (Fin.ofNat 256 (left * 64 + v) :: out) rest

/-- `base64.b64decode(text.encode('utf-8'))`; `none` is binascii.Error. -/
def b64decode (s : PyStr) : Option (List Byte) := b64loop 0 0 0 [] s

/-! ## The property -/

/-- `PNG_PREAMBLE` (images.py:15). -/
def preamble : PyStr := s% "data:image/png;base64,"

/-- `png.signature`. -/
def signature : List Byte := [137, 80, 78, 71, 13, 10, 26, 10]

/-- What may be assigned. -/
inductive Input where
  /-- a value that has been validated before -/
  | validated (s : Stream)
  /-- an image of the png module, with the bytes that `write` writes -/
  | image (bytes : List Byte)
  /-- an open file, or the file opened by `File.validate` -/
  | file (s : Stream)
  /-- anything that `File.validate` refuses -/
  | other

/-- Errors. -/
inductive PngErr where
  | validation
  | value
  | binascii
  deriving DecidableEq

/-- `ImagePNG.validate` (images.py:53-83). -/
def validate : Input → Except PngErr Stream
  | .validated s => .ok s
  | .image bytes => .ok ⟨bytes, 0⟩
  | .file s =>
      if (s.readN 8).1 = signature then .ok ⟨(s.readN 8).2.rewind.read.1, 0⟩ else .error .validation
  | .other => .error .validation

/-- `ImagePNG.to_json` (images.py:85-97): the text, and the stream afterwards. -/
def toJson (s : Stream) : PyStr × Stream := (preamble ++ b64encode s.read.1, s.read.2.rewind)

/-- `ImagePNG.from_json` (images.py:99-108). -/
def fromJson (t : PyStr) : Except PngErr Stream :=
  if preamble.isPrefixOf t then match b64decode (t.drop preamble.length) with
    | some bytes => .ok ⟨bytes, 0⟩
    | none => .error .binascii
  else .error .value

end Verif.Png
