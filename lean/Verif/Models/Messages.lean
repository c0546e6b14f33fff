import Verif.Core.Types

/-!
# Descriptions and error messages

`info` of the property types (basic.py:221-224, 830-839, 1041-1048, 1074-1086; containers.py:242-259,
556-568; instance.py:84-87; union.py:105-108) and the message `error` builds (basic.py:326-358).
Texts of numbers, patterns and values come from outside.  Strings are unicode, choices have no
descriptions; File, Array, Pointer and URL are not modelled here.
-/

namespace Verif.Msg

/-- `str` of numbers, and the `pattern` attribute of a regex if it has one. -/
structure Texts where
  num : Rat → PyStr
  nat : Nat → PyStr
  pattern : Nat → Option PyStr

def loText (T : Texts) : Option Rat → PyStr
  | none => s% "-inf"
  | some q => T.num q

def hiText (T : Texts) : Option Rat → PyStr
  | none => s% "inf"
  | some q => T.num q

/-- `Integer.info` (basic.py:831-839). -/
def boundsText (T : Texts) (txt : PyStr) (mn mx : Option Rat) : PyStr :=
  if mn.isNone && mx.isNone then txt
  else txt ++ s% " in range [" ++ loText T mn ++ s% ", " ++ hiText T mx ++ s% "]"

/-- `String.info` (basic.py:1042-1048). -/
def stringText (T : Texts) : Option Nat → PyStr
  | none => s% "a unicode string"
  | some r => match T.pattern r with
      | none => s% "a unicode string that matches pattern"
      | some p => s% "a unicode string that matches pattern" ++ (s% " \"" ++ p ++ s% "\"")

/-- `sep.join(xs)`. -/
def join (sep : PyStr) : List PyStr → PyStr
  | [] => []
  | [x] => x
  | x :: xs => x ++ sep ++ join sep xs

def quote (s : PyStr) : PyStr := s% "\"" ++ s ++ s% "\""

/-- `StringChoice.info` (basic.py:1075-1086) without descriptions. -/
def choiceText (choices : List PyStr) : PyStr :=
  match choices with
  | [a, b] => s% "either " ++ quote a ++ s% " or " ++ quote b
  | cs => s% "any of " ++ join (s% ", ") (cs.map quote)

def kindText : SeqKind → PyStr
  | .tup => s% "a tuple"
  | .list => s% "a list"
  | .set => s% "a set"

/-- The length part of `Tuple.info` (containers.py:248-259). -/
def lengthText (T : Texts) (mn mx : Option Nat) : PyStr :=
  match mn, mx with
  | none, none => []
  | some a, none => s% " with length >= " ++ T.nat a
  | none, some b => s% " with length between " ++ s% "0" ++ s% " and " ++ T.nat b
  | some a, some b =>
      if b = a then s% " with length of " ++ T.nat a
      else s% " with length between " ++ T.nat a ++ s% " and " ++ T.nat b

/-- `Tuple.info` (containers.py:243-259). -/
def seqText (T : Texts) (k : SeqKind) (item : PyStr) (mn mx : Option Nat) : PyStr :=
  kindText k ++ (if item.isEmpty then [] else s% " (each item is " ++ item ++ s% ")") ++ lengthText T mn mx

/-- `Dictionary.info` (containers.py:557-568). -/
def dictText (key value : PyStr) : PyStr :=
  s% "a dictionary" ++
    (if !key.isEmpty && !value.isEmpty then s% " (keys: " ++ key ++ s% "; values: " ++ value ++ s% ")"
     else if !key.isEmpty then s% " (keys: " ++ key ++ s% ")"
     else if !value.isEmpty then s% " (values: " ++ value ++ s% ")"
     else [])

mutual
/-- `prop.info`. -/
def info (T : Texts) (E : Env) : PropSpec → PyStr
  | .mk _ _ _ _ ty => infoTy T E ty
def infoTy (T : Texts) (E : Env) : PropTy → PyStr
  | .any => []
  | .boolean _ => s% "a boolean"
  | .integer _ mn mx => boundsText T (s% "an integer") mn mx
  | .float _ mn mx => boundsText T (s% "a float") mn mx
  | .complex _ => s% "a complex number"
  | .string _ _ r => stringText T r
  | .choice cs _ => choiceText (cs.map (·.1))
  | .color => s% "a color"
  | .datetime => s% "a datetime object"
  | .uuid => s% "a unique ID auto-generated with uuid.uuid4()"
  | .seq k item mn mx _ => seqText T k (info T E item) mn mx
  | .dict kp vp _ => dictText (info T E kp) (info T E vp)
  | .inst c => s% "an instance of " ++ (E.classes c).name
  | .union ps _ => join (s% " or ") (infoAll T E ps)
/-- Union.info names every alternative, a plain Property as `any value` (union.py:106-108). -/
def infoAll (T : Texts) (E : Env) : List PropSpec → List PyStr
  | [] => []
  | p :: ps => (if (info T E p).isEmpty then s% "any value" else info T E p) :: infoAll T E ps
end

/-- The representation of a value in a message (basic.py:340-344). -/
def shown (r : PyStr) : PyStr :=
  if r.length > 107 then r.take 50 ++ s% "  ...  " ++ r.drop (r.length - 50) else r

def nameText (name : PyStr) : PyStr := if name.isEmpty then [] else s% " '" ++ name ++ s% "'"

def ofText : Option PyStr → PyStr
  | none => []
  | some k => s% " of a " ++ k ++ s% " instance"

/-- Which property of which instance a message is about (basic.py:333-339). -/
def subject (cls name : PyStr) (inst : Option PyStr) : PyStr :=
  s% "The " ++ cls ++ s% " property" ++ nameText name ++ ofText inst

/-- The message of `prop.error(instance, value, extra=...)` (basic.py:345-355). -/
def message (cls name : PyStr) (inst : Option PyStr) (desc repr vtype extra : PyStr) : PyStr :=
  subject cls name inst ++ (s% " must be " ++ (if desc.isEmpty then s% "corrected" else desc) ++
    s% ". An invalid value of " ++ shown repr ++ s% " " ++ vtype ++ s% " was specified." ++
    (if extra.isEmpty then [] else s% " " ++ extra))

end Verif.Msg
