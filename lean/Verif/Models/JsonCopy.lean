import Verif.Core.Types

/-!
# Model: `json.loads(json.dumps(value))`

`Instance.to_json` (instance.py:161-172) passes values that are no HasProperties
instances through a JSON text; programs do the same with what `serialize()`
returns.  The text itself is not modelled: the two functions are taken together,
as Python's json module documents them.  Texts are sequences of characters, so
lone surrogates do not occur.
-/

namespace Verif

/-- `repr` of an int. -/
def intText (i : Int) : PyStr := (toString i).toList

/-- The text written for a dictionary key, by type of the key; other keys are a
TypeError.  `F` is `float.__repr__`, with the names json has for NaN and the
infinities. -/
def keyText (F : PyFloat → PyStr) : Val → Option PyStr
  | .none => some (s% "null")
  | .bool true => some (s% "true")
  | .bool false => some (s% "false")
  | .int i => some (intText i)
  | .float f => some (F f)
  | .str s => some s
  | _ => Option.none

mutual
/-- `json.loads(json.dumps(v))` (instance.py:166); `none` for a TypeError.
Tuples are read as lists, keys as text, and of entries with the same key text the
last one is read. -/
def jsonText (F : PyFloat → PyStr) : Val → Option Val
  | .none => some .none
  | .bool b => some (.bool b)
  | .int i => some (.int i)
  | .float f => some (.float f)
  | .str s => some (.str s)
  | .list xs => (jsonTextL F xs).map Val.list
  | .tup xs => (jsonTextL F xs).map Val.list
  | .dict kvs => (jsonTextD F kvs).map fun l => .dict (dictOfPairs l)
  | .undef | .cplx .. | .dt _ | .uuid _ | .set _ | .obj _ | .opq _ => Option.none
/-- Item by item. -/
def jsonTextL (F : PyFloat → PyStr) : List Val → Option (List Val)
  | [] => some []
  | x :: xs => match jsonText F x, jsonTextL F xs with
      | some y, some ys => some (y :: ys)
      | _, _ => Option.none
/-- Entry by entry. -/
def jsonTextD (F : PyFloat → PyStr) : List (Val × Val) → Option (List (Val × Val))
  | [] => some []
  | (k, x) :: kvs => match keyText F k, jsonText F x, jsonTextD F kvs with
      | some t, some y, some l => some ((.str t, y) :: l)
      | _, _, _ => Option.none
end

end Verif
