import Verif.Spec.Reads
import Verif.Spec.Serialize

/-!
# The JSON forms of the basic types: specification
-/

namespace Verif.Spec

/-- Types whose values are their own JSON form: Property, Boolean, Integer, String, StringChoice. -/
def Verbatim : PropTy → Prop
  | .any | .boolean _ | .integer .. | .string .. | .choice .. => True
  | _ => False

/-- `j` is the JSON form a property of a basic type writes for a value that is not None. -/
inductive JsonForm (E : Env) : PropTy → Val → Val → Prop
  | verbatim {ty : PropTy} (v : Val) : Verbatim ty → JsonForm E ty v v
  | finite {c : Bool} {mn mx : Option Rat} (q : Rat) : JsonForm E (.float c mn mx) (.float (.fin q)) (.float (.fin q))
  | nan {c : Bool} {mn mx : Option Rat} : JsonForm E (.float c mn mx) (.float .nan) (.str (s% "nan"))
  | inf {c : Bool} {mn mx : Option Rat} : JsonForm E (.float c mn mx) (.float .pinf) (.str (s% "inf"))
  | minusInf {c : Bool} {mn mx : Option Rat} : JsonForm E (.float c mn mx) (.float .ninf) (.str (s% "-inf"))
  | floatInt {c : Bool} {mn mx : Option Rat} (i : Int) : JsonForm E (.float c mn mx) (.int i) (.int i)
  | floatBool {c : Bool} {mn mx : Option Rat} (b : Bool) : JsonForm E (.float c mn mx) (.bool b) (.bool b)
  | complex {c : Bool} (a b : PyFloat) : JsonForm E (.complex c) (.cplx a b) (.str (E.strOfCplx a b))
  | color {v : Val} {xs : List Val} : v.iter? = some xs → JsonForm E .color v (.list xs)
  | datetime (t : DateTime) : JsonForm E .datetime (.dt t) (.str (E.dtToStr t))
  | uuid (n : Nat) : JsonForm E .uuid (.uuid n) (.str (E.uuidToStr n))

/-- The texts Boolean reads as True, in upper case. -/
def yesWords : List PyStr := [s% "TRUE", s% "Y", s% "YES", s% "ON"]

/-- The texts Boolean reads as False, in upper case. -/
def noWords : List PyStr := [s% "FALSE", s% "N", s% "NO", s% "OFF"]

/-- `v` is the value a property of a basic type reads from `j`, which is not None. -/
inductive FromJson (E : Env) : PropTy → Val → Val → Prop
  | any (v : Val) : FromJson E .any v v
  | string {cs : PyStr} {m : CaseMode} {r : Option Nat} (v : Val) : FromJson E (.string cs m r) v v
  | choice {kvs : List (PyStr × List PyStr)} {c : Bool} (v : Val) : FromJson E (.choice kvs c) v v
  | yes {c : Bool} {s : PyStr} : E.upper s ∈ yesWords → FromJson E (.boolean c) (.str s) (.bool true)
  | no {c : Bool} {s : PyStr} : E.upper s ∈ noWords → FromJson E (.boolean c) (.str s) (.bool false)
  | bool {c : Bool} (b : Bool) : FromJson E (.boolean c) (.bool b) (.bool b)
  | boolInt {c : Bool} (i : Int) : FromJson E (.boolean c) (.int i) (.int i)
  | integer {c : Bool} {mn mx : Option Rat} {v : Val} {q : Rat} {i : Int} : exactly v = some q →
      IsTruncation q i → FromJson E (.integer c mn mx) v (.int i)
  | integerText {c : Bool} {mn mx : Option Rat} {s : PyStr} {i : Int} : E.intOfStr s = some i →
      FromJson E (.integer c mn mx) (.str s) (.int i)
  | integerUuid {c : Bool} {mn mx : Option Rat} (n : Nat) : FromJson E (.integer c mn mx) (.uuid n) (.int n)
  | float {c : Bool} {mn mx : Option Rat} {v : Val} {f : PyFloat} : ReadsFloat E true v f →
      FromJson E (.float c mn mx) v (.float f)
  | complex {c : Bool} {v : Val} {a b : PyFloat} : ReadsComplex E true v a b →
      FromJson E (.complex c) v (.cplx a b)
  | color {v : Val} {xs : List Val} : v.iter? = some xs → FromJson E .color v (.tup xs)
  | datetime {s : PyStr} {t : DateTime} : E.dtOfStr s = some t → FromJson E .datetime (.str s) (.dt t)
  | uuid {s : PyStr} {n : Nat} : E.uuidOfStr s = some n → FromJson E .uuid (.str s) (.uuid n)
  | uuidItself {n m : Nat} : E.uuidOfStr (E.uuidToStr n) = some m → FromJson E .uuid (.uuid n) (.uuid m)

/-- What the JSON standard can write as a key once turned into text. -/
inductive StrictKey : Val → Prop
  | none : StrictKey .none
  | bool (b : Bool) : StrictKey (.bool b)
  | int (i : Int) : StrictKey (.int i)
  | float (q : Rat) : StrictKey (.float (.fin q))
  | str (s : PyStr) : StrictKey (.str s)

/-- Data the JSON standard can express: no NaN and no infinities. -/
inductive StrictJson : Val → Prop
  | none : StrictJson .none
  | bool (b : Bool) : StrictJson (.bool b)
  | int (i : Int) : StrictJson (.int i)
  | float (q : Rat) : StrictJson (.float (.fin q))
  | str (s : PyStr) : StrictJson (.str s)
  | list (xs : List Val) : (∀ x ∈ xs, StrictJson x) → StrictJson (.list xs)
  | dict (kvs : List (Val × Val)) : (∀ kv ∈ kvs, StrictKey kv.1) → (∀ kv ∈ kvs, StrictJson kv.2) →
      StrictJson (.dict kvs)

end Verif.Spec
