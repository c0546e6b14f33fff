import Verif.Spec.RoundTrip
import Verif.Spec.Locality

/-!
# Specification: data that passes through a JSON text
-/

namespace Verif.Spec

/-- Values written to and read from JSON as they are. -/
inductive Atom : Val → Prop
  | none : Atom .none
  | bool (b : Bool) : Atom (.bool b)
  | int (i : Int) : Atom (.int i)
  | float (f : PyFloat) : Atom (.float f)
  | str (s : PyStr) : Atom (.str s)

/-- What a JSON text describes: dictionaries have distinct keys, and they are
texts. -/
inductive AsText : Val → Prop
  | atom (v : Val) : Atom v → AsText v
  | list (xs : List Val) : (∀ x ∈ xs, AsText x) → AsText (.list xs)
  | dict (kvs : List (Val × Val)) : (∀ kv ∈ kvs, ∃ t, kv.1 = .str t) → (kvs.map (·.1)).Nodup →
      (∀ kv ∈ kvs, AsText kv.2) → AsText (.dict kvs)

/-- What can be written as JSON. -/
inductive Writable : Val → Prop
  | atom (v : Val) : Atom v → Writable v
  | list (xs : List Val) : (∀ x ∈ xs, Writable x) → Writable (.list xs)
  | tup (xs : List Val) : (∀ x ∈ xs, Writable x) → Writable (.tup xs)
  | dict (kvs : List (Val × Val)) : (∀ kv ∈ kvs, JsonKey kv.1) → (∀ kv ∈ kvs, Writable kv.2) →
      Writable (.dict kvs)

/-- `t` is the text for a key; `F` gives the text of a float. -/
inductive KeyIs (F : PyFloat → PyStr) : Val → PyStr → Prop
  | none : KeyIs F .none ['n', 'u', 'l', 'l']
  | yes : KeyIs F (.bool true) ['t', 'r', 'u', 'e']
  | no : KeyIs F (.bool false) ['f', 'a', 'l', 's', 'e']
  | int (i : Int) : KeyIs F (.int i) (toString i).toList
  | float (f : PyFloat) : KeyIs F (.float f) (F f)
  | str (s : PyStr) : KeyIs F (.str s) s

/-- `x` is the value of the last entry whose key has text `t`. -/
def LastAt (F : PyFloat → PyStr) (kvs : List (Val × Val)) (t : PyStr) (x : Val) : Prop :=
  ∃ pre k post, kvs = pre ++ (k, x) :: post ∧ KeyIs F k t ∧ ∀ kv ∈ post, ¬ KeyIs F kv.1 t

/-- `j` is read from the JSON text of `v`: tuples have become lists, keys have
become texts, and each key has the last of the values written for it. -/
inductive ReadFrom (F : PyFloat → PyStr) : Val → Val → Prop
  | atom (v : Val) : Atom v → ReadFrom F v v
  | list (xs ys : List Val) : xs.length = ys.length →
      (∀ (i : Nat) x y, xs[i]? = some x → ys[i]? = some y → ReadFrom F x y) →
      ReadFrom F (.list xs) (.list ys)
  | tup (xs ys : List Val) : xs.length = ys.length →
      (∀ (i : Nat) x y, xs[i]? = some x → ys[i]? = some y → ReadFrom F x y) →
      ReadFrom F (.tup xs) (.list ys)
  | dict (kvs lvs : List (Val × Val)) : (lvs.map (·.1)).Nodup →
      (∀ k, k ∈ lvs.map (·.1) ↔ ∃ t, k = .str t ∧ ∃ kv ∈ kvs, KeyIs F kv.1 t) →
      (∀ t x y, (.str t, y) ∈ lvs → LastAt F kvs t x → ReadFrom F x y) →
      ReadFrom F (.dict kvs) (.dict lvs)

/-- Types written as text. -/
def WritesText : PropTy → Prop
  | .complex _ | .string .. | .choice .. | .datetime | .uuid => True
  | _ => False

mutual
/-- No serializer is registered and every Dictionary has keys written as text;
at any depth, no plain Property. -/
def TextKeyed : PropSpec → Prop
  | .mk _ s _ _ ty => s = none ∧ TextKeyedTy ty
def TextKeyedTy : PropTy → Prop
  | .any => False
  | .seq _ item _ _ _ => TextKeyed item
  | .dict kp vp _ => (kp.ser = none ∧ WritesText kp.ty) ∧ TextKeyed vp
  | .union ps _ => TextKeyedAll ps
  | _ => True
def TextKeyedAll : List PropSpec → Prop
  | [] => True
  | p :: ps => TextKeyed p ∧ TextKeyedAll ps
end

/-- All the declared properties are of this kind. -/
def TextKeyedClasses (E : Env) : Prop :=
  ∀ c nm e p, lookupS nm (E.classes c).props = some e → OwnSpec e p → TextKeyed p

end Verif.Spec
