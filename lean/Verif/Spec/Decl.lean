import Verif.Models.Decl
import Verif.Spec.Limits

/-!
# What declarations are for
-/

namespace Verif.Decl.Spec
open Verif.Decl Verif.Limits Verif.Spec

/-- A class has one setter for each limit. -/
structure Single (A : Attrs) : Prop where
  min : ∀ k k', A k = .min → A k' = .min → k = k'
  max : ∀ k k', A k = .max → A k' = .max → k = k'
  minLength : ∀ k k', A k = .minLength → A k' = .minLength → k = k'
  maxLength : ∀ k k', A k = .maxLength → A k' = .maxLength → k = k'

/-- Keyword arguments have distinct names. -/
def Distinct (l : List (PyStr × KV)) : Prop := (l.map (·.1)).Nodup

/-- If both limits are given, neither is `None`. -/
def NoNone (A : Attrs) (l : List (PyStr × KV)) : Prop :=
  ∀ k v k' v', (k, v) ∈ l → (k', v') ∈ l → A k = .min → A k' = .max → v ≠ .val .none ∧ v' ≠ .val .none

/-- Names that can be keywords of the class. -/
def Known (A : Attrs) (k : PyStr) : Prop :=
  k ≠ [] ∧ k.head? ≠ some '_' ∧ k ≠ s% "terms" ∧ A k ≠ .missing ∧ A k ≠ .readOnly

/-- The value that is set. -/
inductive SetTo (A : Attrs) (k : PyStr) (v : KV) : KV → Prop
  | free (f : KV → Option KV) (v' : KV) : A k = .free f → f v = some v' → SetTo A k v v'
  | same : (∀ f, A k ≠ .free f) → SetTo A k v v

/-- What a limit says: `True` is one, `False` is zero. -/
def limit : KV → Bound
  | .val .none => .none
  | .val (.bool true) => .num (.fin 1)
  | .val (.bool false) => .num (.fin 0)
  | .val (.int i) => .num (.fin i)
  | .val (.float f) => .num f
  | .val (.str s) => .text s
  | _ => .other 0

/-- Keywords that are right: each by itself, and the limits in order. -/
structure Fine (A : Attrs) (l : List (PyStr × KV)) : Prop where
  known : ∀ k v, (k, v) ∈ l → Known A k
  free : ∀ k v f, (k, v) ∈ l → A k = .free f → f v ≠ none
  length : ∀ k v, (k, v) ∈ l → A k = .minLength ∨ A k = .maxLength →
    (∃ i : Int, 0 ≤ i ∧ v = .val (.int i)) ∨ ∃ b, v = .val (.bool b)
  bounds : ∀ k v k' v', (k, v) ∈ l → (k', v') ∈ l → A k = .min → A k' = .max → BoundLe (limit v) (limit v')
  lengths : ∀ k v k' v' i j, (k, v) ∈ l → (k', v') ∈ l → A k = .minLength → A k' = .maxLength →
    asInt v.asVal = some i → asInt v'.asVal = some j → i ≤ j

/-- No limit is NaN. -/
def NoNan (A : Attrs) (l : List (PyStr × KV)) : Prop :=
  ∀ k v, (k, v) ∈ l → A k = .min ∨ A k = .max → v ≠ .val (.float .nan)

/-- Settings that are on or off. -/
def flags : List PyStr := [s% "required", s% "cast", s% "unicode", s% "coerce", s% "observe_mutations"]
/-- Settings that are text. -/
def texts : List PyStr := [s% "name", s% "doc", s% "strip"]
/-- Settings that are functions. -/
def functions : List PyStr := [s% "serializer", s% "deserializer"]

/-- A setting that makes sense. -/
structure Sound (k : PyStr) (v : KV) : Prop where
  flag : k ∈ flags → ∃ b, v = .val (.bool b)
  text : k ∈ texts → ∃ s, v = .val (.str s)
  function : k ∈ functions → ∃ n, v = .fn n
  case : k = s% "change_case" → v = .val .none ∨ v = .val (.str (s% "upper")) ∨ v = .val (.str (s% "lower"))

end Verif.Decl.Spec
