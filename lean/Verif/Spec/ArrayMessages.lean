import Verif.Models.ArrayMessages
import Verif.Spec.Arrays

/-!
# Specification: descriptions of arrays
-/

namespace Verif.Spec.ArrMsg
open Verif.Arr Verif.ArrMsg

/-- Integers are written differently, with at least one character, and without commas, parentheses and
backslashes. -/
structure Readable (T : ATexts) : Prop where
  inj : ∀ a b, T.int a = T.int b → a = b
  some : ∀ a, T.int a ≠ []
  chars : ∀ a, ∀ c ∈ T.int a, c ≠ ',' ∧ c ≠ ')' ∧ c ≠ '\\'

/-- Lists, tuples and arrays. -/
inductive Arraylike : Input → Prop
  | list (l : List Item) : Arraylike (.list l)
  | tuple (l : List Item) : Arraylike (.tuple l)
  | array (a : NArr) : Arraylike (.array a)

/-- The value that is checked: what the constructor makes of the given one, or the given one. -/
def Checked (E : AEnv) (p : AProp) (v u : Input) : Prop :=
  (p.coerce = true ∧ ∃ a, E.wrap p.cls v = .ok a ∧ u = .array a) ∨ (p.coerce = false ∧ u = v)

/-- Why a value that is checked is refused. -/
inductive Reason (E : AEnv) (p : AProp) : Input → PyStr → Prop
  | list (l : List Item) : Reason E p (.list l) []
  | tuple (l : List Item) : Reason E p (.tuple l) []
  | cls (a : NArr) : E.sub a.cls p.cls = false → Reason E p (.array a) []
  | dtype (a : NArr) : E.sub a.cls p.cls = true → (∀ t ∈ p.dtype, ¬ Spec.KindFor t a.kind) →
      Reason E p (.array a) (s% "Invalid dtype.")
  | shape (a : NArr) (ss : List (List Dim)) : E.sub a.cls p.cls = true → (∃ t ∈ p.dtype, Spec.KindFor t a.kind) →
      p.shape = some ss → ¬ Spec.HasShape ss a → Reason E p (.array a) (s% "Invalid shape.")

/-- How a message speaks of a list, tuple or array. -/
inductive Spoken (T : ATexts) : Input → PyStr → Prop
  | list (l) : Spoken T (.list l) (s% "A list of length " ++ T.int l.length)
  | tuple (l) : Spoken T (.tuple l) (s% "A tuple of length " ++ T.int l.length)
  | array (a) : Spoken T (.array a) (s% "An array of shape " ++ T.shape a ++ s% " and dtype " ++ T.type a)

/-- The classes by name. -/
inductive Called : ArrDecl.Cls → PyStr → Prop
  | array : Called .array (s% "Array")
  | vec3 : Called .vec3 (s% "Vector3")
  | vec2 : Called .vec2 (s% "Vector2")
  | vec3Array : Called .vec3Array (s% "Vector3Array")
  | vec2Array : Called .vec2Array (s% "Vector2Array")

end Verif.Spec.ArrMsg
