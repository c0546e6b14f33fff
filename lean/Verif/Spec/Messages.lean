import Verif.Models.Messages

/-!
# Specification: descriptions
-/

namespace Verif.Spec.Msg
open Verif.Msg

/-- Texts of numbers: different numbers have different texts, which are not empty, contain neither commas,
brackets, spaces nor parentheses and are not those of the infinities. -/
structure Plain (T : Texts) : Prop where
  numInj : ∀ a b, T.num a = T.num b → a = b
  numChars : ∀ a, ∀ c ∈ T.num a, c ≠ ',' ∧ c ≠ ']'
  numInf : ∀ a, T.num a ≠ s% "inf" ∧ T.num a ≠ s% "-inf"
  natInj : ∀ a b, T.nat a = T.nat b → a = b
  natZero : T.nat 0 = s% "0"
  natChars : ∀ a, ∀ c ∈ T.nat a, c ≠ ' ' ∧ c ≠ ')'

/-- A name: no spaces and no quotes. -/
def Name (s : PyStr) : Prop := ∀ c ∈ s, c ≠ ' ' ∧ c ≠ '\''

/-- The lengths a container declaration allows. -/
def Allows (mn mx : Option Nat) (n : Nat) : Prop := (∀ a, mn = some a → a ≤ n) ∧ ∀ b, mx = some b → n ≤ b

/-- Types of the same kind, with Unions apart. -/
inductive SameKind : PropTy → PropTy → Prop
  | any : SameKind .any .any
  | boolean {c c'} : SameKind (.boolean c) (.boolean c')
  | integer {c c' mn mx} : SameKind (.integer c mn mx) (.integer c' mn mx)
  | float {c c' mn mx} : SameKind (.float c mn mx) (.float c' mn mx)
  | complex {c c'} : SameKind (.complex c) (.complex c')
  | string {a b c d e f} : SameKind (.string a b c) (.string d e f)
  | choice {a b c d} : SameKind (.choice a b) (.choice c d)
  | color : SameKind .color .color
  | datetime : SameKind .datetime .datetime
  | uuid : SameKind .uuid .uuid
  | seq {k i i' a b a' b' c c'} : (∀ n, Allows a b n ↔ Allows a' b' n) → SameKind (.seq k i a b c) (.seq k i' a' b' c')
  | dict {a b c d e f} : SameKind (.dict a b c) (.dict d e f)
  | inst {c c'} : SameKind (.inst c) (.inst c')

end Verif.Spec.Msg
