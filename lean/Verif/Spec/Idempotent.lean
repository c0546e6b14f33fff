import Verif.Spec.Types
import Verif.Models.Choice

/-!
# Specification: declarations whose validation can be repeated
-/

namespace Verif.Spec

/-- No character of `cs` at either end. -/
def Trimmed (cs t : PyStr) : Prop :=
  (∀ c, t.head? = some c → c ∉ cs) ∧ (∀ c, t.getLast? = some c → c ∉ cs)

/-- Changing case twice is changing it once, does not bring strip characters to
the ends, and the pattern is found in the result if it is found in the input. -/
structure StableText (E : Env) (cs : PyStr) (m : CaseMode) (regex : Option Nat) : Prop where
  recase : ∀ s, recased E m (recased E m s) = recased E m s
  trim : ∀ t, Trimmed cs t → Trimmed cs (recased E m t)
  found : ∀ s t, Matches E regex s → IsStripped cs s t → Matches E regex (recased E m t)

/-- The instance is none, or one for which errors do not call the error hook: it
is being built or validated. -/
def Silent (w : World) (inst : Option Nat) : Prop :=
  ∀ r o, inst = some r → w.objs[r]? = some o → o.gv ≠ some false

/-- An Integer leaves ints alone and refuses whatever is no number. -/
def IntegerKeeps (cast : Bool) : Val → Prop
  | .bool _ | .float _ => False
  | .str _ | .uuid _ => cast = false
  | _ => True

/-- A Float leaves floats alone and refuses whatever is no number. -/
def FloatKeeps (cast : Bool) : Val → Prop
  | .bool _ | .int _ => False
  | .str _ => cast = false
  | _ => True

/-- A Complex leaves complex numbers alone and refuses whatever is no number. -/
def ComplexKeeps (cast : Bool) : Val → Prop
  | .bool _ | .int _ | .float _ => False
  | .str _ => cast = false
  | _ => True

/-- A container that does not coerce refuses values of another kind. -/
def SeqKeeps (k : SeqKind) (coerce : Bool) : Val → Prop
  | .tup _ => coerce = false ∧ k ≠ .tup
  | .list _ => coerce = false ∧ k ≠ .list
  | .set _ => coerce = false ∧ k ≠ .set
  | _ => coerce = false

/-- The type either refuses the value or leaves it as it is. -/
def Leaves : PropTy → Val → Prop
  | .any, _ => True
  | .boolean cast, v => cast = false ∨ ∃ b, v = .bool b
  | .integer cast _ _, v => IntegerKeeps cast v
  | .float cast _ _, v => FloatKeeps cast v
  | .complex cast, v => ComplexKeeps cast v
  | .string cs m _, v => (cs = [] ∧ m = .keep) ∨ ∀ s, v ≠ .str s
  | .choice .., v => ∀ s, v ≠ .str s
  | .color, v => (∀ s, v ≠ .str s) ∧ ∀ xs, v ≠ .list xs
  | .datetime, v => ∀ s, v ≠ .str s
  | .uuid, _ => True
  | .seq k _ _ _ coerce, v => SeqKeeps k coerce v
  | .dict _ _ coerce, v => coerce = false ∧ ∀ kvs, v ≠ .dict kvs
  | .inst _, v => ∀ kvs, v ≠ .dict kvs
  | .union .., _ => False

/-- No alternative changes a value that a later one may hold (a Union inside a
Union has to come last). -/
def Settled (E : Env) (ps : List PropSpec) : Prop :=
  ps.Pairwise (fun p q => ∀ w x, Admits E w q.ty x → Leaves p.ty x)

mutual
/-- Declarations whose Strings are stable, whose choices have passed the check of
the declaration, and whose Unions (only if `u` is true) are settled. -/
def Repeatable (E : Env) (u : Bool) : PropSpec → Prop
  | .mk _ _ _ _ ty => RepeatableTy E u ty
def RepeatableTy (E : Env) (u : Bool) : PropTy → Prop
  | .string cs m regex => StableText E cs m regex
  | .choice kvs b => ∃ d, declareChoices E b d = some kvs
  | .seq _ item _ _ _ => Repeatable E u item
  | .dict kp vp _ => Repeatable E u kp ∧ Repeatable E u vp
  | .union ps _ => u = true ∧ Settled E ps ∧ RepeatableAll E u ps
  | _ => True
def RepeatableAll (E : Env) (u : Bool) : List PropSpec → Prop
  | [] => True
  | p :: ps => Repeatable E u p ∧ RepeatableAll E u ps
end

end Verif.Spec
