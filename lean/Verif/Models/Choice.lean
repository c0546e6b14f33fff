import Verif.Core.Types

/-!
# Declaring the choices of a StringChoice (basic.py:1093-1120)
-/

namespace Verif

/-- What is passed as `choices`: a set, list or tuple of strings, or a
dictionary whose values are a string or a collection of strings.  Values that
are not strings raise TypeError and are left out. -/
inductive ChoiceDecl where
  | names (xs : List PyStr)
  | table (kvs : List (PyStr × List PyStr))

/-- The first half of the setter (basic.py:1094-1113): `len(xs) !=
len(set(xs))` is the test that some item occurs twice; `none` stands for
TypeError. -/
def declaredItems : ChoiceDecl → Option (List (PyStr × List PyStr))
  | .names xs => if xs.Nodup then some (xs.map (fun x => (x, []))) else none
  | .table kvs => some kvs

/-- The `choices` setter (basic.py:1094-1120): no choice or alias may occur
twice, ignoring case unless `case_sensitive`. -/
def declareChoices (E : Env) (caseSensitive : Bool) (d : ChoiceDecl) :
    Option (List (PyStr × List PyStr)) :=
  match declaredItems d with
  | none => none
  | some kvs =>
      let all := kvs.flatMap (fun kv => kv.1 :: kv.2)
      if caseSensitive then (if all.Nodup then some kvs else none)
      else (if (all.map E.upper).Nodup then some kvs else none)

end Verif
