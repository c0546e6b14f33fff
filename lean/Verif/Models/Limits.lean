import Verif.Models.Classes

/-!
# Limits of number and container properties: histories of settings
-/

namespace Verif.Limits
open Cls

/-- A value given as `min` or `max`: `None`, a number (bool, int or float),
text, or an object that compares with nothing else. -/
inductive Bound where
  | none
  | num (x : PyFloat)
  | text (s : PyStr)
  | other (n : Nat)
  deriving DecidableEq, Repr

/-- Python's `a < b`; `none` for TypeError. -/
def pyLt : Bound → Bound → Option Bool
  | .num a, .num b => some (PyFloat.lt a b)
  | .text a, .text b => some (strLe a b && !strLe b a)
  | _, _ => Option.none

/-- `_min` and `_max` of a property (basic.py:789-809); `none` if not set yet. -/
structure Bounds where
  min : Bound := .none
  max : Bound := .none
  deriving DecidableEq, Repr

/-- A setting of one bound. -/
inductive Setting where
  | min (v : Bound)
  | max (v : Bound)
  deriving DecidableEq, Repr

/-- The setters `Integer.min` and `Integer.max` (basic.py:794-798, 805-809),
inherited by Float.  The result tells whether the setting was accepted. -/
def apply (s : Bounds) : Setting → Bounds × Bool
  | .min v =>
      if s.max ≠ .none then match pyLt s.max v with
        | some false => ({ s with min := v }, true)
        | _ => (s, false)
      else ({ s with min := v }, true)
  | .max v =>
      if s.min ≠ .none then match pyLt v s.min with
        | some false => ({ s with max := v }, true)
        | _ => (s, false)
      else ({ s with max := v }, true)

/-- A history of settings, whatever becomes of each. -/
def applyAll (s : Bounds) (l : List Setting) : Bounds := l.foldl (fun s x => (apply s x).1) s

/-- `_min_length` and `_max_length` of a container property. -/
structure Lengths where
  min : Option Int := none
  max : Option Int := none
  deriving DecidableEq, Repr

inductive LenSetting where
  | min (v : Val)
  | max (v : Val)

/-- The integer that a value is: `isinstance(value, int)` includes booleans. -/
def asInt : Val → Option Int
  | .int i => some i
  | .bool b => some (if b then 1 else 0)
  | _ => none

/-- The setters `Tuple.min_length` and `Tuple.max_length`
(containers.py:210-216, 223-229), inherited by List and Set. -/
def applyLen (s : Lengths) : LenSetting → Lengths × Bool
  | .min v => match asInt v with
      | none => (s, false)
      | some i =>
          if i < 0 then (s, false)
          else match s.max with
            | some m => if i > m then (s, false) else ({ s with min := some i }, true)
            | none => ({ s with min := some i }, true)
  | .max v => match asInt v with
      | none => (s, false)
      | some i =>
          if i < 0 then (s, false)
          else match s.min with
            | some m => if i < m then (s, false) else ({ s with max := some i }, true)
            | none => ({ s with max := some i }, true)

def applyLens (s : Lengths) (l : List LenSetting) : Lengths :=
  l.foldl (fun s x => (applyLen s x).1) s

end Verif.Limits
