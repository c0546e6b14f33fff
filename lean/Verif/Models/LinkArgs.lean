import Verif.Core.Types
import Verif.Models.Links

/-!
# The arguments of `directional_link` and `link` (link.py:55-108, 124-138, 182-192)

What the checks look at, in front of the model `Links` of what links do.  Linked attributes
are properties: links to other attributes and to traitlets are not modelled.
-/

namespace Verif.LinkArgs

open Verif.Links

/-- Python values as far as `_validate` looks at them. -/
inductive Arg where
  | tuple (xs : List Arg)
  | inst (r : Nat)
  | str (s : PyStr)
  | other

/-- The argument `transform`: None, something that cannot be called, or something that can,
with `co_argcount` if it has a code object (a bound method counts `self`). -/
inductive TArg (V : Type) where
  | none
  | notCallable
  | callable (argc : Option Nat) (f : V → Option V)

/-- Errors: ValueError of a check, TypeError of a call with unknown keywords, or an error
while the target is updated. -/
inductive AErr where
  | value
  | type
  | update (e : LErr)
  deriving DecidableEq

variable {V : Type}

/-- Keyword arguments; `extra` if there are unknown ones. -/
structure Kw (V : Type) where
  now : Bool := false
  changeOnly : Bool := true
  transform : TArg V := .none
  extra : Bool := false

/-- The property an instance has under a name: `hasattr` and the place of its value. -/
abbrev Attrs := Nat → PyStr → Option Nat

/-- `_validate` (link.py:124-138): the node, `none` for ValueError. -/
def check (A : Attrs) : Arg → Option Nat
  | .tuple [x, y] => match x, y with
      | .inst r, .str s => A r s
      | _, _ => none
  | _ => none

/-- `source == target` for two pairs of an instance and a name (link.py:59); instances compare
by identity. -/
def same : Arg → Arg → Bool
  | .tuple [.inst r, .str s], .tuple [.inst r', .str s'] => r == r' && s == s'
  | _, _ => false

/-- The setter and getter of `transform` (link.py:86-108). -/
def transformOf : TArg V → Option (V → Option V)
  | .none => some some
  | .notCallable => none
  | .callable (some n) f => if n ≠ 1 then none else some f
  | .callable none f => some f

abbrev AM (V : Type) := LW V → Except AErr Unit × LW V

/-- `directional_link(source, target, ...)` (link.py:55-67); `id` is the identity of the new
object. -/
def dlink (E : LEnv V) (A : Attrs) (k id : Nat) (src tgt : Arg) (kw : Kw V) : AM V := fun w =>
  if kw.extra then (.error .type, w) else
  match check A src with
  | none => (.error .value, w)
  | some a => match check A tgt with
    | none => (.error .value, w)
    | some b =>
      if same src tgt then (.error .value, w) else
      match transformOf kw.transform with
      | none => (.error .value, w)
      | some f =>
        let l : Lnk V := ⟨id, a, b, f, kw.changeOnly⟩
        match (if kw.now then update E (assign E k) l w else (.ok (), w)) with
        | (.ok _, w) => (.ok (), { w with links := w.links ++ [l] })
        | (.error e, w) => (.error (.update e), w)

/-- The inner loop (link.py:188-191). -/
def inner (E : LEnv V) (A : Attrs) (k id : Nat) (kw : Kw V) (i : Nat) (x : Arg) : Nat → List Arg → AM V
  | _, [] => fun w => (.ok (), w)
  | j, y :: ys => fun w =>
      if i = j then inner E A k id kw i x (j + 1) ys w
      else match dlink E A k (id + j) x y kw w with
        | (.ok _, w) => inner E A k id kw i x (j + 1) ys w
        | (.error e, w) => (.error e, w)

/-- The outer loop (link.py:187). -/
def outer (E : LEnv V) (A : Attrs) (k id : Nat) (kw : Kw V) (items : List Arg) : Nat → List Arg → AM V
  | _, [] => fun w => (.ok (), w)
  | i, x :: xs => fun w => match inner E A k (id + i * items.length) kw i x 0 items w with
      | (.ok _, w) => outer E A k id kw items (i + 1) xs w
      | (.error e, w) => (.error e, w)

/-- `link(*items, **kwargs)` (link.py:182-192); the links are numbered from `id`. -/
def link (E : LEnv V) (A : Attrs) (k id : Nat) (items : List Arg) (kw : Kw V) : AM V := fun w =>
  if items.length < 2 then (.error .value, w) else
  match kw.transform with
  | .none => outer E A k id kw items 0 items w
  | _ => (.error .value, w)

end Verif.LinkArgs
