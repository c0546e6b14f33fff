import Verif.Core.Interp

/-!
# Pickling

`pickle.loads(pickle.dumps(hp))`, as tests/test_serialization.py:28-37 uses it.  The
library defines neither `__reduce__` nor `__getstate__`, `__setstate__`, `__copy__` or
`__deepcopy__` (no occurrence in /repo/properties), so Python's default applies: the
instance is made by `cls.__new__`, which is `object.__new__`, and its `__dict__`, with
`_backend` (base.py:257), `_listeners` (base.py:258) and the marks, is filled in.
Neither `PropertyMetaclass.__call__` (base.py:250-281) nor `__init__`
(base.py:305-344) nor a setter runs.  Within one pickle an object met again is the same
object again (`copy.deepcopy` does the same).

Simplified: all instances are copied, also those that the pickled one does not lead to;
nothing leads to these copies.  Values that are not instances of HasProperties are
copied to equal values, opaque ones to themselves; that a value cannot be pickled is not
modelled.
-/

namespace Verif

mutual
/-- The unpickled value, when `k` instances were there before. -/
def Val.moved (k : Nat) : Val → Val
  | .obj r => .obj (r + k)
  | .list xs => .list (movedL k xs)
  | .tup xs => .tup (movedL k xs)
  | .set xs => .set (movedL k xs)
  | .dict kvs => .dict (movedD k kvs)
  | v => v
/-- All items. -/
def movedL (k : Nat) : List Val → List Val
  | [] => []
  | x :: xs => x.moved k :: movedL k xs
/-- All keys and values. -/
def movedD (k : Nat) : List (Val × Val) → List (Val × Val)
  | [] => []
  | (x, y) :: kvs => (x.moved k, y.moved k) :: movedD k kvs
end

/-- The unpickled `error_tuples` kept on an instance (base.py:308, 343, 411, 442). -/
def ErrTuple.moved (k : Nat) (t : ErrTuple) : ErrTuple := { t with inst := t.inst.map (· + k) }

/-- The unpickled instance: its `__dict__`, with the class of the instance. -/
def Obj.moved (k : Nat) (o : Obj) : Obj :=
  { o with
    backend := o.backend.map fun kv => (kv.1, kv.2.moved k)
    errs := o.errs.map fun ts => ts.map (ErrTuple.moved k) }

/-- `pickle.loads(pickle.dumps(hp))` (tests/test_serialization.py:33). -/
def repickle (r : Nat) : M Val := fun w =>
  (.ok (.obj (r + w.objs.length)),
    { w with objs := w.objs ++ w.objs.map (Obj.moved w.objs.length) })

end Verif
