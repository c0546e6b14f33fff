import Verif.Py.Val

/-!
# Names of property objects

The accessors of an attribute ask the property object for its name when they are
used (basic.py:284, 671-681), and a class statement sets the name of every property
object it declares (base.py:133), which passes it on to the properties nested in it
(basic.py:486-491, containers.py:192-203, 536-543, union.py:110-122).  Property objects
are known by number.  Inheritance is reduced to tables: a class has its own
attributes and those of the bases it does not declare (C35 is about the exact rule).
Instances start without values; listeners are not modelled.
-/

namespace Verif.Names

abbrev PId := Nat

/-- A property object: the property objects it was given (`prop`, `props`, `key_prop`,
`value_prop`), and `_name`, empty if it was not set (basic.py:122-132). -/
structure PObj where
  kids : List PId
  name : PyStr := []

/-- A class: name and property object of each attribute, also `_props`. -/
structure Cls where
  attrs : List (PyStr × PId)

/-- An instance: its class and `_backend`. -/
structure Inst where
  cls : Nat
  backend : List (PyStr × Val) := []

structure St where
  props : List PObj := []
  classes : List Cls := []
  insts : List Inst := []

/-- What property objects do with values, by number: `validate`, `equal`. -/
structure Env where
  validate : PId → Val → Option Val
  equal : PId → Val → Val → Bool

/-- One after the other, until one fails. -/
def setAll (f : PId → List PObj → Bool × List PObj) : List PId → List PObj → Bool × List PObj
  | [], h => (true, h)
  | k :: ks, h => match f k h with
      | (true, h') => setAll f ks h'
      | (false, h') => (false, h')

/-- `prop.name = s`: first the nested ones, then the property itself (basic.py:128-132,
486-491, containers.py:200-203, 539-543, union.py:118-122).  `false` is RecursionError,
for a property nested in itself; the first argument is the recursion limit. -/
def setName : Nat → PyStr → PId → List PObj → Bool × List PObj
  | 0, _, _, h => (false, h)
  | n + 1, s, p, h => match h[p]? with
      | none => (true, h)
      | some o => match setAll (setName n s) o.kids h with
          | (true, h') => (true, h'.modify p (fun o => { o with name := s }))
          | (false, h') => (false, h')

/-- `for key, prop in iteritems(prop_dict): prop.name = key` (base.py:129-134). -/
def nameOwn (n : Nat) : List (PyStr × PId) → List PObj → Bool × List PObj
  | [], h => (true, h)
  | (k, p) :: l, h => match setName n k p h with
      | (true, h') => nameOwn n l h'
      | (false, h') => (false, h')

/-- The attributes of the bases. -/
def inherited (cs : List Cls) (bases : List Nat) : List (PyStr × PId) :=
  bases.flatMap (fun b => match cs[b]? with
    | some c => c.attrs
    | none => [])

/-- The name that accessors of attribute `k` of class `c` use, and the property object
(`scope.name`, basic.py:284, 671-681). -/
def scopeOf (st : St) (c : Nat) (k : PyStr) : Option (PId × PyStr) :=
  match st.classes[c]? with
  | none => none
  | some cl => match lookupS k cl.attrs with
      | none => none
      | some p => match st.props[p]? with
          | none => none
          | some o => some (p, o.name)

/-- `getattr(inst, k)` (basic.py:282-284, 669-671, base.py:346-347); `none` for an
attribute that is not there. -/
def getAttr (st : St) (i : Nat) (k : PyStr) : Option Val :=
  match st.insts[i]? with
  | none => none
  | some o => match scopeOf st o.cls k with
      | none => none
      | some (_, s) => some ((lookupS s o.backend).getD .none)

/-- Outcome of an assignment. -/
inductive Out where
  | done
  | attribute
  | invalid
  | key
  deriving DecidableEq

/-- `self._props[name].equal(prev, value)` (base.py:370): `false` for KeyError. -/
def comparable (st : St) (c : Nat) (s : PyStr) (prev : Option Val) : Bool :=
  match prev with
  | none => true
  | some _ => match st.classes[c]? with
      | none => false
      | some cl => (lookupS s cl.attrs).isSome

def store (st : St) (i : Nat) (f : List (PyStr × Val) → List (PyStr × Val)) : St :=
  { st with insts := st.insts.modify i (fun o => { o with backend := f o.backend }) }

/-- `setattr(inst, k, v)` for a settable property (basic.py:673-677, base.py:357-375):
the value is stored before it is compared with the previous one. -/
def setAttr (E : Env) (st : St) (i : Nat) (k : PyStr) (v : Val) : Out × St :=
  match st.insts[i]? with
  | none => (.attribute, st)
  | some o => match scopeOf st o.cls k with
      | none => (.attribute, st)
      | some (p, s) => match E.validate p v with
          | none => (.invalid, st)
          | some v' =>
              (if comparable st o.cls s (lookupS s o.backend) then .done else .key,
                store st i (setS s v'))

/-- `delattr(inst, k)` (basic.py:679-681): nothing is compared. -/
def delAttr (st : St) (i : Nat) (k : PyStr) : Out × St :=
  match st.insts[i]? with
  | none => (.attribute, st)
  | some o => match scopeOf st o.cls k with
      | none => (.attribute, st)
      | some (_, s) => (.done, store st i (eraseS s))

/-- What a program does. -/
inductive Op where
  /-- a property object with those nested in it -/
  | prop (kids : List PId)
  /-- `p.prop = q`, `p.props = [...]` -/
  | setKids (p : PId) (kids : List PId)
  /-- `p.name = s` -/
  | rename (p : PId) (s : PyStr)
  /-- a class statement with its bases and the properties of its body, in order -/
  | cls (bases : List Nat) (own : List (PyStr × PId))
  /-- an instance -/
  | new (c : Nat)
  | set (i : Nat) (k : PyStr) (v : Val)
  | del (i : Nat) (k : PyStr)

/-- A class statement that fails leaves the names it has set. -/
def exec (E : Env) (n : Nat) (st : St) : Op → St
  | .prop kids => { st with props := st.props ++ [⟨kids, []⟩] }
  | .setKids p kids => { st with props := st.props.modify p (fun o => { o with kids := kids }) }
  | .rename p s => { st with props := (setName n s p st.props).2 }
  | .cls bases own => match nameOwn n own st.props with
      | (true, h) => { st with props := h, classes := st.classes ++ [⟨own ++ inherited st.classes bases⟩] }
      | (false, h) => { st with props := h }
  | .new c => { st with insts := st.insts ++ [⟨c, []⟩] }
  | .set i k v => (setAttr E st i k v).2
  | .del i k => (delAttr st i k).2

def execAll (E : Env) (n : Nat) (st : St) : List Op → St
  | [] => st
  | op :: ops => execAll E n (exec E n st op) ops

end Verif.Names
