import Verif.Models.Uid

/-!
# Pointer properties

`/repo/properties/extras/uid.py:175-271`: what a Pointer property accepts, over the
instances of `Verif.Models.Uid`.
-/

namespace Verif.Uid

/-- Values that are assigned to a Pointer property. -/
inductive PVal
  | none
  | text (u : Uid)
  | inst (r : Ref)
  /-- a dictionary of keyword arguments: `uid`, and whether others are not valid -/
  | dict (u : Option Uid) (invalid : Bool)
  | other

/-- A Pointer property.  The attributes of the class it declares are looked up when a
value is validated: the property that validates identifiers (uid.py:238-242), and the
class methods `validate_uid` and `load`, which may be any code. -/
structure Ptr (D : Type) where
  cls : Cls
  /-- `isinstance(value, instance_class)` by class of the value -/
  isSub : Cls → Bool
  /-- the keyword `load` -/
  load : Bool := false
  /-- `instance_class._props.get(uid_prop)` -/
  uidProp : Option (Uid → Except Err Uid) := some .ok
  /-- `instance_class.validate_uid` -/
  validateUid : Option (Uid → World D → Res D Unit) := some fun _ w => (.ok (), w)
  /-- `instance_class.load` -/
  loadUid : Option (Uid → World D → Res D (Option PVal))

/-- `HasUID.load` (uid.py:60-67). -/
def load {D : Type} (u : Uid) (w : World D) : Res D (Option PVal) := (.ok ((get w.inst u).map .inst), w)

/-- `Instance.validate` (instance.py:89-111).  The class accepts keyword arguments
only (uid.py:30). -/
def instValidate {D : Type} (E : Env D) (p : Ptr D) (v : PVal) (w : World D) : Res D PVal := match v with
  | .inst r => if p.isSub (clsOf w r) then (.ok (.inst r), w) else (.error .validation, w)
  | .dict u i => match construct E p.cls u i w with
      | (.error .depth, w) => (.error .depth, w)
      | (.error _, w) => (.error .validation, w)
      | (.ok r, w) => (.ok (.inst r), w)
  | _ => (.error .validation, w)

/-- The property of the identifiers (uid.py:238-242). -/
def uidValue {D : Type} (p : Ptr D) (u : Uid) : Except Err Uid := match p.uidProp with
  | none => .ok u
  | some f => f u

/-- The hook (uid.py:243-244). -/
def uidCheck {D : Type} (p : Ptr D) (u : Uid) (w : World D) : Res D Unit := match p.validateUid with
  | none => (.ok (), w)
  | some f => f u w

/-- Loading (uid.py:245-246). -/
def uidLoad {D : Type} (p : Ptr D) (u : Uid) (w : World D) : Res D (Option PVal) :=
  if p.load then match p.loadUid with
    | none => (.ok none, w)
    | some f => f u w
  else (.ok none, w)

/-- The three of them for a text, under `except` (uid.py:236-248),
which turns a ValidationError into a ValidationError; other exceptions pass. -/
def ptrText {D : Type} (p : Ptr D) (u : Uid) (w : World D) : Res D (Uid × Option PVal) := match uidValue p u with
  | .error e => (.error e, w)
  | .ok u => match uidCheck p u w with
    | (.error e, w) => (.error e, w)
    | (.ok _, w) => match uidLoad p u w with
      | (.error e, w) => (.error e, w)
      | (.ok l, w) => (.ok (u, l), w)

/-- `Pointer.validate` (uid.py:232-253).  `load` may return `None`, which is no
instance. -/
def ptrValidate {D : Type} (E : Env D) (p : Ptr D) (v : PVal) (w : World D) : Res D PVal := match v with
  | .none => (.error .validation, w)
  | .text u => match ptrText p u w with
      | (.error e, w) => (.error e, w)
      | (.ok (u, none), w) => (.ok (.text u), w)
      | (.ok (u, some .none), w) => (.ok (.text u), w)
      | (.ok (_, some x), w) => instValidate E p x w
  | v => instValidate E p v w

end Verif.Uid
