import Verif.Py.Str

/-!
# File properties

`File` (basic.py:1300-1408): the declaration of modes, `validate`, and the accessors
with the deleter that closes the file.  Objects are known by number; of an object
only what the property looks at is modelled: whether it has `read`, `seek`, `close`,
`mode` and `closed`.  The operating system is a function that says, for each attempt,
whether a file is opened and which `mode` the file object reports.  Listeners are
reduced to whether one refuses the new value (base.py:357-368); what they do else is
in the main model.
-/

namespace Verif.Files

abbrev Mode := PyStr

/-- `file_modes` (basic.py:1321-1325). -/
def fileModes : List Mode :=
  [s% "r", s% "r+", s% "rb", s% "rb+", s% "w", s% "w+", s% "wb", s% "wb+", s% "a", s% "a+", s% "ab", s% "ab+"]

/-- An object, as far as the property looks at it.  `mode` and `closed` are `none`
if there is no such attribute. -/
structure Obj where
  read : Bool := true
  seek : Bool := true
  close : Bool := true
  mode : Option Mode := none
  closed : Option Bool := some false
  deriving DecidableEq

/-- Errors: what `validate` raises (ValidationError), TypeError of a declaration,
AttributeError, and errors of `open` that `validate` does not catch. -/
inductive FErr where
  | validation
  | type
  | attr
  | os
  deriving DecidableEq

/-! ## Declarations -/

/-- A File property: `_mode` and, if it was set, `_valid_mode`. -/
structure FProp where
  mode : Option Mode := none
  modes : Option (List Mode) := none
  deriving DecidableEq

/-- `valid_modes` (basic.py:1342-1346). -/
def FProp.validModes (p : FProp) : Option (List Mode) :=
  match p.modes with
  | some l => some l
  | none => match p.mode with
      | some m => some [m]
      | none => none

/-- The setter of `mode` (basic.py:1336-1340). -/
def setMode (p : FProp) : Option Mode → Except FErr FProp
  | none => .ok { p with mode := none }
  | some m => if m ∈ fileModes then .ok { p with mode := some m } else .error .type

/-- The setter of `valid_modes` with a collection (basic.py:1348-1358). -/
def setValidModes (p : FProp) (l : List (Option Mode)) : Except FErr FProp :=
  if p.mode ∈ l then
    if l.all (fun m => match m with | some m => decide (m ∈ fileModes) | none => false) then
      .ok { p with modes := some (l.filterMap id) }
    else .error .type
  else .error .type

/-- `File(doc, mode=..., valid_modes=...)` (basic.py:1327-1329). -/
def declare (mode : Option Mode) (valid : Option (List (Option Mode))) : Except FErr FProp :=
  match setMode {} mode with
  | .error e => .error e
  | .ok p => match valid with
      | none => .ok p
      | some l => setValidModes p l

/-! ## Values -/

/-- What may be assigned. -/
inductive Input where
  | name (s : PyStr)
  | obj (i : Nat)
  deriving DecidableEq

/-- What an attempt to open a file does: a new object, IOError or TypeError, or
another error. -/
inductive Opened where
  | file (o : Obj)
  | refused
  | failed

/-- The state: objects, values of the property by instance, the number of attempts to
open a file, and a record of the objects that were closed through the property. -/
structure World where
  objs : List Obj := []
  slots : Nat → Option Nat := fun _ => none
  attempts : Nat := 0
  closed : List Nat := []

/-- `open(name, mode)`, by the number of the attempt. -/
abbrev Os := Nat → PyStr → Mode → Opened

abbrev Res (α : Type) := Except FErr α × World

/-- `isinstance(value, string_types) and self.mode is not None` and the opening
(basic.py:1383-1388).  What remains a name is not an object. -/
def openInput (os : Os) (p : FProp) (v : Input) (w : World) : Res Input :=
  match v, p.mode with
  | .name s, some m => match os w.attempts s m with
      | .file o => (.ok (.obj w.objs.length), { w with objs := w.objs ++ [o], attempts := w.attempts + 1 })
      | .refused => (.error .validation, { w with attempts := w.attempts + 1 })
      | .failed => (.error .os, { w with attempts := w.attempts + 1 })
  | v, _ => (.ok v, w)

/-- `not hasattr(value, 'mode') or self.valid_modes is None` or a valid mode
(basic.py:1391-1395). -/
def modeOk (p : FProp) (o : Obj) : Bool :=
  match o.mode, p.validModes with
  | some m, some l => decide (m ∈ l)
  | _, _ => true

/-- The checks (basic.py:1389-1397). -/
def check (p : FProp) (o : Obj) : Bool :=
  o.read && o.seek && modeOk p o && !(o.closed.getD false)

/-- `File.validate` (basic.py:1378-1398). -/
def validate (os : Os) (p : FProp) (v : Input) (w : World) : Res Nat :=
  match openInput os p v w with
  | (.error e, w) => (.error e, w)
  | (.ok (.name _), w) => (.error .validation, w)
  | (.ok (.obj i), w) => match w.objs[i]? with
      | none => (.error .validation, w)
      | some o => if check p o then (.ok i, w) else (.error .validation, w)

/-- `_set(name, value)`, which a listener may refuse. -/
def store (k : Nat) (v : Option Nat) (refuse : Bool) (w : World) : Res Unit :=
  if refuse then (.error .validation, w)
  else (.ok (), { w with slots := fun j => if j = k then v else w.slots j })

/-- `instance.prop = value`. -/
def assign (os : Os) (p : FProp) (k : Nat) (v : Input) (refuse : Bool) (w : World) : Res Unit :=
  match validate os p v w with
  | (.error e, w) => (.error e, w)
  | (.ok i, w) => store k (some i) refuse w

/-- A closed file says so, if it has the attribute. -/
def Obj.shut (o : Obj) : Obj := { o with closed := o.closed.map fun _ => true }

/-- `close()` of an object. -/
def closeObj (i : Nat) (w : World) : Res Unit :=
  match w.objs[i]? with
  | none => (.error .attr, w)
  | some o =>
      if o.close then
        (.ok (), { w with
          objs := w.objs.set i o.shut
          closed := w.closed ++ [i] })
      else (.error .attr, w)

/-- `del instance.prop` (basic.py:1368-1372). -/
def delete (k : Nat) (refuse : Bool) (w : World) : Res Unit :=
  match w.slots k with
  | none => store k none refuse w
  | some i => match closeObj i w with
      | (.error e, w) => (.error e, w)
      | (.ok _, w) => store k none refuse w

/-- What programs do.  `instance.prop` is read without effects. -/
inductive Op where
  /-- some object is made; an open file for example -/
  | make (o : Obj)
  /-- the program closes a file, or changes an object in another way -/
  | become (i : Nat) (o : Obj)
  | assign (k : Nat) (v : Input) (refuse : Bool)
  | delete (k : Nat) (refuse : Bool)

/-- One operation; the program catches errors. -/
def exec (os : Os) (props : Nat → FProp) (w : World) : Op → World
  | .make o => { w with objs := w.objs ++ [o] }
  | .become i o => { w with objs := w.objs.set i o }
  | .assign k v r => (assign os (props k) k v r w).2
  | .delete k r => (delete k r w).2

/-- A history. -/
def execAll (os : Os) (props : Nat → FProp) (w : World) (ops : List Op) : World := ops.foldl (exec os props) w

/-- The mode that a file object of CPython reports: a text file the mode it was
opened with, a binary file one that is composed from what it can do. -/
def cpythonMode (m : Mode) : Mode := if m = s% "wb+" then s% "rb+" else m

end Verif.Files
