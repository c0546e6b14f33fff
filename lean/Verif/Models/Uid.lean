import Verif.Py.Str

/-!
# Instances with identifiers

`/repo/properties/extras/uid.py`: HasUID and Pointer, for classes that share one
`_INSTANCES`.  The property values of an instance other than `uid` are a sequence of
slots: containers and instances without identifiers are serialized and deserialized
part by part and in order, so their brackets, keys and plain parts are data slots,
and what matters are the references in between.  `data` values are those that
survive JSON (C22).
-/

namespace Verif.Uid

abbrev Uid := PyStr
abbrev Ref := Nat
abbrev Cls := Nat

/-- A part of a property value.  References carry the class that the property
declares; `ptr` is the text in a Pointer property. -/
inductive Slot (D : Type)
  | data (d : D)
  /-- an instance, in an Instance (`false`) or Pointer (`true`) property -/
  | ref (pointer : Bool) (c : Cls) (r : Ref)
  | ptr (c : Cls) (u : Uid)

/-- An instance.  `live` only records: the construction or deserialization that made
it has returned. -/
structure Obj (D : Type) where
  cls : Cls
  uid : Option Uid
  slots : List (Slot D) := []
  live : Bool := false

/-- A serialized part of a property value. -/
inductive JSlot (D : Type)
  | data (d : D)
  | uid (pointer : Bool) (c : Cls) (u : Uid)

/-- The dictionary of one instance. -/
structure Entry (D : Type) where
  /-- the value under `__class__` -/
  cls : Option PyStr
  /-- the value under `uid` -/
  uid : Option Uid
  slots : List (JSlot D)

/-- Values in the flat dictionary. -/
inductive RVal (D : Type)
  | text (u : Uid)
  | null
  | raw (e : Entry D)
  | inst (r : Ref)

/-- The flat dictionary. -/
abbrev Reg (D : Type) := List (Uid × RVal D)

def get {α : Type} : List (Uid × α) → Uid → Option α
  | [], _ => none
  | (k, v) :: l, u => if k = u then some v else get l u

def put {α : Type} : List (Uid × α) → Uid → α → List (Uid × α)
  | [], u, x => [(u, x)]
  | (k, v) :: l, u, x => if k = u then (k, x) :: l else (k, v) :: put l u x

/-- What a reference must be for its property to accept it. -/
inductive Shape (D : Type)
  | data (d : D)
  | obj (declared actual : Cls)
  | ptr (c : Cls) (u : Uid)

/-- The classes. -/
structure Env (D : Type) where
  /-- `cls.__name__` -/
  name : Cls → PyStr
  /-- `cls._REGISTRY` -/
  byName : PyStr → Option Cls
  /-- all property values of an instance of the class are valid -/
  accept : Cls → List (Shape D) → Bool
  /-- the values of successive calls of `uuid.uuid4` -/
  supply : Nat → Uid

inductive Err
  /-- ValueError -/
  | value
  /-- ValidationError -/
  | validation
  /-- KeyError and others -/
  | other
  /-- RecursionError -/
  | depth
  deriving DecidableEq

/-- The key of the root. -/
def rootKey : Uid := s% "__root__"

/-! ## Serialization -/

/-- Serialize the slots of an instance in order.  `f` serializes an instance and
returns its uid. -/
def serSlots {D : Type} (f : Ref → Reg D → Except Err (Uid × Reg D)) : List (Slot D) → Reg D →
    Except Err (List (JSlot D) × Reg D)
  | [], reg => .ok ([], reg)
  | .data d :: l, reg => match serSlots f l reg with
      | .error e => .error e
      | .ok (js, reg) => .ok (.data d :: js, reg)
  | .ptr c u :: l, reg => match serSlots f l reg with
      | .error e => .error e
      | .ok (js, reg) => .ok (.uid true c u :: js, reg)
  | .ref p c r :: l, reg => match f r reg with
      | .error e => .error e
      | .ok (u, reg) => match serSlots f l reg with
        | .error e => .error e
        | .ok (js, reg) => .ok (.uid p c u :: js, reg)

/-- `HasUID.serialize` with a registry that is not empty (uid.py:85-104), to a given
depth. -/
def ser {D : Type} (E : Env D) (objs : List (Obj D)) : Nat → Ref → Reg D → Except Err (Uid × Reg D)
  | 0, _, _ => .error .depth
  | k + 1, r, reg => match objs[r]? with
      | none => .error .other
      | some o => match o.uid with
        | none => .error .other
        | some key =>
          if (get reg key).isSome then .ok (key, reg)
          else match serSlots (ser E objs k) o.slots (put reg key .null) with
            | .error e => .error e
            | .ok (js, reg) => .ok (key, put reg key (.raw ⟨some (E.name o.cls), some key, js⟩))

/-- `HasUID.serialize` (uid.py:69-104). -/
def serialize {D : Type} (E : Env D) (objs : List (Obj D)) (k : Nat) (r : Ref) : Except Err (Reg D) :=
  match objs[r]? with
  | none => .error .other
  | some o => match o.uid with
    | none => .error .other
    | some key => match ser E objs k r [(rootKey, .text key)] with
      | .error e => .error e
      | .ok (_, reg) => .ok reg

/-! ## The instances -/

/-- The state: the instances, `HasUID._INSTANCES` (`undef` is its key `undefined`),
and the number of uuids drawn. -/
structure World (D : Type) where
  objs : List (Obj D) := []
  inst : List (Uid × Ref) := []
  undef : Bool := false
  drawn : Nat := 0

abbrev Res (D α : Type) := Except Err α × World D

/-- Change an instance. -/
def modify {D : Type} (r : Ref) (g : Obj D → Obj D) (w : World D) : World D := match w.objs[r]? with
  | none => w
  | some o => { w with objs := w.objs.set r (g o) }

/-- `_INSTANCES[uid] = instance`. -/
def register {D : Type} (u : Uid) (r : Ref) (w : World D) : World D := { w with inst := put w.inst u r }

/-- Allocation with the default `uid` (uid.py:25-28, base.py:250-281). -/
def alloc {D : Type} (E : Env D) (c : Cls) (w : World D) : Ref × World D :=
  (w.objs.length, { w with objs := w.objs ++ [{ cls := c, uid := some (E.supply w.drawn) }], drawn := w.drawn + 1 })

/-- `instance.uid = uid`, with the validator and the observer (uid.py:34-49). -/
def setUid {D : Type} (r : Ref) (u : Uid) (w : World D) : Res D Unit := match w.objs[r]? with
  | none => (.error .other, w)
  | some o =>
    if o.uid = some u then (.ok (), register u r w)
    else if (get w.inst u).isSome then (.error .validation, w)
    else (.ok (), register u r (modify r (fun o => { o with uid := some u }) w))

/-- `del instance.uid`: validator and observer get `undefined`. -/
def delUid {D : Type} (r : Ref) (w : World D) : Res D Unit := match w.objs[r]? with
  | none => (.error .other, w)
  | some _ => if w.undef then (.error .validation, w)
      else (.ok (), { modify r (fun o => { o with uid := none }) w with undef := true })

/-- `self._INSTANCES[self.uid] = self` at the end of `__init__` (uid.py:32). -/
def finishInit {D : Type} (r : Ref) (w : World D) : World D := match w.objs[r]? with
  | none => w
  | some o => match o.uid with
    | none => { w with undef := true }
    | some u => register u r w

/-- `Cls(uid=...)`, possibly with other keyword arguments that are not valid
(uid.py:30-32). -/
def construct {D : Type} (E : Env D) (c : Cls) (u : Option Uid) (invalid : Bool) (w : World D) : Res D Ref :=
  let (r, w) := alloc E c w
  match (match u with | none => (.ok (), w) | some u => setUid r u w : Res D Unit) with
  | (.error e, w) => (.error e, w)
  | (.ok _, w) => if invalid then (.error .validation, w)
      else (.ok r, modify r (fun o => { o with live := true }) (finishInit r w))

/-! ## Deserialization -/

/-- `HasProperties._deserialize_class` (base.py:591-603). -/
def outClass {D : Type} (E : Env D) (c : Cls) (n : Option PyStr) (trusted strict : Bool) : Except Err Cls := match n with
  | none => .ok c
  | some s => if s = [] ∨ s = E.name c then .ok c
      else match (if trusted then E.byName s else none) with
        | some c' => .ok c'
        | none => if strict then .error .value else .ok c

/-- Deserialize the slots in order.  `f` deserializes a reference to an instance of a
declared class (instance.py:141-155, uid.py:255-271). -/
def desSlots {D : Type} (f : Cls → Uid → Reg D → World D → Except Err (Ref × Reg D) × World D) :
    List (JSlot D) → Reg D → World D → Except Err (List (Slot D) × Reg D) × World D
  | [], reg, w => (.ok ([], reg), w)
  | .data d :: l, reg, w => match desSlots f l reg w with
      | (.error e, w) => (.error e, w)
      | (.ok (ss, reg), w) => (.ok (.data d :: ss, reg), w)
  | .uid true c u :: l, reg, w => match desSlots f l reg w with
      | (.error e, w) => (.error e, w)
      | (.ok (ss, reg), w) => (.ok (.ptr c u :: ss, reg), w)
  | .uid false c u :: l, reg, w => match f c u reg w with
      | (.error e, w) => (.error e, w)
      | (.ok (r, reg), w) => match desSlots f l reg w with
        | (.error e, w) => (.error e, w)
        | (.ok (ss, reg), w) => (.ok (.ref false c r :: ss, reg), w)

/-- The class of an instance. -/
def clsOf {D : Type} (w : World D) (r : Ref) : Cls := match w.objs[r]? with
  | some o => o.cls
  | none => 0

def shape {D : Type} (w : World D) : Slot D → Shape D
  | .data d => .data d
  | .ref _ c r => .obj c (clsOf w r)
  | .ptr c u => .ptr c u

/-- Setting `uid`, if there is a value for it, with listeners disabled. -/
def setOwn {D : Type} (x : Ref) (u : Option Uid) (w : World D) : World D := match u with
  | none => w
  | some u => modify x (fun o => { o with uid := some u }) w

/-- Setting the values on the new instance, with listeners disabled
(base.py:577-583).  Of the values, `uid` is set also if another is not valid. -/
def setFields {D : Type} (E : Env D) (x : Ref) (u : Option Uid) (ss : List (Slot D)) (w : World D) : Res D Unit :=
  let w := setOwn x u w
  if E.accept (clsOf w x) (ss.map (shape w)) then (.ok (), modify x (fun o => { o with slots := ss }) w)
  else (.error .validation, w)

/-- The new instance for an entry, and what is in it (uid.py:154-172). -/
def build {D : Type} (E : Env D) (trusted strict : Bool)
    (f : Cls → Uid → Reg D → World D → Except Err (Ref × Reg D) × World D)
    (c : Cls) (u : Uid) (e : Option (Entry D)) (reg : Reg D) (w : World D) : Except Err (Ref × Reg D) × World D :=
  match outClass E c (e.bind (·.cls)) trusted strict with
  | .error err => (.error err, w)
  | .ok c' =>
    let (x, w) := alloc E c' w
    let w := finishInit x w
    match e with
    | none => (.error .value, w)
    | some e => match desSlots f e.slots (put reg u (.inst x)) w with
      | (.error err, w) => (.error err, w)
      | (.ok (ss, reg), w) => match setFields E x e.uid ss w with
        | (.error err, w) => (.error err, w)
        | (.ok _, w) => (.ok (x, reg), register u x (modify x (fun o => { o with live := true }) w))

/-- `HasUID.deserialize` with a registry (uid.py:146-172), to a given depth. -/
def des {D : Type} (E : Env D) (trusted strict : Bool) : Nat → Cls → Uid → Reg D → World D → Except Err (Ref × Reg D) × World D
  | 0, _, _, _, w => (.error .depth, w)
  | k + 1, c, u, reg, w => match get w.inst u, get reg u with
      | some x, none => (.ok (x, reg), w)
      | some _, some _ => (.error .value, w)
      | none, none => (.error .value, w)
      | none, some (.inst x) => (.ok (x, reg), register u x w)
      | none, some (.raw e) => build E trusted strict (des E trusted strict k) c u (some e) reg w
      | none, some _ => build E trusted strict (des E trusted strict k) c u none reg w

/-- `HasUID.deserialize` (uid.py:106-172).  `assert_valid` is not used by the code. -/
def deserialize {D : Type} (E : Env D) (trusted strict : Bool) (k : Nat) (c : Cls) (root : Option Uid) (reg : Reg D)
    (w : World D) : Res D Ref :=
  match root, get reg rootKey with
  | some u, _ => match des E trusted strict k c u reg w with
      | (.error e, w) => (.error e, w)
      | (.ok (x, _), w) => (.ok x, w)
  | none, some (.text u) => match des E trusted strict k c u reg w with
      | (.error e, w) => (.error e, w)
      | (.ok (x, _), w) => (.ok x, w)
  | none, _ => (.error .value, w)

/-- Statements. -/
inductive Cmd (D : Type)
  | new (c : Cls) (u : Option Uid) (invalid : Bool)
  | setUid (r : Ref) (u : Uid)
  | delUid (r : Ref)
  /-- `with listeners_disabled(): instance.uid = uid` -/
  | quiet (r : Ref) (u : Uid)
  | load (c : Cls) (root : Option Uid) (reg : Reg D) (trusted strict : Bool)

/-- One statement, to a given depth; a statement that raises leaves its effects. -/
def exec {D : Type} (E : Env D) (k : Nat) : Cmd D → World D → World D
  | .new c u i, w => (construct E c u i w).2
  | .setUid r u, w => (setUid r u w).2
  | .delUid r, w => (delUid r w).2
  | .quiet r u, w => modify r (fun o => { o with uid := some u }) w
  | .load c root reg t s, w => (deserialize E t s k c root reg w).2

end Verif.Uid
