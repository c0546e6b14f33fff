import Verif.Py.Str

/-!
# Singletons

`/repo/properties/extras/singleton.py`: the metaclass, construction and
deserialization.  Everything a user can run inside a construction (default values,
`__init__`, listeners) is a list of commands that may construct, deserialize, rename
and fail; it may depend on the whole state.  Property values other than `name` are
not modelled.
-/

namespace Verif.Single

abbrev Cls := Nat
abbrev Ref := Nat
abbrev Name := PyStr

/-- A name in a registry: classes that do not redefine `_SINGLETONS` share one. -/
abbrev Key := Nat × Name

inductive Err
  /-- ValueError -/
  | value
  /-- TypeError -/
  | type
  /-- ValidationError -/
  | validation
  /-- anything raised by user code -/
  | user
  /-- RecursionError -/
  | depth

/-- Statements. -/
inductive Cmd
  /-- `Cls(name)` -/
  | make (c : Cls) (n : Name)
  /-- `Cls.deserialize(dict, trusted, strict)` -/
  | load (c : Cls) (i : Nat) (trusted strict : Bool)
  /-- `instance.name = name` -/
  | rename (r : Ref) (n : Name)
  /-- `dict = instance.serialize()` -/
  | dump (r : Ref)
  /-- `raise` -/
  | fail
  /-- `try: ... except Exception: pass` -/
  | attempt (cs : List Cmd)

/-- A singleton: its class, `_singleton_id` and `name`. -/
structure Obj where
  cls : Cls
  sid : Option Name := none
  name : Option Name := none

/-- A dictionary to deserialize. -/
structure Dict where
  /-- the value under `_singleton_id`, if there is one; the inner `none` is None -/
  sid : Option (Option Name)
  /-- the value under `name` -/
  name : Option (Option Name)
  /-- the value under `__class__` -/
  cls : Option Name
  /-- there are keys that are not properties -/
  extra : Bool := false
  /-- what deserializing the values under the other keys runs -/
  fields : List Cmd := []
  /-- an immutable value, or the instance if `assert_valid`, does not validate -/
  invalid : Bool := false

/-- The state.  `log`, `building` and `reentered` only record: the constructions that
returned, those under way, and whether a name was constructed during its own
construction. -/
structure World where
  objs : List Obj := []
  regs : Key → Option Ref := fun _ => none
  dicts : List Dict := []
  log : List (Key × Ref) := []
  building : List Key := []
  reentered : Bool := false

/-- The declared classes and the user's code. -/
structure Env where
  /-- the registry `cls._SINGLETONS` -/
  regOf : Cls → Nat
  /-- `cls.__name__` -/
  clsName : Cls → Name
  /-- `cls._REGISTRY` -/
  byName : Cls → Name → Option Cls
  /-- the class declares a settable property `name` -/
  hasName : Cls → Bool
  /-- validation of the property `name` -/
  accept : Cls → Name → Option Name
  /-- deserialization of the property `name`; the identity without a custom deserializer -/
  nameFrom : Cls → Name → Option Name
  /-- user code between `__new__` and `Singleton.__init__`: default values -/
  before : Cls → Name → World → List Cmd
  /-- user code after that, up to the end of the construction -/
  after : Cls → Name → World → List Cmd

abbrev Res (α : Type) := Except Err α × World

/-- Run commands one after the other until one fails. -/
def runAll (f : Cmd → World → Res (Option Ref)) : List Cmd → World → Res Unit
  | [], w => (.ok (), w)
  | c :: cs, w => match f c w with
      | (.error e, w') => (.error e, w')
      | (.ok _, w') => runAll f cs w'

/-- `self.name = name` (singleton.py:45). -/
def setName (E : Env) (r : Ref) (n : Name) (w : World) : Res Unit := match w.objs[r]? with
  | none => (.error .type, w)
  | some o => match E.accept o.cls n with
      | none => (.error .validation, w)
      | some n' => (.ok (), { w with objs := w.objs.set r { o with name := some n' } })

/-- `self._singleton_id = name` (singleton.py:46). -/
def setId (r : Ref) (n : Name) (w : World) : World := match w.objs[r]? with
  | none => w
  | some o => { w with objs := w.objs.set r { o with sid := some n } }

/-- `Singleton.__init__` and the user code around it (singleton.py:43-47,
base.py:250-281), for an object that has been allocated. -/
def initialise (E : Env) (f : Cmd → World → Res (Option Ref)) (c : Cls) (n : Name) (r : Ref) (w : World) : Res Unit :=
  match runAll f (E.before c n w) w with
  | (.error e, w) => (.error e, w)
  | (.ok _, w) => match setName E r n w with
    | (.error e, w) => (.error e, w)
    | (.ok _, w) => runAll f (E.after c n (setId r n w)) (setId r n w)

/-- The construction of a name that is not registered. -/
def construct (E : Env) (f : Cmd → World → Res (Option Ref)) (c : Cls) (n : Name) (w : World) : Res Ref :=
  let k : Key := (E.regOf c, n)
  let r := w.objs.length
  match initialise E f c n r { w with
      objs := w.objs ++ [{ cls := c }], building := k :: w.building
      reentered := w.reentered || decide (k ∈ w.building) } with
  | (.error e, w') => (.error e, { w' with building := w.building })
  | (.ok _, w') => (.ok r, { w' with
      building := w.building
      regs := fun k' => if k' = k then some r else w'.regs k'
      log := w'.log ++ [(k, r)] })

/-- `SingletonMetaclass.__call__` (singleton.py:15-22). -/
def make (E : Env) (f : Cmd → World → Res (Option Ref)) (c : Cls) (n : Name) (w : World) : Res Ref :=
  match w.regs (E.regOf c, n) with
  | some r => (.ok r, { w with log := w.log ++ [((E.regOf c, n), r)] })
  | none => construct E f c n w

/-- The class to construct (base.py:591-603). -/
def outClass (E : Env) (c : Cls) (d : Dict) (trusted strict : Bool) : Except Err Cls := match d.cls with
  | none => .ok c
  | some s => if s = [] ∨ s = E.clsName c then .ok c
      else match (if trusted then E.byName c s else none) with
        | some c' => .ok c'
        | none => if strict then .error .value else .ok c

/-- `value.pop('_singleton_id', value.get('name'))` (singleton.py:80). -/
def identifier (d : Dict) : Option Name := match d.sid with
  | some i => i
  | none => d.name.getD none

/-- `super().deserialize(value)` for a dictionary whose `name` is the identifier
(singleton.py:88-96, base.py:546-589). -/
def deserialize (E : Env) (f : Cmd → World → Res (Option Ref)) (c : Cls) (d : Dict) (i : Name) (trusted strict : Bool)
    (w : World) : Res Ref :=
  match outClass E c d trusted strict with
  | .error e => (.error e, w)
  | .ok c' =>
    if strict && (d.extra || !E.hasName c') then (.error .value, w)
    else match runAll f d.fields w with
      | (.error e, w) => (.error e, w)
      | (.ok _, w) =>
        if E.hasName c' then match E.nameFrom c' i with
          | none => (.error .user, w)
          | some n => match make E f c' n w with
            | (.error e, w) => (.error e, w)
            | (.ok r, w) => if d.invalid then (.error .validation, w) else (.ok r, w)
        else (.error .type, w)

/-- `Singleton.deserialize` (singleton.py:64-97).  The identifier is removed from the
caller's dictionary. -/
def load (E : Env) (f : Cmd → World → Res (Option Ref)) (c : Cls) (i : Nat) (trusted strict : Bool) (w : World) : Res Ref :=
  match w.dicts[i]? with
  | none => (.error .value, w)
  | some d =>
    let w := { w with dicts := w.dicts.set i { d with sid := none } }
    match identifier d with
    | none => (.error .value, w)
    | some n => match w.regs (E.regOf c, n) with
      | some r => (.ok r, w)
      | none => match deserialize E f c { d with sid := none } n trusted strict w with
        | (.error e, w) => (.error e, w)
        | (.ok r, w) => match d.name with
          | some (some m) => if m = [] then (.ok r, w) else match setName E r m w with
              | (.error e, w) => (.error e, w)
              | (.ok _, w) => (.ok r, w)
          | _ => (.ok r, w)

/-- `Singleton.serialize` (singleton.py:49-62), for the name and the identifier;
the name is serialized as it is. -/
def dumped (E : Env) (o : Obj) : Dict := {
  sid := some o.sid, name := if E.hasName o.cls then o.name.map some else none, cls := some (E.clsName o.cls) }

/-- One command. -/
def step (E : Env) (f : Cmd → World → Res (Option Ref)) : Cmd → World → Res (Option Ref)
  | .make c n, w => match make E f c n w with
      | (.ok r, w) => (.ok (some r), w)
      | (.error e, w) => (.error e, w)
  | .load c i t s, w => match load E f c i t s w with
      | (.ok r, w) => (.ok (some r), w)
      | (.error e, w) => (.error e, w)
  | .rename r n, w => match setName E r n w with
      | (.ok _, w) => (.ok none, w)
      | (.error e, w) => (.error e, w)
  | .dump r, w => match w.objs[r]? with
      | some o => (.ok none, { w with dicts := w.dicts ++ [dumped E o] })
      | none => (.error .type, w)
  | .fail, w => (.error .user, w)
  | .attempt cs, w => (.ok none, (runAll f cs w).2)

/-- Execution, to a given depth of nesting. -/
def exec (E : Env) : Nat → Cmd → World → Res (Option Ref)
  | 0, _, w => (.error .depth, w)
  | k + 1, c, w => step E (exec E k) c w

end Verif.Single
