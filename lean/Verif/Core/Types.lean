import Verif.Py.Val

/-!
# Data of the core model: exceptions, property declarations, classes, heap,
calls and user programs
-/

namespace Verif

/-- Exception classes the code distinguishes.  `validation` is
`properties.ValidationError`, a subclass of ValueError (utils.py:132). -/
inductive ErrKind where
  | validation | value | type | key | attr
  | index | overflow | recursion | selfRef
  | other (n : Nat)
  deriving DecidableEq, Repr

/-- `utils.ErrorTuple` (utils.py:127-130) without the message text. -/
structure ErrTuple where
  reason : Option PyStr
  prop : Option PyStr
  inst : Option Nat
  deriving DecidableEq, Repr

/-- A raised exception.  `tuples` is `error_tuples` of a ValidationError
(utils.py:157-163), empty for other exceptions.  Message texts are dropped. -/
structure PyErr where
  kind : ErrKind
  tuples : List ErrTuple := []
  deriving DecidableEq, Repr

/-- `isinstance(err, GENERIC_ERRORS)`: ValueError, KeyError, TypeError,
AttributeError and their subclasses (base.py:22). -/
def ErrKind.isGeneric : ErrKind → Bool
  | .validation | .value | .type | .key | .attr => true
  | _ => false

/-- `isinstance(err, ValueError)`. -/
def ErrKind.isValueError : ErrKind → Bool
  | .validation | .value => true
  | _ => false

/-- Names of user functions (listeners, getters, serializers, ...). -/
abbrev FnId := Nat
/-- Names of HasProperties classes. -/
abbrev ClsId := Nat

/-- A `default`: the sentinel `undefined`, a plain value, or a callable: a user
function, a HasProperties class, or `uuid.uuid4` (basic.py:170-180, 1281-1283). -/
inductive Dflt where
  | undef
  | val (v : Val)
  | fn (f : FnId)
  | cls (c : ClsId)
  | uuid4

/-- `change_case` of String (basic.py:978-992). -/
inductive CaseMode where
  | keep | upper | lower
  deriving DecidableEq, Repr

/-- Which container a sequence property declares: Tuple, List or Set
(containers.py:156, 368, 425). -/
inductive SeqKind where
  | tup | list | set
  deriving DecidableEq, Repr

mutual
/-- A Property instance: the keywords every Property has (basic.py:595-626) and
its type.  `ser`/`deser` are the registered serializer and deserializer. -/
inductive PropSpec where
  | mk (required : Bool) (ser deser : Option FnId) (dflt : Dflt) (ty : PropTy)
/-- The Property classes of the core model with their keywords.
`any` is `Property`/`GettableProperty` itself; `seq` is Tuple/List/Set;
numeric bounds are finite rationals; `regex` is a pattern name. -/
inductive PropTy where
  | any
  | boolean (cast : Bool)
  | integer (cast : Bool) (mn mx : Option Rat)
  | float (cast : Bool) (mn mx : Option Rat)
  | complex (cast : Bool)
  | string (strip : PyStr) (cs : CaseMode) (regex : Option Nat)
  | choice (choices : List (PyStr × List PyStr)) (caseSensitive : Bool)
  | color
  | datetime
  | uuid
  | seq (k : SeqKind) (item : PropSpec) (minL maxL : Option Nat) (coerce : Bool)
  | dict (kp vp : PropSpec) (coerce : Bool)
  | inst (c : ClsId)
  | union (ps : List PropSpec) (strictInst : Bool)
end

instance : Inhabited PropSpec := ⟨.mk true none none .undef .any⟩

def PropSpec.required : PropSpec → Bool | .mk r _ _ _ _ => r
def PropSpec.ser : PropSpec → Option FnId | .mk _ s _ _ _ => s
def PropSpec.deser : PropSpec → Option FnId | .mk _ _ d _ _ => d
def PropSpec.dflt : PropSpec → Dflt | .mk _ _ _ d _ => d
def PropSpec.ty : PropSpec → PropTy | .mk _ _ _ _ t => t

mutual
/-- `prop.default` (basic.py:170-172; union.py:124-134): a Union without its
own default takes the first default among its alternatives; Uuid defaults to
`uuid.uuid4` (basic.py:1281-1283).  `auto_create` of Instance is represented
by `dflt = cls c` (instance.py:52-57). -/
def PropSpec.default : PropSpec → Dflt
  | .mk _ _ _ d ty => match d with
      | .undef => ty.classDefault
      | d => d
def PropTy.classDefault : PropTy → Dflt
  | .union ps _ => firstDefault ps
  | .uuid => .uuid4
  | _ => .undef
def firstDefault : List PropSpec → Dflt
  | [] => .undef
  | p :: ps => match p.default with
      | .undef => firstDefault ps
      | d => d
end

/-- A property of a class: mutable `Property`, immutable `GettableProperty`
(only `GettableProperty` itself and `Uuid`), `DynamicProperty`, `Renamed`. -/
inductive Entry where
  | mutable (p : PropSpec)
  | gettable (p : PropSpec)
  | dynamic (p : PropSpec) (getter : FnId) (setter deleter : Option FnId)
  | renamed (new : PyStr)

/-- Listener modes (handlers.py:11). -/
inductive Mode where
  | validate | set | change
  deriving DecidableEq, Repr

/-- A listener as registered on an instance for one name (handlers.py:89-98). -/
structure Listener where
  name : PyStr
  mode : Mode
  fn : FnId
  deriving DecidableEq, Repr

/-- Names observed by an `Observer` (handlers.py:126-141). -/
inductive ObsNames where
  | everything
  | names (ns : List PyStr)
  deriving DecidableEq, Repr

/-- An `Observer` found on a class (handlers.py:111-162). -/
structure ClassObserver where
  names : ObsNames
  mode : Mode
  fn : FnId
  deriving DecidableEq, Repr

/-- A HasProperties class after the metaclass has run (base.py:87-248).
`ancestors` are the classes `isinstance` accepts besides itself, `validators`
the class validators in order with `none` for `_validate_props`, `hook` an
overridden `_error_hook`, `attrs` the names of other attributes (for the
`hasattr` test in `__init__`), `registry` the `_REGISTRY` it sees. -/
structure ClassDef where
  name : PyStr
  ancestors : List ClsId := []
  props : List (PyStr × Entry) := []
  defaults : List (PyStr × Dflt) := []
  observers : List ClassObserver := []
  validators : List (Option FnId) := [none]
  hook : Option FnId := none
  attrs : List PyStr := []
  registry : List (PyStr × ClsId) := []
  deriving Inhabited

/-- A HasProperties instance: `_backend`, `_listeners`, the in-progress
markers `_getting_validated` (absent until `__init__` or `validate` runs),
`_getting_serialized`, `_testing_equality`, and `_validation_error_tuples`.
`_non_validation_error` is only used inside one call of `__init__`/`validate`
and is a local variable of these here. -/
structure Obj where
  cls : ClsId
  backend : List (PyStr × Val) := []
  listeners : List Listener := []
  gv : Option Bool := none
  gs : Bool := false
  te : Bool := false
  errs : Option (List ErrTuple) := none

/-- The modes in `listeners_disabled._quarantine` (handlers.py:27). -/
structure Quar where
  validate : Bool := false
  set : Bool := false
  change : Bool := false
  deriving DecidableEq, Repr

/-- `mode in _quarantine`. -/
def Quar.has (q : Quar) : Mode → Bool
  | .validate => q.validate
  | .set => q.set
  | .change => q.change

/-- `_quarantine` with further modes (handlers.py:55-60). -/
def Quar.union (a b : Quar) : Quar :=
  ⟨a.validate || b.validate, a.set || b.set, a.change || b.change⟩

/-- `set(LISTENER_TYPES)`. -/
def Quar.all : Quar := ⟨true, true, true⟩

/-- One call of a listener, recorded in the ghost trace of the world. -/
structure Event where
  inst : Nat
  mode : Mode
  name : PyStr
  prev : Val
  value : Val
  fn : FnId

/-- The state: heap, listener quarantine, user state, a counter feeding
`uuid4`/`random`, the ghost trace of listener calls, the ghost log of error
hook calls (instance and its tuples), and a ghost marker that the private
attribute `_backend` of some instance has been assigned. -/
structure World where
  objs : List Obj := []
  quar : Quar := {}
  user : Val := .none
  tick : Nat := 0
  trace : List Event := []
  hooks : List (Nat × List ErrTuple) := []
  bypass : Bool := false

/-- Keyword arguments of `serialize` (base.py:476). -/
structure SerKw where
  includeClass : Bool := true
  saveDynamic : Bool := false
  deriving DecidableEq, Repr

/-- Keyword arguments of `deserialize` (base.py:519-520). -/
structure DeKw where
  trusted : Bool := false
  strict : Bool := false
  assertValid : Bool := false
  deriving DecidableEq, Repr

/-- Calls of the API.  `validate`, `propEqual`, `assertValid`, `serializeP`,
`deserializeP` are methods of Property instances (with the property name,
which nested properties inherit); the others are HasProperties operations,
`properties.equal`, `properties.copy`, listener registration, and access to
user state. -/
inductive Call where
  | validate (nm : PyStr) (p : PropSpec) (inst : Option Nat) (v : Val)
  | propEqual (p : PropSpec) (a b : Val)
  | assertValid (nm : PyStr) (p : PropSpec) (r : Nat) (v : Val)
  | serializeP (nm : PyStr) (p : PropSpec) (v : Val) (kw : SerKw)
  | deserializeP (nm : PyStr) (p : PropSpec) (v : Val) (kw : DeKw)
  | construct (c : ClsId) (kw : List (PyStr × Val))
  | reset (r : Nat) (name : Option PyStr)
  | getattr (r : Nat) (name : PyStr)
  | setattr (r : Nat) (name : PyStr) (v : Val)
  | delattr (r : Nat) (name : PyStr)
  | hpValidate (r : Nat)
  | validateProps (r : Nat)
  | hpSerialize (r : Nat) (kw : SerKw)
  | hpDeserialize (c : ClsId) (v : Val) (kw : DeKw)
  | equal (a b : Val)
  | copy (v : Val) (skw : SerKw) (dkw : DeKw)
  | observe (r : Nat) (names : ObsNames) (mode : Mode) (fn : FnId)
  | userGet
  | userPut (v : Val)

/-- User code: return, raise, call the API and continue with the result or the
exception, or run a block inside `with listeners_disabled(q)`. -/
inductive Prog where
  | ret (v : Val)
  | raise (e : PyErr)
  | call (c : Call) (k : Except PyErr Val → Prog)
  | disabled (q : Quar) (body : Prog) (k : Except PyErr Val → Prog)

/-- The environment: class table, user functions, and the external functions
the code uses.  Laws about them are stated where they are needed. -/
structure Env where
  classes : ClsId → ClassDef
  fn : FnId → List Val → Prog
  /-- rounding of an exact result to the nearest float (overflow: infinity) -/
  rnd : Rat → PyFloat
  /-- `str.upper` and `str.lower` -/
  upper : PyStr → PyStr
  lower : PyStr → PyStr
  /-- `pattern.search(s) is not None` -/
  search : Nat → PyStr → Bool
  /-- `int(s)`, `float(s)`, `complex(s)` on text, `none` for ValueError -/
  intOfStr : PyStr → Option Int
  floatOfStr : PyStr → Option PyFloat
  cplxOfStr : PyStr → Option (PyFloat × PyFloat)
  /-- `str(complex)` -/
  strOfCplx : PyFloat → PyFloat → PyStr
  /-- `strftime`/`strptime` with the two formats, and `str(uuid)`/`UUID(s)` -/
  dtToStr : DateTime → PyStr
  dtOfStr : PyStr → Option DateTime
  uuidToStr : Nat → PyStr
  uuidOfStr : PyStr → Option Nat
  /-- `a is b` for values that are not singletons or heap objects -/
  same : Val → Val → Bool
  /-- `uuid.uuid4()` and the index drawn by `random.choice`, by draw number -/
  uuid4 : Nat → Nat
  random : Nat → Nat
  /-- `json.loads(json.dumps(v))` for values that are not HasProperties -/
  jsonCopy : Val → Option Val

/-- Computations: an exception keeps the state in which it was raised. -/
def M (α : Type) : Type := World → Except PyErr α × World

namespace M

def ret {α : Type} (a : α) : M α := fun w => (.ok a, w)

def raise {α : Type} (e : PyErr) : M α := fun w => (.error e, w)

def bind {α β : Type} (m : M α) (f : α → M β) : M β := fun w =>
  match m w with
  | (.ok a, w') => f a w'
  | (.error e, w') => (.error e, w')

instance : Monad M where
  pure := ret
  bind := bind

/-- Read the state. -/
def get : M World := fun w => (.ok w, w)

/-- Change the state. -/
def modify (f : World → World) : M Unit := fun w => (.ok (), f w)

/-- `try: m except <pred>: h`. -/
def catchIf {α : Type} (pred : ErrKind → Bool) (m : M α) (h : PyErr → M α) : M α :=
  fun w =>
    match m w with
    | (.ok a, w') => (.ok a, w')
    | (.error e, w') => if pred e.kind then h e w' else (.error e, w')

/-- `try: m finally: <f>` where the cleanup is a state change. -/
def fin {α : Type} (m : M α) (f : World → World) : M α := fun w =>
  let r := m w
  (r.1, f r.2)

/-- Turn the outcome into a value. -/
def attempt {α : Type} (m : M α) : M (Except PyErr α) := fun w =>
  let r := m w
  (.ok r.1, r.2)

end M

/-- Raise an exception that is not a ValidationError. -/
def raiseK {α : Type} (k : ErrKind) : M α := M.raise { kind := k }

/-- `[f(x) for x in xs]`. -/
def mapML {α β : Type} (f : α → M β) : List α → M (List β)
  | [] => pure []
  | x :: xs => do
      let y ← f x
      let ys ← mapML f xs
      pure (y :: ys)

/-- `for x in xs: f(x)`. -/
def forML {α : Type} (f : α → M Unit) : List α → M Unit
  | [] => pure ()
  | x :: xs => do
      f x
      forML f xs

/-- `for x in xs: acc = f(acc, x)`. -/
def foldML {α β : Type} (f : β → α → M β) : β → List α → M β
  | b, [] => pure b
  | b, x :: xs => do
      let b' ← f b x
      foldML f b' xs

/-- Item `r` of the heap; a dangling reference cannot occur in Python, it is
reported as AttributeError here. -/
def getObj (r : Nat) : M Obj := fun w =>
  match w.objs[r]? with
  | some o => (.ok o, w)
  | none => (.error { kind := .attr }, w)

/-- Replace item `r` of the heap. -/
def World.setObj (w : World) (r : Nat) (f : Obj → Obj) : World :=
  { w with objs := w.objs.modify r f }

/-- Change item `r` of the heap. -/
def modObj (r : Nat) (f : Obj → Obj) : M Unit := M.modify (fun w => w.setObj r f)

end Verif
