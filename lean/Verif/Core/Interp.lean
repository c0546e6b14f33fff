import Verif.Core.Scalar

/-!
# The core interpreter

Every Python method is one function that takes `rec`, the function used for
the API calls it makes.  `run n` closes the recursion with recursion limit `n`.
-/

namespace Verif

/-- The meaning of the calls a method makes. -/
abbrev Rec := Call → M Val

/-- Run user code.  `with listeners_disabled(q)` saves the quarantine, extends
it and restores the saved one however the block ends (handlers.py:55-63). -/
def execProg (rec : Rec) : Prog → M Val
  | .ret v => M.ret v
  | .raise e => M.raise e
  | .call c k => fun w =>
      let r := rec c w
      execProg rec (k r.1) r.2
  | .disabled q body k => fun w =>
      let r := execProg rec body { w with quar := w.quar.union q }
      execProg rec (k r.1) { r.2 with quar := w.quar }

/-- Call user function `f`. -/
def callFn (E : Env) (rec : Rec) (f : FnId) (args : List Val) : M Val :=
  execProg rec (E.fn f args)

/-- `instance._error_hook(error_tuples)` (base.py:469-474): recorded in the
log, then the override of the class, if any, is run. -/
def runHook (E : Env) (rec : Rec) (r : Nat) (ts : List ErrTuple) : M Unit := do
  let o ← getObj r
  M.modify (fun w => { w with hooks := w.hooks ++ [(r, ts)] })
  match (E.classes o.cls).hook with
  | none => pure ()
  | some f => do
      let _ ← callFn E rec f [.obj r]
      pure ()

/-- `raise ValidationError(message, reason, prop, instance)`: the constructor
calls the hook of the instance unless it is being validated or initialised
(utils.py:147-165; a missing `_getting_validated` counts as True). -/
def raiseVal {α : Type} (E : Env) (rec : Rec) (reason prop : Option PyStr)
    (inst : Option Nat) : M α :=
  let ts : List ErrTuple := [⟨reason, prop, inst⟩]
  match inst with
  | none => M.raise ⟨.validation, ts⟩
  | some r => do
      let o ← getObj r
      if o.gv == some false then runHook E rec r ts else pure ()
      M.raise ⟨.validation, ts⟩

/-- `self.error(instance, value)` of a property called `nm` (basic.py:326-357). -/
def propError {α : Type} (E : Env) (rec : Rec) (nm : PyStr) (inst : Option Nat) : M α :=
  raiseVal E rec (some (s% "invalid")) (some nm) inst

/-- `except (TypeError, ValueError)`. -/
def isTypeOrValue : ErrKind → Bool
  | .type | .value | .validation => true
  | _ => false

/-- Run a scalar result: `self.error` once, or once more inside the handler of
the first (basic.py:816-822). -/
def liftScalar (E : Env) (rec : Rec) (nm : PyStr) (inst : Option Nat)
    (x : Except SErr Val) : M Val :=
  match x with
  | .ok v => pure v
  | .error (.raw k) => raiseK k
  | .error (.invalid 2) =>
      M.catchIf isTypeOrValue (propError E rec nm inst) (fun _ => propError E rec nm inst)
  | .error (.invalid _) => propError E rec nm inst

/-- Lift a plain result with exception classes. -/
def liftK {α : Type} (x : Except ErrKind α) : M α :=
  match x with
  | .ok v => pure v
  | .error k => raiseK k

/-- `if b: raise`. -/
def raiseWhen (b : Bool) (k : ErrKind) : M Unit := if b then raiseK k else pure ()

/-- `isinstance(value, self._class_container)`. -/
def SeqKind.matches : SeqKind → Val → Bool
  | .tup, .tup _ => true
  | .list, .list _ => true
  | .set, .set _ => true
  | _, _ => false

/-- `isinstance(value, CONTAINERS)` (containers.py:22) without numpy. -/
def Val.isContainer : Val → Bool
  | .tup _ | .list _ | .set _ => true
  | _ => false

/-- Items of a list, tuple or set. -/
def Val.items : Val → List Val
  | .tup xs | .list xs | .set xs => xs
  | _ => []

/-- `container_class(items)`; building a set needs hashable items. -/
def mkSeq (k : SeqKind) (xs : List Val) : M Val :=
  match k with
  | .tup => pure (.tup xs)
  | .list => pure (.list xs)
  | .set => if hashableL xs then pure (.set (setOfList xs)) else raiseK .type

/-- `Tuple.validate`, and List/Set.validate without `observe_mutations`
(containers.py:261-281, 409-413). -/
def seqValidate (E : Env) (rec : Rec) (nm : PyStr) (inst : Option Nat)
    (k : SeqKind) (item : PropSpec) (coerce : Bool) (v : Val) : M Val := do
  if !coerce && !k.matches v then propError E rec nm inst else pure ()
  let items := if v.isContainer then v.items else [v]
  let out ← mapML (fun x =>
    M.catchIf ErrKind.isValueError (rec (.validate nm item inst x))
      (fun _ => propError E rec nm inst)) items
  mkSeq k out

/-- `dict(v)`: a dict, or an iterable of pairs; `none` for TypeError and
ValueError (both handled by the caller). -/
def pairOfVal? (v : Val) : Option (Val × Val) :=
  match v.iter? with
  | some [a, b] => if a.hashable then some (a, b) else none
  | _ => none

def dictCoerce? (v : Val) : Option (List (Val × Val)) :=
  match v with
  | .dict kvs => some kvs
  | v => match v.iter? with
      | some xs => (xs.mapM pairOfVal?).map dictOfPairs
      | none => none

/-- `Dictionary.validate` without `observe_mutations` (containers.py:570-598). -/
def dictValidate (E : Env) (rec : Rec) (nm : PyStr) (inst : Option Nat)
    (kp vp : PropSpec) (coerce : Bool) (v : Val) : M Val := do
  let items ← (match (if coerce then dictCoerce? v else
      match v with | .dict kvs => some kvs | _ => none) with
    | some kvs => pure kvs
    | none => propError E rec nm inst)
  let out ← foldML (fun d kv => do
    let key ← M.catchIf ErrKind.isValueError (rec (.validate nm kp inst kv.1))
      (fun _ => propError E rec nm inst)
    let val ← M.catchIf ErrKind.isValueError (rec (.validate nm vp inst kv.2))
      (fun _ => propError E rec nm inst)
    if key.hashable then pure (dictSet d key val) else raiseK .type) [] items
  pure (.dict out)

/-- `isinstance(obj, cls)` for HasProperties classes. -/
def isSub (E : Env) (c d : ClsId) : Bool := c == d || (E.classes c).ancestors.contains d

/-- A dict usable as keyword arguments: all keys strings. -/
def kwOfDict? : List (Val × Val) → Option (List (PyStr × Val))
  | [] => some []
  | (.str k, v) :: rest => (kwOfDict? rest).map ((k, v) :: ·)
  | _ :: _ => none

/-- `Instance.validate` (instance.py:89-111) for a HasProperties class: an
instance is returned unmodified, a dict is used as keyword arguments, anything
else makes the constructor raise TypeError (it takes no positional argument). -/
def instValidate (E : Env) (rec : Rec) (nm : PyStr) (inst : Option Nat)
    (c : ClsId) (v : Val) : M Val :=
  match v with
  | .obj r => do
      let o ← getObj r
      if isSub E o.cls c then pure v else propError E rec nm inst
  | .dict kvs => match kwOfDict? kvs with
      | some kw => M.catchIf ErrKind.isGeneric (rec (.construct c kw))
          (fun _ => propError E rec nm inst)
      | none => propError E rec nm inst
  | _ => propError E rec nm inst

/-- `Union._try_prop_method` (union.py:164-185): first success, generic errors
are skipped, then `self.error`. -/
def tryProps (E : Env) (rec : Rec) (nm : PyStr) (inst : Option Nat)
    (f : PropSpec → Call) : List PropSpec → M Val
  | [] => propError E rec nm inst
  | p :: ps => M.catchIf ErrKind.isGeneric (rec (f p)) (fun _ => tryProps E rec nm inst f ps)

/-- One draw of `random.choice`. -/
def draw (E : Env) : M Nat := fun w => (.ok (E.random w.tick), { w with tick := w.tick + 1 })

/-- `Color.validate` (basic.py:1186-1214); the text 'random' draws a number. -/
def colorBody (E : Env) (rec : Rec) (nm : PyStr) (inst : Option Nat) (v : Val) : M Val :=
  match v with
  | .str s => do
      let k ← (if colorIsRandom E s then draw E else pure 0)
      liftScalar E rec nm inst (colorValidate E k (.str s))
  | v => liftScalar E rec nm inst (colorValidate E 0 v)

/-- `prop.validate(instance, value)` for every property type. -/
def validateBody (E : Env) (rec : Rec) (nm : PyStr) (p : PropSpec) (inst : Option Nat)
    (v : Val) : M Val :=
  match p.ty with
  | .seq k item _ _ coerce => seqValidate E rec nm inst k item coerce v
  | .dict kp vp coerce => dictValidate E rec nm inst kp vp coerce v
  | .inst c => instValidate E rec nm inst c v
  | .union ps _ => tryProps E rec nm inst (fun p => .validate nm p inst v) ps
  | .color => colorBody E rec nm inst v
  | ty => match scalarValidate E 0 ty v with
      | some x => liftScalar E rec nm inst x
      | none => raiseK .type

/-- `[self.prop.equal(a, b) for a, b in zip(..)]` with `all` of it
(containers.py:331-334): every pair is compared. -/
def zipEqual (rec : Rec) (p : PropSpec) : List Val → List Val → M Bool
  | x :: xs, y :: ys => do
      let e ← rec (.propEqual p x y)
      let rest ← zipEqual rec p xs ys
      pure (e.truthy && rest)
  | _, _ => pure true

/-- Inner loop of `Set.equal` (containers.py:461-464): the first item equal to
`a` is removed; `none` if there is none. -/
def setRemove (rec : Rec) (p : PropSpec) (a : Val) : List Val → M (Option (List Val))
  | [] => pure none
  | y :: ys => do
      let e ← rec (.propEqual p a y)
      if e.truthy then pure (some ys)
      else do
        let r ← setRemove rec p a ys
        pure (r.map (y :: ·))

/-- `Set.equal` (containers.py:455-467).  `value_b.copy()` exists for lists,
sets and dicts; the copy of a dict has no `remove`.  Removal is of the matched
item itself. -/
def setEqual (rec : Rec) (p : PropSpec) (a b : Val) : M Val :=
  M.catchIf (fun k => k == .type || k == .attr) (do
    match a.iter?, b.iter? with
    | some xs, some ys =>
        if xs.length ≠ ys.length then pure (.bool false)
        else match b with
          | .list _ | .set _ | .dict _ => do
              let isDict := match b with | .dict _ => true | _ => false
              let rest ← foldML (fun copy x => do
                let r ← setRemove rec p x copy
                match r with
                | some copy' => if isDict then raiseK .attr else pure copy'
                | none => pure copy) ys xs
              pure (.bool rest.isEmpty)
          | _ => raiseK .attr
    | _, _ => raiseK .type) (fun _ => pure (.bool false))

/-- `Tuple.equal`/`List.equal` (containers.py:329-337). -/
def tupEqual (rec : Rec) (p : PropSpec) (a b : Val) : M Val :=
  M.catchIf (fun k => k == .type) (do
    match a.iter?, b.iter? with
    | some xs, some ys =>
        if xs.length = ys.length then do
          let e ← zipEqual rec p xs ys
          pure (.bool e)
        else pure (.bool false)
    | _, _ => raiseK .type) (fun _ => pure (.bool false))

/-- `a[k]` on a dict, list, tuple or string. -/
def pyIndex (a k : Val) : Except ErrKind Val :=
  let seq (xs : List Val) : Except ErrKind Val :=
    match k with
    | .int i =>
        let j := if i < 0 then i + xs.length else i
        if j < 0 then .error .index
        else match xs[j.toNat]? with
          | some v => .ok v
          | none => .error .index
    | .bool b => match xs[(if b then 1 else 0)]? with
        | some v => .ok v
        | none => .error .index
    | _ => .error .type
  match a with
  | .dict kvs => if k.hashable then
        match dictGet? kvs k with
        | some v => .ok v
        | none => .error .key
      else .error .type
  | .list xs => seq xs
  | .tup xs => seq xs
  | .str s => seq (s.map (fun c => .str [c]))
  | _ => .error .type

/-- Delete the entry of a dict with key equal to `k`. -/
def dictErase : List (Val × Val) → Val → List (Val × Val)
  | [], _ => []
  | (k, v) :: rest, key => if pyEq k key then rest else (k, v) :: dictErase rest key

/-- `c.pop(k)` on the copy of a dict, list or set. -/
def pyPop (a k : Val) : Except ErrKind Val :=
  match a with
  | .dict kvs => match dictGet? kvs k with
      | some _ => .ok (.dict (dictErase kvs k))
      | none => .error .key
  | .list xs =>
      let pop (i : Int) : Except ErrKind Val :=
        let j := if i < 0 then i + xs.length else i
        if j < 0 ∨ (xs.length : Int) ≤ j then .error .index
        else .ok (.list (xs.eraseIdx j.toNat))
      match k with
      | .int i => pop i
      | .bool b => pop (if b then 1 else 0)
      | _ => .error .type
  | _ => .error .type

/-- `Dictionary.equal` (containers.py:659-669). -/
def dictEqual (rec : Rec) (vp : PropSpec) (a b : Val) : M Val :=
  M.catchIf (fun k => k == .key || k == .type || k == .attr) (do
    match a.iter?, b.iter? with
    | some ks, some ys =>
        if ks.length ≠ ys.length then pure (.bool false)
        else match b with
          | .list _ | .set _ | .dict _ => do
              let rest ← foldML (fun copy k => do
                let x ← liftK (pyIndex a k)
                let y ← liftK (pyIndex b k)
                let e ← rec (.propEqual vp x y)
                if e.truthy then liftK (pyPop copy k) else pure copy) b ks
              pure (.bool (rest.len? == some 0))
          | _ => raiseK .attr
    | _, _ => raiseK .type) (fun _ => pure (.bool false))

/-- `any(prop.equal(a, b) for prop in props)` (union.py:254-255). -/
def unionEqual (rec : Rec) (a b : Val) : List PropSpec → M Val
  | [] => pure (.bool false)
  | p :: ps => do
      let e ← rec (.propEqual p a b)
      if e.truthy then pure (.bool true) else unionEqual rec a b ps

/-- `prop.equal(a, b)` for every property type. -/
def propEqualBody (E : Env) (rec : Rec) (p : PropSpec) (a b : Val) : M Val :=
  match p.ty with
  | .seq .set item _ _ _ => setEqual rec item a b
  | .seq _ item _ _ _ => tupEqual rec item a b
  | .dict _ vp _ => dictEqual rec vp a b
  | .inst _ => rec (.equal a b)
  | .union ps _ => unionEqual rec a b ps
  | ty => match scalarEqual E ty a b with
      | some x => do
          let r ← liftK x
          pure (.bool r)
      | none => raiseK .type

/-- The property called `name` on the class of `r` (`self._props[name]`). -/
def entryOf (E : Env) (r : Nat) (name : PyStr) : M (Option Entry) := do
  let o ← getObj r
  pure (lookupS name (E.classes o.cls).props)

/-- `self._get(name)`: `self._backend.get(name, None)` (base.py:346-347). -/
def getStored (r : Nat) (name : PyStr) : M Val := do
  let o ← getObj r
  pure ((lookupS name o.backend).getD .none)

/-- Reading an attribute that is a property (basic.py:282-286, 565-570,
669-671, 1490-1493).  Other attributes are not modelled. -/
def getattrBody (E : Env) (rec : Rec) (r : Nat) (name : PyStr) : M Val := do
  match ← entryOf E r name with
  | some (.mutable _) => getStored r name
  | some (.gettable _) => getStored r name
  | some (.dynamic p getter _ _) => do
      let v ← callFn E rec getter [.obj r]
      match v with
      | .none => pure .none
      | .undef => pure .none
      | v => rec (.validate name p (some r) v)
  | some (.renamed new) => rec (.getattr r new)
  | none => raiseK .attr

/-- Mode as the text put in the change dictionary. -/
def Mode.toStr : Mode → PyStr
  | .validate => s% "validate"
  | .set => s% "observe_set"
  | .change => s% "observe_change"

/-- Call one listener and record the call (base.py:351-355). -/
def notifyOne (E : Env) (rec : Rec) (r : Nat) (mode : Mode) (name : PyStr) (prev v : Val)
    (l : Listener) : M Val := do
  M.modify (fun w => { w with trace := w.trace ++ [⟨r, mode, name, prev, v, l.fn⟩] })
  callFn E rec l.fn [.obj r, .str name, prev, v, .str mode.toStr]

/-- `self._notify(change)` (base.py:349-355, handlers.py:101-108).  A listener
may replace `change['value']`; its return value is the new one.  Changes a
listener makes to the other entries are not modelled.  The list of listeners
is the one found at the start; Models/Live.lean has the live list and C72 the
condition under which there is no difference. -/
def notify (E : Env) (rec : Rec) (r : Nat) (mode : Mode) (name : PyStr) (prev v : Val) :
    M Val := do
  let o ← getObj r
  let w ← M.get
  let ls := if w.quar.has mode then []
    else o.listeners.filter (fun l => l.name == name && l.mode == mode)
  foldML (notifyOne E rec r mode name prev) v ls

/-- `value is undefined`. -/
def Val.isUndef : Val → Bool
  | .undef => true
  | _ => false

/-- `value is None`. -/
def Val.isNone : Val → Bool
  | .none => true
  | _ => false

/-- `self._backend[name] = v`, or `pop` for undefined (base.py:361-364). -/
def writeStored (r : Nat) (name : PyStr) (v : Val) : M Unit :=
  modObj r (fun o => { o with
    backend := if v.isUndef then eraseS name o.backend else setS name v o.backend })

/-- `self._backend[name] = v` (base.py:275 and 586). -/
def putStored (r : Nat) (name : PyStr) (v : Val) : M Unit :=
  modObj r (fun o => { o with backend := setS name v o.backend })

/-- `HasProperties._set` (base.py:357-375) for property `p`. -/
def setBody (E : Env) (rec : Rec) (r : Nat) (name : PyStr) (p : PropSpec) (v0 : Val) :
    M Unit := do
  let o ← getObj r
  let prev := (lookupS name o.backend).getD .undef
  let v1 ← notify E rec r .validate name prev v0
  writeStored r name v1
  let changed ← (if prev.isUndef && v1.isUndef then pure false
    else if prev.isUndef || v1.isUndef then pure true
    else do
      let e ← rec (.propEqual p prev v1)
      pure (!e.truthy))
  let v2 ← (if changed then notify E rec r .change name prev v1 else pure v1)
  let _ ← notify E rec r .set name prev v2
  pure ()

/-- Assigning the private attribute `_backend` replaces the stored values
without validation (base.py:257, 324: nothing protects it). -/
def setBackend (r : Nat) (v : Val) : M Unit := do
  M.modify (fun w => { w with bypass := true })
  match v with
  | .dict kvs => modObj r (fun o => { o with backend := (kwOfDict? kvs).getD [] })
  | _ => modObj r (fun o => { o with backend := [] })

/-- The setter of a mutable property (basic.py:672-677): validate, except
`undefined`, then `_set`. -/
def assignBody (E : Env) (rec : Rec) (r : Nat) (name : PyStr) (p : PropSpec) (v : Val) : M Val := do
  let v' ← (if v.isUndef then pure v else rec (.validate name p (some r) v))
  setBody E rec r name p v'
  pure .none

/-- `setattr(obj, name, value)` (basic.py:572-576, 664-677, 1495-1498).  An
immutable property has no setter.  Assignments to attributes that are no
properties have no effect in the model, except `_backend`. -/
def setattrBody (E : Env) (rec : Rec) (r : Nat) (name : PyStr) (v : Val) : M Val := do
  match ← entryOf E r name with
  | some (.mutable p) => assignBody E rec r name p v
  | some (.gettable _) => raiseK .attr
  | some (.dynamic p _ setter _) => match setter with
      | none => raiseK .attr
      | some f => do
          let v' ← rec (.validate name p (some r) v)
          let _ ← callFn E rec f [.obj r, v']
          pure .none
  | some (.renamed new) => rec (.setattr r new v)
  | none => do
      if name = s% "_backend" then setBackend r v else pure ()
      pure .none

/-- `delattr(obj, name)` (basic.py:578-582, 679-681, 1500-1503). -/
def delattrBody (E : Env) (rec : Rec) (r : Nat) (name : PyStr) : M Val := do
  match ← entryOf E r name with
  | some (.mutable p) => do
      setBody E rec r name p .undef
      pure .none
  | some (.gettable _) => raiseK .attr
  | some (.dynamic _ _ _ deleter) => match deleter with
      | none => raiseK .attr
      | some f => do
          let _ ← callFn E rec f [.obj r]
          pure .none
  | some (.renamed new) => rec (.delattr r new)
  | none => raiseK .attr

/-- `val() if callable(val) else val` for a default. -/
def evalDflt (E : Env) (rec : Rec) : Dflt → M Val
  | .undef => pure .undef
  | .val v => pure v
  | .fn f => callFn E rec f []
  | .cls c => rec (.construct c [])
  | .uuid4 => fun w => (.ok (.uuid (E.uuid4 w.tick)), { w with tick := w.tick + 1 })

/-- `prop.default` of an entry; dynamic and renamed properties have none. -/
def Entry.default : Entry → Dflt
  | .mutable p => p.default
  | .gettable p => p.default
  | .dynamic .. => .undef
  | .renamed _ => .undef

/-- `prop.validate` of an entry (a Renamed inherits the identity of
GettableProperty, a dynamic one delegates, basic.py:226, 517-519). -/
def entryValidate (rec : Rec) (name : PyStr) (e : Entry) (inst : Option Nat) (v : Val) : M Val :=
  match e with
  | .mutable p => rec (.validate name p inst v)
  | .gettable p => rec (.validate name p inst v)
  | .dynamic p _ _ _ => rec (.validate name p inst v)
  | .renamed _ => pure v

def Entry.isMutable : Entry → Bool
  | .mutable _ => true
  | _ => false

/-- The default of property `key`: class dictionary first (base.py:267-270,
393-396). -/
def classDefault (E : Env) (c : ClsId) (key : PyStr) (e : Entry) : Dflt :=
  (lookupS key (E.classes c).defaults).getD e.default

/-- `_reset(name)` (base.py:377-399). -/
def resetBody (E : Env) (rec : Rec) (r : Nat) (name : Option PyStr) : M Val := do
  let o ← getObj r
  match name with
  | none => do
      forML (fun kv => do
        if kv.2.isMutable then do
          let _ ← rec (.reset r (some kv.1))
          pure ()
        else pure ()) (E.classes o.cls).props
      pure .none
  | some nm => match lookupS nm (E.classes o.cls).props with
      | some (.mutable p) => do
          let v ← evalDflt E rec (classDefault E o.cls nm (.mutable p))
          rec (.setattr r nm v)
      | _ => raiseK .attr

/-- Listeners of a new instance (base.py:260-262, handlers.py:89-98). -/
def observerNames (c : ClassDef) : ObsNames → List PyStr
  | .everything => c.props.map (·.1)
  | .names ns => ns

def initListeners (c : ClassDef) : List Listener :=
  c.observers.flatMap (fun ob => (observerNames c ob.names).map (fun n => ⟨n, ob.mode, ob.fn⟩))

/-- Run a block with all listeners disabled (`with listeners_disabled():`). -/
def withDisabled {α : Type} (q : Quar) (m : M α) : M α := fun w =>
  let r := m { w with quar := w.quar.union q }
  (r.1, { r.2 with quar := w.quar })

/-- `self._validation_error_tuples += tuples`; TypeError if it is None. -/
def addErrs (r : Nat) (ts : List ErrTuple) : M Unit := do
  let o ← getObj r
  match o.errs with
  | some es => modObj r (fun o => { o with errs := some (es ++ ts) })
  | none => raiseK .type

/-- One keyword of `__init__` (base.py:312-330); the state is the first error
that is not a ValidationError. -/
def initStep (rec : Rec) (r : Nat) (c : ClassDef) (nv : Option PyErr)
    (kv : PyStr × Val) : M (Option PyErr) := do
  match lookupS kv.1 c.props with
  | none => if c.attrs.contains kv.1 || kv.1 == s% "_backend" then pure () else raiseK .attr
  | some (.dynamic ..) => raiseK .attr
  | some _ => pure ()
  let res ← M.attempt (rec (.setattr r kv.1 kv.2))
  match res with
  | .ok _ => pure nv
  | .error e =>
      if e.kind = .validation then do
        addErrs r e.tuples
        pure nv
      else if e.kind.isGeneric then pure (nv.or (some e))
      else M.raise e

/-- End of `__init__`/`validate` (base.py:331-340, 429-438): the collected
ValidationErrors win over the first other error. -/
def raiseCollected (E : Env) (rec : Rec) (r : Nat) (nv : Option PyErr) : M Unit := do
  let o ← getObj r
  let ts := o.errs.getD []
  if ts ≠ [] then do
    runHook E rec r ts
    M.raise ⟨.validation, ts⟩
  else match nv with
    | some e => M.raise e
    | none => pure ()

/-- `finally` of `__init__` and `validate` (base.py:341-344, 440-443). -/
def clearValidating (r : Nat) (w : World) : World :=
  w.setObj r (fun o => { o with gv := some false, errs := none })

/-- `__init__(**kwargs)` (base.py:305-344); a keyword called `self` collides
with the first parameter. -/
def initBody (E : Env) (rec : Rec) (r : Nat) (c : ClassDef) (kw : List (PyStr × Val)) : M Unit := do
  raiseWhen (kw.any (fun kv => kv.1 == s% "self")) .type
  modObj r (fun o => { o with gv := some true, errs := some [] })
  M.fin (do
    let nv ← foldML (initStep rec r c) none kw
    raiseCollected E rec r nv) (clearValidating r)

/-- Allocate an object. -/
def alloc (o : Obj) : M Nat := fun w => (.ok w.objs.length, { w with objs := w.objs ++ [o] })

/-- Set one immutable default (base.py:265-275). -/
def gettableDefault (E : Env) (rec : Rec) (c : ClsId) (r : Nat) (kv : PyStr × Entry) : M Unit :=
  if kv.2.isMutable then pure ()
  else match classDefault E c kv.1 kv.2 with
    | .undef => pure ()
    | .val .undef => pure ()
    | d => do
        let v ← evalDflt E rec d
        let v' ← entryValidate rec kv.1 kv.2 (some r) v
        putStored r kv.1 v'

/-- `PropertyMetaclass.__call__` (base.py:250-281) and `__init__`: allocate,
register class listeners, set immutable defaults, reset the others silently,
then the keywords.  A keyword `cls` collides with the metaclass parameter. -/
def constructBody (E : Env) (rec : Rec) (c : ClsId) (kw : List (PyStr × Val)) : M Val := do
  raiseWhen (kw.any (fun kv => kv.1 == s% "cls")) .type
  let cd := E.classes c
  let r ← alloc { cls := c, listeners := initListeners cd }
  forML (gettableDefault E rec c r) cd.props
  let _ ← withDisabled Quar.all (rec (.reset r none))
  initBody E rec r cd kw
  pure (.obj r)

/-- One class validator in `validate` (base.py:414-428). -/
def validatorStep (E : Env) (rec : Rec) (r : Nat) (nv : Option PyErr) (val : Option FnId) :
    M (Option PyErr) := do
  let res ← M.attempt (do
    let valid ← (match val with
      | none => rec (.validateProps r)
      | some f => callFn E rec f [.obj r])
    match valid with
    | .bool false => raiseVal E rec none none (some r)
    | _ => pure ())
  match res with
  | .ok () => pure nv
  | .error e =>
      if e.kind = .validation then do
        addErrs r e.tuples
        pure nv
      else if e.kind.isGeneric then pure (nv.or (some e))
      else M.raise e

/-- `HasProperties.validate` (base.py:401-443). -/
def hpValidateBody (E : Env) (rec : Rec) (r : Nat) : M Val := do
  let o ← getObj r
  if o.gv == some true then pure (.bool true)
  else do
    modObj r (fun o => { o with gv := some true, errs := some [] })
    M.fin (do
      let nv ← foldML (validatorStep E rec r) none (E.classes o.cls).validators
      raiseCollected E rec r nv
      pure (.bool true)) (clearValidating r)

/-- `prop.equal` of an entry (Renamed: `==`). -/
def entryEqual (rec : Rec) (e : Entry) (a b : Val) : M Val :=
  match e with
  | .mutable p => rec (.propEqual p a b)
  | .gettable p => rec (.propEqual p a b)
  | .dynamic p _ _ _ => rec (.propEqual p a b)
  | .renamed _ => pure (.bool (pyEq a b))

/-- `GettableProperty.assert_valid(instance)` (basic.py:247-262), used by
immutable, dynamic and renamed properties. -/
def gettableAssert (E : Env) (rec : Rec) (nm : PyStr) (e : Entry) (r : Nat) : M Val := do
  let v ← getStored r nm
  if v.isNone then pure (.bool true)
  else do
    let v' ← entryValidate rec nm e (some r) v
    let eq ← entryEqual rec e v v'
    if eq.truthy then pure (.bool true)
    else raiseVal E rec (some (s% "invalid")) (some nm) (some r)

/-- `prop.assert_valid(instance)` of an entry. -/
def entryAssert (E : Env) (rec : Rec) (nm : PyStr) (e : Entry) (r : Nat) : M Val :=
  match e with
  | .mutable p => rec (.assertValid nm p r .none)
  | e => gettableAssert E rec nm e r

/-- One property in `_validate_props` (base.py:448-466). -/
def validatePropStep (E : Env) (rec : Rec) (r : Nat) (kv : PyStr × Entry) : M Unit :=
  M.catchIf (fun k => k == .validation) (do
    let v ← getStored r kv.1
    if v.isNone then pure () else do
      let v' ← notify E rec r .validate kv.1 v v
      let eq ← entryEqual rec kv.2 v v'
      if eq.truthy then pure ()
      else raiseVal E rec (some (s% "invalid")) (some kv.1) (some r)
    let ok ← entryAssert E rec kv.1 kv.2 r
    if ok.truthy then pure ()
    else raiseVal E rec (some (s% "invalid")) (some kv.1) (some r))
  (fun e => do
    let o ← getObj r
    match o.errs with
    | some _ => addErrs r e.tuples
    | none => M.raise e)

/-- `_validate_props` (base.py:445-467). -/
def validatePropsBody (E : Env) (rec : Rec) (r : Nat) : M Val := do
  let o ← getObj r
  forML (validatePropStep E rec r) (E.classes o.cls).props
  pure (.bool true)

/-- `Property.assert_valid` (basic.py:639-662, 247-262) with the value the
caller passed or, for None, the stored one. -/
def baseAssert (E : Env) (rec : Rec) (nm : PyStr) (p : PropSpec) (r : Nat) (v : Val) : M Unit := do
  let v ← (if v.isNone then getStored r nm else pure v)
  if v.isNone then
    if p.required then raiseVal E rec (some (s% "missing")) (some nm) (some r) else pure ()
  else do
    let v' ← rec (.validate nm p (some r) v)
    let eq ← rec (.propEqual p v v')
    if eq.truthy then pure ()
    else raiseVal E rec (some (s% "invalid")) (some nm) (some r)

/-- `for val in value: if not self.prop.assert_valid(instance, val): return
False` (containers.py:302-305). -/
def assertItems (rec : Rec) (nm : PyStr) (item : PropSpec) (r : Nat) : List Val → M Val
  | [] => pure (.bool true)
  | x :: xs => do
      let ok ← rec (.assertValid nm item r x)
      if ok.truthy then assertItems rec nm item r xs else pure (.bool false)

/-- Length limits of Tuple/List/Set (containers.py:292-296). -/
def lengthOk (minL maxL : Option Nat) (n : Nat) : Bool :=
  (match minL with | some m => decide (m ≤ n) | none => true) &&
  (match maxL with | some m => decide (n ≤ m) | none => true)

/-- `prop.assert_valid(instance, value)` for every mutable property type
(basic.py:639, containers.py:283-305, 600-615, instance.py:113-122,
union.py:191-200).  The results of key and value checks of a Dictionary are
ignored, as in the code. -/
def assertValidBody (E : Env) (rec : Rec) (nm : PyStr) (p : PropSpec) (r : Nat) (v : Val) :
    M Val := do
  baseAssert E rec nm p r v
  match p.ty with
  | .seq _ item minL maxL _ => do
      let v ← (if v.isNone then getStored r nm else pure v)
      if v.isNone then pure (.bool true)
      else match v.iter? with
        | none => raiseK .type
        | some xs => do
            if lengthOk minL maxL xs.length then pure () else propError E rec nm (some r)
            assertItems rec nm item r xs
  | .dict kp vp _ => do
      let v ← (if v.isNone then getStored r nm else pure v)
      match v with
      | .none => pure (.bool true)
      | .dict kvs => do
          forML (fun kv => do
            let _ ← rec (.assertValid nm kp r kv.1)
            let _ ← rec (.assertValid nm vp r kv.2)
            pure ()) kvs
          pure (.bool true)
      | _ => raiseK .attr
  | .inst _ => do
      let v ← (if v.isNone then getStored r nm else pure v)
      match v with
      | .obj r' => do
          let _ ← rec (.hpValidate r')
          pure (.bool true)
      | _ => pure (.bool true)
  | .union ps _ => do
      let v ← (if v.isNone then getStored r nm else pure v)
      if v.isNone then pure (.bool true)
      else tryProps E rec nm (some r) (fun p => .assertValid nm p r v) ps
  | _ => pure (.bool true)

/-- A registered serializer or deserializer wrapped by `accept_kwargs`
(basic.py:34-53): called with the keyword arguments, and again without them
after a TypeError. -/
def callWrapped (E : Env) (rec : Rec) (f : FnId) (v : Val) (kw : List Val) : M Val :=
  M.catchIf (fun k => k == .type) (callFn E rec f (v :: kw)) (fun _ => callFn E rec f [v])

def SerKw.args (kw : SerKw) : List Val := [.bool kw.includeClass, .bool kw.saveDynamic]
def DeKw.args (kw : DeKw) : List Val := [.bool kw.trusted, .bool kw.strict, .bool kw.assertValid]

/-- `{k: v for k, v in pairs}`, TypeError for an unhashable key. -/
def mkDict (ps : List (Val × Val)) : M Val :=
  if ps.all (fun kv => kv.1.hashable) then pure (.dict (dictOfPairs ps)) else raiseK .type

/-- `Union.serialize` without serializer (union.py:213-219). -/
def unionSerialize (rec : Rec) (nm : PyStr) (v : Val) (kw : SerKw) : List PropSpec → M Val
  | [] => match v with
      | .obj r => rec (.hpSerialize r kw)
      | v => pure v
  | p :: ps => do
      let res ← M.attempt (rec (.validate nm p none v))
      match res with
      | .ok _ => rec (.serializeP nm p v kw)
      | .error e => if e.kind.isGeneric then unionSerialize rec nm v kw ps else M.raise e

/-- `prop.serialize(value, **kwargs)` (basic.py:288-300, containers.py:307-316,
617-636, instance.py:125-139, union.py:202-219). -/
def serializeBody (E : Env) (rec : Rec) (nm : PyStr) (p : PropSpec) (v : Val) (kw : SerKw) :
    M Val :=
  match p.ser with
  | some f => callWrapped E rec f v kw.args
  | none =>
    if v.isNone then pure .none
    else match p.ty with
    | .seq _ item _ _ _ => match v.iter? with
        | none => raiseK .type
        | some xs => do
            let out ← mapML (fun x => rec (.serializeP nm item x kw)) xs
            pure (.list out)
    | .dict kp vp _ => match v with
        | .dict kvs => do
            let out ← mapML (fun kv => do
              let k ← rec (.serializeP nm kp kv.1 kw)
              let x ← rec (.serializeP nm vp kv.2 kw)
              pure (k, x)) kvs
            mkDict out
        | _ => raiseK .attr
    | .inst _ => match v with
        | .obj r => rec (.hpSerialize r kw)
        | v => match E.jsonCopy v with
            | some j => pure j
            | none => raiseK .type
    | .union ps _ => unionSerialize rec nm v kw ps
    | ty => match scalarToJson E ty v with
        | some x => liftK x
        | none => raiseK .type

/-- `prop.serialize` of an entry.  Dynamic and renamed properties use the
identity `to_json` of GettableProperty (basic.py:288-319, 498-506). -/
def entrySerialize (E : Env) (rec : Rec) (nm : PyStr) (e : Entry) (v : Val) (kw : SerKw) :
    M Val :=
  match e with
  | .mutable p => rec (.serializeP nm p v kw)
  | .gettable p => rec (.serializeP nm p v kw)
  | .dynamic p _ _ _ => match p.ser with
      | some f => callWrapped E rec f v kw.args
      | none => pure v
  | .renamed _ => pure v

/-- `HasProperties.serialize` (base.py:476-516). -/
def hpSerializeBody (E : Env) (rec : Rec) (r : Nat) (kw : SerKw) : M Val := do
  let o ← getObj r
  if o.gs then raiseK .selfRef
  else do
    modObj r (fun o => { o with gs := true })
    M.fin (do
      let cd := E.classes o.cls
      let keys := if kw.saveDynamic then cd.props.map (·.1) else o.backend.map (·.1)
      let data ← mapML (fun key => do
        match lookupS key cd.props with
        | none => raiseK .key
        | some e => do
            let v ← rec (.getattr r key)
            let j ← entrySerialize E rec key e v kw
            pure (Val.str key, j)) keys
      let data := data.filter (fun kv => !kv.2.isNone)
      let data := if kw.includeClass then dictSet data (.str (s% "__class__")) (.str cd.name)
        else data
      pure (.dict data)) (fun w => w.setObj r (fun o => { o with gs := false }))

/-- `cls._deserialize_class` (base.py:591-603). -/
def deserializeClass (E : Env) (c : ClsId) (nm : Val) (trusted strict : Bool) : M ClsId :=
  if !nm.truthy || pyEq nm (.str (E.classes c).name) then pure c
  else
    let found : Option ClsId := match nm with
      | .str s => lookupS s (E.classes c).registry
      | _ => none
    if trusted && !nm.hashable then raiseK .type
    else match (if trusted then found else none) with
      | some d => pure d
      | none => if strict then raiseK .value else pure c

/-- `prop.deserialize` of an entry; identity `from_json` for dynamic and
renamed ones. -/
def entryDeserialize (E : Env) (rec : Rec) (nm : PyStr) (e : Entry) (v : Val) (kw : DeKw) :
    M Val :=
  match e with
  | .mutable p => rec (.deserializeP nm p v kw)
  | .gettable p => rec (.deserializeP nm p v kw)
  | .dynamic p _ _ _ => match p.deser with
      | some f => callWrapped E rec f v kw.args
      | none => pure v
  | .renamed _ => pure v

/-- `filter_props(cls, d, True)[0]` on a dict with arbitrary keys
(utils.py:51-61): the entries whose key names a property. -/
def propState (props : List (PyStr × Entry)) : List (Val × Val) → List (PyStr × Val)
  | [] => []
  | (.str k, v) :: rest =>
      if (lookupS k props).isSome then (k, v) :: propState props rest else propState props rest
  | _ :: rest => propState props rest

/-- Keys of the dict that name no property (utils.py:62-63). -/
def unusedKeys (props : List (PyStr × Entry)) (kvs : List (Val × Val)) : List Val :=
  (kvs.filter (fun kv => match kv.1 with
    | .str k => !(lookupS k props).isSome
    | _ => true)).map (·.1)

/-- `hasattr(prop, 'required') or hasattr(prop, 'new_name')` (utils.py:54-58). -/
def Entry.settable : Entry → Bool
  | .mutable _ => true
  | .renamed _ => true
  | _ => false

/-- Deserialize one entry of the input (base.py:575-576). -/
def deserEntry (E : Env) (rec : Rec) (c : ClsId) (kw : DeKw) (kv : PyStr × Val) : M (PyStr × Val) :=
  match lookupS kv.1 (E.classes c).props with
  | none => raiseK .key
  | some e => do
      let x ← entryDeserialize E rec kv.1 e kv.2 kw
      pure (kv.1, x)

/-- Store one immutable value on the new instance (base.py:584-586). -/
def setImmutable (E : Env) (rec : Rec) (c : ClsId) (r : Nat) (kv : PyStr × Val) : M Unit :=
  match lookupS kv.1 (E.classes c).props with
  | none => raiseK .key
  | some e => do
      let x ← entryValidate rec kv.1 e (some r) kv.2
      putStored r kv.1 x

/-- Whether the entry of the input goes to the constructor
(`filter_props(cls, d, False)`, utils.py:51-61). -/
def isSettable (E : Env) (c : ClsId) (kv : PyStr × Val) : Bool :=
  match lookupS kv.1 (E.classes c).props with
  | some e => e.settable
  | none => false

/-- `if assert_valid and not newinst.validate(): raise` (base.py:587-588). -/
def assertBuilt (E : Env) (rec : Rec) (r : Nat) (b : Bool) : M Unit :=
  if b then do
    let ok ← rec (.hpValidate r)
    if ok.truthy then pure () else raiseVal E rec none none none
  else pure ()

/-- End of `deserialize`: immutable values and optional validation
(base.py:584-589). -/
def deserFinish (E : Env) (rec : Rec) (c : ClsId) (kw : DeKw) (immutable_ : List (PyStr × Val))
    (inst : Val) : M Val :=
  match inst with
  | .obj r => do
      forML (setImmutable E rec c r) immutable_
      assertBuilt E rec r kw.assertValid
      pure inst
  | _ => raiseK .type

/-- `HasProperties.deserialize` (base.py:518-589) without `_instance`.  Writing
the message about unused keys needs them to be text (`', '.join`). -/
def hpDeserializeBody (E : Env) (rec : Rec) (c : ClsId) (v : Val) (kw : DeKw) : M Val :=
  match v with
  | .dict kvs => do
      let outc ← deserializeClass E c ((dictGet? kvs (.str (s% "__class__"))).getD .none)
        kw.trusted kw.strict
      let state := propState (E.classes outc).props kvs
      let unused := (unusedKeys (E.classes outc).props kvs).filter
        (fun k => !(pyEq k (.str (s% "__class__"))))
      raiseWhen (kw.strict && !unused.isEmpty) (if unused.all Val.isStr then .value else .type)
      let newstate ← mapML (deserEntry E rec outc { kw with assertValid := false }) state
      let inst ← withDisabled Quar.all
        (rec (.construct outc (newstate.filter (isSettable E outc))))
      deserFinish E rec outc kw (newstate.filter (fun kv => !isSettable E outc kv)) inst
  | _ => raiseK .value

/-- The Instance alternative whose class carries the given name
(union.py:232-244). -/
def namedAlternative (E : Env) (clsname : Val) : List PropSpec → Option PropSpec
  | [] => none
  | p :: ps => match p.ty with
      | .inst c => if pyEq clsname (.str (E.classes c).name) then some p
          else namedAlternative E clsname ps
      | _ => namedAlternative E clsname ps

/-- The loop of `Union.deserialize` (union.py:245-252). -/
def unionDeserialize (rec : Rec) (nm : PyStr) (v : Val) (kw : DeKw) : List PropSpec → M Val
  | [] => pure v
  | p :: ps =>
      M.catchIf ErrKind.isGeneric (do
        let out ← rec (.deserializeP nm p v kw)
        let _ ← rec (.validate nm p none out)
        pure out) (fun _ => unionDeserialize rec nm v kw ps)

/-- `prop.deserialize(value, **kwargs)` (basic.py:302-314,
containers.py:318-327, 638-657, instance.py:141-155, union.py:221-252). -/
def deserializeBody (E : Env) (rec : Rec) (nm : PyStr) (p : PropSpec) (v : Val) (kw : DeKw) :
    M Val :=
  match p.deser with
  | some f => callWrapped E rec f v kw.args
  | none =>
    if v.isNone then pure .none
    else match p.ty with
    | .seq k item _ _ _ => match v.iter? with
        | none => raiseK .type
        | some xs => do
            let out ← mapML (fun x => rec (.deserializeP nm item x kw)) xs
            mkSeq k out
    | .dict kp vp _ => match v with
        | .dict kvs => do
            let out ← mapML (fun kv => do
              let k ← rec (.deserializeP nm kp kv.1 kw)
              let x ← rec (.deserializeP nm vp kv.2 kw)
              pure (k, x)) kvs
            mkDict out
        | _ => raiseK .attr
    | .inst c => rec (.hpDeserialize c v kw)
    | .union ps strictInst =>
        let kw' : DeKw := { kw with strict := kw.strict || strictInst, assertValid := strictInst }
        let named : Option PropSpec := match v with
          | .dict kvs =>
              let clsname := (dictGet? kvs (.str (s% "__class__"))).getD .none
              if clsname.truthy then namedAlternative E clsname ps else none
          | _ => none
        match named with
        | some q => rec (.deserializeP nm q v kw')
        | none => unionDeserialize rec nm v kw' ps
    | ty => match scalarFromJson E ty v with
        | some x => liftK x
        | none => raiseK .type

/-- One property in `equal` (base.py:646-657): False ends the loop. -/
def equalLoop (rec : Rec) (a b : Nat) : List (PyStr × Entry) → M Val
  | [] => pure (.bool true)
  | (nm, e) :: rest => do
      let x ← rec (.getattr a nm)
      let y ← rec (.getattr b nm)
      if x.isNone && y.isNone then equalLoop rec a b rest
      else if x.isNone || y.isNone then pure (.bool false)
      else do
        let eq ← entryEqual rec e x y
        if eq.truthy then equalLoop rec a b rest else pure (.bool false)

/-- `properties.equal` (base.py:617-660). -/
def equalBody (E : Env) (rec : Rec) (a b : Val) : M Val :=
  match a, b with
  | .obj i, .obj j => do
      let oa ← getObj i
      if oa.te then pure (.bool false)
      else do
        modObj i (fun o => { o with te := true })
        M.fin (do
          if i = j then pure (.bool true)
          else do
            let ob ← getObj j
            if oa.cls = ob.cls then equalLoop rec i j (E.classes oa.cls).props
            else pure (.bool false)) (fun w => w.setObj i (fun o => { o with te := false }))
  | a, b => pure (.bool (pyEq a b))

/-- `properties.copy` (base.py:663-678). -/
def copyBody (rec : Rec) (v : Val) (skw : SerKw) (dkw : DeKw) : M Val :=
  match v with
  | .obj r => do
      let o ← getObj r
      let j ← rec (.hpSerialize r skw)
      rec (.hpDeserialize o.cls j dkw)
  | _ => raiseK .value

/-- `properties.observer(instance, names, func)` and `properties.validator`
(handlers.py:228-230, 306-308, 89-98). -/
def observeBody (E : Env) (r : Nat) (names : ObsNames) (mode : Mode) (fn : FnId) : M Val := do
  let o ← getObj r
  let ns := observerNames (E.classes o.cls) names
  modObj r (fun o => { o with listeners := o.listeners ++ ns.map (fun n => ⟨n, mode, fn⟩) })
  pure .none

/-- One level of the interpreter. -/
def step (E : Env) (rec : Rec) : Rec
  | .validate nm p inst v => validateBody E rec nm p inst v
  | .propEqual p a b => propEqualBody E rec p a b
  | .assertValid nm p r v => assertValidBody E rec nm p r v
  | .serializeP nm p v kw => serializeBody E rec nm p v kw
  | .deserializeP nm p v kw => deserializeBody E rec nm p v kw
  | .construct c kw => constructBody E rec c kw
  | .reset r name => resetBody E rec r name
  | .getattr r name => getattrBody E rec r name
  | .setattr r name v => setattrBody E rec r name v
  | .delattr r name => delattrBody E rec r name
  | .hpValidate r => hpValidateBody E rec r
  | .validateProps r => validatePropsBody E rec r
  | .hpSerialize r kw => hpSerializeBody E rec r kw
  | .hpDeserialize c v kw => hpDeserializeBody E rec c v kw
  | .equal a b => equalBody E rec a b
  | .copy v skw dkw => copyBody rec v skw dkw
  | .observe r names mode fn => observeBody E r names mode fn
  | .userGet => fun w => (.ok w.user, w)
  | .userPut v => fun w => (.ok .none, { w with user := v })

/-- The interpreter with recursion limit `n`; beyond it RecursionError is
raised, which is not one of the generic errors the code catches. -/
def run (E : Env) : Nat → Rec
  | 0 => fun _ => raiseK .recursion
  | n + 1 => step E (run E n)

/-- A user program run against the API with recursion limit `n`: histories of
operations are programs. -/
def runProg (E : Env) (n : Nat) (p : Prog) : M Val := execProg (run E n) p

end Verif
