import Verif.Core.Interp

/-!
# Notification over the live list of listeners

`_get_listeners` returns the very list that `_set_listener` extends
(handlers.py:98, 107), so a listener registered for the same name and mode
while `_notify` goes through the list is called by the same loop.  `notify` of
the interpreter goes through the list found at the start.  Here the methods
that notify are written again with the live list; all others are those of the
interpreter.  A loop that goes on needs a bound: `k` is the number of listeners
that may be registered while a loop runs, beyond it the model raises
RecursionError in place of the program that does not end.
-/

namespace Verif

/-- `instance._listeners[name][mode]` (handlers.py:101-108). -/
def listenersFor (o : Obj) (name : PyStr) (mode : Mode) : List Listener :=
  o.listeners.filter (fun l => l.name == name && l.mode == mode)

/-- `for listener in listeners:` from position `i` (base.py:351-355): Python's
list iterator looks at the list anew at each step. -/
def liveLoop (E : Env) (rec : Rec) (r : Nat) (mode : Mode) (name : PyStr) (prev : Val) :
    Nat → Nat → Val → M Val
  | 0, _, _ => raiseK .recursion
  | fuel + 1, i, v => do
      let o ← getObj r
      match (listenersFor o name mode)[i]? with
      | none => pure v
      | some l => do
          let v' ← notifyOne E rec r mode name prev v l
          liveLoop E rec r mode name prev fuel (i + 1) v'

/-- `self._notify(change)` (base.py:349-355): the quarantine is looked at once,
before the loop (handlers.py:103-108). -/
def notifyLive (E : Env) (k : Nat) (rec : Rec) (r : Nat) (mode : Mode) (name : PyStr)
    (prev v : Val) : M Val := do
  let o ← getObj r
  let w ← M.get
  if w.quar.has mode then pure v
  else liveLoop E rec r mode name prev ((listenersFor o name mode).length + 1 + k) 0 v

/-- `HasProperties._set` (base.py:357-375), as `setBody`. -/
def setBodyLive (E : Env) (k : Nat) (rec : Rec) (r : Nat) (name : PyStr) (p : PropSpec) (v0 : Val) :
    M Unit := do
  let o ← getObj r
  let prev := (lookupS name o.backend).getD .undef
  let v1 ← notifyLive E k rec r .validate name prev v0
  writeStored r name v1
  let changed ← (if prev.isUndef && v1.isUndef then pure false
    else if prev.isUndef || v1.isUndef then pure true
    else do
      let e ← rec (.propEqual p prev v1)
      pure (!e.truthy))
  let v2 ← (if changed then notifyLive E k rec r .change name prev v1 else pure v1)
  let _ ← notifyLive E k rec r .set name prev v2
  pure ()

/-- The setter of a mutable property (basic.py:672-677), as `assignBody`. -/
def assignBodyLive (E : Env) (k : Nat) (rec : Rec) (r : Nat) (name : PyStr) (p : PropSpec) (v : Val) :
    M Val := do
  let v' ← (if v.isUndef then pure v else rec (.validate name p (some r) v))
  setBodyLive E k rec r name p v'
  pure .none

/-- `setattr(obj, name, value)` (basic.py:572-576, 664-677, 1495-1498): only
mutable properties notify. -/
def setattrBodyLive (E : Env) (k : Nat) (rec : Rec) (r : Nat) (name : PyStr) (v : Val) : M Val := do
  match ← entryOf E r name with
  | some (.mutable p) => assignBodyLive E k rec r name p v
  | _ => setattrBody E rec r name v

/-- `delattr(obj, name)` (basic.py:578-582, 679-681, 1500-1503). -/
def delattrBodyLive (E : Env) (k : Nat) (rec : Rec) (r : Nat) (name : PyStr) : M Val := do
  match ← entryOf E r name with
  | some (.mutable p) => do
      setBodyLive E k rec r name p .undef
      pure .none
  | _ => delattrBody E rec r name

/-- One property in `_validate_props` (base.py:448-466), as `validatePropStep`. -/
def validatePropStepLive (E : Env) (k : Nat) (rec : Rec) (r : Nat) (kv : PyStr × Entry) : M Unit :=
  M.catchIf (fun k => k == .validation) (do
    let v ← getStored r kv.1
    if v.isNone then pure () else do
      let v' ← notifyLive E k rec r .validate kv.1 v v
      let eq ← entryEqual rec kv.2 v v'
      if eq.truthy then pure ()
      else raiseVal E rec (some (s% "invalid")) (some kv.1) (some r)
    let ok ← entryAssert E rec kv.1 kv.2 r
    if ok.truthy then pure ()
    else raiseVal E rec (some (s% "invalid")) (some kv.1) (some r))
  (fun e => do
    let o ← getObj r
    match o.errs with
    | some _ => addErrs r e.tuples
    | none => M.raise e)

/-- `_validate_props` (base.py:445-467). -/
def validatePropsBodyLive (E : Env) (k : Nat) (rec : Rec) (r : Nat) : M Val := do
  let o ← getObj r
  forML (validatePropStepLive E k rec r) (E.classes o.cls).props
  pure (.bool true)

/-- One level of the interpreter with live lists. -/
def stepLive (E : Env) (k : Nat) (rec : Rec) : Rec
  | .setattr r name v => setattrBodyLive E k rec r name v
  | .delattr r name => delattrBodyLive E k rec r name
  | .validateProps r => validatePropsBodyLive E k rec r
  | c => step E rec c

/-- The interpreter with live lists, recursion limit `n` and loop bound `k`. -/
def runLive (E : Env) (k : Nat) : Nat → Rec
  | 0 => fun _ => raiseK .recursion
  | n + 1 => stepLive E k (runLive E k n)

/-- User programs against the API with live lists. -/
def runProgLive (E : Env) (k n : Nat) (p : Prog) : M Val := execProg (runLive E k n) p

/-- What may be given as `names` of an observer (handlers.py:126-141). -/
inductive NamesArg where
  | everything
  | val (v : Val)

/-- `isinstance(value, (tuple, list, set))`, else `[value]` (handlers.py:136-137). -/
def namesList : Val → List Val
  | .tup xs => xs
  | .list xs => xs
  | .set xs => xs
  | v => [v]

/-- `isinstance(val, string_types)` (handlers.py:139). -/
def nameText : Val → Option PyStr
  | .str s => some s
  | _ => none

/-- The names setter (handlers.py:131-141). -/
def observedNames : NamesArg → Except ErrKind ObsNames
  | .everything => .ok .everything
  | .val v => match (namesList v).mapM nameText with
      | some ns => .ok (.names ns)
      | none => .error .type

/-- `properties.observer(instance, names, func, change_only)`
(handlers.py:224-230). -/
def observerFn (E : Env) (r : Nat) (names : NamesArg) (fn : FnId) (changeOnly : Bool) :
    M Val := do
  let ns ← liftK (observedNames names)
  observeBody E r ns (if changeOnly then .change else .set) fn

/-- `properties.validator(instance, names, func)` (handlers.py:302-308). -/
def validatorFn (E : Env) (r : Nat) (names : NamesArg) (fn : FnId) : M Val := do
  let ns ← liftK (observedNames names)
  observeBody E r ns .validate fn

end Verif
