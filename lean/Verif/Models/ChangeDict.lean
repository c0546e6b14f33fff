import Verif.Core.Interp

/-!
# Model: the change dictionary

`_set` hands one dictionary to the listeners of an assignment
(/repo/properties/base/base.py:349-375).  In the main model a listener only
replaces its value; here it does with the dictionary what it likes: a listener is
any function of the instance and the dictionary that leaves a dictionary, with any
effect on the state.
-/

namespace Verif.ChangeDict
open Verif

/-- The change dictionary: entries by name. -/
abbrev Change := List (PyStr × Val)

/-- What listeners do: function, instance, dictionary. -/
abbrev Does := FnId → Nat → Change → M Change

/-- `change[key]`; KeyError if a listener has removed it. -/
def item (c : Change) (k : PyStr) : M Val :=
  match lookupS k c with
  | some v => pure v
  | none => raiseK .key

/-- The listeners for an assignment: `_get_listeners(instance, change)`
(handlers.py:101-108) for a dictionary whose name and mode are those given. -/
def found (w : World) (o : Obj) (mode : Mode) (name : PyStr) : List Listener :=
  if w.quar.has mode then []
  else o.listeners.filter (fun l => l.name == name && l.mode == mode)

/-- The mode that a text names. -/
def modeOf? (v : Val) : Option Mode :=
  match v with
  | .str s =>
      if s = Mode.validate.toStr then some .validate
      else if s = Mode.set.toStr then some .set
      else if s = Mode.change.toStr then some .change
      else none
  | _ => none

/-- `self._notify(change)` (base.py:349-355): the listeners are looked up by the
entries `mode` and `name` of the dictionary, once; each is handed the dictionary. -/
def notifyC (D : Does) (r : Nat) (c : Change) : M Change := do
  let m ← item c (s% "mode")
  let n ← item c (s% "name")
  let o ← getObj r
  let w ← M.get
  let ls := match modeOf? m, n with
    | some mode, .str name => found w o mode name
    | _, _ => []
  foldML (fun c l => D l.fn r c) c ls

/-- `change.update(name=name, previous=prev, mode=mode)` (base.py:372, 374). -/
def update (c : Change) (name : PyStr) (prev : Val) (mode : Mode) : Change :=
  setS (s% "mode") (.str mode.toStr) (setS (s% "previous") prev (setS (s% "name") (.str name) c))

/-- `dict(name=name, previous=prev, value=value, mode='validate')` (base.py:359). -/
def fresh (name : PyStr) (prev v : Val) : Change :=
  [(s% "name", .str name), (s% "previous", prev), (s% "value", v),
   (s% "mode", .str Mode.validate.toStr)]

/-- `HasProperties._set(name, value)` (base.py:357-375) with the dictionary. -/
def setC (rec : Rec) (D : Does) (r : Nat) (name : PyStr) (p : PropSpec) (v0 : Val) : M Unit := do
  let o ← getObj r
  let prev := (lookupS name o.backend).getD .undef
  let c1 ← notifyC D r (fresh name prev v0)
  let v1 ← item c1 (s% "value")
  writeStored r name v1
  let changed ← (if prev.isUndef && v1.isUndef then pure false
    else if prev.isUndef || v1.isUndef then pure true
    else do
      let e ← rec (.propEqual p prev v1)
      pure (!e.truthy))
  let c2 ← (if changed then notifyC D r (update c1 name prev .change) else pure c1)
  let _ ← notifyC D r (update c2 name prev .set)
  pure ()

/-- The listeners of the main model: called with the four entries, their result is
the new value. -/
def plain (E : Env) (rec : Rec) (mode : Mode) (name : PyStr) (prev : Val) : Does := fun f r c => do
  let v ← item c (s% "value")
  M.modify (fun w => { w with trace := w.trace ++ [⟨r, mode, name, prev, v, f⟩] })
  let v' ← callFn E rec f [.obj r, .str name, prev, v, .str mode.toStr]
  pure (setS (s% "value") v' c)

/-- The same, reading the other entries from the dictionary. -/
def plainD (E : Env) (rec : Rec) : Does := fun f r c => do
  let m ← item c (s% "mode")
  let n ← item c (s% "name")
  let prev ← item c (s% "previous")
  match modeOf? m, n with
  | some mode, .str name => plain E rec mode name prev f r c
  | _, _ => raiseK .type

end Verif.ChangeDict
