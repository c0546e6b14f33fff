/-!
# Links between properties

`properties/link.py` on HasProperties instances, with the parts of setting and
deleting a property that call the link observers (basic.py:664-685,
base.py:357-375).  A node is a property of an instance.  Values are of any type;
validation (`coerce`), equality and the value `None` are parameters.  The only
observers are the links; the traitlets observers are not modelled.
-/

namespace Verif.Links

/-- A directional link: source, target, transform and `change_only`
(link.py:33-67).  The number stands for the identity of the link object. -/
structure Lnk (V : Type) where
  id : Nat
  src : Nat
  tgt : Nat
  transform : V → Option V
  changeOnly : Bool

/-- The properties. -/
structure LEnv (V : Type) where
  /-- `prop.validate`; `none` stands for an error -/
  coerce : Nat → V → Option V
  /-- `prop.equal` -/
  equal : Nat → V → V → Bool
  /-- Python's None -/
  noneV : V

/-- Errors: one raised by validation or by a transform; a ValueError of a link;
RecursionError. -/
inductive LErr where
  | invalid
  | link
  | recursion
  deriving DecidableEq

/-- State: stored values, the links in the order of their creation, `_unlinked`
and `_updating` of the links. -/
structure LW (V : Type) where
  vals : Nat → Option V
  links : List (Lnk V)
  unl : Nat → Bool
  upd : Nat → Bool

/-- Sets one place of a function. -/
def put {α : Type} (f : Nat → α) (i : Nat) (a : α) : Nat → α := fun j => if j = i then a else f j

/-- Computations. -/
abbrev LM (V : Type) := LW V → Except LErr Unit × LW V

variable {V : Type}

/-- `directional_link._update` (link.py:110-122). `set` is `setattr`. -/
def update (E : LEnv V) (set : Nat → V → LM V) (l : Lnk V) : LM V := fun w =>
  if w.unl l.id then (.ok (), w)
  else if w.upd l.id then (.ok (), w)
  else
    let w1 := { w with upd := put w.upd l.id true }
    let res : Except LErr Unit × LW V := match l.transform ((w1.vals l.src).getD E.noneV) with
      | none => (.error .invalid, w1)
      | some v => set l.tgt v w1
    (res.1, { res.2 with upd := put res.2.upd l.id false })

/-- The observers of one notification, in order (base.py:349-355). -/
def runLinks (E : LEnv V) (set : Nat → V → LM V) : List (Lnk V) → LM V
  | [] => fun w => (.ok (), w)
  | l :: ls => fun w => match update E set l w with
      | (.ok _, w) => runLinks E set ls w
      | (.error e, w) => (.error e, w)

/-- The links that observe changes, or settings, of a node. -/
def observers (w : LW V) (n : Nat) (changeOnly : Bool) : List (Lnk V) :=
  w.links.filter fun l => l.src == n && l.changeOnly == changeOnly

/-- Whether the value is new (base.py:368-371). -/
def differs (E : LEnv V) (n : Nat) : Option V → Option V → Bool
  | none, none => false
  | some a, some b => !E.equal n a b
  | _, _ => true

/-- The notifications after a value is stored (base.py:367-375). -/
def notifyLinks (E : LEnv V) (set : Nat → V → LM V) (n : Nat) (differ : Bool) : LM V := fun w =>
  match (if differ then runLinks E set (observers w n true) w else (.ok (), w)) with
  | (.ok _, w2) => runLinks E set (observers w2 n false) w2
  | (.error e, w2) => (.error e, w2)

/-- `_set` (base.py:357-375) of a node; `none` is `undefined`. -/
def setNode (E : LEnv V) (set : Nat → V → LM V) (n : Nat) (v : Option V) : LM V := fun w =>
  notifyLinks E set n (differs E n (w.vals n) v) { w with vals := put w.vals n v }

/-- `setattr(instance, name, value)` with a stack of depth `k`. -/
def assign (E : LEnv V) : Nat → Nat → V → LM V
  | 0, _, _ => fun w => (.error .recursion, w)
  | k + 1, n, v => fun w => match E.coerce n v with
      | none => (.error .invalid, w)
      | some x => setNode E (assign E k) n (some x) w

/-- `delattr(instance, name)`. -/
def delete (E : LEnv V) (k n : Nat) : LM V := setNode E (assign E k) n none

/-- `directional_link(source, target, update_now, change_only, transform)`
(link.py:55-67); `id` is the identity of the new object. -/
def create (E : LEnv V) (k : Nat) (l : Lnk V) (updateNow : Bool) : LM V := fun w =>
  if l.src = l.tgt then (.error .link, w)
  else match (if updateNow then update E (assign E k) l w else (.ok (), w)) with
    | (.ok _, w) => (.ok (), { w with links := w.links ++ [l] })
    | (.error e, w) => (.error e, w)

/-- The links that `link(*items)` makes (link.py:182-192), numbered from `id`. -/
def groupLinks (changeOnly : Bool) (id : Nat) (items : List Nat) : List (Lnk V) :=
  ((List.range items.length).flatMap fun i => (List.range items.length).filterMap fun j =>
    if i = j then none else
      match items[i]?, items[j]? with
      | some a, some b => some ⟨id + i * items.length + j, a, b, some, changeOnly⟩
      | _, _ => none)

/-- `dlink.unlink()` (link.py:144-152). -/
def unlink (d : Nat) (w : LW V) : LW V := { w with unl := put w.unl d true }

/-- `dlink.relink()` (link.py:140-142). -/
def relink (d : Nat) (w : LW V) : LW V := { w with unl := put w.unl d false }

/-- What programs do. -/
inductive LOp (V : Type) where
  | assign (n : Nat) (v : V)
  | delete (n : Nat)
  | create (l : Lnk V) (updateNow : Bool)
  | unlink (d : Nat)
  | relink (d : Nat)

/-- One operation; errors are caught by the program. -/
def doOp (E : LEnv V) (k : Nat) : LOp V → LW V → LW V
  | .assign n v, w => (assign E k n v w).2
  | .delete n, w => (delete E k n w).2
  | .create l now, w => (create E k l now w).2
  | .unlink d, w => unlink d w
  | .relink d, w => relink d w

/-- A history. -/
def doOps (E : LEnv V) (k : Nat) : List (LOp V) → LW V → LW V
  | [], w => w
  | o :: os, w => doOps E k os (doOp E k o w)

end Verif.Links
