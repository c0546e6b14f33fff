import Verif.Core.Interp
import Verif.Models.Links

/-!
# Directional links as user code of the main model

`properties/link.py` written as programs that call the API of the main model.  The model
`Links` has the same code over abstract values, with links as the only observers; the
theorems of `Props/C77.lean` show that the two agree.

The attributes `_unlinked` and `_updating` of link objects are kept in the user state of
the program, which is a pair of lists of link numbers.  A transform is a function of the
value (it may raise, but has no other effect).
-/

namespace Verif.LinkProg

/-- A link object: number, the listener it registers, source, target, transform and
`change_only` (link.py:55-67). -/
structure DLink where
  id : Nat
  fn : FnId
  sr : Nat
  sn : PyStr
  tr : Nat
  tn : PyStr
  transform : Val → Except PyErr Val
  changeOnly : Bool

/-- Whether a value is the number `i`. -/
def isId (i : Nat) : Val → Bool
  | .int j => j == i
  | _ => false

/-- The number is in the list. -/
def hasId (i : Nat) (xs : List Val) : Bool := xs.any (isId i)

/-- The list with the number, or without it. -/
def putId (i : Nat) (b : Bool) (xs : List Val) : List Val :=
  if b then .int i :: xs else xs.filter (fun x => !isId i x)

/-- `_unlinked` of link `i`. -/
def unlOf (i : Nat) : Val → Bool
  | .tup [.list us, .list _] => hasId i us
  | _ => false

/-- `_updating` of link `i`. -/
def updOf (i : Nat) : Val → Bool
  | .tup [.list _, .list ds] => hasId i ds
  | _ => false

/-- Setting `_unlinked`. -/
def setUnl (i : Nat) (b : Bool) : Val → Val
  | .tup [.list us, .list ds] => .tup [.list (putId i b us), .list ds]
  | u => u

/-- Setting `_updating`. -/
def setUpd (i : Nat) (b : Bool) : Val → Val
  | .tup [.list us, .list ds] => .tup [.list us, .list (putId i b ds)]
  | u => u

/-- The `finally` of `_update` (link.py:121-122). -/
def finishUpdate (l : DLink) (res : Except PyErr Val) (k : Except PyErr Val → Prog) : Prog :=
  .call .userGet fun
    | .error e => .raise e
    | .ok u => .call (.userPut (setUpd l.id false u)) fun _ => k res

/-- The `try` of `_update` (link.py:117-120). -/
def tryUpdate (l : DLink) (k : Except PyErr Val → Prog) : Prog :=
  .call (.getattr l.sr l.sn) fun
    | .error e => finishUpdate l (.error e) k
    | .ok x => match l.transform x with
        | .error e => finishUpdate l (.error e) k
        | .ok y => .call (.setattr l.tr l.tn y) fun r => finishUpdate l r k

/-- `directional_link._update` (link.py:110-122), continued by `k`. -/
def updateProg (l : DLink) (k : Except PyErr Val → Prog) : Prog :=
  .call .userGet fun
    | .error e => .raise e
    | .ok u =>
        if unlOf l.id u then k (.ok .none)
        else if updOf l.id u then k (.ok .none)
        else .call (.userPut (setUpd l.id true u)) fun _ => tryUpdate l k

/-- The end of a listener call: `change['value']` stays as it is. -/
def keepValue (v : Val) : Except PyErr Val → Prog
  | .ok _ => .ret v
  | .error e => .raise e

/-- `self._update` as a listener: it ignores its arguments. -/
def listenerProg (l : DLink) : List Val → Prog
  | [_, _, _, v, _] => updateProg l (keepValue v)
  | _ => .raise ⟨.type, []⟩

/-- The mode a link observes (link.py:13-16, handlers.py:224). -/
def DLink.mode (l : DLink) : Mode := if l.changeOnly then .change else .set

/-- Registering the listener (link.py:64-67). -/
def registerProg (l : DLink) : Except PyErr Val → Prog
  | .error e => .raise e
  | .ok _ => .call (.observe l.sr (.names [l.sn]) l.mode l.fn) (keepValue .none)

/-- `hasattr(instance, name)` in `_validate` (link.py:135-138). -/
def checkAttr (r : Nat) (name : PyStr) (k : Prog) : Prog :=
  .call (.getattr r name) fun
    | .ok _ => k
    | .error e => if e.kind = .attr then .raise ⟨.value, []⟩ else .raise e

/-- `directional_link(source, target, update_now, change_only, transform)`
(link.py:55-67, 124-138). -/
def createProg (l : DLink) (updateNow : Bool) : Prog :=
  checkAttr l.sr l.sn (checkAttr l.tr l.tn
    (if l.sr = l.tr ∧ l.sn = l.tn then .raise ⟨.value, []⟩
    else if updateNow then updateProg l (registerProg l)
    else registerProg l (.ok .none)))

/-- `unlink` and `relink` (link.py:140-152). -/
def flagProg (i : Nat) (b : Bool) : Prog :=
  .call .userGet fun
    | .error e => .raise e
    | .ok u => .call (.userPut (setUnl i b u)) (keepValue .none)

end Verif.LinkProg
