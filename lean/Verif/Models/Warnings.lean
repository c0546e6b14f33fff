import Verif.Core.Interp

/-!
# Warnings of Renamed properties

The main model drops warnings.  Here the uses of an attribute are modelled with them: which warnings
are issued, and what happens when Python's warning filter turns them into exceptions.
-/

namespace Verif.Warnings

/-- A use of an attribute. -/
inductive Use
  | get
  | set (v : Val)
  | del

/-- The call of the main model. -/
def Use.call (r : Nat) (nm : PyStr) : Use → Call
  | .get => .getattr r nm
  | .set v => .setattr r nm v
  | .del => .delattr r nm

/-- A FutureWarning naming the old and the new name (basic.py:1477-1484). -/
structure Warning where
  old : PyStr
  new : PyStr
  deriving DecidableEq, Repr

/-- The exception a warning becomes under the filter `error`. -/
def futureWarning : PyErr := ⟨.other 77, []⟩

/-- Settings: `warns c nm` is the attribute `warn` of the Renamed property `nm` of class `c`;
`isError` is Python's filter, which may look at the text of the warning. -/
structure Setup where
  warns : ClsId → PyStr → Bool
  isError : Warning → Bool

/-- `display_warning` (basic.py:1477-1484): `none` if the filter raises. -/
def display (S : Setup) (c : ClsId) (nm new : PyStr) (log : List Warning) : Except PyErr Unit × List Warning :=
  if S.warns c nm then
    if S.isError ⟨nm, new⟩ then (.error futureWarning, log) else (.ok (), log ++ [⟨nm, new⟩])
  else (.ok (), log)

/-- Use of an attribute with its warnings: the functions `fget`, `fset`, `fdel` of Renamed
(basic.py:1486-1505), which warn and use the new name; any other attribute as in the main model.
Warnings of user code run by that use are not recorded. -/
def use (E : Env) (S : Setup) (u : Use) : Nat → Nat → PyStr → World → List Warning →
    (Except PyErr Val × World) × List Warning
  | 0, _, _, w, log => ((.error ⟨.recursion, []⟩, w), log)
  | n + 1, r, nm, w, log =>
    match w.objs[r]? with
    | none => (run E (n + 1) (u.call r nm) w, log)
    | some o => match lookupS nm (E.classes o.cls).props with
      | some (.renamed new) => match display S o.cls nm new log with
        | (.error e, log) => ((.error e, w), log)
        | (.ok (), log) => use E S u n r new w log
      | _ => (run E (n + 1) (u.call r nm) w, log)

/-- `Renamed(new_name, warn=warn)` (basic.py:1442-1472). -/
def declare (newName : Val) (warn : Option Val) : Except ErrKind (PyStr × Bool) :=
  match newName with
  | .str s => match warn with
    | none => .ok (s, true)
    | some (.bool b) => .ok (s, b)
    | some _ => .error .type
  | _ => .error .type

end Verif.Warnings
