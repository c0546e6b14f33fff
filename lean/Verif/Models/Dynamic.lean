import Verif.Core.Interp

/-!
# Declaring dynamic properties

`DynamicProperty` (`/repo/properties/basic.py:385-592`): the decorator and the
registration of getter, setter, deleter and property, before and after there are
instances.

A Property object that decorates two methods (whose error messages then carry the name
of the second one) is not modelled, nor are `meta`, `doc` and `info`.
-/

namespace Verif.Dynamic

/-- An object offered as getter, setter or deleter: whether it can be called, its
`__code__.co_argcount` if it has `__code__`, its `__name__` if it has one, and the user
function it is. -/
structure Func where
  callable : Bool
  argcount : Option Nat
  name : Option PyStr
  fn : FnId

/-- An object offered as property: `none` if it is not a GettableProperty. -/
abbrev Offer := Option PropSpec

/-- Exceptions. -/
inductive Err
  | type
  | attribute
  deriving DecidableEq

/-- A DynamicProperty. -/
structure Dyn where
  func : Func
  prop : PropSpec
  name : PyStr
  setFunc : Option Func := none
  delFunc : Option Func := none

/-- `hasattr(value, '__code__') and value.__code__.co_argcount != n`. -/
def Func.wrongArity (f : Func) (n : Nat) : Bool := match f.argcount with
  | some k => k != n
  | none => false

/-- The setter of `func` (basic.py:456-462). -/
def setGetter (f : Func) (d : Dyn) : Except Err Dyn :=
  if !f.callable then .error .type
  else if f.wrongArity 1 then .error .type
  else .ok { d with func := f }

/-- The setter of `prop` (basic.py:469-475). -/
def setProp (o : Offer) (d : Dyn) : Except Err Dyn := match o with
  | none => .error .type
  | some p => match p.default with
      | .undef => .ok { d with prop := p }
      | _ => .error .type

/-- `func.__name__ != self.name` raises TypeError; an object without `__name__` raises
AttributeError. -/
def checkName (f : Func) (name : PyStr) : Except Err Unit := match f.name with
  | none => .error .attribute
  | some s => if s = name then .ok () else .error .type

/-- `setter` (basic.py:521-535). -/
def setter (f : Func) (d : Dyn) : Except Err Dyn :=
  if !f.callable then .error .type
  else if f.wrongArity 2 then .error .type
  else do
    checkName f d.name
    pure { d with setFunc := some f }

/-- `deleter` (basic.py:542-554). -/
def deleter (f : Func) (d : Dyn) : Except Err Dyn :=
  if !f.callable then .error .type
  else if f.wrongArity 1 then .error .type
  else do
    checkName f d.name
    pure { d with delFunc := some f }

/-- `prop(func)` (basic.py:385-386, 444-449): the decorator. -/
def decorate (o : Offer) (f : Func) : Except Err Dyn := do
  let d ← setGetter f { func := f, prop := default, name := [] }
  let d ← setProp o d
  match f.name with
  | none => .error .attribute
  | some s => pure { d with name := s }

/-- What can be done with a DynamicProperty.  `named` is the metaclass giving it the name
it has in the class (base.py:134). -/
inductive Op
  | getter (f : Func)
  | prop (o : Offer)
  | setter (f : Func)
  | deleter (f : Func)
  | named (s : PyStr)

/-- One registration. -/
def register : Op → Dyn → Except Err Dyn
  | .getter f, d => setGetter f d
  | .prop o, d => setProp o d
  | .setter f, d => Dynamic.setter f d
  | .deleter f, d => Dynamic.deleter f d
  | .named s, d => .ok { d with name := s }

/-- A registration by a program that catches the error. -/
def attempt (o : Op) (d : Dyn) : Dyn := match register o d with
  | .ok d' => d'
  | .error _ => d

/-- The registrations of a program. -/
def registerAll : List Op → Dyn → Dyn
  | [], d => d
  | o :: os, d => registerAll os (attempt o d)

/-- How the main model sees it. -/
def Dyn.entry (d : Dyn) : Entry := .dynamic d.prop d.func.fn (d.setFunc.map (·.fn)) (d.delFunc.map (·.fn))

/-- The classes that have the property under the name: the class that declares it and those
that inherit it; all of them refer to the same object (base.py:106-111, basic.py:561-584). -/
def install (E : Env) (has : ClsId → Bool) (name : PyStr) (d : Dyn) : Env :=
  { E with classes := fun c =>
      if has c then { E.classes c with props := setS name d.entry (E.classes c).props } else E.classes c }

/-- A program that registers functions, and uses the instances. -/
inductive Step
  | reg (o : Op)
  | call (c : Call)

/-- The program, with a stack of depth `n`; it catches errors. -/
def play (E : Env) (n : Nat) (has : ClsId → Bool) (name : PyStr) : List Step → Dyn × World → Dyn × World
  | [], s => s
  | .reg o :: l, s => play E n has name l (attempt o s.1, s.2)
  | .call c :: l, s => play E n has name l (s.1, (run (install E has name s.1) n c s.2).2)

end Verif.Dynamic
