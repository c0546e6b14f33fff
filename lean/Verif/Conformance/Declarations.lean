import Verif.Conformance.Harness
import Verif.Models.ContainerClass
import Verif.Models.Dynamic
import Verif.Models.Messages
import Verif.Models.Tags
import Verif.Props.C35

/-!
# `test_tagging` (test_basic.py), `test_dynamic_errors` (test_dynamic.py),
`test_overriding` (test_handlers.py), `test_container_class_retention`
(test_container.py) and `test_long_error_truncated` (test_errors.py) on the models
of declarations
-/

namespace Verif.Conformance

/-! `test_tagging` (test_basic.py:738-750). -/

namespace TagTest
open Verif.Tags

def anyOk : List Val → Dict → Bool := fun _ _ => true

def two : Dict := [(s% "first", .int 1), (s% "second", .int 2)]

def isTypeError : Res → Bool
  | .typeError => true
  | _ => false

def declared : State := (exec anyOk {} (.declare [.str (s% "an int")] [])).2

/-- The metadata of the property. -/
def metadata (s : State) : List (PyStr × Val) := match s.props[0]? with
  | some o => s.dict o.metaRef
  | none => []

def tagged : State := (exec anyOk declared (.tag 0 [] two)).2
def third : State := execAll anyOk tagged [.newDict [(s% "third", .int 3)], .tag 0 [.dict 0] []]

def sameDict (a b : Dict) : Bool :=
  a.map Prod.fst == b.map Prod.fst && (a.zip b).all fun x => valEq x.1.2 x.2.2

example : (isTypeError (exec anyOk declared (.tag 0 [.other (.str (s% "bad tag"))] [])).1
  && (metadata declared).isEmpty
  && sameDict (metadata tagged) two
  && sameDict (metadata third) (two ++ [(s% "third", .int 3)])
  && (match (exec anyOk third (.getTerms 0)).1 with
      | .terms _ _ md => sameDict (third.dict md) (metadata third)
      | _ => false)) = true := by decide +kernel

end TagTest

/-! `test_dynamic_errors` (test_dynamic.py:119-219), except for the name of the property
being set to a number. -/

namespace DynTest
open Verif.Dynamic

def func (name : PyStr) (args : Nat) : Func := ⟨true, some args, some name, 0⟩
def number : Func := ⟨false, none, none, 0⟩
def dbl : PyStr := s% "my_doubled_int"

def fails {α : Type} : Except Err α → Bool
  | .error .type => true
  | _ => false

def onDouble (f : Dyn → Except Err Dyn) : Except Err Dyn := do
  let d ← decorate (some intP) (func dbl 1)
  f d

def succeeds {α : Type} : Except Err α → Bool
  | .ok _ => true
  | _ => false

example : (fails (decorate (some intP) (func (s% "my_int") 4))
  && fails (decorate none (func (s% "calc_int") 1))
  && fails (decorate (some intP) number)
  && fails (onDouble (Dynamic.setter (func (s% "mdi_setter") 2)))
  && fails (onDouble (Dynamic.setter number))
  && fails (onDouble (Dynamic.setter (func dbl 3)))
  && fails (onDouble (deleter (func (s% "mdi_deleter") 1)))
  && fails (onDouble (deleter number))
  && fails (onDouble (deleter (func dbl 2)))
  && fails (decorate (some (withDefault (.val (.int 10)) intP)) (func dbl 1))
  && succeeds (onDouble (Dynamic.setter (func dbl 2)))
  && succeeds (onDouble (deleter (func dbl 1)))) = true := by decide +kernel

end DynTest

/-! `test_overriding` (test_handlers.py:10-39, 126-157): names that are bound again
in a subclass are no longer the properties, observers and validators of the base. -/

namespace OverrideTest
open Verif.Cls

def int? : Attr := .prop (.mutable (optional intP))

def handled : List Decl :=
  [c35Root,
   c35Class (s% "ConsiderItHandled") [0]
    [(s% "a", int?), (s% "b", int?), (s% "c", int?), (s% "d", int?),
     (s% "_mirror_to_b", .observer ⟨.names [s% "a"], .change, 0⟩),
     (s% "_a_cannot_be_five", .observer ⟨.names [s% "a"], .validate, 1⟩),
     (s% "_a_also_cannot_be_twentyseventhousand", .observer ⟨.names [s% "a"], .validate, 2⟩),
     (s% "_d_is_five", .observer ⟨.names [s% "d"], .validate, 3⟩),
     (s% "_set_b_to_twelve", .validator 4)],
   c35Class (s% "OverrideThings") [1]
    [(s% "b", .prop (.mutable floatP)), (s% "c", .other), (s% "d", .other),
     (s% "_a_cannot_be_five", .other), (s% "_mirror_to_b", .other),
     (s% "_a_also_cannot_be_twentyseventhousand", .other), (s% "_d_is_five", .other),
     (s% "_set_b_to_twelve", .other)]]

def isFloat : Entry → Bool
  | .mutable (.mk _ _ _ _ (.float ..)) => true
  | _ => false
def isInt : Entry → Bool
  | .mutable (.mk _ _ _ _ (.integer ..)) => true
  | _ => false

example : ((runDecls handled).map (fun S => S.classes.map fun k =>
    (k.props.length, k.observers.length, k.validators.length))
  == some [(0, 0, 0), (4, 4, 1), (2, 0, 0)]) = true := by decide +kernel
example : ((runDecls handled).map (fun S => S.classes.map fun k =>
    ((lookupS (s% "a") k.props).map isInt, (lookupS (s% "b") k.props).map isFloat))
  == some [(none, none), (some true, some false), (some true, some true)]) = true := by decide +kernel

end OverrideTest

/-! `test_container_class_retention` (test_container.py:975-1021): classes 6 SillyTuple,
7 SillyList, 8 SillySet, 9 OrderedDict; properties 0 tuple_unobs, 1 dict_unobs,
2 dict_obs, 3 list_unobs, 4 list_obs, 5 set_unobs, 6 set_obs.  `x += [1]` and
`x |= {1}` change the value and assign it. -/

namespace RetainTest
open Verif.ContCls

def decl : Nat → PDecl
  | 0 => { kind := .tuple }
  | 1 => { kind := .dict }
  | 2 => { kind := .dict, observe := true }
  | 3 => { kind := .list }
  | 4 => { kind := .list, observe := true }
  | 5 => { kind := .set }
  | _ => { kind := .set, observe := true }

def classes : List Op := [.derive 0, .derive 1, .derive 2, .derive 3]
def silly : Nat → Nat
  | 0 => 6
  | 1 | 2 => 9
  | 3 | 4 => 7
  | _ => 8

def assigned (n : Nat) : List Op := classes ++ [.assign n (silly n) true true]

def holds (n : Nat) (ops : List Op) : Bool :=
  let w := ContCls.run decl ops
  match w.slots n with
  | some c => isInst w c (silly n)
  | none => false

/-- Changing an unobserved value in place and assigning it. -/
def changed (n : Nat) : List Op := assigned n ++ [.mutate n true] ++
  (if n = 3 || n = 5 then [.assign n (silly n) true true] else [])

example : ((List.range 7).all fun n => holds n (assigned n) && (n == 0 || holds n (changed n))) = true := by
  decide +kernel

end RetainTest

/-! `test_long_error_truncated` (test_errors.py:268-284): `repr` of the dictionary is
long; how it is written does not matter. -/

namespace LongTest
open Verif.Msg

def long : PyStr := List.replicate 12000 'a'
def text : PyStr := message (s% "Integer") (s% "a") (some (s% "HasInt")) (s% "an integer") long
  (s% "<class 'dict'>") []

def contains (part : PyStr) : PyStr → Bool
  | [] => part.isEmpty
  | c :: s => part.isPrefixOf (c :: s) || contains part s

example : (decide (text.length < 1000) && contains (s% "  ...  ") text) = true := by decide +kernel

end LongTest

end Verif.Conformance
