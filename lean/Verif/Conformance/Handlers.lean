import Verif.Conformance.Harness

/-!
# `/repo/tests/test_errors.py`, `test_handlers.py`, `test_instance.py` and
`test_recursion.py` on the model

Left out: message texts, overridden `assert_valid` and `validate`, classes that
do not inherit from HasProperties, `__init__` with positional arguments, what
the metaclass refuses (`Models/Classes`), pickling.
-/

namespace Verif.Conformance

/-! `test_validation_error` (test_errors.py:37-119). -/

def errEnv : Env := testEnv [
  { name := s% "Simple", props := [(s% "a", .mutable (prop (.seq .list intP (some 2) (some 2) false)))] },
  { name := s% "SeveralProps", props := [(s% "a", .mutable intP), (s% "b", .mutable intP),
      (s% "c", .mutable intP), (s% "d", .mutable intP)] }]

def testErrors : T Unit := do
  let s ← new 0
  raises validationError (set s (s% "a") (.int 5))
  raises validationError (set s (s% "a") (.list [.str (s% "a"), .str (s% "b")]))
  does (set s (s% "a") (.list [.int 1]))
  raises validationError (.hpValidate s)
  raises validationError (.construct 0 [(s% "a", .int 5)])
  let t ← tuplesOf (.construct 1 [(s% "a", .str (s% "a")), (s% "b", .str (s% "b"))])
  expect (t.map (·.reason) == [some (s% "invalid"), some (s% "invalid")])
  expect (t.map (·.prop) == [some (s% "a"), some (s% "b")])
  let sp ← new 1
  let t ← tuplesOf (set sp (s% "a") (.str (s% "a")))
  expect (decide (t = [⟨some (s% "invalid"), some (s% "a"), some sp⟩]))
  let t ← tuplesOf (.hpValidate sp)
  expect (decide (t = [s% "a", s% "b", s% "c", s% "d"].map fun n =>
    ⟨some (s% "missing"), some n, some sp⟩))
  let t ← tuplesOf (.validateProps sp)
  expect (t.map (·.reason) == [some (s% "missing")])
  does (set sp (s% "a") (.int 1))
  does (set sp (s% "b") (.int 1))
  does (set sp (s% "c") (.int 1))
  poke sp (s% "d") (.str (s% "d"))
  let t ← tuplesOf (.hpValidate sp)
  expect (decide (t = [⟨some (s% "invalid"), some (s% "d"), some sp⟩]))

example : passes errEnv 15 testErrors = true := by decide +kernel

/-! `test_error_hook` (lines 123-160): the hook raises its own exception; the
number of tuples it was given is read from the log of hook calls. -/

def hookEnv : Env := testEnv [
  { name := s% "HasHook", props := [(s% "a", .mutable intP), (s% "b", .mutable intP)],
    hook := some 0 }]
  [fun _ => .raise ⟨.other 7, []⟩]

def silly (k : ErrKind) : Bool := k == .other 7
def lastHook : T Nat := do
  pure (((← world).hooks.getLast?.map fun h => h.2.length).getD 0)

def testHook : T Unit := do
  raises silly (.construct 0 [(s% "a", .str (s% "a")), (s% "b", .str (s% "b"))])
  expect ((← lastHook) == 2)
  let hh ← new 0
  raises silly (set hh (s% "a") (.str (s% "a")))
  expect ((← lastHook) == 1)
  raises silly (.hpValidate hh)
  expect ((← lastHook) == 2)
  poke hh (s% "a") (.int 1)
  poke hh (s% "b") (.str (s% "b"))
  raises silly (.hpValidate hh)
  expect ((← lastHook) == 1)

example : passes hookEnv 8 testHook = true := by decide +kernel

/-! `test_validate_false`, `test_non_validation_errors`, `test_bad_design_errors`
and `test_no_error_tuple_info` (lines 163-297). -/

def moreErrEnv : Env := testEnv [
  { name := s% "Invalid", props := [(s% "a", .mutable intP)], validators := [none, some 0] },
  { name := s% "RaisesErrors",
    props := [(s% "a", .mutable intP), (s% "b", .mutable (optional intP))],
    observers := [⟨.names [s% "b"], .validate, 1⟩], validators := [none, some 2] },
  { name := s% "Subtractor", props := [(s% "a", .mutable intP)],
    observers := [⟨.names [s% "a"], .validate, 3⟩] },
  { name := s% "RaisesError", validators := [none, some 4] }]
  [fun _ => .ret (.bool false),
   fun _ => .raise ⟨.key, []⟩,
   fun _ => .raise ⟨.type, []⟩,
   fun args => .ret (match args.getD 3 .none with | .int i => .int (i - 1) | v => v),
   fun _ => .raise ⟨.validation, [⟨none, none, none⟩]⟩]

def testMoreErrors : T Unit := do
  let inv ← new 0 [(s% "a", .int 5)]
  raises validationError (.hpValidate inv)
  let t ← tuplesOf (.construct 1 [(s% "a", .str (s% "a")), (s% "b", .int 2)])
  expect (t.map (·.reason) == [some (s% "invalid")])
  expect (t.map (·.prop) == [some (s% "a")])
  raises keyError (.construct 1 [(s% "a", .int 1), (s% "b", .int 2)])
  let re ← new 1
  let t ← tuplesOf (.hpValidate re)
  expect (decide (t = [⟨some (s% "missing"), some (s% "a"), some re⟩]))
  does (set re (s% "a") (.int 1))
  raises typeError (.hpValidate re)
  let s ← new 2 [(s% "a", .int 5)]
  equals (get s (s% "a")) (.int 4)
  raises validationError (.hpValidate s)
  let e ← new 3
  raises validationError (.hpValidate e)

example : passes moreErrEnv 11 testMoreErrors = true := by decide +kernel

/-! `test_handlers` and `test_everything` (test_handlers.py:64-122). -/

def optInt : Entry := .mutable (optional intP)
def notValue (i : Int) (args : List Val) : Prog :=
  if pyEq (args.getD 3 .none) (.int i) then .raise ⟨.value, []⟩ else .ret (args.getD 3 .none)

def considered : ClassDef :=
  { name := s% "ConsiderItHandled",
    props := [(s% "a", optInt), (s% "b", optInt), (s% "c", optInt), (s% "d", optInt)],
    observers := [⟨.names [s% "a"], .set, 0⟩, ⟨.names [s% "a"], .validate, 1⟩,
      ⟨.names [s% "a"], .validate, 2⟩, ⟨.names [s% "d"], .validate, 3⟩],
    validators := [none, some 4] }

def handEnv : Env := testEnv [considered,
  { considered with observers := considered.observers ++ [⟨.everything, .set, 8⟩] }]
  [fun args => setProg (args.getD 0 .none) (s% "b") (args.getD 3 .none) (args.getD 3 .none),
   notValue 5, notValue 27000,
   fun _ => .ret (.int 5),
   fun args => setProg (args.getD 0 .none) (s% "b") (.int 12) .none,
   fun args => setProg (args.getD 0 .none) (s% "c") (args.getD 3 .none) (args.getD 3 .none),
   notValue 5,
   fun _ => .ret (.int 0),
   fun _ => .raise ⟨.attr, []⟩]

def testHandlers : T Unit := do
  let hand ← new 0
  does (set hand (s% "a") (.int 10))
  equals (get hand (s% "b")) (.int 10)
  raises valueError (set hand (s% "a") (.int 5))
  raises valueError (set hand (s% "a") (.int 27000))
  equals (get hand (s% "a")) (.int 10)
  equals (get hand (s% "b")) (.int 10)
  does (.hpValidate hand)
  equals (get hand (s% "b")) (.int 12)
  does (set hand (s% "d") (.int 10))
  equals (get hand (s% "d")) (.int 5)
  does (.observe hand (.names [s% "b"]) .set 5)
  does (set hand (s% "b") (.int 100))
  equals (get hand (s% "c")) (.int 100)
  does (.observe hand (.names [s% "c"]) .validate 6)
  raises valueError (set hand (s% "c") (.int 5))
  poke hand (s% "a") (.str (s% "not an int"))
  raises valueError (.hpValidate hand)
  does (set hand (s% "b") (.int 12))
  equals (get hand (s% "b")) (.int 12)
  equals (get hand (s% "c")) (.int 12)
  does (.observe hand (.names [s% "d"]) .validate 7)
  does (set hand (s% "d") (.int 10))
  equals (get hand (s% "c")) (.int 12)
  equals (get hand (s% "d")) (.int 0)

def testEverything : T Unit := do
  let he ← new 1
  raises attributeError (set he (s% "a") (.int 0))
  raises attributeError (set he (s% "b") (.int 1))
  raises attributeError (set he (s% "c") (.int 0))
  raises attributeError (set he (s% "d") (.int 0))

example : passes handEnv 14 testHandlers = true := by decide +kernel
example : passes handEnv 4 testEverything = true := by decide +kernel

/-! `test_disabler` (lines 155-206). -/

def disEnv : Env := testEnv [
  { name := s% "ErrorListeners", props := [(s% "a", .mutable intP)],
    observers := [⟨.names [s% "a"], .set, 0⟩, ⟨.names [s% "a"], .validate, 1⟩] }]
  [fun _ => .raise ⟨.other 2, []⟩, fun _ => .raise ⟨.other 1, []⟩]

def validateError (k : ErrKind) : Bool := k == .other 1
def observeError (k : ErrKind) : Bool := k == .other 2
def within (q : Quar) (body : Prog) : Prog :=
  .disabled q body fun
    | .ok v => .ret v
    | .error e => .raise e
def assign (r : Nat) (v : Val) : Prog := andThen (set r (s% "a") v) .ret
def thenAssign (p : Prog) (r : Nat) (v : Val) : Prog :=
  .disabled {} p fun
    | .ok _ => assign r v
    | .error e => .raise e
def obsQ : Quar := { set := true, change := true }

def testDisabler : T Unit := do
  let el ← new 0
  raises valueError (set el (s% "a") (.str (s% "property validation error")))
  raises validateError (set el (s% "a") (.int 5))
  raisesProg observeError (within { validate := true } (assign el (.int 5)))
  let _ ← prog (within Quar.all (assign el (.int 5)))
  raisesProg validateError (within { set := true } (assign el (.int 5)))
  let inner := thenAssign (within { set := true } (assign el (.int 5))) el (.int 6)
  let inner := thenAssign (within { validate := true } inner) el (.int 7)
  let inner := thenAssign (within { change := true } inner) el (.int 8)
  let _ ← prog (within { validate := true } (within obsQ inner))
  equals (get el (s% "a")) (.int 8)
  raisesProg observeError (within { validate := true }
    (thenAssign (within obsQ inner) el (.int 9)))
  raises validateError (set el (s% "a") (.int 10))

example : passes disEnv 7 testDisabler = true := by decide +kernel

/-! `test_instance` (test_instance.py:37-108) with an instance class that has no
positional arguments. -/

def instEnv : Env := testEnv [
  { name := s% "HasIntA", props := [(s% "a", .mutable intP)] },
  { name := s% "HasInstance", props := [(s% "myinst", .mutable (withDefault (.cls 0) (instP 0)))] },
  { name := s% "HasInstance", props := [(s% "myinst", .mutable (instP 0))] }]

def testInstance : T Unit := do
  let hi ← new 2
  gives (get hi (s% "myinst")) .none
  raises valueError (.hpValidate hi)
  does (set hi (s% "myinst") (.dict []))
  expect ((← classOf (← callObj (get hi (s% "myinst")))) == 0)
  raises valueError (set hi (s% "myinst") (.str (s% "10")))
  let hi ← new 1
  raises valueError (.hpValidate hi)
  expect ((← classOf (← callObj (get hi (s% "myinst")))) == 0)
  does (set hi (s% "myinst") (obj [(s% "a", .int 20)]))
  let i ← callObj (get hi (s% "myinst"))
  expect ((← classOf i) == 0)
  equals (get i (s% "a")) (.int 20)
  yes (.hpValidate hi)
  equals (.hpSerialize hi {}) (obj [(s% "__class__", .str (s% "HasInstance")),
    (s% "myinst", obj [(s% "__class__", .str (s% "HasIntA")), (s% "a", .int 20)])])
  equals (ser hi) (obj [(s% "myinst", obj [(s% "a", .int 20)])])
  equals (toJson (instP 1) (.obj hi)) (obj [(s% "__class__", .str (s% "HasInstance")),
    (s% "myinst", obj [(s% "__class__", .str (s% "HasIntA")), (s% "a", .int 20)])])
  equals (toJson (instP 1) (.str (s% "string inst"))) (.str (s% "string inst"))
  raises typeError (toJson (instP 1) (.opq 3))
  gives (fromJson (instP 0) .none) .none
  let hia ← new 0
  yes (pEqual (instP 0) (.obj hia) (.obj hia))
  yes (pEqual (instP 0) (.obj (← new 0)) (.obj (← new 0)))
  no (pEqual (instP 0) (.obj (← new 0 [(s% "a", .int 5)])) (.obj (← new 0 [(s% "a", .int 1)])))
  yes (pEqual (instP 0) (.opq 1) (.opq 1))
  no (pEqual (instP 0) (.opq 1) (.opq 2))

example : passes instEnv 20 testInstance = true := by decide +kernel

/-! `test_basic_recursion` and `test_list_recursion` (test_recursion.py:23-81);
class 0 is HasProperties itself. -/

def recEnv : Env := testEnv [
  { name := s% "HasProperties" },
  { name := s% "HasInteger", ancestors := [0], props := [(s% "my_int", .mutable intP)] },
  { name := s% "HasHasProps", ancestors := [0], props := [(s% "my_hp", .mutable (instP 0))] },
  { name := s% "HasHasPropsList", ancestors := [0],
    props := [(s% "my_list", .mutable (listP (instP 0)))] },
  { name := s% "HasHasProps", ancestors := [0],
    props := [(s% "my_hp", .mutable (instP 0)), (s% "my_int", .mutable intP)] }]

def testRecursion : T Unit := do
  let hhp ← new 4 [(s% "my_int", .int 5)]
  raises valueError (.hpValidate hhp)
  does (set hhp (s% "my_hp") (.obj hhp))
  does (.hpValidate hhp)
  does (set hhp (s% "my_int") .undef)
  raises valueError (.hpValidate hhp)

def testListRecursion : T Unit := do
  let hv ← new 1 [(s% "my_int", .int 5)]
  let hinv ← new 1
  let hhp ← new 2
  let l ← new 3
  does (set hhp (s% "my_hp") (.obj hv))
  does (.hpValidate hhp)
  does (set l (s% "my_list") (.list [.obj hhp]))
  does (.hpValidate l)
  does (set l (s% "my_list") (.list [.obj hhp, .obj hinv]))
  raises valueError (.hpValidate l)
  poke l (s% "my_list") (.list [.obj hhp, .obj hv])
  does (.hpValidate l)
  does (set hhp (s% "my_hp") (.obj l))
  does (.hpValidate l)
  does (set l (s% "my_list") (.list [.obj hhp, .obj hv, .obj hinv]))
  raises valueError (.hpValidate l)
  raises selfReferenceError (.hpSerialize l {})

example : passes recEnv 2 testRecursion = true := by decide +kernel
example : passes recEnv 3 testListRecursion = true := by decide +kernel

end Verif.Conformance
