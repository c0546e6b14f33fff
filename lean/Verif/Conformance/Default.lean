import Verif.Conformance.Harness

/-!
# `/repo/tests/test_default.py` and `/repo/tests/test_dynamic.py` on the model

Left out: what the metaclass refuses (`Models/Classes`, `Models/Decl`), warnings,
arrays, identity of default containers (`Models/Alias`).
-/

namespace Verif.Conformance

def intDef (i : Int) : PropSpec := withDefault (.val (.int i)) intP

/-! `test_random_default` (lines 16-26). -/

def randEnv : Env := testEnv [
  { name := s% "HasColor",
    props := [(s% "col", .mutable (withDefault (.val (.str (s% "random"))) colorP))] }]

def testRandom : T Unit := do
  let hc ← new 0
  let v ← call (get hc (s% "col"))
  expect !(pyEq v (.str (s% "random")))
  equals (get hc (s% "col")) v
  equals (get hc (s% "col")) v

example : passes randEnv 3 testRandom = true := by decide +kernel

/-! `test_default_order` (lines 28-130), the defaults dictionaries of subclasses
merged as the metaclass does. -/

def orderEnv : Env := testEnv [
  { name := s% "HasIntA", props := [(s% "a", .mutable intP)] },
  { name := s% "HasIntB", props := [(s% "b", .mutable (optional intP))] },
  { name := s% "HasIntC", props := [(s% "c", .mutable (intDef 5))] },
  { name := s% "HasIntClassDef", props := [(s% "c", .mutable (intDef 5))],
    defaults := [(s% "c", .val (.int 100))] },
  { name := s% "HasIntCError", props := [(s% "c", .mutable (intDef 5))],
    defaults := [(s% "z", .val (.int 100))] },
  { name := s% "HasIntD", props := [(s% "d", .mutable (optional (intDef 5)))] },
  { name := s% "HasIntFandG",
    props := [(s% "f", .mutable (intDef 5)), (s% "g", .mutable (intDef 10))],
    defaults := [(s% "f", .val (.int 20)), (s% "g", .val (.int 25))] },
  { name := s% "HasIntFGHDefs",
    props := [(s% "f", .mutable (intDef 5)), (s% "g", .mutable (intDef 10)),
      (s% "h", .mutable (intDef 1000))],
    defaults := [(s% "f", .val (.int 30)), (s% "g", .val (.int 25)), (s% "h", .val (.int (-10)))] }]

def testOrder : T Unit := do
  let hi ← new 0
  gives (get hi (s% "a")) .none
  does (set hi (s% "a") (.int 5))
  does (del hi (s% "a"))
  gives (get hi (s% "a")) .none
  raises valueError (.hpValidate hi)
  let hi ← new 1
  gives (get hi (s% "b")) .none
  does (set hi (s% "b") (.int 5))
  does (del hi (s% "b"))
  gives (get hi (s% "b")) .none
  yes (.hpValidate hi)
  let hi ← new 2
  equals (get hi (s% "c")) (.int 5)
  does (set hi (s% "c") (.int 10))
  does (del hi (s% "c"))
  gives (get hi (s% "c")) .none
  let hi ← new 3
  equals (get hi (s% "c")) (.int 100)
  does (set hi (s% "c") (.int 10))
  does (del hi (s% "c"))
  gives (get hi (s% "c")) .none
  let hi ← new 5
  equals (get hi (s% "d")) (.int 5)
  does (set hi (s% "d") (.int 10))
  does (del hi (s% "d"))
  gives (get hi (s% "d")) .none
  let hi ← new 6
  equals (get hi (s% "f")) (.int 20)
  equals (get hi (s% "g")) (.int 25)
  let hi ← new 6 [(s% "g", .int 12)]
  equals (get hi (s% "f")) (.int 20)
  equals (get hi (s% "g")) (.int 12)
  let hi ← new 7
  equals (get hi (s% "f")) (.int 30)
  equals (get hi (s% "g")) (.int 25)
  equals (get hi (s% "h")) (.int (-10))

example : passes orderEnv 19 testOrder = true := by decide +kernel

/-! `test_union_default` (lines 133-213). -/

def unionDefEnv : Env := testEnv [
  { name := s% "HasUnionA", props := [(s% "a", .mutable (unionP [intP, strP]))] },
  { name := s% "HasUnionB", props := [(s% "a", .mutable (unionP [intDef 5, strP]))] },
  { name := s% "HasUnionC", props := [(s% "a", .mutable
      (unionP [intP, withDefault (.val (.str (s% "hi"))) strP, intP]))] },
  { name := s% "HasUnionD", props := [(s% "a", .mutable
      (withDefault (.val (.int 100)) (unionP [intP, strP, intP])))] },
  { name := s% "HasUnionD", props := [(s% "a", .mutable
      (withDefault (.fn 0) (unionP [intP, strP, intP])))] }]
  [fun _ => .ret (.int 12)]

def testUnionDefault : T Unit := do
  let hu ← new 0
  gives (get hu (s% "a")) .none
  does (set hu (s% "a") (.int 5))
  does (set hu (s% "a") (.str (s% "hi")))
  does (del hu (s% "a"))
  gives (get hu (s% "a")) .none
  let hu ← new 1
  equals (get hu (s% "a")) (.int 5)
  does (set hu (s% "a") (.str (s% "hi")))
  does (del hu (s% "a"))
  gives (get hu (s% "a")) .none
  let hu ← new 2
  equals (get hu (s% "a")) (.str (s% "hi"))
  does (set hu (s% "a") (.int 5))
  does (del hu (s% "a"))
  gives (get hu (s% "a")) .none
  let hu ← new 3
  equals (get hu (s% "a")) (.int 100)
  does (set hu (s% "a") (.int 5))
  does (del hu (s% "a"))
  gives (get hu (s% "a")) .none
  let hu ← new 4
  equals (get hu (s% "a")) (.int 12)

example : passes unionDefEnv 9 testUnionDefault = true := by decide +kernel

/-! `test_instance_default` (lines 216-256) and `test_list_default`
(lines 258-283). -/

def instDefEnv : Env := testEnv [
  { name := s% "HasInt", props := [(s% "a", .mutable intP)] },
  { name := s% "HasInstance", props := [(s% "inst", .mutable (withDefault (.cls 0) (instP 0)))] },
  { name := s% "HasIntSubclass", ancestors := [0], props := [(s% "a", .mutable intP)] },
  { name := s% "HasInstanceSubclass", ancestors := [1],
    props := [(s% "inst", .mutable (withDefault (.cls 0) (instP 0)))],
    defaults := [(s% "inst", .cls 2)] },
  { name := s% "HasList", props := [(s% "z", .mutable (withDefault (.fn 0) (listP (instP 1))))] },
  { name := s% "HasDefaultIntList", props := [(s% "intlist", .mutable (listP (intDef 5)))] }]
  [fun _ => .ret (.list [])]

def testInstDefault : T Unit := do
  let hi0 ← new 1
  let hi1 ← new 1
  let i0 ← callObj (get hi0 (s% "inst"))
  let i1 ← callObj (get hi1 (s% "inst"))
  expect ((← classOf i0) == 0)
  expect ((← classOf i1) == 0)
  expect (i0 != i1)
  does (set i0 (s% "a") (.int 5))
  gives (get i1 (s% "a")) .none
  does (del hi0 (s% "inst"))
  gives (get hi0 (s% "inst")) .none
  let hi2 ← new 3
  expect ((← classOf (← callObj (get hi2 (s% "inst")))) == 2)
  let hl ← new 4
  gives (get hl (s% "z")) (.list [])
  let hd ← new 5
  gives (get hd (s% "intlist")) .none

example : passes instDefEnv 8 testInstDefault = true := by decide +kernel

/-! `test_reset` (lines 285-320) and `test_callable` (lines 323-356). -/

def resetEnv : Env := testEnv [
  { name := s% "HasInts", defaults := [(s% "b", .val (.int 10))],
    props := [(s% "a", .mutable (intDef 1)), (s% "b", .mutable intP)],
    observers := [⟨.names [s% "a"], .set, 0⟩] },
  { name := s% "HasUid", props := [(s% "uid", .gettable uuidP)] },
  { name := s% "HasUidZero", props := [(s% "uid", .gettable uuidP)],
    defaults := [(s% "uid", .fn 1)] },
  { name := s% "HasInt", props := [(s% "a", .mutable (withDefault (.fn 2) intP))] }]
  [fun args => setProg (args.getD 0 .none) (s% "b") (.int 5) .none,
   fun _ => .ret (.uuid 0),
   fun _ => andThen .userGet .ret]

def testReset : T Unit := do
  let hi ← new 0
  equals (get hi (s% "a")) (.int 1)
  equals (get hi (s% "b")) (.int 10)
  does (del hi (s% "a"))
  gives (get hi (s% "a")) .none
  equals (get hi (s% "b")) (.int 5)
  does (.reset hi (some (s% "b")))
  equals (get hi (s% "b")) (.int 10)
  let _ ← prog (.disabled Quar.all (andThen (.reset hi (some (s% "a"))) .ret) fun _ => .ret .none)
  equals (get hi (s% "a")) (.int 1)
  equals (get hi (s% "b")) (.int 10)
  raises attributeError (.reset hi (some (s% "c")))
  let hu ← new 1
  raises attributeError (.reset hu (some (s% "uid")))

def testCallable : T Unit := do
  let huz ← new 2
  equals (toJson uuidP (← call (get huz (s% "uid"))))
    (.str (s% "00000000-0000-0000-0000-000000000000"))
  does (.userPut (.int 1))
  let hi ← new 3
  equals (get hi (s% "a")) (.int 1)
  does (.userPut (.int 2))
  does (.reset hi (some (s% "a")))
  equals (get hi (s% "a")) (.int 2)

example : passes resetEnv 9 testReset = true := by decide +kernel
example : passes resetEnv 3 testCallable = true := by decide +kernel

/-! `test_default_override_dynamic` (lines 368-414). -/

def overrideEnv : Env := testEnv [
  { name := s% "HasIntABase", props := [(s% "a", .mutable (intDef 5))] },
  { name := s% "HasIntASub", props := [(s% "a", .dynamic intP 0 none none)] },
  { name := s% "HasIntBBase", props := [(s% "b", .mutable intP)],
    defaults := [(s% "b", .val (.int 2))] },
  { name := s% "HasIntBSub", props := [(s% "b", .dynamic intP 1 none none)],
    defaults := [(s% "b", .val (.int 2))] }]
  [fun _ => .ret (.int 10), fun _ => .ret (.int 4)]

def testOverride : T Unit := do
  let hi ← new 0
  equals (get hi (s% "a")) (.int 5)
  does (del hi (s% "a"))
  gives (get hi (s% "a")) .none
  raises valueError (.hpValidate hi)
  let hid ← new 1
  equals (get hid (s% "a")) (.int 10)
  raises attributeError (del hid (s% "a"))
  does (.hpValidate hid)
  let hi ← new 2
  equals (get hi (s% "b")) (.int 2)
  does (del hi (s% "b"))
  gives (get hi (s% "b")) .none
  raises valueError (.hpValidate hi)
  let hid ← new 3
  equals (get hid (s% "b")) (.int 4)
  raises attributeError (del hid (s% "b"))
  does (.hpValidate hid)

example : passes overrideEnv 10 testOverride = true := by decide +kernel

/-! `test_dynamic_getter`, `test_dynamic_setter` and `test_dynamic_deleter` of
test_dynamic.py (lines 16-114). -/

def number (f : Rat → Val) : Val → Val
  | .int i => f i
  | .float (.fin q) => f q
  | v => v
def asInt (q : Rat) : Val := .int q.num

def dynEnv : Env := testEnv [
  { name := s% "HasDynamicProperty",
    props := [(s% "my_int", .mutable intP), (s% "my_doubled_int", .dynamic intP 0 none none),
      (s% "my_tripled_int", .dynamic intP 1 none none)] },
  { name := s% "HasDynamicProperty",
    props := [(s% "my_float", .mutable floatP),
      (s% "my_doubled_int", .dynamic intP 2 (some 3) (some 4))] }]
  [fun args => getProg (args.getD 0 .none) (s% "my_int") fun
     | .none => .raise ⟨.value, []⟩
     | v => .ret (number (fun q => asInt (q * 2)) v),
   fun args => getProg (args.getD 0 .none) (s% "my_int") fun
     | .none => .ret .none
     | v => .ret (number (fun q => asInt (q * 3)) v),
   fun args => getProg (args.getD 0 .none) (s% "my_float") fun
     | .none => .raise ⟨.value, []⟩
     | v => .ret (number (fun q => fl (q * 2)) v),
   fun args => setProg (args.getD 0 .none) (s% "my_float")
     (number (fun q => fl (q / 2)) (args.getD 1 .none)) .none,
   fun args => match args.getD 0 .none with
     | .obj r => andThen (.delattr r (s% "my_float")) fun _ => .ret .none
     | _ => .ret .none]

def testDynamic : T Unit := do
  let hdp ← new 0
  raises valueError (get hdp (s% "my_doubled_int"))
  gives (get hdp (s% "my_tripled_int")) .none
  does (set hdp (s% "my_int") (.int 10))
  equals (get hdp (s% "my_doubled_int")) (.int 20)
  yes (.hpValidate hdp)
  raises attributeError (set hdp (s% "my_doubled_int") (.int 50))
  raises attributeError (del hdp (s% "my_doubled_int"))

def testDynSetter : T Unit := do
  let hdp ← new 1
  raises valueError (set hdp (s% "my_doubled_int") (fl (1 / 2)))
  does (set hdp (s% "my_doubled_int") (.int 10))
  equals (get hdp (s% "my_float")) (fl 5)
  let ser ← call (.hpSerialize hdp {})
  equals (.hpSerialize hdp {}) (obj [(s% "__class__", .str (s% "HasDynamicProperty")),
    (s% "my_float", fl 5)])
  let hdp2 ← callObj (deser 1 ser)
  equals (get hdp2 (s% "my_float")) (fl 5)
  equals (get hdp2 (s% "my_doubled_int")) (.int 10)
  raises attributeError (.construct 1 [(s% "my_doubled_int", .int 5)])

def testDynDeleter : T Unit := do
  let hdp ← new 1
  does (set hdp (s% "my_float") (fl 5))
  does (del hdp (s% "my_doubled_int"))
  gives (get hdp (s% "my_float")) .none

example : passes dynEnv 6 testDynamic = true := by decide +kernel
example : passes dynEnv 6 testDynSetter = true := by decide +kernel
example : passes dynEnv 1 testDynDeleter = true := by decide +kernel

end Verif.Conformance
