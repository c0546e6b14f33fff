import Verif.Conformance.Harness
import Verif.Models.Pickle

/-!
# `/repo/tests/test_serialization.py` and `/repo/tests/test_union.py` on the model

Left out: arrays, overridden `validate`, `_instance`, refused
declarations (`Models/Compose`), keyword arguments passed to serializers.
-/

namespace Verif.Conformance

/-- The registry of the test module; class 0 is HasProperties. -/
def hpReg : List (PyStr × ClsId) :=
  [(s% "HasProperties", 0), (s% "HP1", 1), (s% "HP2", 2), (s% "HP3", 3)]

def serEnv : Env := testEnv [
  { name := s% "HasProperties", registry := hpReg },
  { name := s% "HP1", ancestors := [0], props := [(s% "a", .mutable intP)], registry := hpReg },
  { name := s% "HP2", ancestors := [0], props := [(s% "inst1", .mutable (instP 1))], registry := hpReg },
  { name := s% "HP3", ancestors := [0], props := [(s% "inst2", .mutable (instP 2))], registry := hpReg }]

def named (n : PyStr) (kvs : List (PyStr × Val)) : Val :=
  obj ((s% "__class__", .str n) :: kvs)

def hp3With (kvs : List (PyStr × Val)) : List (PyStr × Val) :=
  [(s% "inst2", named (s% "HP2") [(s% "inst1", named (s% "HP1") kvs)])]

/-- `deserialize` gives an instance of this class. -/
def makes (c : ClsId) (v : Val) (kw : DeKw) (res : ClsId) : T Unit := do
  expect ((← classOf (← callObj (.hpDeserialize c v kw))) == res)

/-! `test_pickle` (lines 28-37). -/

/-- An instance read from another one. -/
def attr (r : Nat) (name : PyStr) : T Nat := callObj (.getattr r name)

/-- `pickle.loads(pickle.dumps(hp))`. -/
def pickleTwice (r : Nat) : T Nat := fun _ s =>
  match repickle r s.w with
  | (.ok (.obj r'), w) => .ok (r', ⟨w, s.passed⟩)
  | _ => .error s.passed

def testPickle : T Unit := do
  let hp1 ← new 1 [(s% "a", .int 10)]
  let hp2 ← new 2 [(s% "inst1", .obj hp1)]
  let hp3 ← new 3 [(s% "inst2", .obj hp2)]
  let copy ← pickleTwice hp3
  expect ((← classOf copy) == 3)
  expect ((← classOf (← attr copy (s% "inst2"))) == 2)
  expect ((← classOf (← attr (← attr copy (s% "inst2")) (s% "inst1"))) == 1)
  gives (.getattr (← attr (← attr copy (s% "inst2")) (s% "inst1")) (s% "a")) (.int 10)

example : passes serEnv 4 testPickle = true := by decide +kernel

/-! `test_serialize` (lines 39-152). -/

def testSerialize : T Unit := do
  let hp1 ← new 1 [(s% "a", .int 10)]
  let hp2 ← new 2 [(s% "inst1", .obj hp1)]
  let hp3 ← new 3 [(s% "inst2", .obj hp2)]
  let d := named (s% "HP3") (hp3With [(s% "a", .int 10)])
  let dn := obj [(s% "inst2", obj [(s% "inst1", obj [(s% "a", .int 10)])])]
  equals (.hpSerialize hp3 {}) d
  equals (ser hp3) dn
  makes 0 d {} 0
  makes 0 dn {} 0
  makes 0 dn { trusted := true } 0
  makes 0 (named (s% "HP9") []) { trusted := true } 0
  makes 3 d {} 3
  makes 3 dn {} 3
  makes 0 d { trusted := true } 3
  raises valueError (.hpDeserialize 1 (.int 5) {})
  raises valueError (.hpDeserialize 0 d { strict := true })
  makes 3 d { strict := true } 3
  let extra := named (s% "HP3") (hp3With [(s% "a", .int 10)] ++ [(s% "b", .int 1)])
  raises valueError (.hpDeserialize 3 extra { strict := true })
  makes 3 (obj []) {} 3
  raises validationError (.hpValidate (← callObj (.hpDeserialize 3 (obj []) {})))
  raises validationError (.hpDeserialize 3 (obj []) { assertValid := true })
  let incomplete := named (s% "HP3") (hp3With [])
  makes 3 incomplete { strict := true } 3
  raises validationError (.hpDeserialize 3 incomplete { assertValid := true })
  let subextra := named (s% "HP3") (hp3With [(s% "a", .int 10), (s% "b", .int 2)])
  makes 3 subextra { assertValid := true } 3
  raises valueError (.hpDeserialize 3 subextra { strict := true })

example : passes serEnv 20 testSerialize = true := by decide +kernel

/-! `test_immutable_serial`, `test_none_serial`, `test_serializer`,
`test_dynamic_serial` (lines 155-352). -/

def revText : Val → Val
  | .str s => .str s.reverse
  | v => v

def sumA : List Val → Int → Prog
  | [], n => .ret (.int n)
  | v :: vs, n => getProg v (s% "a") fun
      | .int i => sumA vs (n + i)
      | _ => .ret .none

def ser2Env : Env := testEnv [
  { name := s% "HP1", props := [(s% "a", .mutable intP)] },
  { name := s% "UidModel", props := [(s% "uid", .gettable uuidP)] },
  { name := s% "ManyProperties", props := [
      (s% "mystr", .mutable (optional strP)), (s% "myinst", .mutable (optional (instP 0))),
      (s% "mylist", .mutable (optional (listP (instP 0)))),
      (s% "myunion", .mutable (optional (unionP [instP 0, strP])))] },
  { name := s% "ManyProperties", props := [
      (s% "mystr", .mutable (withSer 0 (withDeser 0 strP))),
      (s% "myinst", .mutable (withSer 1 (withDeser 2 (instP 0)))),
      (s% "mylist", .mutable (withSer 3 (withDeser 4 (listP (instP 0))))),
      (s% "myunion", .mutable (withSer 5 (withDeser 0 (unionP [instP 0, strP]))))] },
  { name := s% "DynamicModel", props := [(s% "a", .mutable intP), (s% "b", .renamed (s% "a")),
      (s% "c", .dynamic intP 1 none none)] }]
  [fun args => .ret (revText (args.getD 0 .none)),
   fun args => getProg (args.getD 0 .none) (s% "a") .ret,
   fun args => andThen (.construct 0 [(s% "a", args.getD 0 .none)]) .ret,
   fun args => match args.getD 0 .none with
     | .list vs => sumA vs 0
     | _ => .ret .none,
   fun args => andThen (.construct 0 [(s% "a", args.getD 0 .none)]) fun v => .ret (.list [v]),
   fun _ => .ret (.str (s% "HP1"))]

def testUidSerial : T Unit := do
  let um1 ← new 1
  let um2 ← callObj (deser 1 (← call (.hpSerialize um1 {})))
  yes (eqv um1 um2)
  let many ← new 2
  gives (ser many) (.dict [])

def testSerializer : T Unit := do
  let h (a : Int) : T Val := do pure (.obj (← new 0 [(s% "a", .int a)]))
  let many ← new 3 [(s% "mystr", .str (s% "abcd")), (s% "myinst", ← h 10),
    (s% "mylist", .list [← h 1, ← h 2, ← h 3]), (s% "myunion", ← h 10)]
  let d := obj [(s% "mystr", .str (s% "dcba")), (s% "myinst", .int 10), (s% "mylist", .int 6),
    (s% "myunion", .str (s% "HP1"))]
  equals (ser many) d
  let many ← callObj (deser 3 d)
  equals (get many (s% "mystr")) (.str (s% "abcd"))
  let i ← callObj (get many (s% "myinst"))
  expect ((← classOf i) == 0)
  equals (get i (s% "a")) (.int 10)
  match ← call (get many (s% "mylist")) with
  | .list [.obj j] => do
      expect ((← classOf j) == 0)
      equals (get j (s% "a")) (.int 6)
  | _ => expect false
  equals (get many (s% "myunion")) (.str (s% "1PH"))
  expect ((← classOf (← callObj (deser 3 (obj [(s% "mystr", .str (s% "hi"))])))) == 3)

def testDynSerial : T Unit := do
  let dm1 ← new 4
  does (set dm1 (s% "a") (.int 5))
  equals (get dm1 (s% "b")) (.int 5)
  equals (get dm1 (s% "c")) (.int 5)
  let skip := named (s% "DynamicModel") [(s% "a", .int 5)]
  let save := named (s% "DynamicModel") [(s% "a", .int 5), (s% "b", .int 5), (s% "c", .int 5)]
  equals (.hpSerialize dm1 {}) skip
  equals (.hpSerialize dm1 { saveDynamic := true }) save
  yes (eqv dm1 (← callObj (deser 4 skip)))
  yes (eqv dm1 (← callObj (deser 4 save)))

example : passes ser2Env 2 testUidSerial = true := by decide +kernel
example : passes ser2Env 8 testSerializer = true := by decide +kernel
example : passes ser2Env 6 testDynSerial = true := by decide +kernel

/-! `test_union` (test_union.py:36-127). -/

def unEnv : Env := testEnv [
  { name := s% "HasPropsDummy" },
  { name := s% "HasDummyUnion", props := [(s% "myunion", .mutable (unionP [instP 0, intP]))] },
  { name := s% "HasBoolColor", props := [(s% "mybc", .mutable (unionP [boolP, colorP]))] },
  { name := s% "HasIntAndList", props := [(s% "myints", .mutable
      (unionP [intP, prop (.seq .list intP (some 2) none false)]))] },
  { name := s% "HasOptionalUnion", props := [(s% "mybc", .mutable (optional (unionP [boolP, colorP])))] },
  { name := s% "HasOptPropsUnion", props := [(s% "mybc", .mutable
      (unionP [optional boolP, optional colorP]))] }]

def ints (is : List Int) : Val := .list (is.map .int)

def testUnion : T Unit := do
  let hbc ← new 2
  does (set hbc (s% "mybc") (.bool true))
  does (set hbc (s% "mybc") (.str (s% "red")))
  equals (get hbc (s% "mybc")) (.tup [.int 255, .int 0, .int 0])
  raises valueError (set hbc (s% "mybc") (.str (s% "not a bool or color")))
  does (.hpValidate hbc)
  let hil ← new 3
  does (set hil (s% "myints") (.int 5))
  does (.hpValidate hil)
  does (set hil (s% "myints") (ints [1]))
  raises valueError (.hpValidate hil)
  equals (toJson (unionP [instP 0, intP]) (.obj (← new 0))) (named (s% "HasPropsDummy") [])
  equals (toJson (unionP [strP, intP]) (.str (s% "red"))) (.str (s% "red"))
  equals (ser (← new 3 [(s% "myints", .int 5)])) (obj [(s% "myints", .int 5)])
  equals (ser (← new 3 [(s% "myints", ints [5, 6, 7])])) (obj [(s% "myints", ints [5, 6, 7])])
  equals (get (← callObj (deser 3 (obj [(s% "myints", .int 5)]))) (s% "myints")) (.int 5)
  equals (get (← callObj (deser 3 (obj [(s% "myints", ints [5, 6, 7])]))) (s% "myints"))
    (ints [5, 6, 7])
  gives (fromJson (unionP [intP, listP intP]) .none) .none
  let up := unionP [instP 1, strP]
  yes (pEqual up (.str (s% "hi")) (.str (s% "hi")))
  let hdu ← new 1
  yes (pEqual up (.obj hdu) (.obj hdu))
  yes (pEqual up (.obj hdu) (.obj (← new 1)))
  no (pEqual up (.obj hdu) (.str (s% "hi")))
  does (.hpValidate (← new 4))
  raises valueError (.hpValidate (← new 5))

example : passes unEnv 15 testUnion = true := by decide +kernel

/-! `test_union_deserialization` (lines 129-231). -/

def ab : List (PyStr × Entry) := [(s% "a", .mutable intP), (s% "b", .mutable intP)]
def unReg : List (PyStr × ClsId) :=
  [(s% "HasProperties", 6), (s% "SomeProps", 0), (s% "SameProps", 1), (s% "DifferentProps", 2)]
def strictUnion (cs : List ClsId) : PropSpec := prop (.union (cs.map instP) true)

def unDeEnv : Env := testEnv [
  { name := s% "SomeProps", ancestors := [6], props := ab, registry := unReg },
  { name := s% "SameProps", ancestors := [6], props := ab, registry := unReg },
  { name := s% "DifferentProps", ancestors := [6], registry := unReg,
    props := [(s% "c", .mutable intP), (s% "d", .mutable intP)] },
  { name := s% "UnambigousUnion", ancestors := [6], registry := unReg,
    props := [(s% "u", .mutable (strictUnion [0, 2]))] },
  { name := s% "AmbiguousUnion", ancestors := [6], registry := unReg,
    props := [(s% "u", .mutable (strictUnion [0, 1]))] },
  { name := s% "LenientUnion", ancestors := [6], registry := unReg,
    props := [(s% "u", .mutable (unionP [instP 0, instP 2]))] },
  { name := s% "HasProperties", registry := unReg },
  { name := s% "ValidateColorThenString", ancestors := [6], registry := unReg,
    props := [(s% "values", .mutable (unionP [listP colorP, listP strP]))] }]

/-- Deserializing gives an instance whose `u` is of this class. -/
def uIs (c : ClsId) (v : Val) (res : ClsId) : T Nat := do
  let r ← callObj (deser c v)
  expect ((← classOf (← callObj (get r (s% "u")))) == res)
  pure r

def testUnionDe : T Unit := do
  let _ ← uIs 3 (obj [(s% "u", obj [(s% "c", .int 1), (s% "d", .int 2)]),
    (s% "v", .str (s% "extra"))]) 2
  let _ ← uIs 4 (obj [(s% "u", obj [(s% "a", .int 1), (s% "b", .int 2)])]) 0
  let _ ← uIs 4 (obj [(s% "u", named (s% "SameProps") [(s% "a", .int 1), (s% "b", .int 2)])]) 1
  let extra := obj [(s% "u", obj [(s% "c", .int 1), (s% "d", .int 2), (s% "e", .int 3)]),
    (s% "v", .str (s% "extra"))]
  raises validationError (deser 3 extra)
  raises validationError (deser 3 (obj [(s% "u",
    named (s% "SomethingElse") [(s% "a", .int 1), (s% "b", .int 2)])]))
  raises valueError (deser 3 (obj [(s% "u",
    named (s% "SomeProps") [(s% "a", .str (s% "hi")), (s% "b", .int 2)])]))
  raises valueError (deser 3 (obj [(s% "u", obj [(s% "a", .str (s% "hi"))])]))
  let lu ← uIs 5 extra 0
  raises validationError (.hpValidate lu)
  let _ ← uIs 5 (obj [(s% "u", obj [(s% "d", .int 2), (s% "e", .int 3),
    (s% "__class__", .str (s% "DifferentProps"))]), (s% "v", .str (s% "extra"))]) 2
  let _ ← uIs 5 (obj [(s% "u", named (s% "SomethingElse") [])]) 0
  raises valueError (deser 5 (obj [(s% "u", named (s% "SomeProps") [(s% "a", .str (s% "hi"))])]))
  let _ ← uIs 5 (obj [(s% "u", obj [(s% "a", .str (s% "hi"))])]) 2
  let hb := Val.list [.str (s% "hi"), .str (s% "bye")]
  let vcts ← new 7 [(s% "values", hb)]
  let out ← callObj (deser 7 (← call (.hpSerialize vcts {})))
  equals (get out (s% "values")) hb

example : passes unDeEnv 14 testUnionDe = true := by decide +kernel

end Verif.Conformance
