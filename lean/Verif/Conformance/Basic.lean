import Verif.Conformance.Harness

/-!
# `/repo/tests/test_basic.py` on the model

Left out: keywords of declarations (`Models/Decl`, `Models/Limits`), generated
documentation, tags, warnings, numpy values, File properties (`Models/Files`),
inheritance (`Models/Classes`).
-/

namespace Verif.Conformance

/-! `test_base_functionality` (lines 46-104). -/

def baseEnv : Env := testEnv [
  { name := s% "GettablePropOpt", props := [(s% "mygp", .gettable anyP)] },
  { name := s% "GettablePropOpt", props := [(s% "mygp", .gettable (withDefault (.fn 0) anyP))] },
  { name := s% "PropOpts", props := [(s% "myprop", .mutable anyP),
      (s% "maybe_none", .mutable (optional anyP))] }]
  [fun _ => .ret (.int 12)]

def testBase : T Unit := do
  let gpo ← new 0
  raises attributeError (set gpo (s% "mygp") (.int 5))
  raises attributeError (.construct 0 [(s% "not_mygp", .int 0)])
  raises attributeError (.construct 0 [(s% "help", .str (s% "help"))])
  yes (.hpValidate gpo)
  let g ← new 1
  yes (.hpValidate g)
  equals (get g (s% "mygp")) (.int 12)
  let e ← new 2
  raises valueError (.hpValidate e)
  let p5 ← new 2 [(s% "myprop", .int 5)]
  yes (.hpValidate p5)
  yes (eqv (← new 2) (← new 2))
  yes (eqv (← new 2 [(s% "myprop", .int 5)]) (← new 2 [(s% "myprop", .int 5)]))
  no (eqv (← new 2 [(s% "myprop", .int 5), (s% "maybe_none", .int 3)])
    (← new 2 [(s% "myprop", .int 5)]))
  yes (eqv (← new 2 [(s% "myprop", .int 5), (s% "maybe_none", .int 3)])
    (← new 2 [(s% "myprop", .int 5), (s% "maybe_none", .int 3)]))
  no (eqv (← new 2 [(s% "myprop", .int 5)]) (← new 2))
  no (eqv (← new 2 [(s% "myprop", .int 5)]) (← new 2 [(s% "myprop", .int 6)]))
  no (.equal .none (.obj (← new 2 [(s% "myprop", .int 6)])))
  no (.equal (.obj (← new 2 [(s% "myprop", .int 5)])) .none)
  yes (.equal .none .none)
  yes (pEqual anyP (.int 5) (.int 5))
  no (pEqual anyP (.int 5) (.str (s% "hi")))

example : passes baseEnv 19 testBase = true := by decide +kernel

/-! `_test_bool_with` (lines 258-317). -/

def boolEnv : Env := testEnv [
  { name := s% "BoolOpts", props := [(s% "mybool", .mutable boolP),
      (s% "mybool_cast", .mutable (optional (prop (.boolean true))))] }]

def testBool : T Unit := do
  let opt ← new 0 [(s% "mybool", .bool true)]
  gives (get opt (s% "mybool")) (.bool true)
  raises valueError (set opt (s% "mybool") (.str (s% "true")))
  does (set opt (s% "mybool") (.bool false))
  gives (get opt (s% "mybool")) (.bool false)
  yes (pEqual boolP (.bool true) (.bool true))
  no (pEqual boolP (.bool true) (.int 1))
  no (pEqual boolP (.bool true) (.str (s% "true")))
  no (toJson boolP (.bool false))
  no (fromJson boolP (.bool false))
  raises valueError (fromJson boolP (.dict []))
  raises valueError (fromJson boolP (.str (s% "nope")))
  yes (fromJson boolP (.str (s% "true")))
  yes (fromJson boolP (.str (s% "y")))
  yes (fromJson boolP (.str (s% "Yes")))
  yes (fromJson boolP (.str (s% "ON")))
  no (fromJson boolP (.str (s% "false")))
  no (fromJson boolP (.str (s% "N")))
  no (fromJson boolP (.str (s% "no")))
  no (fromJson boolP (.str (s% "OFF")))
  equals (ser opt) (obj [(s% "mybool", .bool false)])
  let d ← callObj (deser 0 (obj [(s% "mybool", .str (s% "Y"))]))
  yes (get d (s% "mybool"))
  gives (fromJson boolP .none) .none
  raises valueError (.assertValid (s% "mybool") boolP opt (.str (s% "true")))
  yes (.hpValidate opt)
  poke opt (s% "mybool") (.str (s% "true"))
  raises valueError (.hpValidate opt)
  does (set opt (s% "mybool") (.bool true))
  does (set opt (s% "mybool_cast") (.bool true))
  yes (.hpValidate opt)
  raises validationError (set opt (s% "mybool") (.str (s% "not a bool")))
  does (set opt (s% "mybool_cast") (.str (s% "not a bool")))
  yes (.hpValidate opt)
  gives (get opt (s% "mybool_cast")) (.bool true)

example : passes boolEnv 28 testBool = true := by decide +kernel

/-! `test_numbers` (lines 325-374). -/

def numEnv : Env := testEnv [
  { name := s% "NumOpts", props := [
      (s% "myint", .mutable intP),
      (s% "myfloat", .mutable floatP),
      (s% "myfloatmin", .mutable (prop (.float false (some 10) none))),
      (s% "myfloatmax", .mutable (prop (.float false none (some 10)))),
      (s% "myfloatrange", .mutable (prop (.float false (some 0) (some 10))))] }]

def testNumbers : T Unit := do
  let nums ← new 0
  raises valueError (set nums (s% "myint") (fl (3 / 2)))
  raises valueError (set nums (s% "myfloat") (.list [fl 1, fl 2]))
  raises valueError (set nums (s% "myfloatmin") (fl 0))
  raises valueError (set nums (s% "myfloatmax") (fl 20))
  raises valueError (set nums (s% "myfloatrange") (fl (-10)))
  does (set nums (s% "myint") (fl 1))
  equals (get nums (s% "myint")) (.int 1)
  does (set nums (s% "myfloat") (.int 1))
  equals (get nums (s% "myfloat")) (fl 1)
  does (set nums (s% "myfloatmin") (fl 10))
  does (set nums (s% "myfloatmax") (fl 10))
  does (set nums (s% "myfloatrange") (fl 10))
  equals (toJson intP (.int 5)) (.int 5)
  equals (toJson floatP (fl 5)) (fl 5)
  equals (toJson floatP (.float .nan)) (.str (s% "nan"))
  equals (toJson floatP (.float .pinf)) (.str (s% "inf"))
  equals (fromJson intP (.int 5)) (.int 5)
  equals (fromJson intP (.str (s% "5"))) (.int 5)
  equals (fromJson floatP (fl 5)) (fl 5)
  equals (fromJson floatP (.str (s% "5.0"))) (fl 5)
  gives (fromJson floatP (.str (s% "nan"))) (.float .nan)
  gives (fromJson floatP (.str (s% "inf"))) (.float .pinf)
  let serialized := obj [(s% "myint", .int 1), (s% "myfloat", fl 1), (s% "myfloatmin", fl 10),
    (s% "myfloatmax", fl 10), (s% "myfloatrange", fl 10)]
  equals (ser nums) serialized
  let d ← callObj (deser 0 serialized)
  equals (get d (s% "myfloatrange")) (fl 10)
  yes (pEqual intP (.int 5) (.int 5))
  yes (pEqual floatP (.int 5) (fl 5))
  no (pEqual floatP (.int 5) (fl (51 / 10)))
  no (pEqual floatP (.str (s% "hi")) (.str (s% "hi")))

example : passes numEnv 23 testNumbers = true := by decide +kernel

/-! `test_complex` (lines 376-405). -/

def cplxEnv : Env := testEnv [
  { name := s% "ComplexOpts", props := [(s% "mycomplex", .mutable cplxP)] }]

abbrev cx (a b : Rat) : Val := .cplx (.fin a) (.fin b)

def testComplex : T Unit := do
  let comp ← new 0
  raises valueError (set comp (s% "mycomplex") (.str (s% "hi")))
  does (set comp (s% "mycomplex") (.int 1))
  equals (get comp (s% "mycomplex")) (cx 1 0)
  does (set comp (s% "mycomplex") (cx 0 (5 / 2)))
  equals (get comp (s% "mycomplex")) (cx 0 (5 / 2))
  does (set comp (s% "mycomplex") (cx 5 2))
  equals (toJson cplxP (cx 5 2)) (.str (s% "(5+2j)"))
  equals (toJson cplxP (cx 0 2)) (.str (s% "2j"))
  equals (fromJson cplxP (.str (s% "(5+2j)"))) (cx 5 2)
  equals (ser comp) (obj [(s% "mycomplex", .str (s% "(5+2j)"))])
  let d ← callObj (deser 0 (obj [(s% "mycomplex", .str (s% "(0+1j)"))]))
  equals (get d (s% "mycomplex")) (cx 0 1)
  yes (pEqual cplxP (cx 1 1) (cx 1 1))
  no (pEqual cplxP (cx 1 1) (.int 1))
  no (pEqual cplxP (.str (s% "hi")) (.str (s% "hi")))

example : passes cplxEnv 11 testComplex = true := by decide +kernel

/-! `test_string` (lines 418-486). -/

/-- The patterns `.+\@.+\..+` (0) and `^.$` (1) on the texts of the test. -/
def stringEnv : Env := { testEnv [
  { name := s% "StringOpts", props := [
      (s% "mystring", .mutable strP),
      (s% "mystringstrip", .mutable (prop (.string (s% " ") .keep none))),
      (s% "mystringupper", .mutable (prop (.string [] .upper none))),
      (s% "mystringlower", .mutable (prop (.string [] .lower none)))] },
  { name := s% "StringOpts", props := [
      (s% "mystring", .mutable (prop (.string [] .keep (some 0)))),
      (s% "anotherstring", .mutable (prop (.string [] .keep (some 1))))] }] with
  search := fun r s => if r = 0 then s.contains '@' && (s.dropWhile (· != '@')).contains '.'
    else s.length == 1 }

def testString : T Unit := do
  let s ← new 0
  raises valueError (set s (s% "mystring") (fl (3 / 2)))
  does (set s (s% "mystring") (.str (s% "a string")))
  does (set s (s% "mystringstrip") (.str (s% "  a string  ")))
  equals (get s (s% "mystringstrip")) (← call (get s (s% "mystring")))
  does (set s (s% "mystringlower") (.str (s% "A String")))
  equals (get s (s% "mystringlower")) (← call (get s (s% "mystring")))
  does (set s (s% "mystringupper") (.str (s% "A String")))
  equals (get s (s% "mystringupper")) (.str (s% "A STRING"))
  equals (toJson strP (.str (s% "a string"))) (.str (s% "a string"))
  equals (fromJson strP (.str (s% "a string"))) (.str (s% "a string"))
  equals (ser s) (obj [(s% "mystring", .str (s% "a string")),
    (s% "mystringstrip", .str (s% "a string")), (s% "mystringupper", .str (s% "A STRING")),
    (s% "mystringlower", .str (s% "a string"))])
  let d ← callObj (deser 0 (obj [(s% "mystringupper", .str (s% "a string"))]))
  equals (get d (s% "mystringupper")) (.str (s% "A STRING"))
  does (set s (s% "mystring") (.str (s% "∏Øˆ∏ØÎ")))
  equals (get s (s% "mystring")) (.str (s% "∏Øˆ∏ØÎ"))
  let r ← new 1
  does (set r (s% "mystring") (.str (s% "test@test.com")))
  does (set r (s% "anotherstring") (.str (s% "a")))
  raises valueError (set r (s% "mystring") (.str (s% "not an email")))
  raises valueError (set r (s% "anotherstring") (.str (s% "aa")))
  yes (pEqual strP (.str (s% "equal")) (.str (s% "equal")))
  no (pEqual strP (.str (s% "equal")) (.str (s% "EQUAL")))

example : passes stringEnv 13 testString = true := by decide +kernel

/-! `test_string_choice` (lines 523-576). -/

def vowels : List PyStr := [s% "a", s% "e", s% "i", s% "o", s% "u"]
def choicesOf (xs : List PyStr) : List (PyStr × List PyStr) := xs.map fun x => (x, [])

def choiceEnv : Env := testEnv [
  { name := s% "StrChoicesOpts", props := [
      (s% "mychoicelist", .mutable (prop (.choice (choicesOf vowels) false))),
      (s% "mychoicedict", .mutable (prop (.choice [(s% "vowel", vowels), (s% "maybe", [s% "y"])] false))),
      (s% "mychoicetuple", .mutable (prop (.choice (choicesOf vowels) false))),
      (s% "mychoiceset", .mutable (prop (.choice (choicesOf vowels) false))),
      (s% "mysensitive", .mutable (prop (.choice (choicesOf [s% "a", s% "A", s% "b"]) true)))] }]

def testChoice : T Unit := do
  let c ← new 0
  raises valueError (set c (s% "mychoicelist") (.str (s% "k")))
  raises valueError (set c (s% "mychoicelist") (.int 5))
  raises valueError (set c (s% "mysensitive") (.str (s% "B")))
  does (set c (s% "mychoicelist") (.str (s% "O")))
  does (set c (s% "mychoicedict") (.str (s% "e")))
  equals (get c (s% "mychoicedict")) (.str (s% "vowel"))
  does (set c (s% "mychoicedict") (.str (s% "maybe")))
  equals (ser c) (obj [(s% "mychoicelist", .str (s% "o")), (s% "mychoicedict", .str (s% "maybe"))])
  let d ← callObj (deser 0 (obj [(s% "mychoicedict", .str (s% "a"))]))
  equals (get d (s% "mychoicedict")) (.str (s% "vowel"))
  yes (pEqual (prop (.choice [] false)) (.str (s% "equal")) (.str (s% "equal")))
  no (pEqual (prop (.choice [] false)) (.str (s% "equal")) (.str (s% "EQUAL")))

example : passes choiceEnv 8 testChoice = true := by decide +kernel

/-! `test_color` (lines 578-621). -/

def colorEnv : Env := testEnv [
  { name := s% "ColorOpts", props := [(s% "mycolor", .mutable colorP)] }]

abbrev rgb (a b c : Int) : Val := .tup [.int a, .int b, .int c]

def testColor : T Unit := do
  let col ← new 0 [(s% "mycolor", .str (s% "red"))]
  equals (get col (s% "mycolor")) (rgb 255 0 0)
  does (set col (s% "mycolor") (.str (s% "darkred")))
  equals (get col (s% "mycolor")) (rgb 139 0 0)
  does (set col (s% "mycolor") (.str (s% "#FFF")))
  equals (get col (s% "mycolor")) (rgb 255 255 255)
  does (set col (s% "mycolor") (.list [.int 50, .int 50, .int 50]))
  equals (get col (s% "mycolor")) (rgb 50 50 50)
  does (set col (s% "mycolor") (.str (s% "random")))
  expect ((← call (get col (s% "mycolor"))).len? == some 3)
  raises valueError (set col (s% "mycolor") (.str (s% "SunburnRed")))
  raises valueError (set col (s% "mycolor") (.str (s% "#00112233")))
  raises valueError (set col (s% "mycolor") (.str (s% "#CDEFGH")))
  raises valueError (set col (s% "mycolor") (.int 5))
  raises valueError (set col (s% "mycolor") (.tup [fl (13 / 10), fl (53 / 10), fl (1006 / 10)]))
  raises valueError (set col (s% "mycolor") (.list [.int 5, .int 100]))
  raises valueError (set col (s% "mycolor") (.list [.int (-10), .int 0, .int 0]))
  does (set col (s% "mycolor") (.str (s% "red")))
  equals (ser col) (obj [(s% "mycolor", .list [.int 255, .int 0, .int 0])])
  let d ← callObj (deser 0 (obj [(s% "mycolor", .list [.int 0, .int 10, .int 20])]))
  equals (get d (s% "mycolor")) (rgb 0 10 20)
  yes (pEqual colorP (rgb 0 10 20) (rgb 0 10 20))
  no (pEqual colorP (rgb 0 10 20) (.list [.int 0, .int 10, .int 20]))

example : passes colorEnv 16 testColor = true := by decide +kernel

/-! `test_datetime` and `test_uid` (lines 623-681). -/

def dateEnv : Env := testEnv [
  { name := s% "DateTimeOpts", props := [(s% "mydate", .mutable dtP)] },
  { name := s% "UidModel", props := [(s% "uid", .gettable uuidP)] }]

abbrev jan (d : Nat) : Val := .dt ⟨2010, 1, d, 0, 0, 0, 0⟩

def testDate : T Unit := do
  let d ← new 0
  raises valueError (set d (s% "mydate") (.int 2010))
  raises valueError (set d (s% "mydate") (.str (s% "2010")))
  does (set d (s% "mydate") (jan 2))
  does (set d (s% "mydate") (.str (s% "2010-01-02")))
  equals (get d (s% "mydate")) (jan 2)
  does (set d (s% "mydate") (.str (s% "2010/01/02")))
  equals (get d (s% "mydate")) (jan 2)
  does (set d (s% "mydate") (.str (s% "2010-01-02T00:00:00Z")))
  equals (get d (s% "mydate")) (jan 2)
  equals (toJson dtP (← call (get d (s% "mydate")))) (.str (s% "2010-01-02T00:00:00Z"))
  equals (ser d) (obj [(s% "mydate", .str (s% "2010-01-02T00:00:00Z"))])
  let e ← callObj (deser 0 (obj [(s% "mydate", .str (s% "2010-01-02"))]))
  equals (get e (s% "mydate")) (jan 2)
  yes (pEqual dtP (jan 2) (jan 2))
  no (pEqual dtP (jan 2) (jan 3))

def testUuid : T Unit := do
  let m ← new 1
  let u ← call (get m (s% "uid"))
  expect (match u with | .uuid _ => true | _ => false)
  raises attributeError (set m (s% "uid") (.uuid 7))
  yes (.hpValidate m)
  poke m (s% "uid") (.str (s% "hi"))
  raises valueError (.hpValidate m)
  let text := Val.str (uuidText 0x12345678123456781234567812345678)
  equals (toJson uuidP (.uuid 0x12345678123456781234567812345678)) text
  equals (toJson uuidP (← call (fromJson uuidP text))) text
  yes (pEqual uuidP (.uuid 0) (.uuid 0))

example : passes dateEnv 10 testDate = true := by decide +kernel
example : passes dateEnv 7 testUuid = true := by decide +kernel

/-! `test_renamed` (lines 777-831). -/

def renamedEnv : Env := testEnv [
  { name := s% "MyHasProps", props := [(s% "my_int", .mutable intP),
      (s% "not_my_int", .renamed (s% "my_int"))] }]

def testRenamed : T Unit := do
  let myp ← new 0
  does (set myp (s% "not_my_int") (.int 5))
  equals (get myp (s% "my_int")) (.int 5)
  equals (get myp (s% "not_my_int")) (.int 5)
  does (del myp (s% "not_my_int"))
  gives (get myp (s% "my_int")) .none
  yes (eqv (← callObj (deser 0 (obj [(s% "my_int", .int 5)])))
    (← callObj (deser 0 (obj [(s% "not_my_int", .int 5)]))))

example : passes renamedEnv 4 testRenamed = true := by decide +kernel

/-! `test_copy` (lines 833-860) without the array. -/

def copyEnv : Env := testEnv [
  { name := s% "HasProps2", props := [(s% "my_list", .mutable (listP boolP)),
      (s% "five", .gettable (withDefault (.val (.int 5)) anyP))] },
  { name := s% "HasProps1", props := [(s% "my_hp2", .mutable (instP 0)),
      (s% "my_union", .mutable (unionP [strP, intP]))] }]

def testCopy : T Unit := do
  let h2 ← new 0 [(s% "my_list", .list [.bool true, .bool true, .bool false])]
  let h1 ← new 1 [(s% "my_hp2", .obj h2), (s% "my_union", .int 10)]
  let c ← callObj (.copy (.obj h1) {} { trusted := true })
  yes (eqv h1 c)
  expect (h1 != c)
  let c2 ← callObj (get c (s% "my_hp2"))
  expect (h2 != c2)

example : passes copyEnv 3 testCopy = true := by decide +kernel

end Verif.Conformance
