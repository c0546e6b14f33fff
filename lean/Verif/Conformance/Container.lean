import Verif.Conformance.Harness

/-!
# `/repo/tests/test_container.py` on the model

Left out: refused declarations (`Models/Compose`, `Models/Limits`), in-place
changes of containers and `observe_mutations` (`Models/Observable`,
`Models/Alias`), subclasses of the built-in containers, numpy arrays.  A set is
given by its items in iteration order.
-/

namespace Verif.Conformance

def mkSeq : SeqKind → List Val → Val
  | .tup, xs => .tup xs
  | .list, xs => .list xs
  | .set, xs => .set xs
/-- A container of another kind. -/
def otherSeq : SeqKind → List Val → Val
  | .tup, xs => .list xs
  | _, xs => .tup xs
def seqP (k : SeqKind) (p : PropSpec) : PropSpec := prop (.seq k p none none false)
def nums (is : List Int) : List Val := is.map .int

/-! `test_tuple`, `test_list` and `test_set` (lines 57-213, 250-425, 468-598). -/

def seqEnv (k : SeqKind) : Env := testEnv [
  { name := s% "HasIntSeq", props := [(s% "aaa", .mutable (withDefault (.fn 0) (seqP k intP)))] },
  { name := s% "HasCoercedIntSeq", props := [(s% "aaa", .mutable (prop (.seq k intP none none true)))] },
  { name := s% "HasConstrianedSeq",
    props := [(s% "aaa", .mutable (prop (.seq k intP (some 2) none false)))] },
  { name := s% "HasConstrianedSeq",
    props := [(s% "aaa", .mutable (prop (.seq k intP none (some 2) false)))] },
  { name := s% "HasColorSeq", props := [(s% "ccc", .mutable (seqP k colorP))] },
  { name := s% "HasIntA", props := [(s% "a", .mutable intP)] },
  { name := s% "HasIntASeq", props := [(s% "myseq", .mutable (seqP k (instP 5)))] },
  { name := s% "HasOptionalSeq", props := [(s% "myseq", .mutable (optional (seqP k boolP)))] },
  { name := s% "HasOptPropSeq", props := [(s% "myseq", .mutable (seqP k (optional boolP)))] },
  { name := s% "UntypedSeq", props := [(s% "myseq", .mutable (seqP k anyP))] }]
  [fun _ => .ret (mkSeq k [])]

def hia (a : Int) : T Val := do pure (.obj (← new 5 [(s% "a", .int a)]))
def hiaJson (a : Int) : Val := obj [(s% "__class__", .str (s% "HasIntA")), (s% "a", .int a)]

def testSeq (k : SeqKind) : T Unit := do
  let li ← new 0
  does (set li (s% "aaa") (mkSeq k (nums [1, 2, 3])))
  raises valueError (set li (s% "aaa") (otherSeq k (nums [1, 2, 3])))
  does (set li (s% "aaa") (mkSeq k [fl 1, fl 2, fl 3]))
  gives (get li (s% "aaa")) (mkSeq k (nums [1, 2, 3]))
  raises valueError (set li (s% "aaa") (.int 4))
  raises valueError (set li (s% "aaa") (mkSeq k [.str (s% "a"), .str (s% "b"), .str (s% "c")]))
  gives (get (← new 0) (s% "aaa")) (mkSeq k [])
  let li ← new 1
  does (set li (s% "aaa") (.int 1))
  equals (get li (s% "aaa")) (mkSeq k (nums [1]))
  does (set li (s% "aaa") (.list (nums [1, 2, 3])))
  equals (get li (s% "aaa")) (mkSeq k (nums [1, 2, 3]))
  does (set li (s% "aaa") (.tup (nums [1, 2, 3])))
  equals (get li (s% "aaa")) (mkSeq k (nums [1, 2, 3]))
  does (set li (s% "aaa") (.set (nums [1, 2, 3])))
  equals (get li (s% "aaa")) (mkSeq k (nums [1, 2, 3]))
  let li ← new 2
  does (set li (s% "aaa") (mkSeq k (nums [1, 2, 3])))
  does (.hpValidate li)
  does (set li (s% "aaa") (mkSeq k (nums [1])))
  raises valueError (.hpValidate li)
  let li ← new 3
  does (set li (s% "aaa") (mkSeq k (nums [1, 2])))
  does (.hpValidate li)
  does (set li (s% "aaa") (mkSeq k (nums [1, 2, 3, 4, 5])))
  raises valueError (.hpValidate li)
  let li ← new 4
  does (set li (s% "ccc") (mkSeq k [.str (s% "red"), .str (s% "#00FF00")]))
  equals (get li (s% "ccc")) (mkSeq k [.tup (nums [255, 0, 0]), .tup (nums [0, 255, 0])])
  equals (toJson (seqP k intP) (mkSeq k (nums [1, 2, 3, 4]))) (.list (nums [1, 2, 3, 4]))
  equals (fromJson (seqP k intP) (.list (nums [1, 2, 3, 4]))) (mkSeq k (nums [1, 2, 3, 4]))
  equals (toJson (seqP k (instP 5)) (mkSeq k [← hia 5, ← hia 10])) (.list [hiaJson 5, hiaJson 10])
  equals (ser li) (obj [(s% "ccc", .list [.list (nums [255, 0, 0]), .list (nums [0, 255, 0])])])
  let d ← callObj (deser 6 (obj [(s% "myseq", .list ([0, 10, 100].map fun i => obj [(s% "a", .int i)]))]))
  let v ← call (get d (s% "myseq"))
  match v.iter? with
  | some [.obj x, .obj y, .obj z] => do
      expect (valEq v (mkSeq k [.obj x, .obj y, .obj z]))
      expect ((← classOf x) == 5 && (← classOf y) == 5 && (← classOf z) == 5)
      equals (get x (s% "a")) (.int 0)
      equals (get y (s% "a")) (.int 10)
      equals (get z (s% "a")) (.int 100)
  | _ => expect false
  does (.hpValidate (← new 7))
  gives (fromJson (seqP k (instP 5)) .none) .none
  let p := seqP k (instP 5)
  yes (pEqual p (mkSeq k [← hia 1, ← hia 2]) (mkSeq k [← hia 1, ← hia 2]))
  no (pEqual p (mkSeq k [← hia 1, ← hia 2]) (mkSeq k [← hia 1, ← hia 2, ← hia 3]))
  no (pEqual p (mkSeq k [← hia 1, ← hia 2]) (mkSeq k [← hia 1, ← hia 3]))
  no (pEqual (seqP k intP) (.int 5) (.int 5))
  let h ← new 8
  raises valueError (.hpValidate h)
  raises valueError (set h (s% "myseq") (mkSeq k [.none]))
  raises valueError (set h (s% "myseq") (mkSeq k [.undef]))
  poke h (s% "myseq") (mkSeq k [.undef])
  raises valueError (.hpValidate h)
  does (set h (s% "myseq") (mkSeq k [.bool true]))
  does (.hpValidate h)
  does (del h (s% "myseq"))
  raises valueError (.hpValidate h)
  let ut ← new 9 [(s% "myseq", mkSeq k [.int 1, .str (s% "hi"), .opq 0])]
  does (.hpValidate ut)

example : passes (seqEnv .tup) 31 (testSeq .tup) = true := by decide +kernel
example : passes (seqEnv .list) 31 (testSeq .list) = true := by decide +kernel
example : passes (seqEnv .set) 31 (testSeq .set) = true := by decide +kernel

/-! `_test_dict` (lines 832-937). -/

def dictP (kp vp : PropSpec) : PropSpec := prop (.dict kp vp false)

def dictEnv : Env := testEnv [
  { name := s% "HasPropsDummy" },
  { name := s% "HasDict", props := [(s% "aaa", .mutable (withDefault (.fn 0) (dictP anyP anyP)))] },
  { name := s% "HasInt", props := [(s% "myint", .mutable intP)] },
  { name := s% "HasFunnyDict", props := [(s% "mydict", .mutable (dictP colorP (instP 2)))] },
  { name := s% "HasCoercedDict", props := [
      (s% "my_coerced_dict", .mutable (prop (.dict anyP anyP true))),
      (s% "my_uncoerced_dict", .mutable (dictP anyP anyP))] }]
  [fun _ => .ret (.dict [])]

def testDict : T Unit := do
  let li ← new 1
  does (set li (s% "aaa") (.dict [(.int 1, .int 2)]))
  raises valueError (set li (s% "aaa") (.tup (nums [1, 2, 3])))
  does (set li (s% "aaa") (obj [(s% "hi", .obj (← new 0))]))
  raises valueError (set li (s% "aaa") (.int 4))
  raises valueError (set li (s% "aaa") (.set [.str (s% "a"), .str (s% "b"), .str (s% "c")]))
  gives (get (← new 1) (s% "aaa")) (.dict [])
  let hfd ← new 3
  let five := Val.obj (← new 2 [(s% "myint", .int 5)])
  let one := Val.obj (← new 2 [(s% "myint", .int 1)])
  does (set hfd (s% "mydict") (obj [(s% "red", five)]))
  let red := Val.tup (nums [255, 0, 0])
  gives (get hfd (s% "mydict")) (.dict [(red, five)])
  does (.hpValidate hfd)
  poke hfd (s% "mydict") (.dict [(red, five), (.str (s% "green"), one)])
  raises valueError (.hpValidate hfd)
  does (set hfd (s% "mydict") (.dict [(red, five), (.str (s% "green"), one)]))
  does (.hpValidate hfd)
  raises valueError (set hfd (s% "mydict") (.dict [(red, five), (.int 1, one)]))
  let kvs := Val.list [.tup [.str (s% "a"), .int 1], .tup [.str (s% "b"), .int 2],
    .tup [.str (s% "c"), .int 3]]
  let hcd ← new 4
  raises valueError (set hcd (s% "my_uncoerced_dict") kvs)
  does (set hcd (s% "my_coerced_dict") kvs)
  equals (get hcd (s% "my_coerced_dict"))
    (obj [(s% "a", .int 1), (s% "b", .int 2), (s% "c", .int 3)])
  raises validationError (set hcd (s% "my_coerced_dict") (.str (s% "a")))

example : passes dictEnv 10 testDict = true := by decide +kernel

end Verif.Conformance
