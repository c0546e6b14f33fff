import Verif.Conformance.Harness
import Verif.Models.LinkProg
import Verif.Models.Pointer
import Verif.Models.Singleton
import Verif.Models.Task
import Verif.Models.Url

/-!
# `/repo/tests/test_link.py`, `test_uid.py`, `test_singletons.py`, `test_task.py`
and `test_web.py` on the models

Left out: traitlets, malformed arguments of links, what is printed.
-/

namespace Verif.Conformance

/-! `_test_link` (test_link.py:17-97) on the model of links: property `a` of
four instances. -/

namespace LinkTest
open Verif.Links

def intLinks : LEnv Int := { coerce := fun _ v => some v, equal := fun _ a b => a == b, noneV := 0 }
def dl (id src tgt : Nat) (f : Int → Int := fun v => v) (changeOnly : Bool := true) : Lnk Int :=
  ⟨id, src, tgt, fun v => some (f v), changeOnly⟩

inductive Step where
  | op (o : LOp Int)
  | check (n : Nat) (v : Option Int)
  | group (id : Nat) (items : List Nat) (now : Bool)
  | unlinkAll (id : Nat) (k : Nat)
  | relinkAll (id : Nat) (k : Nat)

def all (f : Nat → LW Int → LW Int) (id k : Nat) (w : LW Int) : LW Int :=
  (List.range (k * k)).foldl (fun w i => f (id + i) w) w

def go : List Step → LW Int → Bool
  | [], _ => true
  | .op o :: l, w => go l (doOp intLinks 20 o w)
  | .check n v :: l, w => w.vals n == v && go l w
  | .group id items now :: l, w =>
      go l ((groupLinks true id items).foldl (fun w l => doOp intLinks 20 (.create l now) w) w)
  | .unlinkAll id k :: l, w => go l (all unlink id k w)
  | .relinkAll id k :: l, w => go l (all relink id k w)

def set (n : Nat) (v : Int) : Step := .op (.assign n v)
def is (n : Nat) (v : Int) : Step := .check n (some v)
def make (l : Lnk Int) (now : Bool := false) : Step := .op (.create l now)
def cut (d : Nat) : Step := .op (.unlink d)

def steps : List Step := [
  make (dl 0 1 2), set 1 5, is 2 5, set 2 100, is 1 5, cut 0, set 1 5, is 2 100, set 2 10, is 1 5,
  make (dl 1 1 2) true, is 2 5, cut 1,
  make (dl 2 1 2 (2 * ·)) true, is 2 10, cut 2, set 2 10,
  .group 10 [1, 2] false, set 1 6, is 2 6, set 2 100, is 1 100, .unlinkAll 10 2,
  set 1 5, is 2 100, set 2 10, is 1 5,
  set 3 0, set 4 100, .group 20 [1, 2, 3, 4] false, set 4 100, is 1 5, is 2 10, is 3 0,
  set 4 10, is 1 10, is 2 10, is 3 10, .unlinkAll 20 4,
  set 1 5, .group 40 [1, 2, 3] true, is 2 5, is 3 5, .unlinkAll 40 3,
  set 3 10, .group 50 [1, 2, 3] true, is 3 5, .unlinkAll 50 3,
  set 1 1, set 2 2, set 3 3, .relinkAll 50 3, is 1 1, is 2 2, is 3 3,
  set 3 100, is 2 100, is 1 100, .unlinkAll 50 3]

example : go steps ⟨fun _ => none, [], fun _ => false, fun _ => false⟩ = true := by
  decide +kernel

/-- `test_link_properties` (lines 113-129). -/
example :
    go [set 1 5, make (dl 0 1 2), make (dl 1 2 1), set 1 5, .check 2 none, cut 0, cut 1,
      make (dl 2 1 2 (changeOnly := false)), make (dl 3 2 1 (changeOnly := false)), set 1 5, is 2 5]
      ⟨fun _ => none, [], fun _ => false, fun _ => false⟩ = true := by decide +kernel

end LinkTest

/-! The same on the core model with links as programs. -/

namespace LinkProgTest
open Verif.LinkProg

def lk (id sr tr : Nat) (co : Bool := true) (f : Val → Val := fun v => v) : DLink :=
  ⟨id, id, sr, s% "a", tr, s% "a", fun v => .ok (f v), co⟩

def links : List DLink :=
  [lk 0 0 1, lk 1 0 1, lk 2 0 1 true (fun | .int i => .int (2 * i) | v => v),
   lk 3 0 1, lk 4 1 0, lk 5 0 1 false]

def linkEnv : Env := testEnv [{ name := s% "HP", props := [(s% "a", .mutable intP)] }]
  (links.map listenerProg)

def link (i : Nat) (now : Bool := false) : T Unit := do
  let _ ← prog (createProg (links.getD i (lk 0 0 0)) now)
def cut (i : Nat) : T Unit := do let _ ← prog (flagProg i true)
def join (i : Nat) : T Unit := do let _ ← prog (flagProg i false)
def put (r : Nat) (v : Int) : T Unit := does (set r (s% "a") (.int v))
def is (r : Nat) (v : Int) : T Unit := gives (get r (s% "a")) (.int v)

def testLink : T Unit := do
  does (.userPut (.tup [.list [], .list []]))
  let hp1 ← new 0
  let hp2 ← new 0
  link 0; put hp1 5; is hp2 5; put hp2 100; is hp1 5; cut 0; put hp1 5; is hp2 100; put hp2 10; is hp1 5
  link 1 true; is hp2 5; cut 1
  link 2 true; is hp2 10; cut 2; put hp2 10
  link 3; link 4; put hp1 6; is hp2 6; put hp2 100; is hp1 100; cut 3; cut 4
  put hp1 5; is hp2 100; put hp2 10; is hp1 5
  put hp1 5; link 5; put hp1 5; is hp2 5; cut 5
  put hp1 1; put hp2 2; join 3; join 4; is hp1 1; is hp2 2; put hp2 100; is hp1 100

example : passes linkEnv 14 testLink = true := by decide +kernel

/-- `test_link_errors` (lines 131-160): a missing attribute, and source and
target the same. -/
example : passes linkEnv 2 (do
    let hp1 ← new 0
    raisesProg valueError (createProg { lk 0 hp1 hp1 with tn := s% "z" } false)
    raisesProg valueError (createProg (lk 0 hp1 hp1) false)) = true := by decide +kernel

end LinkProgTest

/-! test_web.py. -/

namespace UrlTest
open Verif.Url

def web : UrlEnv := { netlocOk := fun _ => true, usesParams := fun s => s == s% "https" || s == s% "http" }
def base : PyStr := s% "https://someurl.com"
def path : PyStr := s% "/my/path"
def query : PyStr := s% "?one=1&two=2"
def param : PyStr := s% ";/three;four=4"
def frag : PyStr := s% "#fragment"
def full : PyStr := base ++ path ++ query ++ param ++ frag

example :
    validate web ⟨false, false⟩ base = .ok base ∧
    validate web ⟨false, false⟩ full = .ok full ∧
    validate web ⟨true, false⟩ full = .ok (base ++ path ++ frag) ∧
    validate web ⟨false, true⟩ full = .ok (base ++ path ++ query ++ param) ∧
    [path, query, param, frag, s% "someurl.com", s% "https://"].all (fun s =>
      match validate web ⟨false, false⟩ s with
      | .error e => decide (e = .validation)
      | .ok _ => false) = true := by
  refine ⟨?_, ?_, ?_, ?_, ?_⟩ <;> decide +kernel

end UrlTest

/-! `test_hasuid`, `test_pointer` and `test_require_load` (test_uid.py:17-190). -/

namespace UidTest
open Verif.Uid

/-- Classes: 0 HasUID, 1 RecursiveUID (one slot), 2 AnotherUID. -/
def uidEnv : Uid.Env Unit where
  name := fun c => if c = 0 then s% "HasUID" else if c = 1 then s% "RecursiveUID" else s% "AnotherUID"
  byName := fun n => if n = s% "HasUID" then some 0 else if n = s% "RecursiveUID" then some 1 else none
  accept := fun _ ss => ss.all fun
    | .obj d a => d == 0 || d == a
    | _ => true
  supply := fun n => s% "uuid" ++ natText n

def empty : Uid.World Unit := {}
def okRef : Res Unit Ref → Option Ref
  | (.ok r, _) => some r
  | _ => none
def errOf {α : Type} : Res Unit α → Option Err
  | (.error e, _) => some e
  | _ => none

def w1 := (Uid.construct uidEnv 0 none false empty).2
def w2 := (Uid.setUid 0 (s% "a") w1).2

example :
    Uid.get w1.inst (s% "uuid0") = some 0 ∧
    Uid.get w2.inst (s% "a") = some 0 ∧
    errOf (Uid.setUid 0 (s% "a") w2) = none ∧
    errOf (Uid.construct uidEnv 0 (some (s% "a")) false w2) = some .validation := by
  refine ⟨?_, ?_, ?_, ?_⟩ <;> decide +kernel

/-- `recursive_uid.instance = recursive_uid`. -/
def link (r t : Ref) (w : Uid.World Unit) : Uid.World Unit :=
  Uid.modify r (fun o => { o with slots := [.ref false 0 t] }) w
def w3 := link 0 0 (Uid.construct uidEnv 1 (some (s% "b")) false empty).2
def entry (c u i : PyStr) : RVal Unit := .raw ⟨some c, some u, [.uid false 0 i]⟩
def regB : Reg Unit := [(rootKey, .text (s% "b")), (s% "b", entry (s% "RecursiveUID") (s% "b") (s% "b"))]
def slotRef (w : Uid.World Unit) (r : Ref) : Option Ref := match w.objs[r]? with
  | some { slots := [.ref _ _ t], .. } => some t
  | _ => none
def uidOf (w : Uid.World Unit) (r : Ref) : Option Uid := w.objs[r]?.bind (·.uid)

def sameReg : Reg Unit → Reg Unit → Bool
  | [], [] => true
  | (u, .text a) :: l, (v, .text b) :: m => u == v && a == b && sameReg l m
  | (u, .raw ⟨c, i, s⟩) :: l, (v, .raw ⟨d, j, t⟩) :: m =>
      u == v && c == d && i == j && sameReg l m && (match s, t with
        | [], [] => true
        | [.uid p c u], [.uid q d v] => p == q && c == d && u == v
        | _, _ => false)
  | _, _ => false
def dumpIs (x : Except Err (Reg Unit)) (r : Reg Unit) : Bool := match x with
  | .ok y => sameReg y r
  | .error _ => false

def back := Uid.deserialize uidEnv false false 9 1 none regB empty
def regC : Reg Unit := [(rootKey, .text (s% "b")), (s% "b", entry (s% "RecursiveUID") (s% "b") (s% "c"))]

example :
    dumpIs (Uid.serialize uidEnv w3.objs 9 0) regB = true ∧
    errOf (Uid.deserialize uidEnv false false 9 1 none [] w3) = some .value ∧
    errOf (Uid.deserialize uidEnv false false 9 1 none regB w3) = some .value ∧
    (okRef back).bind (slotRef back.2) = okRef back ∧ (okRef back).isSome = true ∧
    errOf (Uid.deserialize uidEnv false false 9 1 none regC empty) = some .value := by
  refine ⟨?_, ?_, ?_, ?_, ?_, ?_⟩ <;> decide +kernel

/-- Three nested instances. -/
def w4 : Uid.World Unit :=
  link 2 1 (Uid.construct uidEnv 1 (some (s% "x")) false
    (link 1 0 (Uid.construct uidEnv 1 (some (s% "y")) false
      (Uid.construct uidEnv 0 (some (s% "z")) false empty).2).2)).2
def regX : Reg Unit := [(rootKey, .text (s% "x")),
  (s% "x", entry (s% "RecursiveUID") (s% "x") (s% "y")),
  (s% "y", entry (s% "RecursiveUID") (s% "y") (s% "z")),
  (s% "z", .raw ⟨some (s% "HasUID"), some (s% "z"), []⟩)]
def less := Uid.deserialize uidEnv true false 9 1 (some (s% "y")) regX empty
def w5 := (Uid.construct uidEnv 0 (some (s% "w")) false empty).2
def regW : Reg Unit := [(rootKey, .text (s% "x")),
  (s% "x", entry (s% "RecursiveUID") (s% "x") (s% "y")),
  (s% "y", entry (s% "RecursiveUID") (s% "y") (s% "w"))]
def onto := Uid.deserialize uidEnv true false 9 1 none regW w5

example :
    dumpIs (Uid.serialize uidEnv w4.objs 9 2) regX = true ∧
    (okRef less).bind (uidOf less.2) = some (s% "y") ∧
    ((okRef less).bind (slotRef less.2)).bind (uidOf less.2) = some (s% "z") ∧
    ((okRef onto).bind (slotRef onto.2)).bind (slotRef onto.2) = some 0 := by
  refine ⟨?_, ?_, ?_, ?_⟩ <;> decide +kernel

/-- A Pointer to AnotherUID. -/
def pt (ld : Bool) : Ptr Unit := { cls := 2, isSub := (· == 2), load := ld, loadUid := some Uid.load }
def w6 := (Uid.construct uidEnv 2 none false (Uid.construct uidEnv 0 none false empty).2).2
def ptrIs (ld : Bool) (v res : PVal) : Bool :=
  match ptrValidate uidEnv (pt ld) v w6, res with
  | (.ok (.text a), _), .text b => a == b
  | (.ok (.inst a), _), .inst b => a == b
  | (.error .validation, _), .other => true
  | _, _ => false

example :
    ptrIs false (.text (s% "silly_pointer")) (.text (s% "silly_pointer")) = true ∧
    ptrIs false (.inst 1) (.inst 1) = true ∧
    ptrIs false (.text (s% "uuid1")) (.text (s% "uuid1")) = true ∧
    ptrIs false (.inst 0) .other = true ∧
    ptrIs false (.text (s% "uuid0")) (.text (s% "uuid0")) = true ∧
    ptrIs true (.text (s% "silly_pointer")) (.text (s% "silly_pointer")) = true ∧
    ptrIs true (.inst 1) (.inst 1) = true ∧
    ptrIs true (.text (s% "uuid1")) (.inst 1) = true ∧
    ptrIs true (.inst 0) .other = true ∧
    ptrIs true (.text (s% "uuid0")) .other = true := by
  refine ⟨?_, ?_, ?_, ?_, ?_, ?_, ?_, ?_, ?_, ?_⟩ <;> decide +kernel

end UidTest

/-! test_singletons.py. -/

namespace SingleTest
open Verif.Single

/-- Classes: 0 Singleton, 1 AnotherSingleton, 2 Stringleton (same registry),
3 NewSingleton (its own). -/
def sEnv : Single.Env where
  regOf := fun c => if c = 3 then 1 else 0
  clsName := fun c => if c = 0 then s% "Singleton" else if c = 1 then s% "AnotherSingleton"
    else if c = 2 then s% "Stringleton" else s% "NewSingleton"
  byName := fun _ _ => none
  hasName := fun _ => true
  accept := fun _ n => some n
  nameFrom := fun _ n => some n
  before := fun _ _ _ => []
  after := fun _ _ _ => []

/-- Run commands and list the references they give. -/
def play : List Cmd → Single.World → List (Option Ref) × Single.World
  | [], w => ([], w)
  | c :: cs, w => match Single.exec sEnv 9 c w with
      | (.ok r, w) => let (rs, w) := play cs w; (r :: rs, w)
      | (.error _, w) => let (rs, w) := play cs w; (none :: rs, w)

def nameOf (w : Single.World) (r : Ref) : Option (Option Name × Option Name) :=
  w.objs[r]?.map fun o => (o.name, o.sid)

/-- `a is b`, `a is not c`, copying `c` gives `c`, another class with the same
registry gives `a`, a class with its own registry does not. -/
example :
    (play [.make 0 (s% "a"), .make 0 (s% "a"), .make 0 (s% "c"), .dump 1, .load 0 0 true false,
      .make 1 (s% "a"), .make 3 (s% "a")] {}).1
      = [some 0, some 0, some 1, none, some 1, some 0, some 2] := by decide +kernel

def stringleton :=
  play [.make 2 (s% "z"), .make 2 (s% "z"), .rename 0 (s% "b"), .make 2 (s% "z"),
    .dump 0, .load 2 2 false false,
    .load 2 2 false false, .load 2 0 false false, .make 2 (s% "m"), .load 2 1 false false]
    { dicts := [{ sid := some (some (s% "m")), name := some (some (s% "hi")), cls := none },
                { sid := none, name := some (some (s% "blah")), cls := none }] }

/-- The serialized dictionary is number 2; loading it a second time, without
its identifier, gives another instance. -/
example :
    stringleton.1 = [some 0, some 0, none, some 0, none, some 0, some 1, some 2, some 2, some 3] ∧
    nameOf stringleton.2 0 = some (some (s% "b"), some (s% "z")) ∧
    nameOf stringleton.2 2 = some (some (s% "hi"), some (s% "m")) ∧
    nameOf stringleton.2 3 = some (some (s% "blah"), some (s% "blah")) := by
  refine ⟨?_, ?_, ?_, ?_⟩ <;> decide +kernel

end SingleTest

/-! test_task.py. -/

namespace TaskTest
open Verif.Task

def taskEnv : Env := testEnv [
  { name := s% "Input", props := [(s% "addend_a", .mutable floatP), (s% "addend_b", .mutable floatP)] },
  { name := s% "Output", props := [(s% "value", .mutable floatP)] }]

def addFloats : Val → Val → Val
  | .float (.fin a), .float (.fin b) => fl (a + b)
  | _, _ => .none

def addTask : Task where
  input := 0
  baseOutput := 1
  compute := fun i => getProg i (s% "addend_a") fun a => getProg i (s% "addend_b") fun b =>
    if pyEq a b then .raise ⟨.other 5, []⟩
    else andThen (.construct 1 [(s% "value", addFloats a b)]) .ret
def brokenTask : Task := { addTask with compute := fun _ => .ret (.int 0) }

def resultIs (o : Outcome) (v : Val) : Bool := match o.result with
  | .ok x => pyEq x v
  | .error _ => false
def failsWith (o : Outcome) (k : ErrKind) : Bool := match o.result with
  | .ok _ => false
  | .error e => e.kind == k

example :
    resultIs (Task.call taskEnv 60 addTask [(s% "addend_a", fl 0), (s% "addend_b", fl 10)] {})
      (obj [(s% "value", fl 10)]) = true ∧
    failsWith (Task.call taskEnv 60 addTask [(s% "addend_a", fl 5), (s% "addend_b", fl 5)] {})
      (.other 5) = true ∧
    failsWith (Task.call taskEnv 60 brokenTask [(s% "addend_a", fl 0), (s% "addend_b", fl 10)] {})
      .validation = true := by
  refine ⟨?_, ?_, ?_⟩ <;> decide +kernel

end TaskTest

end Verif.Conformance
