import Verif.Models.Observable
import Verif.Models.Files
import Verif.Models.Png

/-!
# `test_basic_vs_advanced_list`, `test_basic_vs_advanced_set` and `test_nested_observed`
(`/repo/tests/test_container.py`), `test_file` (`test_basic.py`) and `test_images.py` on the
models

Left out: containers of subclasses of the builtin ones, what is in the files, the png module.
-/

namespace Verif.Conformance

namespace ObservedTest
open Verif.Obs

/-- Steps of a test; property 0 is `basic` and property 1 is `advanced`. -/
inductive Step where
  | put (n : Nat) (xs : List Int)
  /-- `temp = hl.name` -/
  | hold (n : Nat)
  | held (f : List Int → List Int)
  | call (n : Nat) (f : List Int → List Int)
  | aug (n : Nat) (f : List Int → List Int)
  | is (n : Nat) (xs : List Int) (tics : Nat)

def intOf : Item → Option Int
  | .val (.int i) => some i
  | _ => none

def intsOf (xs : List Item) : Option (List Int) := xs.mapM intOf

def onInts (f : List Int → List Int) : Mut := fun xs => match intsOf xs with
  | some l => (.ok (.val .none), (f l).map fun i => .val (.int i))
  | none => (.error .invalid, xs)

def integer : Item → Except Err Item
  | .val (.int i) => .ok (.val (.int i))
  | _ => .error .invalid

def env (kind : Nat) : Env where
  spec := fun _ n => .mk kind false (n == 1) (.plain integer) id
  equal := fun _ _ a b => intsOf a == intsOf b
  listener := fun _ _ _ _ => []

def depth : Nat := 10

def tics (n : Nat) (w : W) : Nat := (w.log.filter fun e => e.mode == .validate && e.name == n).length

/-- Sets are compared as sets. -/
def agree (sets : Bool) (a b : List Int) : Bool :=
  if sets then a.all (b.contains ·) && b.all (a.contains ·) else a == b

def go (kind : Nat) (sets : Bool) : List Step → Nat → W → Bool
  | [], _, _ => true
  | .put n xs :: l, h, w =>
      match exec (env kind) depth (.new kind (xs.map fun i => .val (.int i))) w with
      | (.ok v, w) => match exec (env kind) depth (.assign 0 n v) w with
          | (.ok _, w) => go kind sets l h w
          | _ => false
      | _ => false
  | .hold n :: l, _, w => match w.slots 0 n with
      | some r => go kind sets l r w
      | none => false
  | .held f :: l, h, w => match exec (env kind) depth (.mutate h (onInts f)) w with
      | (.ok _, w) => go kind sets l h w
      | _ => false
  | .call n f :: l, h, w => match w.slots 0 n with
      | some r => match exec (env kind) depth (.mutate r (onInts f)) w with
          | (.ok _, w) => go kind sets l h w
          | _ => false
      | none => false
  | .aug n f :: l, h, w => match exec (env kind) depth (.iassign 0 n (onInts f)) w with
      | (.ok _, w) => go kind sets l h w
      | _ => false
  | .is n xs t :: l, h, w => match w.slots 0 n with
      | some r => match intsOf (itemsOf w r) with
          | some ys => agree sets ys xs && tics n w == t && go kind sets l h w
          | none => false
      | none => false

def insertSorted (x : Int) : List Int → List Int
  | [] => [x]
  | y :: ys => if x ≤ y then x :: y :: ys else y :: insertSorted x ys

def sorted (l : List Int) : List Int := l.foldr insertSorted []

/-- test_container.py:`test_basic_vs_advanced_list`. -/
def listSteps : List Step := [
  .put 0 [1, 2, 3], .put 1 [1, 2, 3], .is 0 [1, 2, 3] 1, .is 1 [1, 2, 3] 1,
  .hold 0, .held (·.set 0 10), .is 0 [10, 2, 3] 1,
  .hold 1, .held (·.set 0 10), .is 1 [10, 2, 3] 2,
  .put 1 [1, 2, 3], .held (·.set 1 20), .is 1 [1, 2, 3] 3,
  .call 0 (· ++ [5]), .is 0 [10, 2, 3, 5] 1, .call 1 (· ++ [5]), .is 1 [1, 2, 3, 5] 4,
  .call 0 (· ++ [6, 7]), .is 0 [10, 2, 3, 5, 6, 7] 1, .call 1 (· ++ [6, 7]), .is 1 [1, 2, 3, 5, 6, 7] 5,
  .call 0 (1 :: ·), .is 0 [1, 10, 2, 3, 5, 6, 7] 1, .call 1 (1 :: ·), .is 1 [1, 1, 2, 3, 5, 6, 7] 6,
  .call 0 (·.dropLast), .is 0 [1, 10, 2, 3, 5, 6] 1, .call 1 (·.dropLast), .is 1 [1, 1, 2, 3, 5, 6] 7,
  .call 0 (·.erase 5), .is 0 [1, 10, 2, 3, 6] 1, .call 1 (·.erase 5), .is 1 [1, 1, 2, 3, 6] 8,
  .call 0 sorted, .is 0 [1, 2, 3, 6, 10] 1, .call 1 sorted, .is 1 [1, 1, 2, 3, 6] 9,
  .call 0 (·.reverse), .is 0 [10, 6, 3, 2, 1] 1, .call 1 (·.reverse), .is 1 [6, 3, 2, 1, 1] 10,
  .call 0 (·.eraseIdx 3), .is 0 [10, 6, 3, 1] 1, .call 1 (·.eraseIdx 3), .is 1 [6, 3, 2, 1] 11,
  .call 0 (fun l => [8, 8] ++ l.drop 2), .is 0 [8, 8, 3, 1] 1,
  .call 1 (fun l => [8, 8] ++ l.drop 2), .is 1 [8, 8, 2, 1] 12,
  .call 0 (·.drop 2), .is 0 [3, 1] 1, .call 1 (·.drop 2), .is 1 [2, 1] 13,
  .aug 0 (· ++ [5, 6, 7]), .is 0 [3, 1, 5, 6, 7] 2, .aug 1 (· ++ [5, 6, 7]), .is 1 [2, 1, 5, 6, 7] 14,
  .aug 0 (fun l => l ++ l), .is 0 [3, 1, 5, 6, 7, 3, 1, 5, 6, 7] 3,
  .aug 1 (fun l => l ++ l), .is 1 [2, 1, 5, 6, 7, 2, 1, 5, 6, 7] 15]

example : go 0 false listSteps 0 start = true := by decide +kernel

def join (a b : List Int) : List Int := a ++ b.filter fun x => !a.contains x
def meet (a b : List Int) : List Int := a.filter fun x => b.contains x
def without (a b : List Int) : List Int := a.filter fun x => !b.contains x
def either (a b : List Int) : List Int := without a b ++ without b a

/-- test_container.py:`test_basic_vs_advanced_set`. -/
def setSteps : List Step := [
  .put 0 [1, 2, 3], .put 1 [1, 2, 3], .is 0 [1, 2, 3] 1, .is 1 [1, 2, 3] 1,
  .hold 0, .held (join · [10]), .is 0 [1, 2, 3, 10] 1,
  .hold 1, .held (join · [10]), .is 1 [1, 2, 3, 10] 2,
  .put 1 [1, 2, 3], .held (join · [20]), .is 1 [1, 2, 3] 3,
  .call 0 (fun _ => []), .is 0 [] 1, .call 1 (fun _ => []), .is 1 [] 4,
  .call 0 (join · [6, 7]), .is 0 [6, 7] 1, .call 1 (join · [6, 7]), .is 1 [6, 7] 5,
  .call 0 (without · [7]), .is 0 [6] 1, .call 1 (without · [7]), .is 1 [6] 6,
  .call 0 (either · [7, 8, 9]), .is 0 [6, 7, 8, 9] 1, .call 1 (either · [7, 8, 9]), .is 1 [6, 7, 8, 9] 7,
  .call 0 (without · [7]), .is 0 [6, 8, 9] 1, .call 1 (without · [7]), .is 1 [6, 8, 9] 8,
  .call 0 (without · [7]), .is 0 [6, 8, 9] 1, .call 1 (without · [7]), .is 1 [6, 8, 9] 9,
  .call 0 (meet · [6]), .is 0 [6] 1, .call 1 (meet · [6]), .is 1 [6] 10,
  .call 0 (·.dropLast), .is 0 [] 1, .call 1 (·.dropLast), .is 1 [] 11,
  .aug 0 (join · [1, 2, 3]), .is 0 [1, 2, 3] 2, .aug 1 (join · [1, 2, 3]), .is 1 [1, 2, 3] 12,
  .aug 0 (meet · [1, 2, 3]), .is 0 [1, 2, 3] 3, .aug 1 (meet · [1, 2, 3]), .is 1 [1, 2, 3] 13,
  .aug 0 (either · [3, 4, 5]), .is 0 [1, 2, 4, 5] 4, .aug 1 (either · [3, 4, 5]), .is 1 [1, 2, 4, 5] 14,
  .aug 0 (without · [4, 5]), .is 0 [1, 2] 5, .aug 1 (without · [4, 5]), .is 1 [1, 2] 15]

example : go 1 true setSteps 0 start = true := by decide +kernel

/-! `_test_nested_observed`: a list of observed lists. -/

def nestedEnv (om : Bool) : Env where
  spec := fun _ _ => .mk 0 false om (.nested (.mk 0 false true (.plain integer) id)) id
  equal := fun _ _ _ _ => false
  listener := fun _ _ _ _ => []

def refOf : Item → Option Nat
  | .ref r => some r
  | _ => none

/-- The value as a list of lists. -/
def nested (w : W) : Option (List (List Int)) := do
  let r ← w.slots 0 0
  (itemsOf w r).mapM fun x => do
    let q ← refOf x
    intsOf (itemsOf w q)

def newList (om : Bool) (xs : List Item) (w : W) : Option (Item × W) :=
  match exec (nestedEnv om) depth (.new 0 xs) w with
  | (.ok v, w) => some (v, w)
  | _ => none

def doOp (om : Bool) (o : Op) (w : W) : Option (Item × W) :=
  match exec (nestedEnv om) depth o w with
  | (.ok v, w) => some (v, w)
  | _ => none

def ints (l : List Int) : List Item := l.map fun i => .val (.int i)

def innerAt (w : W) (k : Nat) : Option Nat := do
  let r ← w.slots 0 0
  let x ← (itemsOf w r)[k]?
  refOf x

def nestedTest (om : Bool) : Option Bool := do
  let (a, w) ← newList om (ints [1, 2, 3]) start
  let (b, w) ← newList om (ints [4, 5, 6]) w
  let (l, w) ← newList om [a, b] w
  let (_, w) ← doOp om (.assign 0 0 l) w
  let ok := nested w == some [[1, 2, 3], [4, 5, 6]]
  let (_, w) ← doOp om (.mutate (← innerAt w 0) (onInts (·.set 0 10))) w
  let ok := ok && nested w == some [[10, 2, 3], [4, 5, 6]]
  let (c, w) ← newList om (ints [7, 8, 9]) w
  let (_, w) ← doOp om (.iassign 0 0 fun xs => (.ok (.val .none), xs ++ [c])) w
  let ok := ok && nested w == some [[10, 2, 3], [4, 5, 6], [7, 8, 9]]
  let outer ← w.slots 0 0
  let (x, w) ← doOp om (.imutate (← innerAt w 0) (onInts (· ++ [0]))) w
  let (_, w) ← doOp om (.mutate outer fun xs => (.ok (.val .none), xs.set 0 x)) w
  pure (ok && nested w == some [[10, 2, 3, 0], [4, 5, 6], [7, 8, 9]])

example : nestedTest true = some true := by decide +kernel
example : nestedTest false = some true := by decide +kernel

end ObservedTest

/-! `test_file` (test_basic.py). -/

namespace FileTest
open Verif.Files

/-- `File('', 'q')`, `valid_modes='w'`, `valid_modes=('r', 'k')`. -/
example : declare (some (s% "q")) none = .error .type ∧
    declare (some (s% "r")) (some [some (s% "w")]) = .error .type ∧
    declare (some (s% "r")) (some [some (s% "r"), some (s% "k")]) = .error .type := ⟨rfl, rfl, rfl⟩

def reads : FProp := { mode := some (s% "r") }
def writes : FProp := 
  { mode := some (s% "w"), modes := some [s% "w", s% "w+", s% "r+", s% "a", s% "a+"] }
def writesBin : FProp := { mode := some (s% "wb") }
def noMode : FProp := {}

example : declare (some (s% "r")) none = .ok reads ∧
    declare (some (s% "w")) (some ([s% "w", s% "w+", s% "r+", s% "a", s% "a+"].map some)) = .ok writes ∧
    declare (some (s% "wb")) none = .ok writesBin ∧ declare none none = .ok noMode := ⟨rfl, rfl, rfl, rfl⟩

/-- The file does not exist at the first attempt. -/
def os : Os := fun k _ m => if k = 0 then .refused else .file { mode := some (cpythonMode m) }

def isErr {α : Type} (e : FErr) : Except FErr α → Bool
  | .error e' => decide (e' = e)
  | .ok _ => false

def isOk {α : Type} : Except FErr α → Bool
  | .ok _ => true
  | .error _ => false

def fname : Input := .name (s% "temp.dat")

/-- `fopt.validate()`: every value again. -/
def revalidate (w : World) : Bool :=
  [(0, reads), (1, writes), (2, writesBin), (3, noMode)].all fun kp =>
    match w.slots kp.1 with
    | some i => isOk (validate os kp.2 (.obj i) w).1
    | none => true

def test : Bool :=
  let w : World := {}
  let (e, w) := assign os reads 0 fname false w
  let ok := isErr .validation e
  let (e, w) := assign os writes 1 fname false w
  let ok := ok && isOk e
  let f := (w.slots 1).getD 99
  let (e, w) := delete 1 false w
  let ok := ok && isOk e && ((w.objs[f]?).bind (·.closed)) == some true && w.slots 1 == none
  let (e, w) := assign os reads 0 fname false w
  let ok := ok && isOk e
  let w := exec os (fun _ => reads) w (.become ((w.slots 0).getD 99) { mode := some (s% "r"), closed := some true })
  -- `open(fname, 'rb')`
  let rb := w.objs.length
  let w := exec os (fun _ => reads) w (.make { mode := some (s% "rb") })
  let ok := ok && isErr .validation (assign os writesBin 2 (.obj rb) false w).1
  let ok := ok && isErr .validation (assign os reads 0 (.obj rb) false w).1
  let wb := w.objs.length
  let w := exec os (fun _ => reads) w (.make { mode := some (s% "wb") })
  let (e, w) := assign os writesBin 2 (.obj wb) false w
  let ok := ok && isOk e
  let ok := ok && isErr .validation (assign os noMode 3 fname false w).1
  let (e, w) := assign os reads 0 fname false w
  let ok := ok && isOk e
  let (e, w) := assign os writes 1 fname false w
  let ok := ok && isOk e
  -- `io.BytesIO()`
  let bio := w.objs.length
  let w := exec os (fun _ => reads) w (.make {})
  let (e, w) := assign os noMode 3 (.obj bio) false w
  let ok := ok && isOk e && revalidate w
  let w := exec os (fun _ => reads) w (.become bio { closed := some true })
  let ok := ok && !revalidate w
  ok && isErr .validation (assign os reads 0 (.obj bio) false w).1

example : test = true := by decide +kernel

end FileTest

/-! test_images.py. -/

namespace PngTest
open Verif.Png

def bytes : List Byte := signature ++ [0, 0, 0, 13, 73, 72, 68, 82]

def good (v : Input) : Option (Stream × PyStr) := match validate v with
  | .ok s => some (s, (toJson s).1)
  | .error _ => none

def test : Bool :=
  (match validate .other with | .error e => decide (e = .validation) | .ok _ => false) &&
  (match validate (.file ⟨[35, 33, 47], 0⟩) with | .error e => decide (e = .validation) | .ok _ => false) &&
  (match good (.file ⟨bytes, 0⟩), good (.image bytes) with
    | some (s, j), some (_, j') => decide (j = j') &&
        (match validate (.validated (toJson s).2) with | .ok s' => decide (s' = s) | .error _ => false) &&
        (match fromJson j with | .ok s' => (validate (.file s')).isOk | .error _ => false)
    | _, _ => false) &&
  (match fromJson (s% "pretty picture") with | .error e => decide (e = .value) | .ok _ => false)

example : test = true := by decide +kernel

end PngTest

end Verif.Conformance
