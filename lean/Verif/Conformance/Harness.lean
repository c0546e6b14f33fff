import Verif.Core.Interp
import Verif.Props.C07

/-!
# Running the test suite of the repository on the model

The modules of this directory restate assertions of `/repo/tests` as programs
against the core model and evaluate them.  They are tests, not proofs: they
check that the model agrees with what the authors of the code expect of it.
No property of `properties.jsonl` rests on them.
-/

namespace Verif.Conformance

/-- State of a running test: the world and the number of checks passed. -/
structure St where
  w : World := {}
  passed : Nat := 0

/-- A test with result: fails with the number of checks passed before. -/
def T (α : Type) : Type := Env → St → Except Nat (α × St)

instance : Monad T where
  pure a := fun _ s => .ok (a, s)
  bind m f := fun E s => match m E s with
    | .ok (a, s') => f a E s'
    | .error n => .error n

/-- The recursion limit of the tests. -/
def limit : Nat := 60

/-- A call that has to succeed. -/
def call (c : Call) : T Val := fun E s =>
  match run E limit c s.w with
  | (.ok v, w) => .ok (v, ⟨w, s.passed⟩)
  | (.error _, _) => .error s.passed

/-- A condition that has to hold. -/
def expect (b : Bool) : T Unit := fun _ s =>
  if b then .ok ((), ⟨s.w, s.passed + 1⟩) else .error s.passed

/-- `assertRaises` around one call. -/
def raises (p : ErrKind → Bool) (c : Call) : T Unit := fun E s =>
  match run E limit c s.w with
  | (.ok _, _) => .error s.passed
  | (.error e, w) => if p e.kind then .ok ((), ⟨w, s.passed + 1⟩) else .error s.passed

/-- `ValueError` and its subclass `ValidationError`. -/
def valueError (k : ErrKind) : Bool := k.isValueError
def validationError (k : ErrKind) : Bool := k == .validation
def attributeError (k : ErrKind) : Bool := k == .attr
def typeError (k : ErrKind) : Bool := k == .type
def keyError (k : ErrKind) : Bool := k == .key
def indexError (k : ErrKind) : Bool := k == .index
def recursionError (k : ErrKind) : Bool := k == .recursion
def selfReferenceError (k : ErrKind) : Bool := k == .selfRef

mutual
/-- Equality of values including their types. -/
def valEq : Val → Val → Bool
  | .none, .none => true
  | .undef, .undef => true
  | .bool a, .bool b => a == b
  | .int a, .int b => a == b
  | .float a, .float b => decide (a = b)
  | .cplx a b, .cplx c d => decide (a = c) && decide (b = d)
  | .str a, .str b => a == b
  | .dt a, .dt b => decide (a = b)
  | .uuid a, .uuid b => a == b
  | .list a, .list b => valEqL a b
  | .tup a, .tup b => valEqL a b
  | .set a, .set b => valEqL a b
  | .dict a, .dict b => valEqD a b
  | .obj a, .obj b => a == b
  | .opq a, .opq b => a == b
  | _, _ => false
def valEqL : List Val → List Val → Bool
  | [], [] => true
  | a :: as, b :: bs => valEq a b && valEqL as bs
  | _, _ => false
def valEqD : List (Val × Val) → List (Val × Val) → Bool
  | [], [] => true
  | a :: as, b :: bs => valEq a.1 b.1 && valEq a.2 b.2 && valEqD as bs
  | _, _ => false
end

/-- `assert f(...) is v`: same type and value. -/
def gives (c : Call) (v : Val) : T Unit := do expect (valEq (← call c) v)
/-- `assert f(...) == v`. -/
def equals (c : Call) (v : Val) : T Unit := do expect (pyEq (← call c) v)
/-- `assert f(...)`. -/
def yes (c : Call) : T Unit := do expect (← call c).truthy
/-- `assert not f(...)`. -/
def no (c : Call) : T Unit := do expect !(← call c).truthy
/-- A call whose result is not looked at. -/
def does (c : Call) : T Unit := do let _ ← call c; pure ()

/-- `cls(**kwargs)`. -/
def new (c : ClsId) (kw : List (PyStr × Val) := []) : T Nat := do
  match ← call (.construct c kw) with
  | .obj r => pure r
  | _ => fun _ s => .error s.passed
/-- A call returning an instance. -/
def callObj (c : Call) : T Nat := do
  match ← call c with
  | .obj r => pure r
  | _ => fun _ s => .error s.passed
/-- `instance._backend[name] = value`. -/
def poke (r : Nat) (name : PyStr) (v : Val) : T Unit := fun _ s =>
  let objs := List.modify s.w.objs r fun o => { o with backend := setS name v o.backend }
  .ok ((), ⟨{ s.w with objs := objs }, s.passed⟩)
/-- A user program that has to succeed. -/
def prog (p : Prog) : T Val := fun E s =>
  match runProg E limit p s.w with
  | (.ok v, w) => .ok (v, ⟨w, s.passed⟩)
  | (.error _, _) => .error s.passed
/-- `assertRaises` around a user program. -/
def raisesProg (p : ErrKind → Bool) (q : Prog) : T Unit := fun E s =>
  match runProg E limit q s.w with
  | (.ok _, _) => .error s.passed
  | (.error e, w) => if p e.kind then .ok ((), ⟨w, s.passed + 1⟩) else .error s.passed
/-- The error tuples of a call that has to raise ValidationError. -/
def tuplesOf (c : Call) : T (List ErrTuple) := fun E s =>
  match run E limit c s.w with
  | (.ok _, _) => .error s.passed
  | (.error e, w) =>
      if e.kind == .validation then .ok (e.tuples, ⟨w, s.passed + 1⟩) else .error s.passed
/-- The class of an instance. -/
def classOf (r : Nat) : T ClsId := fun _ s =>
  match s.w.objs[r]? with
  | some o => .ok (o.cls, s)
  | none => .error s.passed
/-- A call and then the rest, unless it raises. -/
def andThen (c : Call) (k : Val → Prog) : Prog :=
  .call c fun
    | .ok v => k v
    | .error e => .raise e
/-- `self.name = value` and return. -/
def setProg (r : Val) (name : PyStr) (v ret : Val) : Prog :=
  match r with
  | .obj r => andThen (.setattr r name v) fun _ => .ret ret
  | _ => .ret ret
/-- `self.name` and then the rest. -/
def getProg (r : Val) (name : PyStr) (k : Val → Prog) : Prog :=
  match r with
  | .obj r => andThen (.getattr r name) k
  | _ => .ret .none
/-- A look at the world. -/
def world : T World := fun _ s => .ok (s.w, s)

/-- The test passes with this many checks. -/
def passes (E : Env) (n : Nat) (t : T Unit) : Bool :=
  match t E {} with
  | .ok (_, s) => s.passed == n
  | .error _ => false

/-! Calls as they are written in the tests. -/

abbrev get (r : Nat) (name : PyStr) : Call := .getattr r name
abbrev set (r : Nat) (name : PyStr) (v : Val) : Call := .setattr r name v
abbrev del (r : Nat) (name : PyStr) : Call := .delattr r name
abbrev ser (r : Nat) : Call := .hpSerialize r { includeClass := false }
abbrev deser (c : ClsId) (v : Val) : Call := .hpDeserialize c v {}
abbrev pEqual (p : PropSpec) (a b : Val) : Call := .propEqual p a b
abbrev toJson (p : PropSpec) (v : Val) : Call := .serializeP [] p v {}
abbrev fromJson (p : PropSpec) (v : Val) : Call := .deserializeP [] p v {}
abbrev eqv (a b : Nat) : Call := .equal (.obj a) (.obj b)

/-! Declarations. -/

/-- A property with only its type given. -/
def prop (ty : PropTy) : PropSpec := .mk true none none .undef ty
/-- `required=False`. -/
def optional : PropSpec → PropSpec
  | .mk _ s d v t => .mk false s d v t
/-- `default=value`. -/
def withDefault (v : Dflt) : PropSpec → PropSpec
  | .mk r s d _ t => .mk r s d v t
/-- `serializer=f`. -/
def withSer (f : FnId) : PropSpec → PropSpec
  | .mk r _ d v t => .mk r (some f) d v t
/-- `deserializer=f`. -/
def withDeser (f : FnId) : PropSpec → PropSpec
  | .mk r s _ v t => .mk r s (some f) v t
def anyP : PropSpec := prop .any
def boolP : PropSpec := prop (.boolean false)
def intP : PropSpec := prop (.integer false none none)
def floatP : PropSpec := prop (.float false none none)
def cplxP : PropSpec := prop (.complex false)
def strP : PropSpec := prop (.string [] .keep none)
def colorP : PropSpec := prop .color
def dtP : PropSpec := prop .datetime
def uuidP : PropSpec := prop .uuid
def tupleP (p : PropSpec) : PropSpec := prop (.seq .tup p none none false)
def listP (p : PropSpec) : PropSpec := prop (.seq .list p none none false)
def setP (p : PropSpec) : PropSpec := prop (.seq .set p none none false)
def instP (c : ClsId) : PropSpec := prop (.inst c)
def unionP (ps : List PropSpec) : PropSpec := prop (.union ps false)

/-- A float. -/
abbrev fl (q : Rat) : Val := .float (.fin q)
/-- A dict with text keys. -/
def obj (kvs : List (PyStr × Val)) : Val := .dict (kvs.map fun kv => (.str kv.1, kv.2))

/-! The environment. -/

/-- `str.upper` on ASCII letters. -/
def upperC (c : Char) : Char :=
  if 97 ≤ c.toNat ∧ c.toNat ≤ 122 then Char.ofNat (c.toNat - 32) else c
/-- `str.lower` on ASCII letters. -/
def lowerC (c : Char) : Char :=
  if 65 ≤ c.toNat ∧ c.toNat ≤ 90 then Char.ofNat (c.toNat + 32) else c

/-- A number written in decimal digits, at least one. -/
def digits? : PyStr → Option Nat
  | [] => none
  | cs => cs.foldl (fun acc c => acc.bind fun n =>
      if 48 ≤ c.toNat ∧ c.toNat ≤ 57 then some (n * 10 + (c.toNat - 48)) else none) (some 0)

/-- A sign and what follows it. -/
def signed : PyStr → Int × PyStr
  | '-' :: s => (-1, s)
  | '+' :: s => (1, s)
  | s => (1, s)

def intRead (s : PyStr) : Option Int :=
  let (sg, s) := signed s
  (digits? s).map fun n => sg * n

/-- Decimal fractions, `nan` and `inf`. -/
def floatRead (s : PyStr) : Option PyFloat :=
  let (sg, s) := signed s
  if s = s% "nan" then some .nan
  else if s = s% "inf" then some (if sg = 1 then .pinf else .ninf)
  else
    let a := s.takeWhile (· != '.')
    match s.drop a.length with
    | [] => (digits? a).map fun n => .fin (sg * n)
    | [_] => (digits? a).map fun n => .fin (sg * n)
    | _ :: b => match digits? a, digits? b with
        | some n, some m => some (.fin ((sg : Rat) * (n + m / (10 : Rat) ^ b.length)))
        | _, _ => none

/-- `a+bj` with optional parentheses, or `bj`. -/
def cplxRead (s : PyStr) : Option (PyFloat × PyFloat) :=
  let s := strip (s% "()") s
  if s.getLast? = some 'j' then
    let s := s.dropLast
    let a := s.takeWhile (· != '+')
    match s.drop a.length with
    | [] => (floatRead a).map fun y => (.fin 0, y)
    | b => match floatRead a, floatRead b with
        | some x, some y => some (x, y)
        | _, _ => none
  else (floatRead s).map fun x => (x, .fin 0)

/-- The decimal digits of a number. -/
def natText (n : Nat) : PyStr := Nat.toDigits 10 n

/-- `str` of a complex number with natural parts. -/
def cplxText : PyFloat → PyFloat → PyStr
  | .fin a, .fin b =>
      if a = 0 then natText b.num.toNat ++ s% "j"
      else s% "(" ++ natText a.num.toNat ++ s% "+" ++ natText b.num.toNat ++ s% "j)"
  | _, _ => []

/-- The environment of the tests: the classes given, ASCII case mapping,
decimal numbers, text of dates and UUIDs as in `Props/C07`; small ints and
equal values count as identical where a test relies on neither. -/
def testEnv (classes : List ClassDef) (fns : List (List Val → Prog) := []) : Env :=
  { textEnv with
    classes := fun c => classes.getD c default
    fn := fun f => fns.getD f (fun args => .ret (args.getLastD .none))
    upper := List.map upperC
    lower := List.map lowerC
    intOfStr := intRead
    floatOfStr := floatRead
    cplxOfStr := cplxRead
    strOfCplx := cplxText
    same := fun _ _ => false
    jsonCopy := fun | .opq _ => none | v => some v }

end Verif.Conformance
