/-!
# Containers and who holds them

In the core model lists, sets and dicts are values.  In Python they are objects
that can be changed in place by everybody who holds them.  This model has a heap
of such objects.  It covers `validate` of Tuple, List, Set and Dictionary
(base/containers.py:261-281, 409-413, 570-598), with and without `coerce` and
`observe_mutations`, and the property accessors that store, return and delete
the value (basic.py:664-683).

Simplified: scalar values are numbers with a partial function for the scalar
property that validates them; an instance of an Instance property is an object
whose content is not looked at, and Instance accepts only such objects (it does
not build one from a dict); subclasses of list, set and dict are not told
apart; an error leaves the state as it was (objects allocated before the error
are garbage).
-/

namespace Verif.Alias

/-- A Python value: a scalar, a tuple, or a reference to an object. -/
inductive PV where
  | atom (n : Nat)
  | tup (xs : List PV)
  | ref (l : Nat)

mutual
/-- Python's `==` on hashable values. -/
def PV.beq : PV → PV → Bool
  | .atom m, .atom n => decide (m = n)
  | .tup xs, .tup ys => PV.beqL xs ys
  | .ref l, .ref m => decide (l = m)
  | _, _ => false
/-- `==` of the items of two tuples. -/
def PV.beqL : List PV → List PV → Bool
  | [], [] => true
  | x :: xs, y :: ys => x.beq y && PV.beqL xs ys
  | _, _ => false
end

/-- The content of an object. -/
inductive Cell where
  | list (xs : List PV)
  | set (xs : List PV)
  | dict (kvs : List (PV × PV))
  | inst

/-- The objects, by address. -/
abbrev Heap := List Cell

/-- The three sequence properties (containers.py:156, 368, 425). -/
inductive SK where
  | tuple
  | list
  | set
  deriving DecidableEq

/-- A property.  `any` is the basic Property (any value, returned as it is:
basic.py:226-244); `scalar` stands for the property types that accept scalars;
`inst` is Instance; `seq` is Tuple, List or Set; `dict` is Dictionary. -/
inductive P where
  | any
  | scalar (f : Nat → Option Nat)
  | inst
  | seq (k : SK) (item : P) (coerce obs : Bool)
  | dict (key val : P) (coerce obs : Bool)

mutual
/-- `hash(v)` does not raise. -/
def hashable (h : Heap) : PV → Bool
  | .atom _ => true
  | .tup xs => hashableL h xs
  | .ref l => match h[l]? with
      | some .inst => true
      | _ => false
def hashableL (h : Heap) : List PV → Bool
  | [] => true
  | x :: xs => hashable h x && hashableL h xs
end

/-- `set(out)`: the first of equal items stays. -/
def dedup : List PV → List PV → List PV
  | acc, [] => acc
  | acc, x :: xs => if acc.any (PV.beq x) then dedup acc xs else dedup (acc ++ [x]) xs

/-- `d[k] = v`. -/
def dictSet : List (PV × PV) → PV → PV → List (PV × PV)
  | [], k, v => [(k, v)]
  | (k', v') :: rest, k, v =>
      if PV.beq k k' then (k', v) :: rest else (k', v') :: dictSet rest k v

/-- Builds a dict by setting one item after the other. -/
def dictOf (ps : List (PV × PV)) : List (PV × PV) :=
  ps.foldl (fun d kv => dictSet d kv.1 kv.2) []

/-- Kind and items of a list, tuple or set. -/
def container (h : Heap) : PV → Option (SK × List PV)
  | .tup xs => some (.tuple, xs)
  | .ref l => match h[l]? with
      | some (.list xs) => some (.list, xs)
      | some (.set xs) => some (.set, xs)
      | _ => none
  | .atom _ => none

/-- The items `Tuple.validate` goes through: containers.py:267-270. -/
def openSeq (h : Heap) (k : SK) (coerce : Bool) (v : PV) : Option (List PV) :=
  match container h v with
  | some (k', xs) => if coerce || k' = k then some xs else none
  | none => if coerce then some [v] else none

/-- One element of the sequence given to `dict()`. -/
def pairOf (h : Heap) (v : PV) : Option (PV × PV) :=
  match container h v with
  | some (_, [a, b]) => if hashable h a then some (a, b) else none
  | _ => none

/-- All elements of the sequence given to `dict()`. -/
def pairsOf (h : Heap) : List PV → Option (List (PV × PV))
  | [] => some []
  | x :: xs => match pairOf h x with
      | none => none
      | some kv => match pairsOf h xs with
          | none => none
          | some kvs => some (kv :: kvs)

/-- The items `Dictionary.validate` goes through: containers.py:571-581. -/
def openDict (h : Heap) (coerce : Bool) (v : PV) : Option (List (PV × PV)) :=
  match v with
  | .ref l => match h[l]? with
      | some (.dict kvs) => some kvs
      | some (.list xs) => if coerce then (pairsOf h xs).map dictOf else none
      | some (.set xs) => if coerce then (pairsOf h xs).map dictOf else none
      | _ => none
  | .tup xs => if coerce then (pairsOf h xs).map dictOf else none
  | .atom _ => none

/-- A new object. -/
def alloc (c : Cell) (h : Heap) : PV × Heap := (.ref h.length, h ++ [c])

/-- A new object, and with `observe_mutations` a copy of it
(`observable_copy`, containers.py:108-138). -/
def allocObs (obs : Bool) (c : Cell) (h : Heap) : PV × Heap :=
  if obs then alloc c (alloc c h).2 else alloc c h

/-- `out_class(out)` (containers.py:271-274, 281) and `observable_copy`. -/
def build (k : SK) (obs : Bool) (ys : List PV) (h : Heap) : Option (PV × Heap) :=
  match k with
  | .tuple => some (.tup ys, h)
  | .list => some (allocObs obs (.list ys) h)
  | .set => if hashableL h ys then some (allocObs obs (.set (dedup [] ys)) h) else none

/-- The loop over the items: containers.py:275-280. -/
def mapV (f : PV → Heap → Option (PV × Heap)) : List PV → Heap → Option (List PV × Heap)
  | [], h => some ([], h)
  | x :: xs, h => match f x h with
      | none => none
      | some (y, h1) => match mapV f xs h1 with
          | none => none
          | some (ys, h2) => some (y :: ys, h2)

/-- The loop over keys and values: containers.py:582-595. -/
def mapKV (f g : PV → Heap → Option (PV × Heap)) :
    List (PV × PV) → Heap → Option (List (PV × PV) × Heap)
  | [], h => some ([], h)
  | (k, v) :: rest, h => match f k h with
      | none => none
      | some (k', h1) => match g v h1 with
          | none => none
          | some (v', h2) =>
              if hashable h2 k' then
                match mapKV f g rest h2 with
                | none => none
                | some (kvs, h3) => some ((k', v') :: kvs, h3)
              else none

/-- `prop.validate(instance, value)`; `none` stands for an error. -/
def validate : P → PV → Heap → Option (PV × Heap)
  | .any, v, h => some (v, h)
  | .scalar f, v, h => match v with
      | .atom n => match f n with
          | some m => some (.atom m, h)
          | none => none
      | _ => none
  | .inst, v, h => match v with
      | .ref l => match h[l]? with
          | some .inst => some (.ref l, h)
          | _ => none
      | _ => none
  | .seq k item coerce obs, v, h => match openSeq h k coerce v with
      | none => none
      | some xs => match mapV (validate item) xs h with
          | none => none
          | some (ys, h') => build k obs ys h'
  | .dict kp vp coerce obs, v, h => match openDict h coerce v with
      | none => none
      | some kvs => match mapKV (validate kp) (validate vp) kvs h with
          | none => none
          | some (out, h') => some (allocObs obs (.dict (dictOf out)) h')

/-- The program: objects, stored values by slot (a slot is a property of an
instance), and the values the client's code has got hold of. -/
structure State where
  heap : Heap
  slots : Nat → Option PV
  known : List PV

/-- The start. -/
def State.init : State := ⟨[], fun _ => none, []⟩

/-- What client code can do.  Values are given by their position among those
the client has got hold of. -/
inductive Op where
  /-- write a scalar -/
  | atom (n : Nat)
  /-- build a tuple, list, set or dict, or make an instance -/
  | tup (is : List Nat)
  | list (is : List Nat)
  | set (is : List Nat)
  | dict (kis : List (Nat × Nat))
  | inst
  /-- change the object in place: it gets this content.  Append, pop,
  update and so on are cases of it -/
  | mutate (i : Nat) (is : List Nat)
  | mutateDict (i : Nat) (kis : List (Nat × Nat))
  /-- look at the items of a container -/
  | look (i : Nat)
  /-- `instance.prop = value`, also for constructor keywords and defaults -/
  | assign (k i : Nat)
  /-- `instance.prop` -/
  | read (k : Nat)
  /-- `del instance.prop` -/
  | delete (k : Nat)

/-- The values at these positions. -/
def pick (known : List PV) (is : List Nat) : List PV := is.filterMap (known[·]?)

/-- The pairs of values at these positions. -/
def pickKV (known : List PV) (kis : List (Nat × Nat)) : List (PV × PV) :=
  kis.filterMap (fun ij => match known[ij.1]?, known[ij.2]? with
    | some a, some b => some (a, b)
    | _, _ => none)

/-- A new object the client holds. -/
def State.give (s : State) (c : Cell) : State :=
  { s with heap := s.heap ++ [c], known := s.known ++ [.ref s.heap.length] }

/-- Everything inside an object. -/
def Cell.items : Cell → List PV
  | .list xs => xs
  | .set xs => xs
  | .dict kvs => kvs.flatMap (fun kv => [kv.1, kv.2])
  | .inst => []

/-- Everything directly inside a value. -/
def PV.items (h : Heap) : PV → List PV
  | .atom _ => []
  | .tup xs => xs
  | .ref l => match h[l]? with
      | some c => c.items
      | none => []

/-- One operation; one that raises changes nothing. -/
def exec (props : Nat → P) (s : State) : Op → State
  | .atom n => { s with known := s.known ++ [.atom n] }
  | .tup is => { s with known := s.known ++ [.tup (pick s.known is)] }
  | .list is => s.give (.list (pick s.known is))
  | .set is => if hashableL s.heap (pick s.known is) then
        s.give (.set (dedup [] (pick s.known is))) else s
  | .dict kis => if hashableL s.heap ((pickKV s.known kis).map (·.1)) then
        s.give (.dict (dictOf (pickKV s.known kis))) else s
  | .inst => s.give .inst
  | .mutate i is => match s.known[i]? with
      | some (.ref l) => match s.heap[l]? with
          | some (.list _) => { s with heap := s.heap.set l (.list (pick s.known is)) }
          | some (.set _) => if hashableL s.heap (pick s.known is) then
                { s with heap := s.heap.set l (.set (dedup [] (pick s.known is))) } else s
          | _ => s
      | _ => s
  | .mutateDict i kis => match s.known[i]? with
      | some (.ref l) => match s.heap[l]? with
          | some (.dict _) => if hashableL s.heap ((pickKV s.known kis).map (·.1)) then
                { s with heap := s.heap.set l (.dict (dictOf (pickKV s.known kis))) } else s
          | _ => s
      | _ => s
  | .look i => match s.known[i]? with
      | some v => { s with known := s.known ++ v.items s.heap }
      | none => s
  | .assign k i => match s.known[i]? with
      | some v => match validate (props k) v s.heap with
          | some (v', h') => { s with heap := h', slots := fun j => if j = k then some v' else s.slots j }
          | none => s
      | none => s
  | .read k => match s.slots k with
      | some v => { s with known := s.known ++ [v] }
      | none => s
  | .delete k => { s with slots := fun j => if j = k then none else s.slots j }

/-- A history of operations. -/
def execAll (props : Nat → P) (s : State) (ops : List Op) : State := ops.foldl (exec props) s

end Verif.Alias
