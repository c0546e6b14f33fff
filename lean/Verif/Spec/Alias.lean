import Verif.Models.Alias

/-!
# What a value looks like

Independent of properties: the content of a Python value as a tree, read off
the heap.
-/

namespace Verif.Alias.Spec

/-- The content of a value: what printing it shows.  Instances are shown by
identity. -/
inductive Tree where
  | atom (n : Nat)
  | tup (ts : List Tree)
  | list (ts : List Tree)
  | set (ts : List Tree)
  | dict (kts : List (Tree × Tree))
  | inst (l : Nat)

mutual
/-- In heap `h` the value has this content. -/
inductive Shows (h : Heap) : PV → Tree → Prop where
  | atom (n : Nat) : Shows h (.atom n) (.atom n)
  | tup {xs : List PV} {ts : List Tree} : ShowsL h xs ts → Shows h (.tup xs) (.tup ts)
  | list {l : Nat} {xs : List PV} {ts : List Tree} :
      h[l]? = some (.list xs) → ShowsL h xs ts → Shows h (.ref l) (.list ts)
  | set {l : Nat} {xs : List PV} {ts : List Tree} :
      h[l]? = some (.set xs) → ShowsL h xs ts → Shows h (.ref l) (.set ts)
  | dict {l : Nat} {kvs : List (PV × PV)} {kts : List (Tree × Tree)} :
      h[l]? = some (.dict kvs) → ShowsKV h kvs kts → Shows h (.ref l) (.dict kts)
  | inst {l : Nat} : h[l]? = some .inst → Shows h (.ref l) (.inst l)
/-- Item by item. -/
inductive ShowsL (h : Heap) : List PV → List Tree → Prop where
  | nil : ShowsL h [] []
  | cons {x : PV} {xs : List PV} {t : Tree} {ts : List Tree} :
      Shows h x t → ShowsL h xs ts → ShowsL h (x :: xs) (t :: ts)
/-- Pair by pair. -/
inductive ShowsKV (h : Heap) : List (PV × PV) → List (Tree × Tree) → Prop where
  | nil : ShowsKV h [] []
  | cons {k v : PV} {kvs : List (PV × PV)} {s t : Tree} {kts : List (Tree × Tree)} :
      Shows h k s → Shows h v t → ShowsKV h kvs kts → ShowsKV h ((k, v) :: kvs) ((s, t) :: kts)
end

/-- Every level of the property is declared: no basic Property, which keeps the
very object it is given. -/
def Declared : P → Prop
  | .any => False
  | .scalar _ => True
  | .inst => True
  | .seq _ item _ _ => Declared item
  | .dict kp vp _ _ => Declared kp ∧ Declared vp

/-- The operation sets, deletes or reads the slot. -/
def Uses (k : Nat) : Op → Prop
  | .assign j _ => j = k
  | .read j => j = k
  | .delete j => j = k
  | _ => False

/-! ### Validation of contents

The same properties on contents, as the core model has them: containers are
values (`seqValidate` and `dictValidate` in Core/Interp). -/

mutual
/-- `==` on hashable contents. -/
def Tree.beq : Tree → Tree → Bool
  | .atom m, .atom n => decide (m = n)
  | .tup ss, .tup ts => Tree.beqL ss ts
  | .inst l, .inst m => decide (l = m)
  | _, _ => false
def Tree.beqL : List Tree → List Tree → Bool
  | [], [] => true
  | s :: ss, t :: ts => s.beq t && Tree.beqL ss ts
  | _, _ => false
end

mutual
/-- Scalars, instances and tuples of such are hashable. -/
def Tree.hashable : Tree → Bool
  | .atom _ => true
  | .tup ts => Tree.hashableL ts
  | .inst _ => true
  | _ => false
def Tree.hashableL : List Tree → Bool
  | [] => true
  | t :: ts => t.hashable && Tree.hashableL ts
end

/-- The first of equal items stays. -/
def uniq : List Tree → List Tree → List Tree
  | acc, [] => acc
  | acc, x :: xs => if acc.any (Tree.beq x) then uniq acc xs else uniq (acc ++ [x]) xs

/-- Sets one entry. -/
def entry : List (Tree × Tree) → Tree → Tree → List (Tree × Tree)
  | [], k, v => [(k, v)]
  | (k', v') :: rest, k, v => if Tree.beq k k' then (k', v) :: rest else (k', v') :: entry rest k v

/-- One entry after the other. -/
def entries (ps : List (Tree × Tree)) : List (Tree × Tree) :=
  ps.foldl (fun d kv => entry d kv.1 kv.2) []

/-- Kind and items of a tuple, list or set. -/
def parts : Tree → Option (SK × List Tree)
  | .tup ts => some (.tuple, ts)
  | .list ts => some (.list, ts)
  | .set ts => some (.set, ts)
  | _ => none

/-- The items a sequence property checks. -/
def seqItems (k : SK) (coerce : Bool) (t : Tree) : Option (List Tree) :=
  match parts t with
  | some (k', ts) => if coerce || k' = k then some ts else none
  | none => if coerce then some [t] else none

/-- A sequence of two, the first hashable. -/
def asPair (t : Tree) : Option (Tree × Tree) :=
  match parts t with
  | some (_, [a, b]) => if a.hashable then some (a, b) else none
  | _ => none

/-- All of them pairs. -/
def asPairs : List Tree → Option (List (Tree × Tree))
  | [] => some []
  | t :: ts => match asPair t with
      | none => none
      | some kv => match asPairs ts with
          | none => none
          | some kvs => some (kv :: kvs)

/-- The entries a Dictionary property checks. -/
def dictItems (coerce : Bool) (t : Tree) : Option (List (Tree × Tree)) :=
  match t with
  | .dict kts => some kts
  | .list ts => if coerce then (asPairs ts).map entries else none
  | .set ts => if coerce then (asPairs ts).map entries else none
  | .tup ts => if coerce then (asPairs ts).map entries else none
  | _ => none

/-- All items, or none. -/
def checkL (f : Tree → Option Tree) : List Tree → Option (List Tree)
  | [] => some []
  | t :: ts => match f t with
      | none => none
      | some t' => match checkL f ts with
          | none => none
          | some ts' => some (t' :: ts')

/-- All entries, or none. -/
def checkKV (f g : Tree → Option Tree) : List (Tree × Tree) → Option (List (Tree × Tree))
  | [] => some []
  | (k, v) :: rest => match f k with
      | none => none
      | some k' => match g v with
          | none => none
          | some v' => if k'.hashable then
                match checkKV f g rest with
                | none => none
                | some kvs => some ((k', v') :: kvs)
              else none

/-- Makes the container. -/
def make (k : SK) (ts : List Tree) : Option Tree :=
  match k with
  | .tuple => some (.tup ts)
  | .list => some (.list ts)
  | .set => if Tree.hashableL ts then some (.set (uniq [] ts)) else none

/-- The content a property stores for a content. -/
def check : P → Tree → Option Tree
  | .any, t => some t
  | .scalar f, t => match t with
      | .atom n => (f n).map .atom
      | _ => none
  | .inst, t => match t with
      | .inst l => some (.inst l)
      | _ => none
  | .seq k item coerce _, t => match seqItems k coerce t with
      | none => none
      | some ts => match checkL (check item) ts with
          | none => none
          | some us => make k us
  | .dict kp vp coerce _, t => match dictItems coerce t with
      | none => none
      | some kts => match checkKV (check kp) (check vp) kts with
          | none => none
          | some out => some (.dict (entries out))

end Verif.Alias.Spec
