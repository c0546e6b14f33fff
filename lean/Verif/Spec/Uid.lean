import Verif.Models.Uid

/-!
# What identifiers are for

Histories of statements, references between instances, and their flat form.
-/

namespace Verif.Uid.Spec

open Verif.Uid

variable {D : Type}

/-- No uuid that has not been drawn yet is this text. -/
def Unguessed (E : Env D) (w : World D) (u : Uid) : Prop := ∀ m, w.drawn ≤ m → E.supply m ≠ u

/-- The statements of a history: uuids are not guessed before they are drawn,
listeners are on, and in a flat dictionary an entry is that of the instance its key
says. -/
inductive Fair (E : Env D) (w : World D) : Cmd D → Prop
  | new (c : Cls) (u : Option Uid) (i : Bool) : (∀ v, u = some v → Unguessed E w v) → Fair E w (.new c u i)
  | setUid (r : Ref) (u : Uid) : Unguessed E w u → Fair E w (.setUid r u)
  | delUid (r : Ref) : Fair E w (.delUid r)
  | load (c : Cls) (root : Option Uid) (reg : Reg D) (t s : Bool) :
      (∀ u v, get reg u = some v → Unguessed E w u) →
      (∀ u e, get reg u = some (.raw e) → e.uid = none ∨ e.uid = some u) → Fair E w (.load c root reg t s)

/-- Histories. -/
inductive Hist (E : Env D) (k : Nat) : World D → World D → Prop
  | nil (w : World D) : Hist E k w w
  | cons {w w' : World D} {c : Cmd D} : Hist E k w w' → Fair E w' c → Hist E k w (exec E k c w')

/-- An instance in use, with this identifier. -/
def Carries (w : World D) (r : Ref) (u : Uid) : Prop := ∃ o, w.objs[r]? = some o ∧ o.live = true ∧ o.uid = some u

/-! ## Graphs -/

/-- A reference from one instance to another, in an Instance or a Pointer property. -/
def Edge (objs : List (Obj D)) (p : Bool) (r q : Ref) : Prop := ∃ o c, objs[r]? = some o ∧ .ref p c q ∈ o.slots

/-- The instances that can be reached from `r`. -/
inductive Reach (objs : List (Obj D)) (r : Ref) : Ref → Prop
  | refl : Reach objs r r
  | step {p : Bool} {q q' : Ref} : Reach objs r q → Edge objs p q q' → Reach objs r q'

/-- The identifier of an instance. -/
def Has (objs : List (Obj D)) (r : Ref) (u : Uid) : Prop := ∃ o, objs[r]? = some o ∧ o.uid = some u

/-- A slot and its serialized form: references by identifier. -/
inductive Flat (objs : List (Obj D)) : Slot D → JSlot D → Prop
  | data (d : D) : Flat objs (.data d) (.data d)
  | ptr (c : Cls) (u : Uid) : Flat objs (.ptr c u) (.uid true c u)
  | ref {p : Bool} {c : Cls} {q : Ref} {u : Uid} : Has objs q u → Flat objs (.ref p c q) (.uid p c u)

/-- The slots of an instance and their serialized form. -/
inductive Flats (objs : List (Obj D)) : List (Slot D) → List (JSlot D) → Prop
  | nil : Flats objs [] []
  | cons {s : Slot D} {j : JSlot D} {ss : List (Slot D)} {js : List (JSlot D)} :
      Flat objs s j → Flats objs ss js → Flats objs (s :: ss) (j :: js)

/-- The graph under `r`: finite, every instance has an identifier, no two the same,
and none is the key of the root. -/
structure Graph (objs : List (Obj D)) (r : Ref) : Prop where
  named : ∀ q, Reach objs r q → ∃ u, Has objs q u
  distinct : ∀ q q' u, Reach objs r q → Reach objs r q' → Has objs q u → Has objs q' u → q = q'
  noRoot : ∀ q, Reach objs r q → ¬ Has objs q rootKey

/-! ## Copies of graphs -/

/-- What can be reached through Instance properties. -/
inductive Inside (objs : List (Obj D)) (r : Ref) : Ref → Prop
  | refl : Inside objs r r
  | step {q q' : Ref} : Inside objs r q → Edge objs false q q' → Inside objs r q'

/-- A slot and its copy, where `f` relates instances to their copies: what is in a
Pointer property becomes its identifier. -/
inductive Copy (objs : List (Obj D)) (f : Ref → Ref → Prop) : Slot D → Slot D → Prop
  | data (d : D) : Copy objs f (.data d) (.data d)
  | ptr (c : Cls) (u : Uid) : Copy objs f (.ptr c u) (.ptr c u)
  | pointer {c : Cls} {q : Ref} {u : Uid} : Has objs q u → Copy objs f (.ref true c q) (.ptr c u)
  | ref {c : Cls} {q q' : Ref} : f q q' → Copy objs f (.ref false c q) (.ref false c q')

inductive Copies (objs : List (Obj D)) (f : Ref → Ref → Prop) : List (Slot D) → List (Slot D) → Prop
  | nil : Copies objs f [] []
  | cons {s s' : Slot D} {l l' : List (Slot D)} : Copy objs f s s' → Copies objs f l l' → Copies objs f (s :: l) (s' :: l')

/-- The classes of the referenced instances can be found: for an untrusted
deserialization each is the declared class. -/
def Classes (E : Env D) (t s : Bool) (objs : List (Obj D)) (r : Ref) : Prop :=
  ∀ q q' c o o', Reach objs r q → objs[q]? = some o → .ref false c q' ∈ o.slots → objs[q']? = some o' →
    outClass E c (some (E.name o'.cls)) t s = .ok o'.cls

/-- `φ` is an isomorphism from the graph under `r` to new instances. -/
structure Iso (objs : List (Obj D)) (r : Ref) (w w' : World D) (φ : Ref → Ref) : Prop where
  copy : ∀ q, Inside objs r q → ∃ o o', objs[q]? = some o ∧ w'.objs[φ q]? = some o' ∧ o'.cls = o.cls ∧ o'.uid = o.uid ∧
    Copies objs (fun a b => b = φ a) o.slots o'.slots
  new : ∀ q, Inside objs r q → w.objs.length ≤ φ q
  injective : ∀ q q', Inside objs r q → Inside objs r q' → φ q = φ q' → q = q'

/-- The instances in Instance properties. -/
def refs : List (Slot D) → List Ref
  | [] => []
  | .ref false _ q :: l => q :: refs l
  | _ :: l => refs l

/-- A reference at a position. -/
def At (objs : List (Obj D)) (q : Ref) (j : Nat) (q' : Ref) : Prop := ∃ o c, objs[q]? = some o ∧ o.slots[j]? = some (.ref false c q')

/-- No instance is in two Instance properties, or in two places of one. -/
def Once (objs : List (Obj D)) (r : Ref) : Prop :=
  ∀ q₁ j₁ q₂ j₂ q', Inside objs r q₁ → Inside objs r q₂ → At objs q₁ j₁ q' → At objs q₂ j₂ q' → q₁ = q₂ ∧ j₁ = j₂

/-- What a property has to accept: for a Pointer property, the identifier. -/
def accepted (objs : List (Obj D)) : Slot D → Shape D
  | .data d => .data d
  | .ref false c q => .obj c (match objs[q]? with | some o => o.cls | none => 0)
  | .ref true c q => .ptr c (match objs[q]? with | some o => o.uid.getD [] | none => [])
  | .ptr c u => .ptr c u

/-- The values of every instance are valid. -/
def Valid (E : Env D) (objs : List (Obj D)) (r : Ref) : Prop :=
  ∀ q o, Inside objs r q → objs[q]? = some o → E.accept o.cls (o.slots.map (accepted objs)) = true

/-- A property declares this class for a reference of the flat dictionary. -/
def Mentions (reg : Reg D) (c : Cls) : Prop :=
  ∃ (u : Uid) (e : Entry D) (p : Bool) (v : Uid), get reg u = some (.raw e) ∧ .uid p c v ∈ e.slots

end Verif.Uid.Spec
