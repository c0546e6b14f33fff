import Verif.Core.Types

/-!
# Specification: which input keys deserialization uses
-/

namespace Verif.Spec

/-- The name of a property of the class. -/
def IsPropName (E : Env) (c : ClsId) (k : PyStr) : Prop := ∃ e, (k, e) ∈ (E.classes c).props

/-- A key that names a property of the class, or `__class__`. -/
def KnownKey (E : Env) (c : ClsId) (k : Val) : Prop :=
  k = .str (s% "__class__") ∨ ∃ s, k = .str s ∧ IsPropName E c s

/-- The class name in the input, if any. -/
inductive GivenName : List (Val × Val) → Option Val → Prop
  | missing (kvs : List (Val × Val)) : (∀ kv ∈ kvs, kv.1 ≠ .str (s% "__class__")) →
      GivenName kvs none
  | given (pre post : List (Val × Val)) (x : Val) : (∀ kv ∈ pre, kv.1 ≠ .str (s% "__class__")) →
      GivenName (pre ++ (.str (s% "__class__"), x) :: post) (some x)

/-- The class of the instance built: the class itself if no (true) name or its
own is given; with `trusted` the registered class of that name; else, unless
`strict`, the class itself. -/
inductive ChosenClass (E : Env) (c : ClsId) (trusted strict : Bool) : Option Val → ClsId → Prop
  | noName : ChosenClass E c trusted strict none c
  | emptyName (x : Val) : x.truthy = false → ChosenClass E c trusted strict (some x) c
  | ownName : ChosenClass E c trusted strict (some (.str (E.classes c).name)) c
  | registered (x : PyStr) (d : ClsId) : x ≠ [] → x ≠ (E.classes c).name → trusted = true →
      lookupS x (E.classes c).registry = some d → ChosenClass E c trusted strict (some (.str x)) d
  | ignored (x : Val) : x.truthy = true → x ≠ .str (E.classes c).name → strict = false →
      (trusted = true → x.hashable = true ∧
        ∀ s, x = .str s → lookupS s (E.classes c).registry = none) →
      ChosenClass E c trusted strict (some x) c

/-- A name that strict deserialization rejects. -/
def Foreign (E : Env) (c : ClsId) (trusted : Bool) (x : Val) : Prop :=
  x.truthy = true ∧ x ≠ .str (E.classes c).name ∧
  (trusted = true → x.hashable = true ∧
    ∀ s, x = .str s → lookupS s (E.classes c).registry = none)

end Verif.Spec
