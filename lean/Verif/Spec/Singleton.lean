import Verif.Models.Singleton

/-!
# What singletons are for

Histories of statements, and the names they ask for.
-/

namespace Verif.Single.Spec

open Verif.Single

/-- A history: the state before each statement, the statement and its result.  A
statement that raises does not end the history. -/
inductive Hist (E : Env) (k : Nat) : World → List (World × Cmd × Except Err (Option Ref)) → World → Prop
  | nil (w : World) : Hist E k w [] w
  | cons {w w1 w2 : World} {c : Cmd} {res : Except Err (Option Ref)} {tr : List (World × Cmd × Except Err (Option Ref))} :
      exec E k c w = (res, w1) → Hist E k w1 tr w2 → Hist E k w ((w, c, res) :: tr) w2

/-- The name a dictionary stands for. -/
inductive Denotes (d : Dict) : Name → Prop
  | id {n : Name} : d.sid = some (some n) → Denotes d n
  | name {n : Name} : d.sid = none → d.name = some (some n) → Denotes d n

/-- Classes that deserializing with `c` may construct use its registry and leave
names as they are. -/
structure Plain (E : Env) (c : Cls) (trusted : Bool) : Prop where
  names : ∀ c' n n', E.nameFrom c' n = some n' → n' = n
  shared : trusted = true → ∀ s c', E.byName c s = some c' → E.regOf c' = E.regOf c

/-- The statement asks for a name of a registry. -/
inductive Asks (E : Env) (w : World) : Cmd → Key → Prop
  | make (c : Cls) (n : Name) : Asks E w (.make c n) (E.regOf c, n)
  | load {c : Cls} {i : Nat} {t s : Bool} {d : Dict} {n : Name} :
      w.dicts[i]? = some d → Denotes d n → Plain E c t → Asks E w (.load c i t s) (E.regOf c, n)

/-- What holds at the start of a program and between statements: a registered
instance was made for the name. -/
def Sound (E : Env) (w : World) : Prop :=
  ∀ k r, w.regs k = some r → ∃ o, w.objs[r]? = some o ∧ E.regOf o.cls = k.1 ∧ o.sid = some k.2

end Verif.Single.Spec
