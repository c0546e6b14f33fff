import Verif.Models.Files

/-! # Files that may be the value of a File property -/

namespace Verif.Files.Spec

/-- The modes of `open`: reading, writing or appending, text or bytes, with or without
the other direction. -/
def KnownMode (m : Mode) : Prop :=
  ∃ c, (c = 'r' ∨ c = 'w' ∨ c = 'a') ∧ ∃ b u, (b = [] ∨ b = ['b']) ∧ (u = [] ∨ u = ['+']) ∧ m = c :: (b ++ u)

/-- The declaration allows the mode: it is listed, or there is no list and it is
the mode in which names are opened, or nothing is declared. -/
def Allows (p : FProp) (m : Mode) : Prop :=
  (∀ l, p.modes = some l → m ∈ l) ∧ (p.modes = none → ∀ d, p.mode = some d → m = d)

/-- An object the property accepts: it can be read and positioned, it is not closed,
and its mode, if it has one, is allowed. -/
structure Usable (p : FProp) (o : Obj) : Prop where
  read : o.read = true
  seek : o.seek = true
  isOpen : o.closed ≠ some true
  mode : ∀ m, o.mode = some m → Allows p m

/-- The histories that leave an object alone: the program does not change it, and no
property that holds it is deleted. -/
def Alone (os : Os) (props : Nat → FProp) (i : Nat) : World → List Op → Prop
  | _, [] => True
  | w, .become j o :: ops => j ≠ i ∧ Alone os props i (exec os props w (.become j o)) ops
  | w, .delete k r :: ops => w.slots k ≠ some i ∧ Alone os props i (exec os props w (.delete k r)) ops
  | w, op :: ops => Alone os props i (exec os props w op) ops

/-- The operation gives a new value to the property of the instance. -/
def Sets (k : Nat) : Op → Prop
  | .assign j _ _ => j = k
  | .delete j _ => j = k
  | _ => False

end Verif.Files.Spec
