import Verif.Models.Pointer
import Verif.Spec.Uid

/-!
# What Pointer properties are for
-/

namespace Verif.Uid.Spec

open Verif.Uid

variable {D : Type}

/-- Histories in which identifiers are assigned to instances in use only. -/
inductive HistUse (E : Env D) (k : Nat) : World D → World D → Prop
  | nil (w : World D) : HistUse E k w w
  | cons {w w' : World D} {c : Cmd D} : HistUse E k w w' → Fair E w' c →
      (∀ r u, c = .setUid r u → ∀ o, w'.objs[r]? = some o → o.live = true) → HistUse E k w (exec E k c w')

/-- Values a Pointer property may have: instances of the class, and text that the
property of identifiers and `validate_uid` accepted. -/
inductive Held (p : Ptr D) (w : World D) : PVal → Prop
  | inst (r : Ref) (o : Obj D) : w.objs[r]? = some o → p.isSub o.cls = true → Held p w (.inst r)
  | text (u u' : Uid) (w1 w2 : World D) : (∀ f, p.uidProp = some f → f u = .ok u') → (p.uidProp = none → u = u') →
      (∀ f, p.validateUid = some f → f u' w1 = (.ok (), w2)) → Held p w (.text u')

end Verif.Uid.Spec
