import Verif.Core.Interp

/-!
# Deserialization into a given instance
-/

namespace Verif

/-- `setattr(instance, key, val)` for each of the values (base.py:582-583). -/
def assignEach (rec : Rec) (r : Nat) (kvs : List (PyStr × Val)) : M Unit :=
  forML (fun kv => do
    let _ ← rec (.setattr r kv.1 kv.2)
    pure ()) kvs

/-- `cls.deserialize(value, _instance=instance, ...)` (base.py:518-589) where the
instance is a HasProperties instance.  The keyword is taken out before the properties
deserialize their values, so nested instances are new ones (base.py:558). -/
def hpDeserializeInto (E : Env) (rec : Rec) (c : ClsId) (v : Val) (kw : DeKw) (r : Nat) : M Val :=
  match v with
  | .dict kvs => do
      let outc ← deserializeClass E c ((dictGet? kvs (.str (s% "__class__"))).getD .none)
        kw.trusted kw.strict
      let o ← getObj r
      raiseWhen (!isSub E o.cls outc) .value
      let state := propState (E.classes outc).props kvs
      let unused := (unusedKeys (E.classes outc).props kvs).filter
        (fun k => !(pyEq k (.str (s% "__class__"))))
      raiseWhen (kw.strict && !unused.isEmpty) (if unused.all Val.isStr then .value else .type)
      let newstate ← mapML (deserEntry E rec outc { kw with assertValid := false }) state
      withDisabled Quar.all (assignEach rec r (newstate.filter (isSettable E outc)))
      deserFinish E rec outc kw (newstate.filter (fun kv => !isSettable E outc kv)) (.obj r)
  | _ => raiseK .value

end Verif
