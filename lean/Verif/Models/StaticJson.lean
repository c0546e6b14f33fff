import Verif.Core.Interp

/-!
# The static methods `to_json` and `from_json` of containers, Instance and Union

They are called on the class, without a property that says of what type the items are.
-/

namespace Verif.StaticJson

/-- `val.serialize(**kwargs) if isinstance(val, HasProperties) else val`. -/
def itemToJson (rec : Rec) (kw : SerKw) : Val → M Val
  | .obj r => rec (.hpSerialize r kw)
  | v => pure v

/-- `Tuple.to_json`, inherited by List and Set (containers.py:339-349). -/
def seqToJson (rec : Rec) (v : Val) (kw : SerKw) : M Val :=
  match v.iter? with
  | none => raiseK .type
  | some xs => do
      let out ← mapML (itemToJson rec kw) xs
      pure (.list out)

/-- `Dictionary.to_json` (containers.py:672-685): keys are left as they are. -/
def dictToJson (rec : Rec) (v : Val) (kw : SerKw) : M Val :=
  match v with
  | .dict kvs => do
      let out ← mapML (fun kv => do
        let x ← itemToJson rec kw kv.2
        pure (kv.1, x)) kvs
      mkDict out
  | _ => raiseK .attr

/-- `Union.to_json` (union.py:257-262). -/
def unionToJson (rec : Rec) (v : Val) (kw : SerKw) : M Val := itemToJson rec kw v

/-- `Instance.to_json` (instance.py:160-172). -/
def instToJson (E : Env) (rec : Rec) (v : Val) (kw : SerKw) : M Val :=
  match v with
  | .obj r => rec (.hpSerialize r kw)
  | v => match E.jsonCopy v with
      | some j => pure j
      | none => raiseK .type

/-- `Tuple.from_json`, `List.from_json` and `Set.from_json` (containers.py:351-358, 415-422,
469-476). -/
def seqFromJson (k : SeqKind) (v : Val) : M Val :=
  match v.iter? with
  | none => raiseK .type
  | some xs => mkSeq k xs

end Verif.StaticJson
