import Verif.Core.Interp

/-!
# `properties.filter_props`
-/

namespace Verif

/-- `k in has_props_cls._props and (include_immutable or any(hasattr(...)))`
(utils.py:52-60).  `required` is an attribute of Property and its subclasses,
`new_name` of Renamed; dynamic and gettable properties have neither. -/
def isPropKey (E : Env) (c : ClsId) (includeImmutable : Bool) (k : Val) : Bool :=
  match k with
  | .str s => match lookupS s (E.classes c).props with
      | some e => includeImmutable || e.settable
      | none => false
  | _ => false

/-- `filter_props(cls, input_dict, include_immutable)` (utils.py:13-64): two
dictionary comprehensions over the items of the input. -/
def filterProps (E : Env) (c : ClsId) (kvs : List (Val × Val)) (includeImmutable : Bool) :
    List (Val × Val) × List (Val × Val) :=
  let props := dictOfPairs (kvs.filter (fun kv => isPropKey E c includeImmutable kv.1))
  let others := dictOfPairs (kvs.filter (fun kv => (dictGet? props kv.1).isNone))
  (props, others)

end Verif
