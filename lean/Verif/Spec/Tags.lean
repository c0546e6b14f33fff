import Verif.Models.Tags

/-!
# Specification: metadata and terms of property objects
-/

namespace Verif.Spec.Tagging
open Verif.Tags

/-- The last value written for a key. -/
def lastFor (k : PyStr) : List (PyStr × Val) → Option Val
  | [] => none
  | x :: l => match lastFor k l with
      | some v => some v
      | none => if x.1 = k then some x.2 else none

/-- The entry of a dictionary. -/
def entry (s : State) (ref : Nat) (k : PyStr) : Option Val := (s.dicts[ref]?).bind (lastFor k)

/-- `prop.meta.get(k)`. -/
def tagged (s : State) (p : Nat) (k : PyStr) : Option Val := (s.props[p]?).bind fun o => entry s o.metaRef k

/-- `prop.terms.kwargs.get(k)`. -/
def keyword (s : State) (p : Nat) (k : PyStr) : Option Val := (s.props[p]?).bind fun o => entry s o.kwRef k

/-- The value a `tag` call gives to a key: keywords take precedence over the dictionary;
anything but at most one dictionary gives nothing. -/
def gives (s : State) (k : PyStr) (kw : List (PyStr × Val)) : List Arg → Option Val
  | [] => lastFor k kw
  | [.dict i] => match s.known[i]? with
      | none => none
      | some r => match lastFor k kw with
          | some v => some v
          | none => entry s r k
  | _ => none

/-- The value an operation gives to key `k` of the metadata of property `p`: by `tag`, or
for a new dynamic property that of the property it is made from. -/
def given (s : State) (p : Nat) (k : PyStr) : Op → Option Val
  | .tag q pos kw => if q = p ∧ q < s.props.length then gives s k kw pos else none
  | .decorate q _ _ => if s.props.length = p ∧ q < s.props.length then tagged s q k else none
  | _ => none

/-- The value given last in a history. -/
def lastGiven (ok : List Val → Dict → Bool) (p : Nat) (k : PyStr) : State → List Op → Option Val
  | _, [] => none
  | s, o :: ops => match lastGiven ok p k (exec ok s o).2 ops with
      | some v => some v
      | none => given s p k o

/-- The operation hands out the metadata dictionary of `p`. -/
def showsMeta (p : Nat) : Op → Prop
  | .getMeta q => q = p
  | .getTerms q => q = p
  | _ => False

/-- The operation hands out the keyword dictionary of `p`. -/
def showsTerms (p : Nat) : Op → Prop
  | .getTerms q => q = p
  | _ => False

def setsTerms : Op → Prop
  | .setTerms _ _ => True
  | _ => False

/-- The operation changes the dictionary `known[i]`. -/
def changes (i : Nat) : Op → Prop
  | .setKey j _ _ => j = i
  | .popKey j _ => j = i
  | .clear j => j = i
  | _ => False

/-- The operation is `p.tag(...)`. -/
def tags (p : Nat) : Op → Prop
  | .tag q _ _ => q = p
  | _ => False

/-- Nothing a program can see differs. -/
structure Unaltered (s s' : State) : Prop where
  known : s'.known = s.known
  props : s'.props = s.props
  dicts : ∀ r, r < s.dicts.length → s'.dicts[r]? = s.dicts[r]?

end Verif.Spec.Tagging
