import Verif.Spec.Container
import Verif.Spec.Custom

/-!
# Specification: `serialize(save_dynamic=True)`
-/

namespace Verif.Spec

/-- Property `nm` of instance `r` is read and written, which takes the state from
one to another and adds a pair of key and value to the data.  Stored properties are
written by their declaration, dynamic properties by the serializer of their
declaration or else as they are, renamed ones as they are. -/
inductive SavedOne (E : Env) (n : Nat) (r : Nat) (kw : SerKw) :
    PyStr × Entry → World → Val × Val → World → Prop
  | own (nm : PyStr) (e : Entry) (p : PropSpec) (v j : Val) (w1 w2 w3 : World) : OwnSpec e p →
      run E n (.getattr r nm) w1 = (.ok v, w2) → run E n (.serializeP nm p v kw) w2 = (.ok j, w3) →
      SavedOne E n r kw (nm, e) w1 (.str nm, j) w3
  | asIs (nm : PyStr) (p : PropSpec) (g : FnId) (s d : Option FnId) (v : Val) (w1 w2 : World) :
      p.ser = none → run E n (.getattr r nm) w1 = (.ok v, w2) →
      SavedOne E n r kw (nm, .dynamic p g s d) w1 (.str nm, v) w2
  | written (nm : PyStr) (p : PropSpec) (g : FnId) (s d : Option FnId) (f : FnId) (v j : Val)
      (w1 w2 w3 : World) : p.ser = some f → run E n (.getattr r nm) w1 = (.ok v, w2) →
      Wrapped E n f v [.bool kw.includeClass, .bool kw.saveDynamic] w2 (.ok j) w3 →
      SavedOne E n r kw (nm, .dynamic p g s d) w1 (.str nm, j) w3
  | renamed (nm t : PyStr) (v : Val) (w1 w2 : World) : run E n (.getattr r nm) w1 = (.ok v, w2) →
      SavedOne E n r kw (nm, .renamed t) w1 (.str nm, v) w2

end Verif.Spec
