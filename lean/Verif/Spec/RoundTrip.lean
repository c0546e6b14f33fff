import Verif.Spec.Serialize
import Verif.Spec.Idempotent

/-!
# Specification: what survives serialize() and deserialize()
-/

namespace Verif.Spec

/-- The tuple, list or set with these items. -/
def ofKind : SeqKind → List Val → Val
  | .tup, xs => .tup xs
  | .list, xs => .list xs
  | .set, xs => .set xs

/-- `v` is no instance, is accepted as it is by the type, and its JSON form is
read as `v`. -/
structure CanonScalar (E : Env) (ty : PropTy) (v : Val) : Prop where
  defined : v ≠ .undef
  plain : ∀ r, v ≠ .obj r
  accepted : ∀ k, scalarValidate E k ty v = some (.ok v)
  json : ∃ j, scalarToJson E ty v = some (.ok j) ∧ (j = .none → v = .none) ∧
    scalarFromJson E ty j = some (.ok v)

/-- `v` is no instance and is accepted as it is by the type. -/
structure TakenAsIs (E : Env) (ty : PropTy) (v : Val) : Prop where
  defined : v ≠ .undef
  plain : ∀ r, v ≠ .obj r
  accepted : ∀ k, scalarValidate E k ty v = some (.ok v)

/-- No custom serializer or deserializer. -/
def NoCustom (p : PropSpec) : Prop := p.ser = none ∧ p.deser = none

/-- The options handed to a deserializer. -/
def deOpts (trusted strict : Bool) : List Val := [.bool trusted, .bool strict, .bool false]

/-- A scalar is written as `j`, by the registered serializer if there is one. -/
def WrittenAs (E : Env) (ic : Bool) (p : PropSpec) (v j : Val) : Prop :=
  (p.ser = none ∧ scalarToJson E p.ty v = some (.ok j)) ∨
  ∃ f, p.ser = some f ∧ Answers E f v (serOpts ic) j

/-- `j` is read as `v`, by the registered deserializer if there is one. -/
def ReadAs (E : Env) (trusted : Bool) (p : PropSpec) (j v : Val) : Prop :=
  (p.deser = none ∧ scalarFromJson E p.ty j = some (.ok v)) ∨
  ∃ g, p.deser = some g ∧ ∀ strict, Answers E g j (deOpts trusted strict) v

/-- None is not written: a registered serializer answers None for it. -/
def SkipsNone (E : Env) (ic : Bool) (p : PropSpec) : Prop :=
  ∀ f, p.ser = some f → Answers E f .none (serOpts ic) .none

/-- A default that can be assigned: `undefined`, an accepted scalar, `uuid4` for
a Uuid, an empty container, or a function that computes one of these. -/
inductive FineDefault (E : Env) : PropTy → Dflt → Prop
  | undef (ty : PropTy) : FineDefault E ty .undef
  | scalar (ty : PropTy) (x : Val) : ScalarTy ty → x ≠ .undef →
      (∀ k, ∃ y, y ≠ .undef ∧ scalarValidate E k ty x = some (.ok y)) → FineDefault E ty (.val x)
  | uuid : FineDefault E .uuid .uuid4
  | seq (k : SeqKind) (it : PropSpec) (lo hi : Option Nat) (co : Bool) :
      FineDefault E (.seq k it lo hi co) (.val (ofKind k []))
  | dict (kp vp : PropSpec) (co : Bool) : FineDefault E (.dict kp vp co) (.val (.dict []))
  | fn (ty : PropTy) (f : FnId) (x : Val) : E.fn f [] = .ret x → x ≠ .undef → FineDefault E ty (.val x) →
      FineDefault E ty (.fn f)

/-- The property is set to something other than None. -/
def Held (o : Obj) (nm : PyStr) : Prop := ∃ v, (nm, v) ∈ o.backend ∧ v ≠ .none

mutual
/-- No Union at any depth. -/
def NoUnion : PropSpec → Prop
  | .mk _ _ _ _ ty => NoUnionTy ty
def NoUnionTy : PropTy → Prop
  | .union .. => False
  | .seq _ item _ _ _ => NoUnion item
  | .dict kp vp _ => NoUnion kp ∧ NoUnion vp
  | _ => True
end

/-- The class of `o` can be built again: a property without value has no
default, other defaults can be assigned, no property is called `__class__`,
`self` or `cls`.  Read-only properties are not Unions (storing a value in one
calls the error hook of the new instance for every alternative that refuses it). -/
structure Rebuildable (E : Env) (o : Obj) : Prop where
  names : ((E.classes o.cls).props.map (·.1)).Nodup
  defaults : ∀ nm e, (nm, e) ∈ (E.classes o.cls).props →
    classDefault E o.cls nm e = .undef ∨
    (Held o nm ∧ ∃ p, OwnSpec e p ∧ FineDefault E p.ty (classDefault E o.cls nm e))
  reserved : ∀ nm e, (nm, e) ∈ (E.classes o.cls).props →
    nm ≠ s% "__class__" ∧ nm ≠ s% "self" ∧ nm ≠ s% "cls"
  readOnly : ∀ nm p, (nm, .gettable p) ∈ (E.classes o.cls).props → NoUnion p

/-- Reading the data of an instance of class `d` for a property of class `c`
finds class `d`. -/
def Recovered (E : Env) (ic trusted : Bool) (c d : ClsId) : Prop :=
  d = c ∨ (ic = true ∧ trusted = true ∧ (E.classes d).name ≠ [] ∧
    (E.classes d).name ≠ (E.classes c).name ∧
    lookupS (E.classes d).name (E.classes c).registry = some d)

/-! ## Unions -/

/-- The same value, or containers of one kind, or two instances. -/
def Alike : Val → Val → Prop
  | .obj _, .obj _ | .list _, .list _ | .tup _, .tup _ | .set _, .set _ | .dict _, .dict _ => True
  | a, b => b = a

/-- The type refuses `v` and whatever is made like it. -/
def Refuses (E : Env) (w : World) (ty : PropTy) (v : Val) : Prop :=
  match ty with
  | .union .. => False
  | .seq k _ _ _ co => SeqKeeps k co v
  | .dict _ _ co => co = false ∧ ∀ kvs, v ≠ .dict kvs
  | .inst c => (∀ kvs, v ≠ .dict kvs) ∧
      ∀ r, v = .obj r → ∃ o, w.objs[r]? = some o ∧ isSub E o.cls c = false
  | ty => (∀ u, Alike v u → ∀ k, ∃ n, scalarValidate E k ty u = some (.error (.invalid n))) ∧
      (ty = .color → ∀ s, v = .str s → colorIsRandom E s = false)

/-- The data names the class of this alternative. -/
def NamesIt (E : Env) (j : Val) (p : PropSpec) : Prop :=
  ∃ kvs x c, j = .dict kvs ∧ dictGet? kvs (.str (s% "__class__")) = some x ∧ x.truthy = true ∧
    p.ty = .inst c ∧ pyEq x (.str (E.classes c).name) = true

/-- The alternative cannot make anything of the data: reading it fails, or gives
a value that the alternative itself refuses; nothing else happens. -/
def Unread (E : Env) (p : PropSpec) (j : Val) : Prop :=
  ∃ N, ∀ n, N ≤ n → ∀ nm kw w,
    (∃ e : PyErr, e.kind.isGeneric = true ∧ run E n (.deserializeP nm p j kw) w = (.error e, w)) ∨
    (∃ y, run E n (.deserializeP nm p j kw) w = (.ok y, w) ∧ ∃ e : PyErr, e.kind.isGeneric = true ∧
      run E n (.validate nm p none y) w = (.error e, w))

/-- Data `j` is read by alternative `q`, which comes after `pre` and before
`post`: it is the first whose class is named in the data, or no class is named
and nothing in `pre` can read the data. -/
def ReadBy (E : Env) (pre : List PropSpec) (q : PropSpec) (post : List PropSpec) (j : Val) : Prop :=
  (∃ a b, pre ++ q :: post = a ++ q :: b ∧ NamesIt E j q ∧ ∀ p ∈ a, ¬ NamesIt E j p) ∨
  ((∀ p ∈ pre ++ q :: post, ¬ NamesIt E j p) ∧ ∀ p ∈ pre, Unread E p j)

/-- `v` is a tree of canonical values: scalars that survive JSON or the registered
serializer and deserializer (and meet `S`),
containers of the declared kind, and instances whose class can be found and
built again.  Sets and dictionary keys hold scalars.  A value of a Union is
canonical for one alternative, refused by the earlier ones (for which `S` is
asked), and its data is read by the same alternative. -/
inductive Canon (E : Env) (S : PropTy → Val → Prop) (ic trusted : Bool) (w : World) :
    PropSpec → Val → Prop
  | scalar (p : PropSpec) (v : Val) : NoCustom p → ScalarTy p.ty → CanonScalar E p.ty v →
      S p.ty v → Canon E S ic trusted w p v
  | custom (p : PropSpec) (v j : Val) : ScalarTy p.ty → v ≠ .none → TakenAsIs E p.ty v →
      WrittenAs E ic p v j → j ≠ .none → ReadAs E trusted p j v → S p.ty v →
      Canon E S ic trusted w p v
  | seq (p : PropSpec) (k : SeqKind) (it : PropSpec) (lo hi : Option Nat) (co : Bool)
      (xs : List Val) : NoCustom p → p.ty = .seq k it lo hi co →
      (k = .set → ScalarTy it.ty ∧ (∀ x ∈ xs, x.hashable = true) ∧
        xs.Pairwise (fun a b => pyEq a b = false)) →
      (∀ x ∈ xs, Canon E S ic trusted w it x) → Canon E S ic trusted w p (ofKind k xs)
  | dict (p kp vp : PropSpec) (co : Bool) (kvs : List (Val × Val)) : NoCustom p →
      p.ty = .dict kp vp co → ScalarTy kp.ty → (∀ kv ∈ kvs, kv.1.hashable = true) →
      (kvs.map (·.1)).Pairwise (fun a b => pyEq a b = false) →
      (∀ kv ∈ kvs, ∀ j, WrittenAs E ic kp kv.1 j → j.hashable = true) →
      (kvs.map (·.1)).Pairwise (fun a b => ∀ i j, WrittenAs E ic kp a i → WrittenAs E ic kp b j →
        pyEq i j = false) →
      (∀ kv ∈ kvs, Canon E S ic trusted w kp kv.1) →
      (∀ kv ∈ kvs, Canon E S ic trusted w vp kv.2) → Canon E S ic trusted w p (.dict kvs)
  | inst (p : PropSpec) (c : ClsId) (r : Nat) (o : Obj) : NoCustom p → p.ty = .inst c →
      w.objs[r]? = some o → isSub E o.cls c = true → Recovered E ic trusted c o.cls →
      Rebuildable E o → (o.backend.map (·.1)).Nodup →
      (∀ nm v, (nm, v) ∈ o.backend → ∃ e q, lookupS nm (E.classes o.cls).props = some e ∧
        OwnSpec e q ∧ (v = .none → SkipsNone E ic q)) →
      (∀ nm v e q, (nm, v) ∈ o.backend → lookupS nm (E.classes o.cls).props = some e →
        OwnSpec e q → v ≠ .none → Canon E S ic trusted w q v) → Canon E S ic trusted w p (.obj r)
  | union (p q : PropSpec) (pre post : List PropSpec) (v : Val) : NoCustom p → v ≠ .none →
      p.ty = .union (pre ++ q :: post) false → (∀ p' ∈ pre, Refuses E w p'.ty v) →
      (∀ nm j, SerP E w ic nm q v j → ReadBy E pre q post j) → S (.union pre false) v →
      Canon E S ic trusted w q v → Canon E S ic trusted w p v

/-- What is read from property `nm` of `o`. -/
def valueAt (o : Obj) (nm : PyStr) : Val := (lookupS nm o.backend).getD .none

/-- `v'` in state `w'` is a copy of `v` in state `w`: equal scalars, containers
of the same kind with copies of the items in the same order, and for every
instance one of the same class with copies of all values.  A value of a Union is
copied as a value of the first alternative to accept it.  The instances of the
copy are numbered from `L` on. -/
inductive CopyOf (E : Env) (w w' : World) (L : Nat) : PropSpec → Val → Val → Prop
  | scalar (p : PropSpec) (v : Val) : ScalarTy p.ty → CopyOf E w w' L p v v
  | seq (p : PropSpec) (k : SeqKind) (it : PropSpec) (lo hi : Option Nat) (co : Bool)
      (xs ys : List Val) : p.ty = .seq k it lo hi co → xs.length = ys.length →
      (∀ (i : Nat) x y, xs[i]? = some x → ys[i]? = some y → CopyOf E w w' L it x y) →
      CopyOf E w w' L p (ofKind k xs) (ofKind k ys)
  | dict (p kp vp : PropSpec) (co : Bool) (kvs lvs : List (Val × Val)) :
      p.ty = .dict kp vp co → kvs.map (·.1) = lvs.map (·.1) →
      (∀ (i : Nat) x y, kvs[i]? = some x → lvs[i]? = some y → CopyOf E w w' L vp x.2 y.2) →
      CopyOf E w w' L p (.dict kvs) (.dict lvs)
  | inst (p : PropSpec) (c : ClsId) (r r' : Nat) (o o' : Obj) : p.ty = .inst c →
      w.objs[r]? = some o → w'.objs[r']? = some o' → L ≤ r' → o'.cls = o.cls →
      (∀ nm e q, lookupS nm (E.classes o.cls).props = some e → OwnSpec e q →
        valueAt o nm = .none → valueAt o' nm = .none) →
      (∀ nm e q, lookupS nm (E.classes o.cls).props = some e → OwnSpec e q →
        valueAt o nm ≠ .none → CopyOf E w w' L q (valueAt o nm) (valueAt o' nm)) →
      CopyOf E w w' L p (.obj r) (.obj r')
  | union (p q : PropSpec) (ps : List PropSpec) (st : Bool) (v v' : Val) : p.ty = .union ps st →
      (∀ nm, Picks E w nm v ps (some q)) → CopyOf E w w' L q v v' → CopyOf E w w' L p v v'

/-- Nothing but new instances: all old ones are as they were, no listener has
been called. -/
structure OnlyNew (w w' : World) : Prop where
  old : ∀ (r : Nat) (o : Obj), w.objs[r]? = some o → w'.objs[r]? = some o
  quar : w'.quar = w.quar
  user : w'.user = w.user
  trace : w'.trace = w.trace
  hooks : w'.hooks = w.hooks
  bypass : w'.bypass = w.bypass

end Verif.Spec
