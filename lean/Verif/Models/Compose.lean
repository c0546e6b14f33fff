import Verif.Core.Interp

/-!
# Declarations of composed properties

The constructors of Tuple, List, Set, Dictionary, Instance and Union
(`/repo/properties/base/containers.py:140-260, 507-570`,
`/repo/properties/base/instance.py:48-84`, `/repo/properties/base/union.py:62-150`)
with what stands between their parentheses.  A declaration is an expression; running
it gives the property object of the core model.  Defaults are checked by running
`validate`, so declarations are computations of the core model.

Simplified: keywords are checked in a fixed order (C67 shows that the order does not
decide whether they are accepted); `name`, `doc`, `observe_mutations` and the keywords
of scalar properties are left out (C67); the class of an Instance is a HasProperties
class; warnings are not modelled.
-/

namespace Verif.Compose

/-- The keywords all properties have.  `dflt` is `none` if there is no default or the
default is None (basic.py:101, 119). -/
structure Kw where
  required : Option Val := none
  ser : Option FnId := none
  deser : Option FnId := none
  dflt : Option Dflt := none

/-- Property classes without inner properties. -/
def isScalar : PropTy → Bool
  | .seq .. | .dict .. | .inst _ | .union .. => false
  | _ => true

/-- The classes of scalar properties, with their settings. -/
abbrev Leaf := { t : PropTy // isScalar t = true }

mutual
/-- Expressions that declare a property. -/
inductive Decl where
  /-- `GettableProperty(doc, ...)` -/
  | gettable (kw : Kw)
  /-- a scalar property -/
  | leaf (kw : Kw) (ty : Leaf)
  /-- Tuple, List, Set -/
  | seq (kw : Kw) (k : SeqKind) (item : Option Arg) (minL maxL coerce : Option Val)
  /-- Dictionary -/
  | dict (kw : Kw) (key val : Option Arg) (coerce : Option Val)
  /-- Instance; `none` is something that is not a class -/
  | inst (kw : Kw) (c : Option ClsId) (auto : Option Val)
  /-- Union; `none` is something that is not a list or tuple -/
  | union (kw : Kw) (props : Option (List Arg)) (strict : Option Val)
/-- What stands where an inner property belongs: a property, a HasProperties class, or
anything else. -/
inductive Arg where
  | prop (d : Decl)
  | cls (c : ClsId)
  | other
end

/-- An argument after evaluation. -/
inductive Built where
  /-- a property object, and whether it is a `Property` -/
  | prop (isProperty : Bool) (p : PropSpec)
  | cls (c : ClsId)
  | other

/-- `isinstance(prop, basic.Property)`: GettableProperty and Uuid, which is derived from
it (basic.py:1269), are not. -/
def Decl.isProperty : Decl → Bool
  | .gettable _ => false
  | .leaf _ ty => match ty.1 with
      | .uuid => false
      | _ => true
  | _ => true

/-- `Instance('', c)`. -/
def instanceOf (c : ClsId) : PropSpec := .mk true none none .undef (.inst c)

/-- `Property('', name=self.name)`: the inner property where none is given
(containers.py:186, 520, 529). -/
def anything : PropSpec := .mk true none none .undef .any

/-- `validate_prop` (containers.py:140-152), and the loop body of the setter of
`Union.props` (union.py:77-85). -/
def validateProp : Built → M PropSpec
  | .cls c => pure (instanceOf c)
  | .prop true p => pure p
  | .prop false _ => raiseK .type
  | .other => raiseK .type

/-- A setter that takes only bools (basic.py:633-637, containers.py:236-240,
550-554, instance.py:75-82, union.py:99-103). -/
def boolKw (dflt : Bool) : Option Val → M Bool
  | none => pure dflt
  | some (.bool b) => pure b
  | some _ => raiseK .type

/-- `required` is unknown to a GettableProperty (basic.py:109-112). -/
def requiredKw (isProperty : Bool) (v : Option Val) : M Bool :=
  if isProperty then boolKw true v else match v with
    | none => pure true
    | some _ => raiseK .attr

/-- `isinstance(value, integer_types) and value >= 0`. -/
def lengthOf : Val → Option Nat
  | .int i => if i < 0 then none else some i.toNat
  | .bool b => some (if b then 1 else 0)
  | _ => none

/-- The setter of a length limit up to its comparison (containers.py:210-213, 223-226). -/
def lengthKw : Option Val → M (Option Nat)
  | none => pure none
  | some v => match lengthOf v with
      | some n => pure (some n)
      | none => raiseK .type

/-- The comparison in the setter of the limit that is set last (containers.py:214-215,
227-228). -/
def lengthsKw (lo hi : Option Nat) : M Unit := match lo, hi with
  | some a, some b => if b < a then raiseK .type else pure ()
  | _, _ => pure ()

/-- Uuid has a getter `default` without setter (basic.py:1281-1283): setting it raises
AttributeError. -/
def settableDefault (ty : PropTy) (dflt : Option Dflt) : M Unit := match ty, dflt with
  | .uuid, some _ => raiseK .attr
  | _, _ => pure ()

/-- The setter of `default` (basic.py:174-180) of a property that is otherwise finished. -/
def checkDefault (E : Env) (rec : Rec) (p : PropSpec) : Dflt → M Unit
  | .undef => pure ()
  | d => do
      let v ← evalDflt E rec d
      let _ ← rec (.validate [] p none v)
      pure ()

/-- The loop in the setter of `Union.default` (union.py:141-150). -/
def tryDefault (E : Env) (rec : Rec) (d : Dflt) : List PropSpec → M Unit
  | [] => raiseK .type
  | p :: ps => M.catchIf ErrKind.isGeneric (do
      let v ← evalDflt E rec d
      let _ ← rec (.validate [] p none v)
      pure ()) (fun _ => tryDefault E rec d ps)

/-- The setter of `Union.default` (union.py:136-150). -/
def checkUnionDefault (E : Env) (rec : Rec) (ps : List PropSpec) : Dflt → M Unit
  | .undef => pure ()
  | d => tryDefault E rec d ps

/-- The end of `GettableProperty.__init__` (basic.py:119-120). -/
def finish (E : Env) (rec : Rec) (req : Bool) (kw : Kw) (ty : PropTy) (auto : Dflt) : M PropSpec :=
  match kw.dflt with
  | none => pure (.mk req kw.ser kw.deser auto ty)
  | some d => do
      checkDefault E rec (.mk req kw.ser kw.deser d ty) d
      pure (.mk req kw.ser kw.deser d ty)

/-- The same for a Union. -/
def finishUnion (E : Env) (rec : Rec) (req : Bool) (kw : Kw) (ps : List PropSpec) (strict : Bool) : M PropSpec :=
  match kw.dflt with
  | none => pure (.mk req kw.ser kw.deser .undef (.union ps strict))
  | some d => do
      checkUnionDefault E rec ps d
      pure (.mk req kw.ser kw.deser d (.union ps strict))

/-- The inner property that was given, or the one that takes anything. -/
def innerOf : Option Built → M PropSpec
  | none => pure anything
  | some b => validateProp b

mutual
/-- Running a declaration: first the arguments, then the setters of the positional
parameters, of the keywords, and of the default. -/
def declare (E : Env) (rec : Rec) : Decl → M PropSpec
  | .gettable kw => do
      let req ← requiredKw false kw.required
      finish E rec req kw .any .undef
  | .leaf kw ty => do
      let req ← requiredKw (Decl.isProperty (.leaf kw ty)) kw.required
      settableDefault ty.1 kw.dflt
      finish E rec req kw ty.1 .undef
  | .seq kw k item minL maxL coerce => do
      let b ← buildOpt E rec item
      let it ← innerOf b
      let req ← requiredKw true kw.required
      let lo ← lengthKw minL
      let hi ← lengthKw maxL
      lengthsKw lo hi
      let co ← boolKw false coerce
      finish E rec req kw (.seq k it lo hi co) .undef
  | .dict kw key val coerce => do
      let kb ← buildOpt E rec key
      let vb ← buildOpt E rec val
      let kp ← innerOf kb
      let vp ← innerOf vb
      let req ← requiredKw true kw.required
      let co ← boolKw false coerce
      finish E rec req kw (.dict kp vp co) .undef
  | .inst kw c auto => match c with
      | none => raiseK .type
      | some c => do
          let req ← requiredKw true kw.required
          let au ← boolKw false auto
          finish E rec req kw (.inst c) (if au then .cls c else .undef)
  | .union kw props strict => match props with
      | none => raiseK .type
      | some as => do
          let bs ← buildAll E rec as
          let ps ← mapML validateProp bs
          let req ← requiredKw true kw.required
          let st ← boolKw false strict
          finishUnion E rec req kw ps st
/-- Evaluating an argument. -/
def build (E : Env) (rec : Rec) : Arg → M Built
  | .prop d => do
      let p ← declare E rec d
      pure (.prop (Decl.isProperty d) p)
  | .cls c => pure (.cls c)
  | .other => pure .other
def buildAll (E : Env) (rec : Rec) : List Arg → M (List Built)
  | [] => pure []
  | a :: as => do
      let b ← build E rec a
      let bs ← buildAll E rec as
      pure (b :: bs)
def buildOpt (E : Env) (rec : Rec) : Option Arg → M (Option Built)
  | none => pure none
  | some a => do
      let b ← build E rec a
      pure (some b)
end

end Verif.Compose
