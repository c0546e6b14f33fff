import Verif.Models.Messages
import Verif.Models.Classes

/-!
# Documentation text of properties and classes

`sphinx` and `sphinx_class` of the property types, and the documentation string that the
metaclass builds for a class.  The text of a default value and the name of the class of a
value come from outside, as do the names of modules.  Outside IPython, where the link to
the class is left out (basic.py:361-363).
-/

namespace Verif.DocText
open Verif.Msg (join)

/-- A property object as far as the link to its class goes: a type that does not redefine
`sphinx_class`, `Instance`, `Pointer`, `Tuple` / `List` / `Set` with its `class_info`, and
`Union`. -/
inductive DProp where
  | plain (cls pref : PyStr)
  | inst (cls mod : PyStr)
  | pointer (cls mod : PyStr)
  | seq (words : PyStr) (item : DProp)
  | union (ps : List DProp)

/-- ``':class:`{cls} <{pref}.{cls}>`'`` (basic.py:378, instance.py:185). -/
def link (cls pref : PyStr) : PyStr :=
  s% ":class:`" ++ cls ++ s% " <" ++ pref ++ s% "." ++ cls ++ s% ">`"

/-- `s.replace(old, new)` for an `old` that is not empty: from left to right, where `skip`
characters belong to an occurrence already replaced. -/
def replaceGo (old new : PyStr) : Nat → PyStr → PyStr
  | _, [] => []
  | k + 1, _ :: s => replaceGo old new k s
  | 0, c :: s =>
      if old.isPrefixOf (c :: s) then new ++ replaceGo old new (old.length - 1) s
      else c :: replaceGo old new 0 s

def replace (s old new : PyStr) : PyStr := replaceGo old new 0 s

/-- `s.format(info=info)`: braces that are doubled stand for one, any other field than
`{info}` is an error. -/
def format (info : PyStr) : PyStr → Option PyStr
  | [] => some []
  | '{' :: '{' :: s => (format info s).map ('{' :: ·)
  | '}' :: '}' :: s => (format info s).map ('}' :: ·)
  | '{' :: 'i' :: 'n' :: 'f' :: 'o' :: '}' :: s => (format info s).map (info ++ ·)
  | '{' :: _ => none
  | '}' :: _ => none
  | c :: s => (format info s).map (c :: ·)

mutual
/-- `prop.sphinx_class()` (basic.py:376-383, instance.py:183-189, uid.py:273-276,
containers.py:360-365, union.py:264-266); `none` is an exception. -/
def sphinxClass : DProp → Option PyStr
  | .plain cls pref => some (link cls pref)
  | .inst cls mod => some (link cls mod)
  | .pointer cls mod => some (link cls mod ++ s% " instance or UID")
  | .seq words item => (sphinxClass item).bind fun t =>
      format words (replace t (s% ":class:`") (s% "{info} of :class:`"))
  | .union ps => (sphinxClasses ps).map (join (s% ", "))
def sphinxClasses : List DProp → Option (List PyStr)
  | [] => some []
  | p :: ps => (sphinxClass p).bind fun t => (sphinxClasses ps).map (t :: ·)
end

mutual
/-- The property objects of the core model; `mod` names the module of a class. -/
def ofSpec (E : Env) (mod : ClsId → PyStr) : PropSpec → DProp
  | .mk _ _ _ _ ty => ofTy E mod ty
def ofTy (E : Env) (mod : ClsId → PyStr) : PropTy → DProp
  | .any => .plain (s% "Property") (s% "properties")
  | .boolean _ => .plain (s% "Boolean") (s% "properties")
  | .integer .. => .plain (s% "Integer") (s% "properties")
  | .float .. => .plain (s% "Float") (s% "properties")
  | .complex _ => .plain (s% "Complex") (s% "properties")
  | .string .. => .plain (s% "String") (s% "properties")
  | .choice .. => .plain (s% "StringChoice") (s% "properties")
  | .color => .plain (s% "Color") (s% "properties")
  | .datetime => .plain (s% "DateTime") (s% "properties")
  | .uuid => .plain (s% "Uuid") (s% "properties")
  | .seq k item _ _ _ => .seq (Msg.kindText k) (ofSpec E mod item)
  | .dict .. => .plain (s% "Dictionary") (s% "properties")
  | .inst c => .inst (E.classes c).name (mod c)
  | .union ps _ => .union (ofSpecs E mod ps)
def ofSpecs (E : Env) (mod : ClsId → PyStr) : List PropSpec → List DProp
  | [] => []
  | p :: ps => ofSpec E mod p :: ofSpecs E mod ps
end

/-- What the documentation of one property is made of. -/
structure PropDoc where
  /-- `sphinx_class()` -/
  cls : PyStr
  doc : PyStr
  /-- `info` -/
  info : PyStr
  /-- the part about the default -/
  dflt : PyStr

/-- `GettableProperty.sphinx` (basic.py:365-374), followed by the default of a settable
property (basic.py:705-706). -/
def propText (name : PyStr) (d : PropDoc) : PyStr :=
  s% "**" ++ name ++ s% "**" ++ (if d.cls.isEmpty then [] else s% " (" ++ d.cls ++ s% ")") ++ s% ": " ++
    d.doc ++ (if d.info.isEmpty then [] else s% ", " ++ d.info) ++ d.dflt

/-- Texts from outside: `'{}'.format(value)` and the name of the class of a value. -/
structure DTexts where
  value : Val → PyStr
  clsName : World → Val → PyStr

/-- `len(value)`; `none` is TypeError. -/
def sizeOf? : Val → Option Nat
  | .str s => some s.length
  | .list xs => some xs.length
  | .tup xs => some xs.length
  | .set xs => some xs.length
  | .dict kvs => some kvs.length
  | _ => none

/-- basic.py:695-703. -/
def shownDefault (v : Val) (text : PyStr) : PyStr :=
  match v with
  | .none => []
  | .undef => []
  | v => match sizeOf? v with
      | some 0 => []
      | _ => s% ", Default: " ++ text

/-- The default in the documentation of a settable property (basic.py:687-703): a function
or class is called. -/
def defaultText (D : DTexts) (E : Env) (rec : Rec) : Dflt → M PyStr
  | .undef => pure (shownDefault .undef [])
  | .val v => pure (shownDefault v (D.value v))
  | d => do
      let v ← evalDflt E rec d
      fun w => (.ok (shownDefault v (s% "new instance of " ++ D.clsName w v)), w)

/-- The documentation of an entry of a class: the class link is none for a Renamed
(basic.py:1474-1475), `dynamic` is put before that of a dynamic property (basic.py:590-592)
and ` created dynamically` after its `info` (basic.py:494-496); only settable properties
show a default. -/
def entryDoc (D : DTexts) (T : Msg.Texts) (E : Env) (mod : ClsId → PyStr) (rec : Rec) (doc : PyStr) :
    Entry → M PropDoc
  | .mutable p => match sphinxClass (ofSpec E mod p) with
      | none => raiseK .value
      | some c => do
          let t ← defaultText D E rec p.default
          pure ⟨c, doc, Msg.info T E p, t⟩
  | .gettable p => match sphinxClass (ofSpec E mod p) with
      | none => raiseK .value
      | some c => pure ⟨c, doc, Msg.info T E p, []⟩
  | .dynamic p _ _ _ => match sphinxClass (ofSpec E mod p) with
      | none => raiseK .value
      | some c => pure ⟨s% "dynamic " ++ c, doc, Msg.info T E p ++ s% " created dynamically", []⟩
  | .renamed _ => pure ⟨[], doc, [], []⟩

/-- One section of the documentation of a class (base.py:199-202). -/
def sectionText (title : PyStr) (docs : PyStr → PropDoc) (names : List PyStr) : PyStr :=
  if names.isEmpty then []
  else s% "\n\n" ++ title ++ s% "\n\n" ++ join (s% "\n") (names.map fun n => s% "* " ++ propText n (docs n))

def titleReq : PyStr := s% "**Required Properties:**"
def titleOpt : PyStr := s% "**Optional Properties:**"
def titleImm : PyStr := s% "**Other Properties:**"
def titlePriv : PyStr := s% "**Private Properties:**"

/-- `__doc__` of a class with the docstring `doc` (base.py:188-215). -/
def classText (doc : PyStr) (docs : PyStr → PropDoc) (k : Cls.Class) : PyStr :=
  doc ++ sectionText titleReq docs k.secReq ++ sectionText titleOpt docs k.secOpt ++
    sectionText titleImm docs k.secImm ++ sectionText titlePriv docs k.secPriv

end Verif.DocText
