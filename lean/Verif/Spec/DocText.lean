import Verif.Models.DocText

/-!
# Specification: documentation text
-/

namespace Verif.Spec.DocText
open Verif.DocText

/-- One class a documentation text links to: the containers around it, innermost first,
the name of the class and of its module, and what follows. -/
structure Leaf where
  within : List PyStr
  cls : PyStr
  pref : PyStr
  suffix : PyStr

def Leaf.put (words : PyStr) (l : Leaf) : Leaf := { l with within := l.within ++ [words] }

mutual
/-- The classes at the leaves of a declaration, from left to right. -/
def leaves : DProp → List Leaf
  | .plain c p => [⟨[], c, p, []⟩]
  | .inst c p => [⟨[], c, p, []⟩]
  | .pointer c p => [⟨[], c, p, s% " instance or UID"⟩]
  | .seq words item => (leaves item).map (Leaf.put words)
  | .union ps => leavesAll ps
def leavesAll : List DProp → List Leaf
  | [] => []
  | p :: ps => leaves p ++ leavesAll ps
end

def Leaf.text (l : Leaf) : PyStr :=
  l.within.flatMap (· ++ s% " of ") ++ (s% ":class:`" ++ (l.cls ++ s% " <" ++ l.pref ++ s% "." ++ l.cls ++ s% ">") ++
    '`' :: l.suffix)

/-- Texts, separated by a comma. -/
def commas : List PyStr → PyStr
  | [] => []
  | [x] => x
  | x :: y :: l => x ++ s% ", " ++ commas (y :: l)

/-- A text without any of these characters. -/
abbrev Without (bad : PyStr) (s : PyStr) : Prop := ∀ c ∈ s, c ∉ bad

mutual
/-- Names of classes and modules, and words of containers, without the characters of the
markup; Unions with at least one alternative. -/
def Plain : DProp → Prop
  | .plain c p => Without (s% "{}:` <") c ∧ Without (s% "{}:`") p
  | .inst c p => Without (s% "{}:` <") c ∧ Without (s% "{}:`") p
  | .pointer c p => Without (s% "{}:` <") c ∧ Without (s% "{}:`") p
  | .seq words item => Without (s% "{}:`") words ∧ Plain item
  | .union ps => ps ≠ [] ∧ PlainAll ps
def PlainAll : List DProp → Prop
  | [] => True
  | p :: ps => Plain p ∧ PlainAll ps
end

/-- The words of the library's own containers. -/
def Usual (w : PyStr) : Prop := w = s% "a tuple" ∨ w = s% "a list" ∨ w = s% "a set"

mutual
/-- Declarations whose Unions have at least one alternative. -/
def Filled : PropSpec → Prop
  | .mk _ _ _ _ ty => FilledTy ty
def FilledTy : PropTy → Prop
  | .seq _ item _ _ _ => Filled item
  | .union ps _ => ps ≠ [] ∧ FilledAll ps
  | _ => True
def FilledAll : List PropSpec → Prop
  | [] => True
  | p :: ps => Filled p ∧ FilledAll ps
end

/-- The words for the three kinds of sequences. -/
def kindWords : SeqKind → PyStr
  | .tup => s% "a tuple"
  | .list => s% "a list"
  | .set => s% "a set"

mutual
/-- The classes a declaration is made of: for an Instance its instance class, for a sequence
the classes of its items, for a Union those of its alternatives, and otherwise the property
type itself. -/
def declared (E : Env) (mod : ClsId → PyStr) : PropSpec → List Leaf
  | .mk _ _ _ _ ty => declaredTy E mod ty
def declaredTy (E : Env) (mod : ClsId → PyStr) : PropTy → List Leaf
  | .any => [⟨[], s% "Property", s% "properties", []⟩]
  | .boolean _ => [⟨[], s% "Boolean", s% "properties", []⟩]
  | .integer .. => [⟨[], s% "Integer", s% "properties", []⟩]
  | .float .. => [⟨[], s% "Float", s% "properties", []⟩]
  | .complex _ => [⟨[], s% "Complex", s% "properties", []⟩]
  | .string .. => [⟨[], s% "String", s% "properties", []⟩]
  | .choice .. => [⟨[], s% "StringChoice", s% "properties", []⟩]
  | .color => [⟨[], s% "Color", s% "properties", []⟩]
  | .datetime => [⟨[], s% "DateTime", s% "properties", []⟩]
  | .uuid => [⟨[], s% "Uuid", s% "properties", []⟩]
  | .dict .. => [⟨[], s% "Dictionary", s% "properties", []⟩]
  | .inst c => [⟨[], (E.classes c).name, mod c, []⟩]
  | .seq k item _ _ _ => (declared E mod item).map fun l => { l with within := l.within ++ [kindWords k] }
  | .union ps _ => declaredAll E mod ps
def declaredAll (E : Env) (mod : ClsId → PyStr) : List PropSpec → List Leaf
  | [] => []
  | p :: ps => declared E mod p ++ declaredAll E mod ps
end

/-- The lines of a text. -/
def lines : PyStr → List PyStr
  | [] => [[]]
  | c :: s => if c = '\n' then [] :: lines s else match lines s with
      | [] => [[c]]
      | l :: ls => (c :: l) :: ls

/-- Documentation without line breaks. -/
def Unbroken (d : PropDoc) : Prop :=
  Without (s% "\n") d.cls ∧ Without (s% "\n") d.doc ∧ Without (s% "\n") d.info ∧ Without (s% "\n") d.dflt

/-- Values that are not shown as default. -/
inductive NotShown : Val → Prop
  | none : NotShown .none
  | undefined : NotShown .undef
  | text : NotShown (.str [])
  | list : NotShown (.list [])
  | tuple : NotShown (.tup [])
  | set : NotShown (.set [])
  | dict : NotShown (.dict [])

end Verif.Spec.DocText
