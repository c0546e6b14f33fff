import Verif.Models.DocText
import Verif.Models.Demo
import Verif.Props.C35

/-!
# `test_docstrings`, `test_diamond_inheritance` and `test_propertymetaclass_mixin`
(/repo/tests/test_basic.py:115-243) on the models of classes and documentation
-/

namespace Verif.Conformance
open Verif.Cls Verif.DocText

def docsAny (_ : PyStr) : PropDoc := ⟨s% ":class:`Property <properties.Property>`", s% "empty property", [], []⟩

def docAny : Attr := .prop (.mutable (.mk true none none .undef .any))

def docClasses : List Decl :=
  [c35Root,
   { name := s% "WithDocOrder", bases := [0],
     docOrder := some (.names [s% "myprop1", s% "myprop3", s% "myprop2"]),
     body := [(s% "myprop1", docAny), (s% "myprop2", docAny), (s% "myprop3", docAny)] },
   c35Class (s% "SameDocOrder") [1] [(s% "_my_private_prop", docAny)],
   c35Class (s% "DifferentDocOrder") [1] [(s% "myprop4", docAny)],
   { name := s% "NoMoreDocOrder", bases := [1], docOrder := some .absent },
   { name := s% "PrivateProperty", bases := [0], docPrivate := some (.flag true),
     body := [(s% "_something", docAny)] },
   { name := s% "UndocPrivate", bases := [5], docPrivate := some (.flag false) }]

def docLine (n : PyStr) : PyStr := s% "* **" ++ n ++ s% "** (:class:`Property <properties.Property>`): empty property"

def docsExpected : List PyStr :=
  [s% "",
   s% "\n\n**Required Properties:**\n\n" ++ docLine (s% "myprop1") ++ s% "\n" ++ docLine (s% "myprop3") ++ s% "\n" ++ docLine (s% "myprop2"),
   s% "\n\n**Required Properties:**\n\n" ++ docLine (s% "myprop1") ++ s% "\n" ++ docLine (s% "myprop3") ++ s% "\n" ++ docLine (s% "myprop2"),
   s% "\n\n**Required Properties:**\n\n" ++ docLine (s% "myprop1") ++ s% "\n" ++ docLine (s% "myprop2") ++ s% "\n" ++ docLine (s% "myprop3") ++
     s% "\n" ++ docLine (s% "myprop4"),
   s% "\n\n**Required Properties:**\n\n" ++ docLine (s% "myprop1") ++ s% "\n" ++ docLine (s% "myprop2") ++ s% "\n" ++ docLine (s% "myprop3"),
   s% "\n\n**Private Properties:**\n\n" ++ docLine (s% "_something"),
   s% ""]

example : ((runDecls docClasses).map (fun S => S.classes.map fun k => classText [] docsAny k) ==
  some docsExpected) = true := by decide +kernel
example : ((runDecls [c35Root, { name := s% "BadDocOrder", bases := [0], docOrder := some .junk }]).isNone) = true := by decide +kernel
example : ((runDecls [c35Root, { name := s% "BadDocOrder", bases := [0], docOrder := some (.names [s% "myprop", s% "another_prop"]), body := [(s% "myprop", docAny)] }]).isNone) = true := by decide +kernel
example : ((runDecls [c35Root, { name := s% "BadDocPrivate", bases := [0], docPrivate := some .junk }]).isNone) = true := by decide +kernel
example : (sphinxClass (ofTy demoEnv (fun _ => []) .any) == some (docsAny []).cls) = true := by decide +kernel

/-! `test_diamond_inheritance` (lines 188-217): which of the names are Integers. -/

def intAttr : Attr := .prop (.mutable (.mk true none none .undef (.integer false none none)))

def diamonds : List Decl :=
  [c35Root, c35Class (s% "CommonBase") [0] [(s% "a", c35Text), (s% "b", c35Text)],
   c35Class (s% "DifferentA") [1] [(s% "a", intAttr)], c35Class (s% "DifferentB") [1] [(s% "b", intAttr)],
   c35Class (s% "ABInheritance") [2, 3], c35Class (s% "BAInheritance") [3, 2],
   c35Class (s% "ExtraEmptyClass") [2], c35Class (s% "AnotherABInheritance") [6, 3]]

def isInteger : Entry → Bool
  | .mutable (.mk _ _ _ _ (.integer ..)) => true
  | _ => false

def integers (k : Class) : List PyStr := (k.props.filter fun p => isInteger p.2).map (·.1)

example : ((runDecls diamonds).map (fun S => S.classes.map fun k => [s% "a", s% "b"].map (integers k).contains) ==
  some [[false, false], [false, false], [true, false], [false, true], [true, true], [true, true], [true, false],
    [true, true]]) = true := by decide +kernel

/-! `test_propertymetaclass_mixin` (lines 220-243): the class has the properties of both
families, and the plain class stays in its order of lookup. -/

def mixins : List Decl :=
  [c35Root, { name := s% "MixinBaseClass", explicitMeta := true, registry := true, defaults := some [] },
   c35Class (s% "TestA") [0] [(s% "a", c35Bool)], c35Class (s% "MixinB") [1] [(s% "b", c35Bool)],
   c35Class (s% "OtherMixin") [] [(s% "another_attribute", .other)], c35Class (s% "TestC") [4, 3, 2]]

example : ((runDecls mixins).map (fun S => S.classes.getLast?.map fun k =>
    ([s% "a", s% "b", s% "another_attribute"].map ((k.props.map (·.1)).contains ·), k.mro)) ==
  some (some ([true, true, false], [5, 4, 3, 1, 2, 0]))) = true := by decide +kernel

end Verif.Conformance
