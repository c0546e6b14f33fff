import Verif.Models.Png

/-!
# What is assumed of values given to an ImagePNG property
-/

namespace Verif.Png.Spec

/-- Files are at their start; images of the png module write PNG; values
validated before begin with the signature and are at their start. -/
inductive Genuine : Input → Prop
  | validated {d : List Byte} : [137, 80, 78, 71, 13, 10, 26, 10] <+: d → Genuine (.validated ⟨d, 0⟩)
  | image {b : List Byte} : [137, 80, 78, 71, 13, 10, 26, 10] <+: b → Genuine (.image b)
  | file {d : List Byte} : Genuine (.file ⟨d, 0⟩)
  | other : Genuine .other

end Verif.Png.Spec
