import Verif.Core.Interp

/-!
# An environment for examples

The examples beside the theorems change its class table and user functions.
-/

namespace Verif

/-- No classes with properties, user functions returning their last argument,
exact arithmetic, no text conversions. -/
def demoEnv : Env where
  classes := fun _ => default
  fn := fun _ args => .ret (args.getLastD .none)
  rnd := .fin
  upper := id
  lower := id
  search := fun _ _ => true
  intOfStr := fun _ => none
  floatOfStr := fun _ => none
  cplxOfStr := fun _ => none
  strOfCplx := fun _ _ => []
  dtToStr := fun _ => []
  dtOfStr := fun _ => none
  uuidToStr := fun _ => []
  uuidOfStr := fun _ => none
  same := fun _ _ => false
  uuid4 := id
  random := id
  jsonCopy := some

end Verif
