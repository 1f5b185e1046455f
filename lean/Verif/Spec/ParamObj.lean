/-
Specification for C140: which calls are about a list attribute of a parameter object.
-/
import Verif.Model.ParamObj

namespace Verif.ParObj

/-- The call hands out the list of attribute `j` of object `o`, or replaces it by a list of the caller. -/
def Lends (c : PCall) (o j : ℕ) : Prop :=
  match c with
  | .get o' j' => o' = o ∧ j' = j
  | .setLayers o' _ _ => o' = o
  | .setZ o' _ _ => o' = o
  | _ => False

/-- The call is a setter of object `o`. -/
def Sets (c : PCall) (o : ℕ) : Prop :=
  match c with
  | .setLayers o' _ _ | .setZ o' _ _ | .setNames o' _ => o' = o
  | _ => False

end Verif.ParObj
