import Verif.Model.Refusals
import Verif.Spec.Values

/-!
# Specification of what calls that raise leave behind
-/

namespace Verif.Spec
open Verif Verif.Cosmo

/-- The values of an array in base units, as they are given (in the frame of the array). -/
noncomputable def inBase (x : Full) : List ℝ := x.arr.val.map (fun v => v * x.unit)

/-- An array that cannot be converted to the other frame: it has no frame, or it is not convertible, or its factor is not known. -/
def Stuck (comoving : Bool) (x : Arr) : Prop :=
  x.comoving = none ∨ (x.comoving = some (!comoving) ∧ ((comoving = true ∧ x.vt = false) ∨ x.cf = none))

end Verif.Spec
