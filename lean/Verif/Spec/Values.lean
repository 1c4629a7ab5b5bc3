import Verif.Spec.Cosmo
import Verif.Model.Values

/-! The physical values of an array with a unit. -/

namespace Verif.Cosmo
open Verif

/-- Physical values in the base unit. -/
noncomputable def Full.phys (x : Full) : List ℝ := x.arr.phys.map (fun v => v * x.unit)

end Verif.Cosmo
