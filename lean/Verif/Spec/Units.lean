import Verif.Model.Units

/-!
# The units of a file
-/

namespace Verif.Spec
open Verif.Units

/-- The attribute of the group `Units` with the unit of each dimension, as SWIFT writes it. -/
def unitAttribute : Dim → String
  | .mass => "Unit mass in cgs (U_M)"
  | .length => "Unit length in cgs (U_L)"
  | .time => "Unit time in cgs (U_t)"
  | .current => "Unit current in cgs (U_I)"
  | .temperature => "Unit temperature in cgs (U_T)"

end Verif.Spec
