import Verif.Spec.Mask

/-!
# Specification for subset files
-/

namespace Verif.Spec
open Verif

/-- Row `i` belongs to the cell with this offset and count. -/
def inCell (c : Int × Int) (i : Int) : Bool := decide (c.1 ≤ i) && decide (i < c.1 + c.2)

/-- The selected rows (with repetition, in order) that belong to a cell. -/
def rowsIn (c : Int × Int) (rows : List Int) : List Int := rows.filter (inCell c)

end Verif.Spec
