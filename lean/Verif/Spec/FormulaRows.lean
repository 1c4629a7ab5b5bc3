import Verif.Spec.Formulas
import Verif.Spec.Rows

/-!
# Formulas row by row
-/

namespace Verif.Spec
open Verif Verif.Cosmo Verif.Formulas

/-- Every row of the result depends on the same row of the variables: there are no functions of whole arrays, and bare numbers are
single numbers. -/
def RowByRow : Expr → Prop
  | .var _ => True
  | .nums v => ∃ c, v = [c]
  | .two _ s t => RowByRow s ∧ RowByRow t
  | .one _ s => RowByRow s
  | .pow s _ => RowByRow s
  | .whole _ _ => False
  | .physical s => RowByRow s
  | .comoving s => RowByRow s

/-- The array `y` holds the rows `rows` of the array `x`, in this order, with the attributes of `x`. -/
structure RowsOfArray (rows : List Int) (x y : Arr) : Prop where
  vals : y.val.map some = select x.val rows
  comoving : y.comoving = x.comoving
  cf : y.cf = x.cf
  vt : y.vt = x.vt

end Verif.Spec
