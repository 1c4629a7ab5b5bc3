import Verif.Model.PropertyBounds

/-! What a number in a file and a bound mean: physical values in cgs. -/

namespace Verif.Spec
open Verif Verif.PropertyBounds

/-- The physical value in cgs of a number in a dataset: comoving unless the dataset says that it is physical, in the unit of the file. -/
noncomputable def fileValue (b : Attributes.Base) (sf : ℝ) (a : Attributes.Attrs) (v : ℝ) : ℝ :=
  (if a.physical = some 1 then v else v * sf ^ (a.aScale.getD 0)) *
    (b.I ^ a.dims.I * b.L ^ a.dims.L * b.M ^ a.dims.M * b.T ^ a.dims.T * b.t ^ a.dims.t)

/-- The quantity `q` is a convertible bound at scale factor `sf` for fields that scale as `sf ^ k`; it means `w` in physical cgs. -/
def Means (sf k : ℝ) (q : Bound) (w : ℝ) : Prop :=
  q.cf = some ⟨some k, some sf⟩ ∧ q.vt = true ∧ 0 < q.size ∧
    ((q.comoving = some true ∧ w = q.value * sf ^ k * q.size) ∨ (q.comoving = some false ∧ w = q.value * q.size))

end Verif.Spec
