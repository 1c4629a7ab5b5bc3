import Verif.Model.Figures

/-!
# What the figures of the tools show
-/

namespace Verif.Spec
open Verif Verif.Figures Verif.Cmaps

/-- Pixel `r` of `n` along one side of the unit square covers `t`. -/
def CoversPlace (n : Nat) (t : ℝ) (r : Int) : Prop := (r : ℝ) ≤ t * n ∧ t * n < r + 1

/-- An image with its first row at the bottom, drawn on the unit square, has colour `c` at `(x, y)`: columns are along `x`, rows along
`y`. -/
def ShowsColour (drawn : List Draw) (x y : ℝ) (c : Color) : Prop :=
  ∃ rows columns grid r k, Draw.image rows columns grid ∈ drawn ∧ CoversPlace rows y r ∧ CoversPlace columns x k ∧ grid r k = c

/-- The normal density. -/
noncomputable def normal (center width x : ℝ) : ℝ :=
  Real.exp (-((x - center) / width) ^ 2 / 2) / (width * Real.sqrt (2 * Real.pi))

/-- What is drawn for one rendering function: a line at the centre, and a curve through a hundred places, the same distance apart,
from five widths below the centre to five widths above, at the height of the density. -/
def ShowsFunction (drawn : List Draw) (center width : ℝ) (color : VolumeVis.Color) : Prop :=
  ∃ xs ys, drawn = [.line center color, .curve xs ys color] ∧ xs.length = 100 ∧ xs[0]? = some (center - 5 * width) ∧
    xs[99]? = some (center + 5 * width) ∧ (∀ i x y, xs[i]? = some x → xs[i + 1]? = some y → y - x = 10 * width / 99) ∧
    ys = xs.map fun x => some (normal center width x)

end Verif.Spec
