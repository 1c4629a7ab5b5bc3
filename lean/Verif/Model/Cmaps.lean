import Verif.Model.Scatter
import Mathlib.Analysis.SpecialFunctions.Pow.Real

/-!
# Two-dimensional colour maps (`swiftsimio/visualisation/tools/cmaps.py`)

Numbers are real, without rounding to `float32`. A channel that is not a number is `none`. `apply_color_map` and
`__call__` are modelled for any grid; the grids of `LinearSegmentedCmap2DHSV` and `ImageCmap2D` are in `CmapsHsv.lean`.
-/

namespace Verif.Cmaps
open Verif Verif.Scatter

abbrev Color := List (Option ℝ)

/-- `ensure_rgba` (14-37). -/
def ensureRgba (color : List ℝ) : Except Err (List ℝ) :=
  if color.length ≤ 4 then .ok ((List.range 4).map fun i => color.getD i (if i = 3 then 1 else 0)) else .error .index

/-- One coordinate of the cell (78-86). -/
noncomputable def base (n : Nat) (v : ℝ) : Int := trunc (((n : ℝ) - 1) * min (max v 0) 1)

/-- `map_grid[horizontal_base, vertical_base]` stored in a row of four (89). A grid of another number of channels does not fit. -/
noncomputable def lookup (nx ny : Nat) (grid : Int → Int → Color) (h v : ℝ) : Except Err Color :=
  let i := base nx h
  let j := base ny v
  if 0 ≤ i ∧ i < nx ∧ 0 ≤ j ∧ j < ny then (if (grid i j).length = 4 then .ok (grid i j) else .error .value) else .error .index

/-- `apply_color_map` (40-91). `numba` reads beyond the end of `second_values` when it is too short; here that is an error. -/
noncomputable def applyColorMap (nx ny : Nat) (grid : Int → Int → Color) (first second : List ℝ) : Except Err (List Color) :=
  first.zipIdx.mapM fun p =>
    match second[p.2]? with
    | some v => lookup nx ny grid p.1 v
    | none => .error .index

/-- What can be handed to a colour map: an array of some shape, or a list or tuple of numbers. -/
inductive Input
  | array (shape : List Nat) (data : List ℝ)
  | list (data : List ℝ)

/-- The shape and the values of the horizontal input (194-195). -/
def horizontalValues : Input → List Nat × List ℝ
  | .array s d => (s, d)
  | .list d => ([d.length], d)

open Classical in
/-- The values of the vertical input (197-198). `np.ndarray(values)` makes an array whose shape is `values`, with whatever is in
memory. -/
noncomputable def verticalValues (junk : Nat → ℝ) : Input → Except Err (List ℝ)
  | .array _ d => .ok d
  | .list d =>
    if ∀ x ∈ d, ∃ k : Int, x = k then
      (if ∀ x ∈ d, 0 ≤ x then .ok ((List.range (d.map fun x => (trunc x).toNat).prod).map junk) else .error .value)
    else .error .typeErr

/-- `__call__` (173-208). -/
noncomputable def call (nx ny : Nat) (grid : Int → Int → Color) (junk : Nat → ℝ) (horizontal vertical : Input) :
    Except Err (List Nat × List Color) := do
  let v ← verticalValues junk vertical
  let values ← applyColorMap nx ny grid (horizontalValues horizontal).2 v
  return ((horizontalValues horizontal).1 ++ [4], values)

/-- `weight` at a place `(X, Y)` of the map (272-277). -/
noncomputable def weight (X Y : ℝ) (c : ℝ × ℝ) : ℝ := max (1 - Real.sqrt ((X - c.1) * (X - c.1) + (Y - c.2) * (Y - c.2))) 0

/-- `LinearSegmentedCmap2D.generate_color_map_grid` (250-286), one cell. `np.linspace(0, 1, n)` is `i / (n - 1)`. The division of
zero by zero gives no number. -/
noncomputable def linearCell (n : Nat) (anchors : List (List ℝ × ℝ × ℝ)) (xInd yInd : Int) : Color :=
  let X := (yInd : ℝ) / ((n : ℝ) - 1)
  let Y := (xInd : ℝ) / ((n : ℝ) - 1)
  let weights := (anchors.map fun a => weight X Y a.2).sum
  (List.range 4).map fun k =>
    if weights = 0 then none
    else some ((anchors.map fun a => a.1.getD k 0 * weight X Y a.2).sum / (weights * (10001 / 10000)))

/-- A `LinearSegmentedCmap2D` applied to data. `n` is `COLOR_MAP_GRID_SIZE`. -/
noncomputable def linear (n : Nat) (colors : List (List ℝ)) (coordinates : List (ℝ × ℝ)) (junk : Nat → ℝ) (horizontal vertical : Input) :
    Except Err (List Nat × List Color) := do
  let rgba ← colors.mapM ensureRgba
  call n n (linearCell n (rgba.zip coordinates)) junk horizontal vertical

end Verif.Cmaps
